import Verif.Model.Callbacks

/-!
Invariants of callback registration.
-/

namespace Verif.Callbacks
open Verif

/-- Executions in which `Unregister` calls do not overlap registrations, starts of collections or each other. They may
overlap running collections. -/
inductive Serial : State → Prop
  | init : Serial init
  | register {s s' e} : Serial s → (∀ r, s.upc r = .idle) → step s (.register e) = some s' → Serial s'
  | start {s s'} : Serial s → (∀ r, s.upc r = .idle) → step s .start = some s' → Serial s'
  | unreg {s s' r} : Serial s → (∀ r', r' ≠ r → s.upc r' = .idle) → step s (.unreg r) = some s' → Serial s'
  | run {s s' k} : Serial s → step s (.run k) = some s' → Serial s'

/-- A list without repetition of exactly the callbacks satisfying `P`. -/
def Members (l : List Nat) (P : Nat → Prop) : Prop := l.Nodup ∧ ∀ x, x ∈ l ↔ P x

def PcOk (s : State) (r : Nat) : Prop :=
  match s.upc r with
  | .idle => Members (s.list s.hdr) (fun x => s.active x = true) ∨ ∃ r', s.upc r' ≠ .idle
  | .read h => h = s.hdr ∧ s.active r = true ∧ Members (s.list s.hdr) (fun x => s.active x = true)
  | .found h i => h = s.hdr ∧ s.active r = true ∧ i < h.len ∧ s.arr h.arr i = r ∧ Members (s.list s.hdr) (fun x => s.active x = true)
  | .notFound => False
  | .moved h => h = s.hdr ∧ s.active r = true ∧ 0 < h.len ∧
      Members (s.list ⟨s.hdr.arr, s.hdr.len - 1⟩) (fun x => s.active x = true ∧ x ≠ r)
  | .cut => s.active r = true ∧ Members (s.list s.hdr) (fun x => s.active x = true ∧ x ≠ r)

structure CollOk (s : State) (c : Coll) : Prop where
  arrLt : c.hdr.arr < s.nextArr
  pos : c.pos ≤ c.hdr.len
  deadSub : ∀ x ∈ c.dead, x ∈ s.gone
  ranDead : ∀ x ∈ c.ran, x ∉ c.dead
  slots : c.ended = false → ∀ i, i < c.hdr.len → s.arr c.hdr.arr i ∉ c.dead
  nodup : c.snap.Nodup
  mem : ∀ x, x ∈ c.snap ↔ x < c.before ∧ x ∉ c.dead
  before : c.before ≤ s.next
  len : c.snap.length = c.hdr.len
  calmRan : c.disturbed = false → c.ran = c.snap.take c.pos
  calm : c.disturbed = false → c.ended = false →
    (∀ i, i < c.hdr.len → c.snap[i]? = some (s.arr c.hdr.arr i)) ∧ (c.hdr.arr = s.hdr.arr → c.hdr.len ≤ s.hdr.len)
  fin : c.ended = true → c.pos = c.hdr.len

structure Inv (s : State) : Prop where
  arrLt : s.hdr.arr < s.nextArr
  act : ∀ x, s.active x = true ↔ x < s.next ∧ x ∉ s.gone
  goneLt : ∀ x ∈ s.gone, x < s.next
  one : ∀ r r', s.upc r ≠ .idle → s.upc r' ≠ .idle → r = r'
  pcLt : ∀ r, s.upc r ≠ .idle → r < s.next
  pc : ∀ r, PcOk s r
  colls : ∀ c ∈ s.colls, CollOk s c

theorem inv_init : Inv init := by
  refine ⟨by decide, by simp [init], by simp [init], by simp [init], by simp [init], ?_, by simp [init]⟩
  intro r
  show Members _ _ ∨ _
  left
  refine ⟨by simp [State.list, init], by simp [State.list, init]⟩

theorem list_append_same (s : State) (c extra : Nat) :
    (append s c extra).list (append s c extra).hdr = s.list s.hdr ++ [c] := by
  unfold append State.list
  split
  · simp only [List.range_succ, List.map_append, List.map_singleton, and_self, if_true]
    congr 1
    apply List.map_congr_left
    intro i hi
    rw [List.mem_range] at hi
    rw [if_neg (by omega)]
  · simp only [List.range_succ, List.map_append, List.map_singleton, if_true]
    congr 1
    apply List.map_congr_left
    intro i hi
    rw [List.mem_range] at hi
    rw [if_neg (by omega)]

theorem append_fields (s : State) (c extra : Nat) :
    (append s c extra).next = s.next ∧ (append s c extra).active = s.active ∧ (append s c extra).upc = s.upc ∧
    (append s c extra).colls = s.colls ∧ (append s c extra).gone = s.gone ∧ s.nextArr ≤ (append s c extra).nextArr ∧
    (append s c extra).hdr.arr < (append s c extra).nextArr ∨ ¬ s.hdr.arr < s.nextArr := by
  by_cases h : s.hdr.arr < s.nextArr
  · left
    unfold append
    split
    · exact ⟨rfl, rfl, rfl, rfl, rfl, Nat.le_refl _, h⟩
    · exact ⟨rfl, rfl, rfl, rfl, rfl, Nat.le_succ _, by simp⟩
  · right; exact h

theorem append_old (s : State) (c extra : Nat) {a i : Nat} (ha : a < s.nextArr) :
    (append s c extra).arr a i = s.arr a i ∨ (append s c extra).arr a i = c ∧ a = s.hdr.arr ∧ i = s.hdr.len := by
  unfold append
  split
  · dsimp only
    split
    · rename_i h; exact Or.inr ⟨rfl, h⟩
    · exact Or.inl rfl
  · dsimp only
    rw [if_neg (by omega)]
    exact Or.inl rfl

theorem append_hdr (s : State) (c extra : Nat) : (append s c extra).hdr.len = s.hdr.len + 1 ∧
    ((append s c extra).hdr.arr = s.hdr.arr ∨ (append s c extra).hdr.arr = s.nextArr) := by
  unfold append
  split
  · exact ⟨rfl, Or.inl rfl⟩
  · exact ⟨rfl, Or.inr rfl⟩

theorem idle_members {s : State} (h : Inv s) (hi : ∀ r, s.upc r = .idle) : Members (s.list s.hdr) (fun x => s.active x = true) := by
  have := h.pc 0
  unfold PcOk at this
  rw [hi 0] at this
  rcases this with h | ⟨r, hr⟩
  · exact h
  · exact absurd (hi r) hr

theorem inv_register {s s' : State} {e : Nat} (h : Inv s) (hi : ∀ r, s.upc r = .idle) (hs : step s (.register e) = some s') : Inv s' := by
  simp only [step, Option.some.injEq] at hs
  subst hs
  have hlist := list_append_same s s.next e
  obtain ⟨f1, f2, f3, f4, f5, f6, f7⟩ := (append_fields s s.next e).resolve_right (fun hn => hn h.arrLt)
  have hm := idle_members h hi
  have hold := fun a i ha => append_old s s.next e (a := a) (i := i) ha
  have hhd := append_hdr s s.next e
  have hng : s.next ∉ s.gone := fun hx => Nat.lt_irrefl _ (h.goneLt _ hx)
  refine ⟨f7, ?_, ?_, ?_, ?_, ?_, ?_⟩
  · intro x
    dsimp only
    rw [upd_apply, f5]
    split
    · rename_i hx; subst hx; simp [hng]
    · rename_i hx
      rw [h.act x]
      constructor
      · rintro ⟨a, b⟩; exact ⟨by omega, b⟩
      · rintro ⟨a, b⟩; exact ⟨by omega, b⟩
  · intro x hx
    dsimp only at hx ⊢
    rw [f5] at hx
    have := h.goneLt x hx; omega
  · intro r r' hr
    dsimp only at hr
    rw [f3] at hr
    exact absurd (hi r) hr
  · intro r hr
    dsimp only at hr
    rw [f3] at hr
    exact absurd (hi r) hr
  · intro r
    unfold PcOk
    dsimp only
    rw [f3, hi r]
    dsimp only
    left
    show Members ((append s s.next e).list (append s s.next e).hdr) _
    rw [hlist]
    refine ⟨?_, ?_⟩
    · rw [List.nodup_append]
      refine ⟨hm.1, List.pairwise_singleton _ _, ?_⟩
      intro a ha b hb hab
      rw [List.mem_singleton] at hb
      have := (h.act a).1 ((hm.2 a).1 ha)
      omega
    · intro x
      rw [List.mem_append, List.mem_singleton, hm.2 x]
      dsimp only
      rw [upd_apply]
      by_cases hx : x = s.next
      · simp [hx]
      · simp [hx]
  · intro c hc
    dsimp only at hc
    rw [f4] at hc
    have k := h.colls c hc
    refine ⟨Nat.lt_of_lt_of_le k.arrLt f6, k.pos, ?_, k.ranDead, ?_, k.nodup, k.mem, Nat.le_succ_of_le k.before, k.len, k.calmRan, ?_, k.fin⟩
    · intro x hx; dsimp only; rw [f5]; exact k.deadSub x hx
    · intro he i hlt
      dsimp only
      rcases hold c.hdr.arr i k.arrLt with ho | ⟨ho, _⟩
      · rw [ho]; exact k.slots he i hlt
      · rw [ho]; exact fun hx => hng (k.deadSub _ hx)
    · intro hd he
      obtain ⟨c1, c2⟩ := k.calm hd he
      refine ⟨?_, ?_⟩
      · intro i hlt
        dsimp only
        rcases hold c.hdr.arr i k.arrLt with ho | ⟨_, ha, hi'⟩
        · rw [ho]; exact c1 i hlt
        · have := c2 ha; omega
      · intro ha
        dsimp only at ha ⊢
        rw [hhd.1]
        rcases hhd.2 with hh | hh
        · have := c2 (ha.trans hh); omega
        · have := k.arrLt; omega

theorem inv_start {s s' : State} (h : Inv s) (hi : ∀ r, s.upc r = .idle) (hs : step s .start = some s') : Inv s' := by
  simp only [step, Option.some.injEq] at hs
  subst hs
  have hm := idle_members h hi
  refine ⟨h.arrLt, h.act, h.goneLt, h.one, h.pcLt, h.pc, ?_⟩
  intro c hc
  rcases List.mem_append.1 hc with hc | hc
  · exact ⟨(h.colls c hc).arrLt, (h.colls c hc).pos, (h.colls c hc).deadSub, (h.colls c hc).ranDead, (h.colls c hc).slots,
      (h.colls c hc).nodup, (h.colls c hc).mem, (h.colls c hc).before, (h.colls c hc).len, (h.colls c hc).calmRan,
      (h.colls c hc).calm, (h.colls c hc).fin⟩
  · rw [List.mem_singleton] at hc; subst hc
    refine ⟨h.arrLt, Nat.zero_le _, fun x hx => hx, by simp, ?_, hm.1, ?_, Nat.le_refl _, by simp [State.list], by simp, ?_, by simp⟩
    · intro _ i hlt
      dsimp only at hlt ⊢
      have : s.arr s.hdr.arr i ∈ s.list s.hdr := List.mem_map.2 ⟨i, List.mem_range.2 hlt, rfl⟩
      exact ((h.act _).1 ((hm.2 _).1 this)).2
    · intro x; exact (hm.2 x).trans (h.act x)
    · intro _ _
      refine ⟨?_, fun _ => Nat.le_refl _⟩
      intro i hlt
      dsimp only at hlt ⊢
      simp [State.list, hlt]

theorem inv_run {s s' : State} {k : Nat} (h : Inv s) (hs : step s (.run k) = some s') : Inv s' := by
  simp only [step] at hs
  cases hc : s.colls[k]? with
  | none => rw [hc] at hs; cases hs
  | some c =>
    rw [hc] at hs
    dsimp only at hs
    have hk := h.colls c (List.mem_of_getElem? hc)
    have lift : ∀ c' : Coll, CollOk s c' → Inv { s with colls := s.colls.set k c' } := by
      intro c' hc'
      refine ⟨h.arrLt, h.act, h.goneLt, h.one, h.pcLt, h.pc, ?_⟩
      intro d hd
      have hd' : CollOk s d := by
        rcases List.mem_or_eq_of_mem_set hd with hd | hd
        · exact h.colls d hd
        · subst hd; exact hc'
      exact ⟨hd'.arrLt, hd'.pos, hd'.deadSub, hd'.ranDead, hd'.slots, hd'.nodup, hd'.mem, hd'.before, hd'.len, hd'.calmRan, hd'.calm, hd'.fin⟩
    split at hs
    · cases hs
    · rename_i hne
      have hne : c.ended = false := by simpa using hne
      split at hs
      · rename_i hlt
        simp only [Option.some.injEq] at hs
        subst hs
        apply lift
        refine ⟨hk.arrLt, hlt, hk.deadSub, ?_, hk.slots, hk.nodup, hk.mem, hk.before, hk.len, ?_, hk.calm, ?_⟩
        · intro x hx
          rcases List.mem_append.1 hx with hx | hx
          · exact hk.ranDead x hx
          · rw [List.mem_singleton] at hx; subst hx; exact hk.slots hne _ hlt
        · intro hd
          have h1 := hk.calmRan hd
          have h2 := (hk.calm hd hne).1 c.pos hlt
          dsimp only at h1 ⊢
          rw [h1, List.take_add_one, h2]
          rfl
        · intro he; dsimp only at he; rw [hne] at he; cases he
      · rename_i hlt
        simp only [Option.some.injEq] at hs
        subst hs
        apply lift
        have hp := hk.pos
        exact ⟨hk.arrLt, hk.pos, hk.deadSub, hk.ranDead, fun he => hk.slots hne, hk.nodup, hk.mem, hk.before, hk.len, hk.calmRan,
          fun hd he => hk.calm hd hne, fun _ => by dsimp only; omega⟩

theorem collOk_disturb {s : State} (s' : State) (hn : s.nextArr ≤ s'.nextArr) (hg : ∀ x ∈ s.gone, x ∈ s'.gone) (hx : s.next ≤ s'.next)
    (harr : ∀ c, CollOk s c → c.ended = false → ∀ i, i < c.hdr.len → s'.arr c.hdr.arr i ∉ c.dead) {c : Coll} (h : CollOk s c) :
    CollOk s' (if c.ended then c else { c with disturbed := true }) := by
  split
  · rename_i he
    exact ⟨Nat.lt_of_lt_of_le h.arrLt hn, h.pos, fun x hx => hg x (h.deadSub x hx), h.ranDead, fun he' => by (rw [he] at he'; cases he'),
      h.nodup, h.mem, Nat.le_trans h.before hx, h.len, h.calmRan, fun _ he' => by (rw [he] at he'; cases he'), h.fin⟩
  · rename_i he
    exact ⟨Nat.lt_of_lt_of_le h.arrLt hn, h.pos, fun x hx => hg x (h.deadSub x hx), h.ranDead, harr c h,
      h.nodup, h.mem, Nat.le_trans h.before hx, h.len, by simp, by simp, h.fin⟩

theorem members_swap {l : List Nat} {P : Nat → Prop} {r i : Nat} {f : Nat → Nat} {n : Nat} (hl : l = (List.range n).map f)
    (hm : Members l P) (hi : i < n) (hr : f i = r) :
    Members ((List.range (n - 1)).map (fun j => if j = i then f (n - 1) else f j)) (fun x => P x ∧ x ≠ r) := by
  have hinj : ∀ a b, a < n → b < n → f a = f b → a = b := by
    intro a b ha hb hab
    have hnd := hm.1
    rw [hl] at hnd
    have h1 : ((List.range n).map f)[a]? = some (f a) := by simp [ha]
    have h2 : ((List.range n).map f)[b]? = some (f b) := by simp [hb]
    have hal : a < ((List.range n).map f).length := by simpa using ha
    exact (List.getElem?_inj hal hnd).1 (by rw [h1, h2, hab])
  refine ⟨?_, ?_⟩
  · rw [List.Nodup, List.pairwise_map]
    refine (List.nodup_range (n := n - 1)).imp_of_mem ?_
    intro a b ha hb hab he
    rw [List.mem_range] at ha hb
    split at he <;> split at he
    · omega
    · have := hinj _ _ (by omega) (by omega) he; omega
    · have := hinj _ _ (by omega) (by omega) he; omega
    · exact hab (hinj _ _ (by omega) (by omega) he)
  · intro x
    dsimp only
    rw [← hm.2 x, hl]
    simp only [List.mem_map, List.mem_range]
    constructor
    · rintro ⟨j, hj, he⟩
      split at he
      · refine ⟨⟨n - 1, by omega, he⟩, ?_⟩
        rintro rfl
        have := hinj (n - 1) i (by omega) hi (he.trans hr.symm)
        omega
      · refine ⟨⟨j, by omega, he⟩, ?_⟩
        rintro rfl
        rename_i hji
        exact hji (hinj j i (by omega) hi (he.trans hr.symm))
    · rintro ⟨⟨j, hj, he⟩, hx⟩
      by_cases hji : j = i
      · subst hji; exact absurd (he.symm.trans hr) hx
      · by_cases hjn : j = n - 1
        · subst hjn
          exact ⟨i, by omega, by rw [if_pos rfl]; exact he⟩
        · exact ⟨j, by omega, by rw [if_neg hji]; exact he⟩

theorem inv_unreg {s s' : State} {r : Nat} (h : Inv s) (hi : ∀ r', r' ≠ r → s.upc r' = .idle) (hs : step s (.unreg r) = some s') : Inv s' := by
  simp only [step] at hs
  by_cases hlt : r < s.next
  case neg => rw [if_neg hlt] at hs; cases hs
  rw [if_pos hlt] at hs
  simp only [Option.some.injEq] at hs
  have hone : ∀ (f : Nat → UPc), (∀ r', r' ≠ r → f r' = .idle) → ∀ a b, f a ≠ .idle → f b ≠ .idle → a = b := by
    intro f hf a b ha hb
    have h1 : a = r := Classical.byContradiction (fun hn => ha (hf a hn))
    have h2 : b = r := Classical.byContradiction (fun hn => hb (hf b hn))
    rw [h1, h2]
  have hup : ∀ p r', r' ≠ r → upd s.upc r p r' = .idle := fun p r' hr' => by rw [upd_ne _ _ hr']; exact hi r' hr'
  have hpcLt : ∀ p a, upd s.upc r p a ≠ .idle → a < s.next := by
    intro p a ha
    have h1 : a = r := Classical.byContradiction (fun hn => ha (hup p a hn))
    rw [h1]; exact hlt
  have hpr := h.pc r
  subst hs
  unfold unregStep
  dsimp only
  cases hpc : s.upc r with
  | idle =>
    dsimp only
    have hall : ∀ r', s.upc r' = .idle := fun r' => if e : r' = r then e ▸ hpc else hi r' e
    have hm := idle_members h hall
    split
    · rename_i hact
      refine ⟨h.arrLt, h.act, h.goneLt, hone _ (hup _), hpcLt _, ?_, ?_⟩
      · intro r'
        by_cases e : r' = r
        · subst e
          unfold PcOk
          simp only [upd_same]
          exact ⟨trivial, hact, hm⟩
        · unfold PcOk
          dsimp only
          rw [hup _ r' e]
          exact Or.inl hm
      · intro c hc
        have k := h.colls c hc
        exact ⟨k.arrLt, k.pos, k.deadSub, k.ranDead, k.slots, k.nodup, k.mem, k.before, k.len, k.calmRan, k.calm, k.fin⟩
    · refine ⟨h.arrLt, h.act, h.goneLt, h.one, h.pcLt, h.pc, ?_⟩
      intro c hc
      have k := h.colls c hc
      exact ⟨k.arrLt, k.pos, k.deadSub, k.ranDead, k.slots, k.nodup, k.mem, k.before, k.len, k.calmRan, k.calm, k.fin⟩
  | read hd =>
    dsimp only
    unfold PcOk at hpr
    rw [hpc] at hpr
    obtain ⟨rfl, hact, hm⟩ := hpr
    have hmem : r ∈ s.list s.hdr := (hm.2 r).2 hact
    cases hf : (List.range s.hdr.len).find? (fun i => s.arr s.hdr.arr i = r) with
    | none =>
      exfalso
      rw [List.find?_eq_none] at hf
      obtain ⟨i, hi1, hi2⟩ := List.mem_map.1 hmem
      have := hf i hi1
      simp [hi2] at this
    | some i =>
      dsimp only
      have h1 := List.mem_of_find?_eq_some hf
      have h2 := List.find?_some hf
      rw [List.mem_range] at h1
      simp only [decide_eq_true_eq] at h2
      refine ⟨h.arrLt, h.act, h.goneLt, hone _ (hup _), hpcLt _, ?_, ?_⟩
      · intro r'
        by_cases e : r' = r
        · subst e
          unfold PcOk
          simp only [upd_same]
          exact ⟨trivial, hact, h1, h2, hm⟩
        · unfold PcOk
          dsimp only
          rw [hup _ r' e]
          exact Or.inl hm
      · intro c hc
        have k := h.colls c hc
        exact ⟨k.arrLt, k.pos, k.deadSub, k.ranDead, k.slots, k.nodup, k.mem, k.before, k.len, k.calmRan, k.calm, k.fin⟩
  | found hd i =>
    dsimp only
    unfold PcOk at hpr
    rw [hpc] at hpr
    obtain ⟨rfl, hact, hil, hir, hm⟩ := hpr
    have hlast : s.arr s.hdr.arr (s.hdr.len - 1) ∈ s.list s.hdr := List.mem_map.2 ⟨s.hdr.len - 1, List.mem_range.2 (by omega), rfl⟩
    have hlg : s.arr s.hdr.arr (s.hdr.len - 1) ∉ s.gone := ((h.act _).1 ((hm.2 _).1 hlast)).2
    have hsw := members_swap (f := s.arr s.hdr.arr) (n := s.hdr.len) rfl hm hil hir
    refine ⟨h.arrLt, h.act, h.goneLt, hone _ (hup _), hpcLt _, ?_, ?_⟩
    · intro r'
      by_cases e : r' = r
      · subst e
        unfold PcOk disturb
        simp only [upd_same]
        refine ⟨trivial, hact, by omega, ?_⟩
        unfold State.list
        dsimp only
        have : (fun i' => if s.hdr.arr = s.hdr.arr ∧ i' = i then s.arr s.hdr.arr (s.hdr.len - 1) else s.arr s.hdr.arr i') =
            (fun j => if j = i then s.arr s.hdr.arr (s.hdr.len - 1) else s.arr s.hdr.arr j) := by
          funext j; simp
        rw [this]
        exact hsw
      · unfold PcOk disturb
        dsimp only
        rw [hup _ r' e]
        exact Or.inr ⟨r, by rw [upd_same]; simp⟩
    · intro c hc
      simp only [disturb, List.mem_map] at hc
      obtain ⟨c0, hc0, rfl⟩ := hc
      refine collOk_disturb (s := s) _ ?_ ?_ ?_ ?_ (h.colls c0 hc0)
      · exact Nat.le_refl _
      · exact fun x hx => hx
      · exact Nat.le_refl _
      intro c k he j hj
      dsimp only [disturb]
      split
      · exact fun hx => hlg (k.deadSub _ hx)
      · exact k.slots he j hj
  | notFound =>
    unfold PcOk at hpr
    rw [hpc] at hpr
    exact absurd hpr id
  | moved hd =>
    dsimp only
    unfold PcOk at hpr
    rw [hpc] at hpr
    obtain ⟨rfl, hact, hpos, hm⟩ := hpr
    refine ⟨h.arrLt, h.act, h.goneLt, hone _ (hup _), hpcLt _, ?_, ?_⟩
    · intro r'
      by_cases e : r' = r
      · subst e
        unfold PcOk disturb
        simp only [upd_same]
        exact ⟨hact, hm⟩
      · unfold PcOk disturb
        dsimp only
        rw [hup _ r' e]
        exact Or.inr ⟨r, by rw [upd_same]; simp⟩
    · intro c hc
      simp only [disturb, List.mem_map] at hc
      obtain ⟨c0, hc0, rfl⟩ := hc
      refine collOk_disturb (s := s) _ ?_ ?_ ?_ ?_ (h.colls c0 hc0)
      · exact Nat.le_refl _
      · exact fun x hx => hx
      · exact Nat.le_refl _
      · exact fun c k he => k.slots he
  | cut =>
    dsimp only
    unfold PcOk at hpr
    rw [hpc] at hpr
    obtain ⟨hact, hm⟩ := hpr
    have hidle : ∀ r', upd s.upc r UPc.idle r' = .idle := by
      intro r'
      by_cases e : r' = r
      · subst e; exact upd_same _ _ _
      · exact hup _ r' e
    refine ⟨h.arrLt, ?_, ?_, hone _ (hup _), hpcLt _, ?_, ?_⟩
    · intro x
      dsimp only
      rw [upd_apply]
      split
      · rename_i e; subst e; simp
      · rename_i e; rw [h.act x]; simp [e]
    · intro x hx
      rcases List.mem_cons.1 hx with e | hx
      · subst e; exact hlt
      · exact h.goneLt x hx
    · intro r'
      unfold PcOk
      dsimp only
      rw [hidle r']
      left
      refine ⟨hm.1, ?_⟩
      intro x
      refine (hm.2 x).trans ?_
      dsimp only
      rw [upd_apply]
      by_cases e : x = r
      · simp [e]
      · simp [e]
    · intro c hc
      have k := h.colls c hc
      exact ⟨k.arrLt, k.pos, fun x hx => List.mem_cons_of_mem _ (k.deadSub x hx), k.ranDead, k.slots, k.nodup, k.mem, k.before,
        k.len, k.calmRan, k.calm, k.fin⟩

theorem serial_inv {s : State} (h : Serial s) : Inv s := by
  induction h with
  | init => exact inv_init
  | register _ hi hs ih => exact inv_register ih hi hs
  | start _ hi hs ih => exact inv_start ih hi hs
  | unreg _ hi hs ih => exact inv_unreg ih hi hs
  | run _ hs ih => exact inv_run ih hs

/-- All executions. -/
inductive Reach : State → Prop
  | init : Reach init
  | step {s s' a} : Reach s → step s a = some s' → Reach s'

theorem Reach.run {s s' : State} {as : List Action} (h : Reach s) (hr : Callbacks.run s as = some s') : Reach s' := by
  induction as generalizing s with
  | nil => cases hr; exact h
  | cons a as ih =>
    simp only [Callbacks.run] at hr
    cases hs : Callbacks.step s a with
    | none => rw [hs] at hr; cases hr
    | some t => rw [hs] at hr; exact ih (h.step hs) hr

/-- An unregistered callback stays so. -/
theorem gone_inactive {s : State} (h : Reach s) : ∀ r ∈ s.gone, r < s.next ∧ s.active r = false ∧ s.upc r = .idle := by
  induction h with
  | init => simp [Callbacks.init]
  | @step s s' a _ hs ih =>
    cases a with
    | register e =>
      simp only [Callbacks.step, Option.some.injEq] at hs
      subst hs
      intro r hr
      have hg : (append s s.next e).gone = s.gone := by unfold append; split <;> rfl
      have hu : (append s s.next e).upc = s.upc := by unfold append; split <;> rfl
      dsimp only at hr ⊢
      rw [hg] at hr
      obtain ⟨a, b, c⟩ := ih r hr
      refine ⟨by omega, ?_, by rw [hu]; exact c⟩
      rw [upd_ne _ _ (by omega)]; exact b
    | start => simp only [Callbacks.step, Option.some.injEq] at hs; subst hs; exact ih
    | run k =>
      simp only [Callbacks.step] at hs
      split at hs
      · cases hs
      · split at hs
        · cases hs
        · split at hs <;> (simp only [Option.some.injEq] at hs; subst hs; exact ih)
    | unreg q =>
      simp only [Callbacks.step] at hs
      split at hs
      · rename_i hq
        simp only [Option.some.injEq] at hs
        subst hs
        intro r hr
        unfold unregStep at hr ⊢
        dsimp only at hr ⊢
        cases hpc : s.upc q <;> rw [hpc] at hr <;> dsimp only at hr ⊢
        case idle =>
          split at hr <;> split
          all_goals first
            | (rename_i ha _
               obtain ⟨a, b, c⟩ := ih r hr
               have hne : r ≠ q := by rintro rfl; rw [b] at ha; cases ha
               exact ⟨a, b, by dsimp only; rw [upd_ne _ _ hne]; exact c⟩)
            | exact ih r hr
            | contradiction
        case read =>
          have key : ∀ p, r ∈ s.gone → r < s.next ∧ s.active r = false ∧ upd s.upc q p r = .idle := by
            intro p hr
            obtain ⟨a, b, c⟩ := ih r hr
            have hne : r ≠ q := by rintro rfl; rw [hpc] at c; cases c
            exact ⟨a, b, by rw [upd_ne _ _ hne]; exact c⟩
          split at hr <;> exact key _ hr
        case found =>
          obtain ⟨a, b, c⟩ := ih r hr
          have hne : r ≠ q := by rintro rfl; rw [hpc] at c; cases c
          exact ⟨a, b, by dsimp only [disturb]; rw [upd_ne _ _ hne]; exact c⟩
        case moved =>
          obtain ⟨a, b, c⟩ := ih r hr
          have hne : r ≠ q := by rintro rfl; rw [hpc] at c; cases c
          exact ⟨a, b, by dsimp only [disturb]; rw [upd_ne _ _ hne]; exact c⟩
        all_goals
          by_cases e : r = q
          · subst e; exact ⟨hq, upd_same _ _ _, upd_same _ _ _⟩
          · obtain ⟨a, b, c⟩ := ih r ((List.mem_cons.1 hr).resolve_left e)
            refine ⟨a, ?_, ?_⟩ <;> rw [upd_ne _ _ e] <;> assumption
      · cases hs

end Verif.Callbacks
