import Verif.Model.AsyncOverlap
import Verif.Proof.Async

/-! Helper file: invariants of the machine of overlapping collections. -/

namespace Verif.Overlap
open Verif Verif.Async

variable {K N S : Type} [DecidableEq K] [DecidableEq N]
set_option linter.unusedSectionVars false

/-! ### Tables -/

/-- A table within its limit; a full table has an overflow entry. -/
def Fits (lim : Nat) (ovf : K) (t : Storage.Table K Nat) : Prop :=
  t.length ≤ lim ∧ (t.length = lim → (Storage.find t ovf).isSome = true)

/-- What `getOrCreate` does: the entry `(k', h)` is found or added; `k'` is the key asked for, or the overflow key, and then
the table is full and has no entry for the key. -/
structure Placed (lim : Nat) (ovf k : K) (t t' : Storage.Table K Nat) (k' : K) (h : Nat) : Prop where
  mem : (k', h) ∈ t'
  same : t' = t ∨ (t' = (k', h) :: t ∧ Storage.find t k' = none)
  route : k' = k ∨ (k' = ovf ∧ Storage.find t' k = none ∧ t'.length = lim)
  full : t.length = lim → t' = t
  fits : Fits lim ovf t'

theorem placed {lim : Nat} {ovf k : K} {t : Storage.Table K Nat} (hf : Fits lim ovf t) (fresh : Nat) :
    Placed lim ovf k t (Storage.getOrCreate lim ovf t k fresh).2.2 (Storage.getOrCreate lim ovf t k fresh).1
      (Storage.getOrCreate lim ovf t k fresh).2.1 := by
  have hres : Storage.resolveKey lim ovf t k = k ∧ ((Storage.find t k).isSome = true ∨ t.length + 1 < lim ∨ (t.length + 1 = lim ∧ (k = ovf ∨ (Storage.find t ovf).isSome = true))) ∨
      (Storage.resolveKey lim ovf t k = ovf ∧ k ≠ ovf ∧ Storage.find t k = none ∧
        (t.length = lim ∧ (Storage.find t ovf).isSome = true ∨ t.length + 1 = lim ∧ Storage.find t ovf = none)) := by
    unfold Storage.resolveKey
    simp only [has_eq]
    by_cases h1 : (Storage.find t k).isSome = true
    · left; simp [h1]
    · have h1' : Storage.find t k = none := by simpa using h1
      rw [if_neg h1]
      by_cases h2 : t.length = lim
      · right
        have h3 := hf.2 h2
        rw [if_pos h2, if_pos h3]
        refine ⟨rfl, ?_, h1', .inl ⟨h2, h3⟩⟩
        intro e; rw [e] at h1; exact h1 h3
      · rw [if_neg h2]
        by_cases h4 : t.length + 1 = lim
        · rw [if_pos h4]
          by_cases h5 : k ≠ ovf ∧ (Storage.find t ovf).isSome = false
          · right
            rw [if_pos h5]
            exact ⟨rfl, h5.1, h1', .inr ⟨h4, by simpa using h5.2⟩⟩
          · left
            rw [if_neg h5]
            refine ⟨rfl, .inr (.inr ⟨h4, ?_⟩)⟩
            by_cases hk : k = ovf
            · exact .inl hk
            · right
              cases hq : (Storage.find t ovf).isSome
              · exact absurd ⟨hk, hq⟩ h5
              · rfl
        · left
          rw [if_neg h4]
          exact ⟨rfl, .inr (.inl (by have := hf.1; omega))⟩
  unfold Storage.getOrCreate
  rcases hres with ⟨e, h⟩ | ⟨e, hk, hn, h⟩
  · simp only [e]
    cases hfd : Storage.find t k with
    | some v => exact ⟨mem_of_find hfd, .inl rfl, .inl rfl, fun _ => rfl, hf⟩
    | none =>
      have hlen : t.length < lim := by
        rcases h with h | h | h
        · rw [hfd] at h; cases h
        · omega
        · omega
      refine ⟨List.mem_cons_self, .inr ⟨rfl, hfd⟩, .inl rfl, fun h => by omega, ⟨hlen, ?_⟩⟩
      intro hl'
      rw [List.length_cons] at hl'
      rw [find_cons]
      rcases h with h | h | h
      · rw [hfd] at h; cases h
      · omega
      · by_cases hko : k = ovf
        · rw [if_pos hko]; rfl
        · rw [if_neg hko]; exact h.2.resolve_left hko
  · simp only [e]
    cases hfd : Storage.find t ovf with
    | some v =>
      rcases h with h | h
      · exact ⟨mem_of_find hfd, .inl rfl, .inr ⟨rfl, hn, h.1⟩, fun _ => rfl, hf⟩
      · rw [hfd] at h; cases h.2
    | none =>
      rcases h with h | h
      · rw [hfd] at h; cases h.2
      · refine ⟨List.mem_cons_self, .inr ⟨rfl, hfd⟩, .inr ⟨rfl, ?_, by rw [List.length_cons]; exact h.1⟩, fun h' => by omega, ⟨by rw [List.length_cons]; omega, ?_⟩⟩
        · rw [find_cons, if_neg (fun e => hk e.symm)]; exact hn
        · intro _; rw [find_cons, if_pos rfl]; rfl

/-- Without any assumption on the limit: found, or added under an absent key. -/
theorem goc_same (lim : Nat) (ovf k : K) (t : Storage.Table K Nat) (fresh : Nat) :
    let g := Storage.getOrCreate lim ovf t k fresh
    (g.2.2 = t ∧ (g.1, g.2.1) ∈ t) ∨ (g.2.2 = (g.1, fresh) :: t ∧ g.2.1 = fresh ∧ Storage.find t g.1 = none) := by
  intro g
  show ((Storage.getOrCreate lim ovf t k fresh).2.2 = t ∧ _) ∨ _
  simp only [g, Storage.getOrCreate]
  cases h : Storage.find t (Storage.resolveKey lim ovf t k) with
  | some v => left; exact ⟨rfl, mem_of_find h⟩
  | none => right; exact ⟨rfl, rfl, h⟩

/-! ### The invariant of all executions -/

/-- Collection `n` has not collected view `l` yet. -/
def Active (c : Cfg K N S) (p : Phase N) (l : Nat) : Prop :=
  match p with
  | .callbacks => l ∈ c.views
  | .snapshot _ => l ∈ c.views
  | .collect todo => l ∈ todo

structure Inv (c : Cfg K N S) (own : Nat → Nat) (s : State K N S) : Prop where
  data : ∀ l k h, (k, h) ∈ (s.view l).data → h < s.next ∧ own h = l
  prior : ∀ l k h, (k, h) ∈ (s.view l).prior → h < s.next ∧ own h = l
  ptr : ∀ n, ∀ e ∈ s.store n, ∀ p ∈ e.ptrs, p.2 < s.next ∧ own p.2 = p.1
  rest : ∀ n r, s.phase n = .snapshot r → ∀ x ∈ r, x.2.1 < s.next ∧ own x.2.1 = x.1
  uniq : ∀ l k k' h, (k, h) ∈ (s.view l).data → (k', h) ∈ (s.view l).data → k = k'
  nodup : ∀ l, ((s.view l).data.map (·.1)).Nodup
  quiet : ∀ l, c.delta l = false → (s.view l).data ≠ [] → ∃ n, n < s.count ∧ Active c (s.phase n) l

theorem notin_of_find {t : Storage.Table K Nat} {k : K} (h : Storage.find t k = none) : k ∉ t.map (·.1) := by
  intro hm
  obtain ⟨⟨k', v⟩, hv, e⟩ := List.mem_map.1 hm
  have e : k' = k := e
  subst e
  have := has_eq t k'
  rw [h] at this
  have h2 : Storage.has t k' = true := List.any_eq_true.2 ⟨_, hv, by simp⟩
  rw [this] at h2; cases h2

/-- Adding an accumulator. -/
theorem newAcc_inv {c : Cfg K N S} {own : Nat → Nat} {s : State K N S} (hi : Inv c own s) (l : Nat) (set : K)
    (ha : ∃ n, n < s.count ∧ Active c (s.phase n) l) :
    let a := newAcc c s l set
    ∃ own', Inv c own' a.2 ∧ (∀ h, h < s.next → own' h = own h) ∧ a.1 < a.2.next ∧ own' a.1 = l ∧ s.next ≤ a.2.next := by
  intro a
  have hg := goc_same (c.lim l) c.ovf (c.filt l set) (s.view l).data s.next
  simp only at hg
  simp only [a]
  unfold newAcc
  generalize Storage.getOrCreate (c.lim l) c.ovf (s.view l).data (c.filt l set) s.next = g at hg ⊢
  rcases hg with ⟨h1, h2⟩ | ⟨h1, h2, h3⟩
  · have hlt := hi.data l _ _ h2
    have hne : g.2.1 ≠ s.next := by omega
    simp only [hne, if_false]
    exact ⟨own, hi, fun _ _ => rfl, hlt.1, hlt.2, Nat.le_refl _⟩
  · simp only [h2, if_true]
    have hold : ∀ h, h < s.next → upd own s.next l h = own h := fun h hh => upd_ne _ _ (by omega)
    refine ⟨upd own s.next l, ?_, hold, Nat.lt_succ_self _, upd_same _ _ _, Nat.le_succ _⟩
    have hd : ∀ l' k h, (k, h) ∈ (upd s.view l { s.view l with data := g.2.2 } l').data →
        (k, h) ∈ (s.view l').data ∨ (l' = l ∧ h = s.next ∧ k = g.1) := by
      intro l' k h hm
      by_cases e : l' = l
      · subst e
        rw [upd_same] at hm
        simp only [h1, List.mem_cons, Prod.mk.injEq] at hm
        rcases hm with hm | hm
        · exact .inr ⟨rfl, hm.2, hm.1⟩
        · exact .inl hm
      · rw [upd_ne _ _ e] at hm; exact .inl hm
    refine ⟨?_, ?_, ?_, ?_, ?_, ?_, ?_⟩
    · intro l' k h hm
      rcases hd l' k h hm with hm | ⟨e1, e2, _⟩
      · have := hi.data l' k h hm
        exact ⟨Nat.lt_succ_of_lt this.1, by rw [hold _ this.1]; exact this.2⟩
      · subst e1; subst e2
        exact ⟨Nat.lt_succ_self _, upd_same _ _ _⟩
    · intro l' k h hm
      have hm : (k, h) ∈ (s.view l').prior := by
        by_cases e : l' = l
        · subst e; simpa [upd_same] using hm
        · simpa [upd_ne _ _ e] using hm
      have := hi.prior l' k h hm
      exact ⟨Nat.lt_succ_of_lt this.1, by rw [hold _ this.1]; exact this.2⟩
    · intro n e he p hp
      have := hi.ptr n e he p hp
      exact ⟨Nat.lt_succ_of_lt this.1, by rw [hold _ this.1]; exact this.2⟩
    · intro n r hr x hx
      have := hi.rest n r hr x hx
      exact ⟨Nat.lt_succ_of_lt this.1, by rw [hold _ this.1]; exact this.2⟩
    · intro l' k k' h hm hm'
      rcases hd l' k h hm with h1 | ⟨e1, e2, e3⟩ <;> rcases hd l' k' h hm' with h1' | ⟨e1', e2', e3'⟩
      · exact hi.uniq l' k k' h h1 h1'
      · have := (hi.data l' k h h1).1; omega
      · have := (hi.data l' k' h h1').1; omega
      · rw [e3, e3']
    · intro l'
      show ((upd s.view l { s.view l with data := g.2.2 } l').data.map (·.1)).Nodup
      by_cases e : l' = l
      · subst e
        rw [upd_same]
        simp only [h1, List.map_cons, List.nodup_cons]
        exact ⟨notin_of_find h3, hi.nodup l'⟩
      · rw [upd_ne _ _ e]; exact hi.nodup l'
    · intro l' hl' hne
      by_cases e : l' = l
      · subst e; exact ha
      · have hne : (upd s.view l { s.view l with data := g.2.2 } l').data ≠ [] := hne
        rw [upd_ne _ _ e] at hne; exact hi.quiet l' hl' hne

theorem newAcc_frame (c : Cfg K N S) (s : State K N S) (l : Nat) (set : K) :
    let a := newAcc c s l set
    a.2.store = s.store ∧ a.2.phase = s.phase ∧ a.2.count = s.count ∧ a.2.out = s.out ∧ s.next ≤ a.2.next ∧
    (∀ h, h < s.next → a.2.heap h = s.heap h) ∧ (∀ l', l' ≠ l → a.2.view l' = s.view l') := by
  intro a
  simp only [a]
  unfold newAcc
  by_cases h : (Storage.getOrCreate (c.lim l) c.ovf (s.view l).data (c.filt l set) s.next).2.1 = s.next
  · simp only [h, if_true]
    exact ⟨trivial, trivial, trivial, trivial, Nat.le_succ _, fun h' hh => upd_ne _ _ (by omega), fun l' e => upd_ne _ _ e⟩
  · simp only [h, if_false]
    exact ⟨trivial, trivial, trivial, trivial, Nat.le_refl _, fun _ _ => trivial, fun _ _ => trivial⟩

theorem newAccs_frame (c : Cfg K N S) (set : K) (ls : List Nat) (s : State K N S) :
    let r := newAccs c set ls s
    r.2.store = s.store ∧ r.2.phase = s.phase ∧ r.2.count = s.count ∧ r.2.out = s.out ∧ s.next ≤ r.2.next ∧
    (∀ h, h < s.next → r.2.heap h = s.heap h) ∧ (∀ l', l' ∉ ls → r.2.view l' = s.view l') ∧ r.1.map (·.1) = ls := by
  induction ls generalizing s with
  | nil => exact ⟨rfl, rfl, rfl, rfl, Nat.le_refl _, fun _ _ => rfl, fun _ _ => rfl, rfl⟩
  | cons l ls ih =>
    obtain ⟨a1, a2, a3, a4, a5, a6, a7⟩ := newAcc_frame c s l set
    obtain ⟨b1, b2, b3, b4, b5, b6, b7, b8⟩ := ih (newAcc c s l set).2
    refine ⟨b1.trans a1, b2.trans a2, b3.trans a3, b4.trans a4, Nat.le_trans a5 b5, ?_, ?_, ?_⟩
    · intro h hh
      exact (b6 h (Nat.lt_of_lt_of_le hh a5)).trans (a6 h hh)
    · intro l' hl'
      rw [List.mem_cons, not_or] at hl'
      exact (b7 l' hl'.2).trans (a7 l' hl'.1)
    · show l :: (newAccs c set ls (newAcc c s l set).2).1.map (·.1) = l :: ls
      rw [b8]

theorem newAccs_inv {c : Cfg K N S} {n : Nat} (set : K) (ls : List Nat) {own : Nat → Nat} {s : State K N S} (hi : Inv c own s)
    (hn : n < s.count) (ha : ∀ l ∈ ls, Active c (s.phase n) l) :
    let r := newAccs c set ls s
    ∃ own', Inv c own' r.2 ∧ (∀ h, h < s.next → own' h = own h) ∧ ∀ p ∈ r.1, p.2 < r.2.next ∧ own' p.2 = p.1 := by
  induction ls generalizing s own with
  | nil => exact ⟨own, hi, fun _ _ => rfl, fun p hp => by cases hp⟩
  | cons l ls ih =>
    obtain ⟨own1, i1, o1, p1, p2, p3⟩ := newAcc_inv hi l set ⟨n, hn, ha l List.mem_cons_self⟩
    obtain ⟨a1, a2, a3, a4, a5, a6, a7⟩ := newAcc_frame c s l set
    obtain ⟨own2, i2, o2, q2⟩ := ih i1 (by rw [a3]; exact hn) (fun l' h' => by rw [a2]; exact ha l' (List.mem_cons_of_mem _ h'))
    have b5 := (newAccs_frame c set ls (newAcc c s l set).2).2.2.2.2.1
    refine ⟨own2, i2, fun h hh => (o2 h (Nat.lt_of_lt_of_le hh p3)).trans (o1 h hh), ?_⟩
    intro p hp
    rcases List.mem_cons.1 hp with e | hp
    · subst e
      exact ⟨Nat.lt_of_lt_of_le p1 b5, by rw [o2 _ p1]; exact p2⟩
    · exact q2 p hp

theorem Inv.initial (c : Cfg K N S) : Inv c (fun _ => 0) (initial c) := by
  refine ⟨?_, ?_, ?_, ?_, ?_, ?_, ?_⟩
  · intro l k h hm; cases hm
  · intro l k h hm; cases hm
  · intro n e he; cases he
  · intro n r hr; cases hr
  · intro l k k' h hm; cases hm
  · intro l; exact List.nodup_nil
  · intro l _ h; exact absurd rfl h

theorem mem_pending {es : List (Acc K N)} {x : Nat × Nat × N} :
    x ∈ pending es ↔ ∃ e ∈ es, (x.1, x.2.1) ∈ e.ptrs ∧ x.2.2 = e.cur := by
  unfold pending
  rw [List.mem_flatMap]
  constructor
  · rintro ⟨e, he, hx⟩
    obtain ⟨p, hp, rfl⟩ := List.mem_map.1 hx
    exact ⟨e, he, hp, rfl⟩
  · rintro ⟨e, he, hp, hc⟩
    refine ⟨e, he, List.mem_map.2 ⟨_, hp, ?_⟩⟩
    rw [← hc]

/-- Changing neither the views nor the addresses. -/
theorem Inv.observe_known {c : Cfg K N S} {own : Nat → Nat} {s : State K N S} (hi : Inv c own s) (n : Nat) (f : Acc K N → Acc K N)
    (hf : ∀ e, (f e).ptrs = e.ptrs) : Inv c own { s with store := upd s.store n ((s.store n).map f) } := by
  refine ⟨hi.data, hi.prior, ?_, hi.rest, hi.uniq, hi.nodup, hi.quiet⟩
  intro m e he p hp
  have he : e ∈ upd s.store n ((s.store n).map f) m := he
  by_cases hm : m = n
  · subst hm
    rw [upd_same] at he
    obtain ⟨e', he', rfl⟩ := List.mem_map.1 he
    rw [hf] at hp
    exact hi.ptr m e' he' p hp
  · rw [upd_ne _ _ hm] at he
    exact hi.ptr m e he p hp

theorem Inv.observe {c : Cfg K N S} {own : Nat → Nat} {s : State K N S} (hi : Inv c own s) {n : Nat} (hn : n < s.count)
    (hp : s.phase n = .callbacks) (obs : Nat) (set : K) (val : N) : ∃ own', Inv c own' (Overlap.observe c s n obs set val) := by
  unfold Overlap.observe
  simp only
  split
  · exact ⟨own, hi.observe_known n _ (fun e => by split <;> rfl)⟩
  · obtain ⟨own', i', o', p'⟩ := newAccs_inv (n := n) (c.canon obs set) (c.leavesOf obs) hi hn
      (fun l hl => by rw [hp]; exact c.views_all obs l hl)
    refine ⟨own', i'.data, i'.prior, ?_, i'.rest, i'.uniq, i'.nodup, i'.quiet⟩
    intro m e he p hpm
    have he : e ∈ upd (newAccs c (c.canon obs set) (c.leavesOf obs) s).2.store n _ m := he
    by_cases hm : m = n
    · subst hm
      rw [upd_same, List.mem_append, List.mem_singleton] at he
      rcases he with he | he
      · exact i'.ptr m e he p hpm
      · subst he; exact p' p hpm
    · rw [upd_ne _ _ hm] at he
      exact i'.ptr m e he p hpm

/-- The addresses `deltaLoop` writes are those of `prior`. -/
theorem deltaLoop_heap (a : AAgg N S) (prior t : Storage.Table K Nat) (h : Nat → S) (x : Nat)
    (hx : ∀ k, (k, x) ∉ prior) : (deltaLoop a prior t h).2 x = h x := by
  induction t generalizing h with
  | nil => rfl
  | cons e t ih =>
    unfold deltaLoop
    cases hf : Storage.find prior e.1 with
    | none => exact ih h
    | some p =>
      simp only
      rw [ih]
      exact upd_ne _ _ (fun e' => hx _ (by rw [e']; exact mem_of_find hf))

theorem collectView_frame (c : Cfg K N S) (s : State K N S) (n l : Nat) :
    (collectView c s n l).store = s.store ∧ (collectView c s n l).phase = s.phase ∧ (collectView c s n l).count = s.count ∧
    s.next ≤ (collectView c s n l).next ∧ (∀ l', l' ≠ l → (collectView c s n l).view l' = s.view l') ∧
    (∀ l', l' ≠ l → (collectView c s n l).out n l' = s.out n l') := by
  unfold collectView
  simp only
  split
  · split
    · exact ⟨rfl, rfl, rfl, Nat.le_refl _, fun l' e => upd_ne _ _ e, fun l' e => by simp only [upd_same]; exact upd_ne _ _ e⟩
    · exact ⟨rfl, rfl, rfl, Nat.le_succ _, fun l' e => upd_ne _ _ e, fun l' e => by simp only [upd_same]; exact upd_ne _ _ e⟩
  · exact ⟨rfl, rfl, rfl, Nat.le_refl _, fun l' e => upd_ne _ _ e, fun l' e => by simp only [upd_same]; exact upd_ne _ _ e⟩

theorem Inv.collectView {c : Cfg K N S} {own : Nat → Nat} {s : State K N S} (hi : Inv c own s) {n l : Nat} {todo : List Nat}
    (hp : s.phase n = .collect (l :: todo)) :
    ∃ own', Inv c own' { collectView c s n l with phase := upd s.phase n (.collect todo) } := by
  obtain ⟨f1, f2, f3, f4, f5, f6⟩ := collectView_frame c s n l
  -- the new address, if any, belongs to `l`
  have key : ∃ own' : Nat → Nat, (∀ h, h < s.next → own' h = own h) ∧
      (∀ k h, (k, h) ∈ ((Overlap.collectView c s n l).view l).data → h < (Overlap.collectView c s n l).next ∧ own' h = l) ∧
      (∀ k h, (k, h) ∈ ((Overlap.collectView c s n l).view l).prior → (k, h) ∈ (s.view l).data ∨ (k, h) ∈ (s.view l).prior) ∧
      (∀ k k' h, (k, h) ∈ ((Overlap.collectView c s n l).view l).data → (k', h) ∈ ((Overlap.collectView c s n l).view l).data → k = k') ∧
      (((Overlap.collectView c s n l).view l).data.map (·.1)).Nodup ∧
      (c.delta l = false → ((Overlap.collectView c s n l).view l).data = []) := by
    unfold Overlap.collectView
    simp only
    split
    · rename_i hd
      split
      · refine ⟨own, fun _ _ => rfl, ?_, ?_, ?_, ?_, ?_⟩
        · intro k h hm; simp only [upd_same] at hm; cases hm
        · intro k h hm; simp only [upd_same] at hm; exact .inl hm
        · intro k k' h hm; simp only [upd_same] at hm; cases hm
        · simp only [upd_same]; exact List.nodup_nil
        · intro _; simp only [upd_same]
      · refine ⟨upd own s.next l, fun h hh => upd_ne _ _ (by omega), ?_, ?_, ?_, ?_, ?_⟩
        · intro k h hm
          simp only [upd_same, List.mem_singleton, Prod.mk.injEq] at hm
          rw [hm.2]
          exact ⟨Nat.lt_succ_self _, upd_same _ _ _⟩
        · intro k h hm; simp only [upd_same] at hm; exact .inl hm
        · intro k k' h hm hm'
          simp only [upd_same, List.mem_singleton, Prod.mk.injEq] at hm hm'
          rw [hm.1, hm'.1]
        · simp [upd_same]
        · intro h; rw [hd] at h; cases h
    · refine ⟨own, fun _ _ => rfl, ?_, ?_, ?_, ?_, ?_⟩
      · intro k h hm; simp only [upd_same] at hm; cases hm
      · intro k h hm; simp only [upd_same] at hm; exact .inr hm
      · intro k k' h hm; simp only [upd_same] at hm; cases hm
      · simp only [upd_same]; exact List.nodup_nil
      · intro _; simp only [upd_same]
  obtain ⟨own', ho, k1, k2, k3, k4, k5⟩ := key
  have old : ∀ {h l'}, h < s.next ∧ own h = l' → h < (Overlap.collectView c s n l).next ∧ own' h = l' :=
    fun {h l'} hh => ⟨Nat.lt_of_lt_of_le hh.1 f4, by rw [ho _ hh.1]; exact hh.2⟩
  refine ⟨own', ?_, ?_, ?_, ?_, ?_, ?_, ?_⟩
  · intro l' k h hm
    have hm : (k, h) ∈ ((Overlap.collectView c s n l).view l').data := hm
    by_cases e : l' = l
    · subst e; exact k1 k h hm
    · rw [f5 l' e] at hm; exact old (hi.data l' k h hm)
  · intro l' k h hm
    have hm : (k, h) ∈ ((Overlap.collectView c s n l).view l').prior := hm
    by_cases e : l' = l
    · subst e
      rcases k2 k h hm with hm | hm
      · exact old (hi.data _ k h hm)
      · exact old (hi.prior _ k h hm)
    · rw [f5 l' e] at hm; exact old (hi.prior l' k h hm)
  · intro m e he p hpm
    have he : e ∈ (Overlap.collectView c s n l).store m := he
    rw [f1] at he
    exact old (hi.ptr m e he p hpm)
  · intro m r hr x hx
    have hr : upd s.phase n (.collect todo) m = .snapshot r := hr
    by_cases e : m = n
    · subst e; rw [upd_same] at hr; cases hr
    · rw [upd_ne _ _ e] at hr; exact old (hi.rest m r hr x hx)
  · intro l' k k' h hm hm'
    have hm : (k, h) ∈ ((Overlap.collectView c s n l).view l').data := hm
    have hm' : (k', h) ∈ ((Overlap.collectView c s n l).view l').data := hm'
    by_cases e : l' = l
    · subst e; exact k3 k k' h hm hm'
    · rw [f5 l' e] at hm hm'; exact hi.uniq l' k k' h hm hm'
  · intro l'
    show (((Overlap.collectView c s n l).view l').data.map (·.1)).Nodup
    by_cases e : l' = l
    · subst e; exact k4
    · rw [f5 l' e]; exact hi.nodup l'
  · intro l' hl' hne
    have hne : ((Overlap.collectView c s n l).view l').data ≠ [] := hne
    by_cases e : l' = l
    · subst e; exact absurd (k5 hl') hne
    · rw [f5 l' e] at hne
      obtain ⟨m, hm, ha⟩ := hi.quiet l' hl' hne
      refine ⟨m, by show m < (Overlap.collectView c s n l).count; rw [f3]; exact hm, ?_⟩
      show Active c (upd s.phase n (.collect todo) m) l'
      by_cases em : m = n
      · subst em
        rw [upd_same]
        rw [hp] at ha
        rcases List.mem_cons.1 ha with h | h
        · exact absurd h e
        · exact h
      · rw [upd_ne _ _ em]; exact ha

theorem mem_of_eraseIdx {α : Type} {l : List α} {i : Nat} {x : α} (h : x ∈ l.eraseIdx i) : x ∈ l :=
  (List.eraseIdx_sublist l i).subset h

theorem Inv.step {c : Cfg K N S} {own : Nat → Nat} {s s' : State K N S} (hi : Inv c own s) {a : Action K N}
    (h : step c s a = some s') : ∃ own', Inv c own' s' := by
  -- changing the phase of a collection that stays active
  have ph : ∀ (n : Nat) (p : Phase N) (heap : Nat → S), (∀ l, Active c (s.phase n) l → Active c p l) →
      (∀ r, p = .snapshot r → ∀ x ∈ r, x.2.1 < s.next ∧ own x.2.1 = x.1) →
      Inv c own { s with heap := heap, phase := upd s.phase n p } := by
    intro n p heap hact hr
    refine ⟨hi.data, hi.prior, hi.ptr, ?_, hi.uniq, hi.nodup, ?_⟩
    · intro m r hm x hx
      have hm : upd s.phase n p m = .snapshot r := hm
      by_cases e : m = n
      · subst e; rw [upd_same] at hm; exact hr r hm x hx
      · rw [upd_ne _ _ e] at hm; exact hi.rest m r hm x hx
    · intro l hl hne
      obtain ⟨m, hm, ha⟩ := hi.quiet l hl hne
      refine ⟨m, hm, ?_⟩
      show Active c (upd s.phase n p m) l
      by_cases e : m = n
      · subst e; rw [upd_same]; exact hact l ha
      · rw [upd_ne _ _ e]; exact ha
  cases a with
  | start =>
    simp only [Overlap.step, Option.some.injEq] at h
    subst h
    refine ⟨own, hi.data, hi.prior, ?_, ?_, hi.uniq, hi.nodup, ?_⟩
    · intro n e he p hp
      have he : e ∈ upd s.store s.count [] n := he
      by_cases hn : n = s.count
      · subst hn; rw [upd_same] at he; cases he
      · rw [upd_ne _ _ hn] at he; exact hi.ptr n e he p hp
    · intro n r hr x hx
      have hr : upd s.phase s.count .callbacks n = .snapshot r := hr
      by_cases hn : n = s.count
      · subst hn; rw [upd_same] at hr; cases hr
      · rw [upd_ne _ _ hn] at hr; exact hi.rest n r hr x hx
    · intro l hl hne
      obtain ⟨m, hm, ha⟩ := hi.quiet l hl hne
      refine ⟨m, Nat.lt_succ_of_lt hm, ?_⟩
      show Active c (upd s.phase s.count .callbacks m) l
      rw [upd_ne _ _ (by omega)]; exact ha
  | observe n obs set val =>
    simp only [Overlap.step] at h
    split at h
    · rename_i hc
      cases h
      exact hi.observe hc.1 hc.2.1 obs set val
    · cases h
  | returned n =>
    simp only [Overlap.step] at h
    split at h
    · rename_i hc
      cases h
      refine ⟨own, ph n _ s.heap ?_ ?_⟩
      · intro l ha; rw [hc.2] at ha; exact ha
      · intro r hr x hx
        cases hr
        obtain ⟨e, he, hp, _⟩ := mem_pending.1 hx
        exact hi.ptr n e he _ hp
    · cases h
  | snap n i =>
    simp only [Overlap.step] at h
    split at h
    · rename_i hn
      split at h
      · rename_i rest hr
        have hv : ∀ l, Active c (s.phase n) l → l ∈ c.views := by intro l ha; rw [hr] at ha; exact ha
        split at h
        · rename_i x hx
          cases h
          refine ⟨own, ph n _ _ ?_ ?_⟩
          · intro l ha
            split
            · exact hv l ha
            · exact hv l ha
          · intro r hr' y hy
            split at hr'
            · cases hr'
            · cases hr'
              exact hi.rest n rest hr y (mem_of_eraseIdx hy)
        · split at h
          · cases h
            exact ⟨own, ph n _ s.heap (fun l ha => hv l ha) (fun r hr' => by cases hr')⟩
          · cases h
      · cases h
    · cases h
  | collect n =>
    simp only [Overlap.step] at h
    split at h
    · split at h
      · rename_i l todo hp
        cases h
        exact hi.collectView hp
      · cases h
    · cases h

theorem Inv.run {c : Cfg K N S} {acts : List (Action K N)} {own : Nat → Nat} {s s' : State K N S} (hi : Inv c own s)
    (h : run c s acts = some s') : ∃ own', Inv c own' s' := by
  induction acts generalizing own s with
  | nil => cases h; exact ⟨own, hi⟩
  | cons a as ih =>
    simp only [Overlap.run] at h
    cases hs : Overlap.step c s a with
    | none => rw [hs] at h; cases h
    | some s1 =>
      rw [hs] at h
      obtain ⟨own1, i1⟩ := hi.step hs
      exact ih i1 h

end Verif.Overlap
