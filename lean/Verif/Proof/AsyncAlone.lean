import Verif.Proof.AsyncOverlap
import Verif.Spec.AsyncOverlap

/-! Helper file: a collection during which no other collection is in progress. -/

namespace Verif.Overlap
open Verif Verif.Async

variable {K N S : Type} [DecidableEq K] [DecidableEq N]
set_option linter.unusedSectionVars false

theorem lastVal_snoc (O : List (Nat × K × N)) (o o' : Nat) (k k' : K) (v : N) :
    lastVal (O ++ [(o, k, v)]) o' k' = if o = o' ∧ k = k' then some v else lastVal O o' k' := by
  unfold lastVal
  rw [List.reverse_append]
  simp only [List.reverse_cons, List.reverse_nil, List.nil_append, List.singleton_append, List.find?_cons]
  by_cases h : o = o' ∧ k = k'
  · simp [h]
  · rw [if_neg h]
    have : (o == o' && k == k') = false := by
      rw [Bool.and_eq_false_iff]
      by_cases h1 : o = o'
      · right; simp; exact fun h2 => h ⟨h1, h2⟩
      · left; simpa using h1
    rw [this]

/-- What `newAccs` does to one of the views. -/
theorem newAccs_placed {c : Cfg K N S} {n : Nat} (set : K) (l : Nat) (ls : List Nat) {own : Nat → Nat} {s : State K N S} (hi : Inv c own s)
    (hn : n < s.count) (ha : ∀ l ∈ ls, Active c (s.phase n) l) (hnd : ls.Nodup) (hl : l ∈ ls) (hf : Fits (c.lim l) c.ovf (s.view l).data) :
    let r := newAccs c set ls s
    ∃ k' h, (l, h) ∈ r.1 ∧ (∀ h', (l, h') ∈ r.1 → h' = h) ∧
      Placed (c.lim l) c.ovf (c.filt l set) (s.view l).data (r.2.view l).data k' h ∧
      (∀ k h, (k, h) ∈ (r.2.view l).data → (k, h) ∈ (s.view l).data ∨ r.2.heap h = (c.agg l).init) := by
  induction ls generalizing s own with
  | nil => cases hl
  | cons l0 ls ih =>
    rw [List.nodup_cons] at hnd
    obtain ⟨own1, i1, o1, p1, p2, p3⟩ := newAcc_inv hi l0 set ⟨n, hn, ha l0 List.mem_cons_self⟩
    obtain ⟨a1, a2, a3, a4, a5, a6, a7⟩ := newAcc_frame c s l0 set
    obtain ⟨b1, b2, b3, b4, b5, b6, b7, b8⟩ := newAccs_frame c set ls (newAcc c s l0 set).2
    by_cases e : l = l0
    · subst e
      have hpl := placed (k := c.filt l set) hf s.next
      have hg := goc_same (c.lim l) c.ovf (c.filt l set) (s.view l).data s.next
      simp only at hg
      refine ⟨(Storage.getOrCreate (c.lim l) c.ovf (s.view l).data (c.filt l set) s.next).1, (newAcc c s l set).1, List.mem_cons_self, ?_, ?_, ?_⟩
      · intro h' hh'
        rcases List.mem_cons.1 hh' with e | hm
        · cases e; rfl
        · exact absurd (by rw [← b8]; exact List.mem_map_of_mem (f := (·.1)) hm) hnd.1
      · show Placed _ _ _ _ ((newAccs c set ls (newAcc c s l set).2).2.view l).data _ _
        rw [b7 l hnd.1]
        unfold newAcc
        generalize Storage.getOrCreate (c.lim l) c.ovf (s.view l).data (c.filt l set) s.next = g at hg hpl ⊢
        rcases hg with ⟨h1, h2⟩ | ⟨h1, h2, h3⟩
        · have hlt := hi.data l _ _ h2
          have hne : g.2.1 ≠ s.next := by omega
          simp only [hne, if_false]
          rw [h1] at hpl; exact hpl
        · simp only [h2, if_true, upd_same]
          rw [h2] at hpl; exact hpl
      · intro k h hm
        have hm : (k, h) ∈ ((newAccs c set ls (newAcc c s l set).2).2.view l).data := hm
        rw [b7 l hnd.1] at hm
        have hlt := i1.data l k h hm
        show _ ∨ (newAccs c set ls (newAcc c s l set).2).2.heap h = _
        rw [b6 h hlt.1]
        revert hm
        unfold newAcc
        generalize Storage.getOrCreate (c.lim l) c.ovf (s.view l).data (c.filt l set) s.next = g at hg hpl ⊢
        rcases hg with ⟨h1, h2⟩ | ⟨h1, h2, h3⟩
        · have hlt := hi.data l _ _ h2
          have hne : g.2.1 ≠ s.next := by omega
          simp only [hne, if_false]
          exact fun hm => .inl hm
        · simp only [h2, if_true, upd_same, h1, List.mem_cons, Prod.mk.injEq]
          rintro (hm | hm)
          · right; rw [hm.2]; exact upd_same _ _ _
          · left; exact hm
    · have hl' : l ∈ ls := (List.mem_cons.1 hl).resolve_left e
      have hv : (newAcc c s l0 set).2.view l = s.view l := a7 l e
      obtain ⟨k', h, q1, q2, q3, q4⟩ := ih i1 (by rw [a3]; exact hn) (fun l' h' => by rw [a2]; exact ha l' (List.mem_cons_of_mem _ h')) hnd.2 hl'
        (by rw [hv]; exact hf)
      rw [hv] at q3 q4
      refine ⟨k', h, List.mem_cons_of_mem _ q1, ?_, q3, q4⟩
      intro h' hh'
      rcases List.mem_cons.1 hh' with e' | hm
      · cases e'; exact absurd rfl e
      · exact q2 h' hm

/-- The store of the collection against its observations. -/
structure Store (c : Cfg K N S) (O : List (Nat × K × N)) (es : List (Acc K N)) : Prop where
  distinct : es.Pairwise (fun a b => ¬ (a.obs = b.obs ∧ a.set = b.set))
  cur : ∀ e ∈ es, lastVal O e.obs e.set = some e.cur
  all : ∀ o k x, lastVal O o k = some x → ∃ e ∈ es, e.obs = o ∧ e.set = k
  leaves : ∀ e ∈ es, e.ptrs.map (·.1) = c.leavesOf e.obs

/-- The table of a view against the store of the collection. -/
structure Tab (c : Cfg K N S) (l : Nat) (es : List (Acc K N)) (t : Storage.Table K Nat) : Prop where
  fits : Fits (c.lim l) c.ovf t
  place : ∀ e ∈ es, ∀ h, (l, h) ∈ e.ptrs → ∃ k, (k, h) ∈ t ∧
    (k = c.filt l e.set ∨ (k = c.ovf ∧ Storage.find t (c.filt l e.set) = none ∧ t.length = c.lim l))
  used : ∀ k h, (k, h) ∈ t → ∃ e ∈ es, (l, h) ∈ e.ptrs

/-- The holders contain the values of the accumulators in `dn`. -/
def Holds (c : Cfg K N S) (l : Nat) (s : State K N S) (dn : List (Nat × Nat × N)) : Prop :=
  ∀ k h, (k, h) ∈ (s.view l).data →
    s.heap h = ((dn.filter (fun x => decide (x.2.1 = h))).map (·.2.2)).foldl (c.agg l).upd (c.agg l).init

/-- The state of view `l` in a phase of collection `n`; `Q` says what is true once the view was collected. -/
def PhaseOk (c : Cfg K N S) (l n : Nat) (Q : State K N S → Prop) (s : State K N S) : Phase N → Prop
  | .callbacks => Tab c l (s.store n) (s.view l).data ∧ Holds c l s []
  | .snapshot rest => Tab c l (s.store n) (s.view l).data ∧ ∃ dn, (dn ++ rest).Perm (pending (s.store n)) ∧ Holds c l s dn
  | .collect todo =>
    if l ∈ todo then todo.Nodup ∧ Tab c l (s.store n) (s.view l).data ∧ ∃ dn, dn.Perm (pending (s.store n)) ∧ Holds c l s dn
    else Q s

structure Alone (c : Cfg K N S) (l n : Nat) (Q : List (Nat × K × N) → State K N S → Prop) (O : List (Nat × K × N)) (s : State K N S) : Prop where
  count : s.count = n + 1
  others : ∀ m, m < n → s.phase m = .collect []
  store : Store c O (s.store n)
  phase : PhaseOk c l n (Q O) s (s.phase n)

/-- Nothing is left in the tables when no collection is in progress. -/
theorem empty_of_ended {c : Cfg K N S} {own : Nat → Nat} {s : State K N S} (hi : Inv c own s)
    (he : ∀ n, n < s.count → s.phase n = .collect []) {l : Nat} (hl : c.delta l = false) : (s.view l).data = [] := by
  cases h : (s.view l).data with
  | nil => rfl
  | cons e t =>
    obtain ⟨n, hn, ha⟩ := hi.quiet l hl (by rw [h]; exact List.cons_ne_nil _ _)
    rw [he n hn] at ha
    cases ha

theorem Alone.start {c : Cfg K N S} {Q : List (Nat × K × N) → State K N S → Prop} {s s' : State K N S}
    (he : ∀ n, n < s.count → s.phase n = .collect []) {l : Nat} (hd : (s.view l).data = []) (hlim : 1 ≤ c.lim l)
    (h : step c s .start = some s') : Alone c l s.count Q [] s' := by
  simp only [Overlap.step, Option.some.injEq] at h
  subst h
  refine ⟨rfl, ?_, ?_, ?_⟩
  · intro m hm
    show upd s.phase s.count .callbacks m = _
    rw [upd_ne _ _ (by omega)]; exact he m hm
  · show Store c [] (upd s.store s.count [] s.count)
    rw [upd_same]
    refine ⟨List.Pairwise.nil, ?_, ?_, ?_⟩
    · intro e he; cases he
    · intro o k x hx; simp [lastVal] at hx
    · intro e he; cases he
  · show PhaseOk c l s.count (Q []) _ (upd s.phase s.count .callbacks s.count)
    rw [upd_same]
    refine ⟨⟨⟨?_, ?_⟩, ?_, ?_⟩, ?_⟩
    · show (s.view l).data.length ≤ _
      rw [hd]; exact Nat.zero_le _
    · intro hh
      have hh : (s.view l).data.length = c.lim l := hh
      rw [hd] at hh
      have hh : 0 = c.lim l := hh
      omega
    · intro e hm
      have hm : e ∈ upd s.store s.count [] s.count := hm
      rw [upd_same] at hm; cases hm
    · intro k h hm
      have hm : (k, h) ∈ (s.view l).data := hm
      rw [hd] at hm; cases hm
    · intro k h hm
      have hm : (k, h) ∈ (s.view l).data := hm
      rw [hd] at hm; cases hm

theorem Store.known {c : Cfg K N S} {O : List (Nat × K × N)} {es : List (Acc K N)} (h : Store c O es) (obs : Nat) (k : K) (val : N)
    (hk : ∃ e ∈ es, e.obs = obs ∧ e.set = k) :
    Store c (O ++ [(obs, k, val)]) (es.map (fun e => if e.obs = obs ∧ e.set = k then { e with cur := val } else e)) := by
  have ho : ∀ e : Acc K N, (if e.obs = obs ∧ e.set = k then { e with cur := val } else e).obs = e.obs := fun e => by split <;> rfl
  have hs : ∀ e : Acc K N, (if e.obs = obs ∧ e.set = k then { e with cur := val } else e).set = e.set := fun e => by split <;> rfl
  have hp : ∀ e : Acc K N, (if e.obs = obs ∧ e.set = k then { e with cur := val } else e).ptrs = e.ptrs := fun e => by split <;> rfl
  refine ⟨?_, ?_, ?_, ?_⟩
  · rw [List.pairwise_map]
    refine h.distinct.imp ?_
    intro a b hab
    rw [ho, ho, hs, hs]; exact hab
  · intro e he
    obtain ⟨e', he', rfl⟩ := List.mem_map.1 he
    rw [ho, hs, lastVal_snoc]
    by_cases hc : e'.obs = obs ∧ e'.set = k
    · rw [if_pos ⟨hc.1.symm, hc.2.symm⟩, if_pos hc]
    · rw [if_neg (fun x => hc ⟨x.1.symm, x.2.symm⟩), if_neg hc]
      exact h.cur e' he'
  · intro o k' x hx
    rw [lastVal_snoc] at hx
    have hex : ∃ e ∈ es, e.obs = o ∧ e.set = k' := by
      split at hx
      · rename_i hc; rw [← hc.1, ← hc.2]; exact hk
      · exact h.all o k' x hx
    obtain ⟨e, he, h1, h2⟩ := hex
    exact ⟨_, List.mem_map_of_mem he, by rw [ho]; exact h1, by rw [hs]; exact h2⟩
  · intro e he
    obtain ⟨e', he', rfl⟩ := List.mem_map.1 he
    rw [ho, hp]; exact h.leaves e' he'

theorem Store.new {c : Cfg K N S} {O : List (Nat × K × N)} {es : List (Acc K N)} (h : Store c O es) (obs : Nat) (k : K) (val : N)
    (hk : ¬ ∃ e ∈ es, e.obs = obs ∧ e.set = k) (ptrs : List (Nat × Nat)) (hp : ptrs.map (·.1) = c.leavesOf obs) :
    Store c (O ++ [(obs, k, val)]) (es ++ [{ obs := obs, set := k, ptrs := ptrs, cur := val }]) := by
  refine ⟨?_, ?_, ?_, ?_⟩
  · rw [List.pairwise_append]
    refine ⟨h.distinct, List.pairwise_singleton _ _, ?_⟩
    intro a ha b hb hab
    rw [List.mem_singleton] at hb
    subst hb
    exact hk ⟨a, ha, hab⟩
  · intro e he
    rw [List.mem_append, List.mem_singleton] at he
    rw [lastVal_snoc]
    rcases he with he | he
    · rw [if_neg (fun x => hk ⟨e, he, x.1.symm, x.2.symm⟩)]; exact h.cur e he
    · subst he; rw [if_pos ⟨rfl, rfl⟩]
  · intro o k' x hx
    rw [lastVal_snoc] at hx
    split at hx
    · rename_i hc
      exact ⟨_, List.mem_append_right _ (List.mem_singleton.2 rfl), hc⟩
    · obtain ⟨e, he, h'⟩ := h.all o k' x hx
      exact ⟨e, List.mem_append_left _ he, h'⟩
  · intro e he
    rw [List.mem_append, List.mem_singleton] at he
    rcases he with he | he
    · exact h.leaves e he
    · subst he; exact hp

theorem Alone.observe {c : Cfg K N S} (hnd : ∀ o, (c.leavesOf o).Nodup) {own : Nat → Nat} {s : State K N S} (hi : Inv c own s) {l n : Nat}
    {Q : List (Nat × K × N) → State K N S → Prop} {O : List (Nat × K × N)} (ha : Alone c l n Q O s) (hp : s.phase n = .callbacks) (obs : Nat) (set : K) (val : N) :
    Alone c l n Q (O ++ [(obs, c.canon obs set, val)]) (Overlap.observe c s n obs set val) := by
  have hph := ha.phase
  rw [hp] at hph
  obtain ⟨htab, hh⟩ := hph
  have hst := ha.store
  unfold Overlap.observe
  simp only
  split
  · rename_i hany
    have hk : ∃ e ∈ s.store n, e.obs = obs ∧ e.set = c.canon obs set := by
      rw [List.any_eq_true] at hany
      obtain ⟨e, he, h'⟩ := hany
      exact ⟨e, he, by simpa using h'⟩
    refine ⟨ha.count, ha.others, ?_, ?_⟩
    · show Store c _ (upd s.store n _ n)
      rw [upd_same]
      exact hst.known obs _ val hk
    · show PhaseOk c l n _ _ (s.phase n)
      rw [hp]
      refine ⟨⟨htab.fits, ?_, ?_⟩, hh⟩
      · intro e he h hm
        have he : e ∈ upd s.store n _ n := he
        rw [upd_same] at he
        obtain ⟨e', he', rfl⟩ := List.mem_map.1 he
        have := htab.place e' he' h (by revert hm; split <;> exact id)
        revert this
        split <;> exact id
      · intro k h hm
        obtain ⟨e, he, h'⟩ := htab.used k h hm
        refine ⟨if e.obs = obs ∧ e.set = c.canon obs set then { e with cur := val } else e, ?_, ?_⟩
        · show _ ∈ upd s.store n _ n
          rw [upd_same]
          exact List.mem_map_of_mem (f := fun e : Acc K N => if e.obs = obs ∧ e.set = c.canon obs set then { e with cur := val } else e) he
        · split <;> exact h'
  · rename_i hany
    have hk : ¬ ∃ e ∈ s.store n, e.obs = obs ∧ e.set = c.canon obs set := by
      rintro ⟨e, he, h1, h2⟩
      apply hany
      rw [List.any_eq_true]
      exact ⟨e, he, by simp [h1, h2]⟩
    obtain ⟨b1, b2, b3, b4, b5, b6, b7, b8⟩ := newAccs_frame c (c.canon obs set) (c.leavesOf obs) s
    have hact : ∀ l ∈ c.leavesOf obs, Active c (s.phase n) l := fun l hl => by rw [hp]; exact c.views_all obs l hl
    have hn : n < s.count := by rw [ha.count]; exact Nat.lt_succ_self _
    have hold : ∀ k h, (k, h) ∈ (s.view l).data → (newAccs c (c.canon obs set) (c.leavesOf obs) s).2.heap h = s.heap h :=
      fun k h hm => b6 h (hi.data l k h hm).1
    refine ⟨?_, ?_, ?_, ?_⟩
    · show (newAccs c (c.canon obs set) (c.leavesOf obs) s).2.count = _
      rw [b3]; exact ha.count
    · intro m hm
      show (newAccs c (c.canon obs set) (c.leavesOf obs) s).2.phase m = _
      rw [b2]; exact ha.others m hm
    · show Store c _ (upd _ n _ n)
      rw [upd_same, b1]
      exact hst.new obs _ val hk _ b8
    · show PhaseOk c l n _ _ ((newAccs c (c.canon obs set) (c.leavesOf obs) s).2.phase n)
      rw [b2, hp]
      show Tab c l (upd _ n _ n) ((newAccs c (c.canon obs set) (c.leavesOf obs) s).2.view l).data ∧
        ∀ k h, (k, h) ∈ ((newAccs c (c.canon obs set) (c.leavesOf obs) s).2.view l).data →
          (newAccs c (c.canon obs set) (c.leavesOf obs) s).2.heap h = (c.agg l).init
      rw [upd_same, b1]
      by_cases hl : l ∈ c.leavesOf obs
      · obtain ⟨k', h', q1, q2, q3, q4⟩ := newAccs_placed (n := n) (c.canon obs set) l (c.leavesOf obs) hi hn hact (hnd obs) hl htab.fits
        refine ⟨⟨q3.fits, ?_, ?_⟩, ?_⟩
        · intro e he h hm
          rw [List.mem_append, List.mem_singleton] at he
          rcases he with he | he
          · obtain ⟨k, hkt, hr⟩ := htab.place e he h hm
            refine ⟨k, ?_, ?_⟩
            · rcases q3.same with e | ⟨e, _⟩
              · rw [e]; exact hkt
              · rw [e]; exact List.mem_cons_of_mem _ hkt
            · rcases hr with hr | ⟨hr1, hr2, hr3⟩
              · exact .inl hr
              · rw [q3.full hr3]; exact .inr ⟨hr1, hr2, hr3⟩
          · subst he
            rw [q2 h hm]
            exact ⟨k', q3.mem, q3.route⟩
        · intro k h hm
          rcases q3.same with e | ⟨e, _⟩
          · rw [e] at hm
            obtain ⟨e, he, h'⟩ := htab.used k h hm
            exact ⟨e, List.mem_append_left _ he, h'⟩
          · rw [e, List.mem_cons] at hm
            rcases hm with hm | hm
            · cases hm
              exact ⟨_, List.mem_append_right _ (List.mem_singleton.2 rfl), q1⟩
            · obtain ⟨e, he, h'⟩ := htab.used k h hm
              exact ⟨e, List.mem_append_left _ he, h'⟩
        · intro k h hm
          rcases q4 k h hm with hm | hm
          · rw [hold k h hm]; exact hh k h hm
          · exact hm
      · rw [b7 l hl]
        refine ⟨⟨htab.fits, ?_, ?_⟩, ?_⟩
        · intro e he h hm
          rw [List.mem_append, List.mem_singleton] at he
          rcases he with he | he
          · exact htab.place e he h hm
          · subst he
            exact absurd (by rw [← b8]; exact List.mem_map_of_mem (f := (·.1)) hm) hl
        · intro k h hm
          obtain ⟨e, he, h'⟩ := htab.used k h hm
          exact ⟨e, List.mem_append_left _ he, h'⟩
        · intro k h hm
          rw [hold k h hm]; exact hh k h hm

theorem cons_eraseIdx_perm {α : Type} (l : List α) (i : Nat) (h : i < l.length) : (l[i] :: l.eraseIdx i).Perm l := by
  induction l generalizing i with
  | nil => cases h
  | cons a l ih =>
    cases i with
    | zero => exact List.Perm.refl _
    | succ i =>
      have h' : i < l.length := Nat.lt_of_succ_lt_succ h
      show (l[i] :: a :: l.eraseIdx i).Perm (a :: l)
      exact (List.Perm.swap a l[i] (l.eraseIdx i)).trans ((ih i h').cons a)

theorem Alone.snap {c : Cfg K N S} {own : Nat → Nat} {s : State K N S} (hi : Inv c own s) {l n : Nat} (hlv : l ∈ c.views)
    {Q : List (Nat × K × N) → State K N S → Prop} {O : List (Nat × K × N)} (ha : Alone c l n Q O s) {rest : List (Nat × Nat × N)} (hp : s.phase n = .snapshot rest) {i : Nat}
    {x : Nat × Nat × N} (hx : rest[i]? = some x) :
    Alone c l n Q O { s with heap := upd s.heap x.2.1 ((c.agg x.1).upd (s.heap x.2.1) x.2.2), phase := upd s.phase n (if rest.eraseIdx i = [] then .collect c.views else .snapshot (rest.eraseIdx i)) } := by
  have hph := ha.phase
  rw [hp] at hph
  obtain ⟨htab, dn, hperm, hh⟩ := hph
  have hlt : i < rest.length := by
    rcases Nat.lt_or_ge i rest.length with h | h
    · exact h
    · rw [List.getElem?_eq_none h] at hx; cases hx
  have hxe : rest[i] = x := by rw [List.getElem?_eq_getElem hlt] at hx; exact Option.some.inj hx
  have hmem : x ∈ rest := by rw [← hxe]; exact List.getElem_mem hlt
  have hown := hi.rest n rest hp x hmem
  have hperm' : ((dn ++ [x]) ++ rest.eraseIdx i).Perm (pending (s.store n)) := by
    refine List.Perm.trans ?_ hperm
    rw [List.append_assoc]
    refine List.Perm.append_left dn ?_
    rw [← hxe]
    exact cons_eraseIdx_perm rest i hlt
  have hh' : Holds c l { s with heap := upd s.heap x.2.1 ((c.agg x.1).upd (s.heap x.2.1) x.2.2), phase := upd s.phase n (if rest.eraseIdx i = [] then .collect c.views else .snapshot (rest.eraseIdx i)) } (dn ++ [x]) := by
    intro k h hm
    have hm : (k, h) ∈ (s.view l).data := hm
    show upd s.heap x.2.1 _ h = _
    rw [List.filter_append, List.map_append, List.foldl_append, ← hh k h hm]
    by_cases e : x.2.1 = h
    · subst e
      have : x.1 = l := by rw [← hown.2]; exact (hi.data l k _ hm).2
      rw [upd_same]
      simp [this]
    · rw [upd_ne _ _ (fun e' => e e'.symm)]
      simp [e]
  refine ⟨ha.count, ?_, ha.store, ?_⟩
  · intro m hm
    show upd s.phase n _ m = _
    rw [upd_ne _ _ (by omega)]; exact ha.others m hm
  · show PhaseOk c l n (Q O) _ (upd s.phase n _ n)
    rw [upd_same]
    by_cases he : rest.eraseIdx i = []
    · rw [if_pos he]
      rw [he, List.append_nil] at hperm'
      rw [if_pos he] at hh'
      show if l ∈ c.views then _ else _
      rw [if_pos hlv]
      exact ⟨c.views_nodup, htab, _, hperm', hh'⟩
    · rw [if_neg he]
      rw [if_neg he] at hh'
      exact ⟨htab, _, hperm', hh'⟩

theorem exists_map_perm {α β : Type} (f : α → β) {xs : List β} {L : List α} (h : xs.Perm (L.map f)) :
    ∃ L' : List α, L'.Perm L ∧ xs = L'.map f := by
  generalize hm : L.map f = ys at h
  induction h generalizing L with
  | nil => rw [List.map_eq_nil_iff] at hm; subst hm; exact ⟨[], .nil, rfl⟩
  | cons y _ ih =>
    cases L with
    | nil => cases hm
    | cons a L =>
      simp only [List.map_cons, List.cons.injEq] at hm
      obtain ⟨L', h1, h2⟩ := ih hm.2
      exact ⟨a :: L', h1.cons a, by rw [List.map_cons, h2, hm.1]⟩
  | swap x y t =>
    cases L with
    | nil => cases hm
    | cons a L =>
      cases L with
      | nil => cases hm
      | cons b L =>
        simp only [List.map_cons, List.cons.injEq] at hm
        exact ⟨b :: a :: L, .swap .., by simp [hm.1, hm.2.1, hm.2.2]⟩
  | trans _ _ ih1 ih2 =>
    obtain ⟨L2, h1, h2⟩ := ih2 hm
    obtain ⟨L3, h3, h4⟩ := ih1 h2.symm
    exact ⟨L3, h3.trans h1, h4⟩

theorem find_none_of_notin {t : Storage.Table K Nat} {k : K} (h : k ∉ t.map (·.1)) : Storage.find t k = none := by
  cases hf : Storage.find t k with
  | none => rfl
  | some v => exact absurd (List.mem_map_of_mem (f := (·.1)) (mem_of_find hf)) h

/-- The accumulators pointing to a holder. -/
theorem pending_filter {own : Nat → Nat} {l h : Nat} (hown : own h = l) (es : List (Acc K N))
    (hp : ∀ e ∈ es, ∀ p ∈ e.ptrs, own p.2 = p.1) (hn : ∀ e ∈ es, (e.ptrs.map (·.1)).Nodup) :
    (pending es).filter (fun x => decide (x.2.1 = h)) =
      (es.filter (fun e => decide ((l, h) ∈ e.ptrs))).map (fun e => (l, h, e.cur)) := by
  induction es with
  | nil => rfl
  | cons e es ih =>
    have h1 : (e.ptrs.map (fun p => (p.1, p.2, e.cur))).filter (fun x => decide (x.2.1 = h)) =
        if (l, h) ∈ e.ptrs then [(l, h, e.cur)] else [] := by
      have hp0 := hp e List.mem_cons_self
      have hn0 := hn e List.mem_cons_self
      generalize e.ptrs = ps at hp0 hn0
      induction ps with
      | nil => rfl
      | cons p ps ihp =>
        rw [List.map_cons, List.nodup_cons] at hn0
        have hi := ihp (fun q hq => hp0 q (List.mem_cons_of_mem _ hq)) hn0.2
        rw [List.map_cons, List.filter_cons]
        by_cases e1 : p.2 = h
        · have e2 : p.1 = l := by rw [← hown, ← e1]; exact (hp0 p List.mem_cons_self).symm
          have e3 : p = (l, h) := by rw [← e1, ← e2]
          subst e3
          have hnot : (l, h) ∉ ps := fun hm => hn0.1 (List.mem_map_of_mem (f := (·.1)) hm)
          rw [hi]
          simp [hnot]
        · have e3 : (l, h) ≠ p := fun e => e1 (by rw [← e])
          rw [hi]
          simp [e1, e3]
    have h2 := ih (fun e' he' => hp e' (List.mem_cons_of_mem _ he')) (fun e' he' => hn e' (List.mem_cons_of_mem _ he'))
    show ((e.ptrs.map (fun p => (p.1, p.2, e.cur))) ++ pending es).filter _ = _
    rw [List.filter_append, h1, h2, List.filter_cons]
    by_cases hm : (l, h) ∈ e.ptrs <;> simp [hm]

/-- What is reported when the view is collected. -/
theorem reports {c : Cfg K N S} (hnd : ∀ o, (c.leavesOf o).Nodup) {own : Nat → Nat} {s : State K N S} (hi : Inv c own s) {l n : Nat}
    {O : List (Nat × K × N)} (hst : Store c O (s.store n)) (htab : Tab c l (s.store n) (s.view l).data)
    {dn : List (Nat × Nat × N)} (hperm : dn.Perm (pending (s.store n))) (hh : Holds c l s dn) :
    Reports c l O ((s.view l).data.map (fun e => (e.1, s.heap e.2))) := by
  have hkeys : ((s.view l).data.map (fun e => (e.1, s.heap e.2))).map (·.1) = (s.view l).data.map (·.1) := by
    rw [List.map_map]; rfl
  have hnd' := hi.nodup l
  -- where an accumulator counts
  have hunder : ∀ k h, (k, h) ∈ (s.view l).data → ∀ e ∈ s.store n,
      ((l, h) ∈ e.ptrs ↔ l ∈ c.leavesOf e.obs ∧ Under c l ((s.view l).data.map (fun e => (e.1, s.heap e.2))) e.set k) := by
    intro k h hm e he
    have hle := hst.leaves e he
    have same : ∀ {k' h'}, (k', h') ∈ (s.view l).data → k' = k → h' = h := by
      intro k' h' hm' ek
      subst ek
      have h1 := find_of_mem hnd' hm
      have h2 := find_of_mem hnd' hm'
      rw [h1] at h2
      exact (Option.some.inj h2).symm
    unfold Under
    rw [hkeys]
    constructor
    · intro hp
      obtain ⟨k', hk', hr⟩ := htab.place e he h hp
      have ek := hi.uniq l k k' h hm hk'
      subst ek
      refine ⟨by rw [← hle]; exact List.mem_map_of_mem (f := (·.1)) hp, ?_⟩
      rcases hr with hr | ⟨hr1, hr2, _⟩
      · exact .inl hr.symm
      · exact .inr ⟨hr1, notin_of_find hr2⟩
    · rintro ⟨hlv, hu⟩
      rw [← hle] at hlv
      obtain ⟨⟨l', h'⟩, hp, el⟩ := List.mem_map.1 hlv
      have el : l' = l := el
      subst el
      obtain ⟨k', hk', hr⟩ := htab.place e he h' hp
      have ek : k' = k := by
        rcases hr with hr | ⟨hr1, hr2, _⟩
        · rcases hu with hu | ⟨_, hu⟩
          · rw [hr]; exact hu
          · rw [← hr] at hu
            exact absurd (List.mem_map_of_mem (f := (·.1)) hk') hu
        · rcases hu with hu | ⟨hu, _⟩
          · rw [hu] at hr2
            exact absurd (List.mem_map_of_mem (f := (·.1)) hm) (notin_of_find hr2)
          · rw [hr1, hu]
      rw [← same hk' ek]; exact hp
  refine ⟨by rw [hkeys]; exact hnd', ?_, ?_⟩
  · intro k v hm0
    obtain ⟨⟨k0, h⟩, hm, e⟩ := List.mem_map.1 hm0
    cases e
    have hf := (hperm.filter (fun x => decide (x.2.1 = h)))
    rw [pending_filter (own := own) (hi.data l k0 h hm).2 (s.store n) (fun e he p hp => (hi.ptr n e he p hp).2)
      (fun e he => by rw [hst.leaves e he]; exact hnd e.obs)] at hf
    obtain ⟨L, hL, hLe⟩ := exists_map_perm _ hf
    have hLm : ∀ e, e ∈ L ↔ e ∈ s.store n ∧ (l, h) ∈ e.ptrs := by
      intro e; rw [hL.mem_iff, List.mem_filter]; simp
    refine ⟨L.map (fun e => (e.obs, e.set, e.cur)), ?_, ?_, ?_, ?_⟩
    · rw [List.map_map]
      have h1 : ((s.store n).map (fun e => (e.obs, e.set))).Nodup := by
        refine List.pairwise_map.2 (hst.distinct.imp ?_)
        intro a b hab e
        apply hab
        simp only [Prod.mk.injEq] at e
        exact e
      exact (hL.map _).nodup_iff.2 (List.Sublist.nodup (List.Sublist.map _ List.filter_sublist) h1)
    · obtain ⟨e, he, hp⟩ := htab.used k0 h hm
      have := (hLm e).2 ⟨he, hp⟩
      intro h0
      rw [List.map_eq_nil_iff] at h0
      rw [h0] at this; cases this
    · intro o set x
      rw [List.mem_map]
      constructor
      · rintro ⟨e, he, heq⟩
        cases heq
        obtain ⟨h1, h2⟩ := (hLm e).1 he
        have := (hunder k0 h hm e h1).1 h2
        exact ⟨this.1, this.2, hst.cur e h1⟩
      · rintro ⟨h1, h2, h3⟩
        obtain ⟨e, he, e1, e2⟩ := hst.all o set x h3
        subst e1; subst e2
        have hc := hst.cur e he
        rw [h3] at hc
        cases hc
        exact ⟨e, (hLm e).2 ⟨he, (hunder k0 h hm e he).2 ⟨h1, h2⟩⟩, rfl⟩
    · show s.heap h = _
      rw [hh k0 h hm, hLe, List.map_map, List.map_map]
      rfl
  · intro o set x hlv hx
    rw [hkeys]
    obtain ⟨e, he, e1, e2⟩ := hst.all o set x hx
    subst e1; subst e2
    rw [← hst.leaves e he] at hlv
    obtain ⟨⟨l', h'⟩, hp, el⟩ := List.mem_map.1 hlv
    have el : l' = l := el
    subst el
    obtain ⟨k', hk', hr⟩ := htab.place e he h' hp
    have hk2 := List.mem_map_of_mem (f := (·.1)) hk'
    rcases hr with hr | ⟨hr1, hr2, hr3⟩
    · left; rw [← hr]; exact hk2
    · right; rw [← hr1, List.length_map]; exact ⟨hk2, hr3⟩

theorem collectView_heap {c : Cfg K N S} {own : Nat → Nat} {s : State K N S} (hi : Inv c own s) (n : Nat) {l l0 h : Nat} (e : l ≠ l0)
    (hk : h < s.next ∧ own h = l) : (collectView c s n l0).heap h = s.heap h := by
  have hpr : ∀ k', (k', h) ∉ (s.view l0).prior := fun k' hq => e (by rw [← hk.2]; exact (hi.prior l0 k' h hq).2)
  unfold collectView
  simp only
  split
  · split
    · exact deltaLoop_heap _ _ _ _ _ hpr
    · show upd _ s.next _ h = _
      rw [upd_ne _ _ (by omega)]
      exact deltaLoop_heap _ _ _ _ _ hpr
  · rfl

theorem Alone.collect {c : Cfg K N S} {own : Nat → Nat} {s : State K N S} (hi : Inv c own s) {l n : Nat}
    {Q : List (Nat × K × N) → State K N S → Prop} {O : List (Nat × K × N)} (ha : Alone c l n Q O s) {l0 : Nat} {todo : List Nat}
    (hp : s.phase n = .collect (l0 :: todo))
    (hq : l = l0 → Tab c l (s.store n) (s.view l).data → ∀ dn, dn.Perm (pending (s.store n)) → Holds c l s dn →
      Q O { collectView c s n l0 with phase := upd s.phase n (.collect todo) })
    (hq' : l ≠ l0 → l ∉ todo → Q O s → Q O { collectView c s n l0 with phase := upd s.phase n (.collect todo) }) :
    Alone c l n Q O { collectView c s n l0 with phase := upd s.phase n (.collect todo) } := by
  have hph := ha.phase
  rw [hp] at hph
  obtain ⟨f1, f2, f3, f4, f5, f6⟩ := collectView_frame c s n l0
  refine ⟨f3.trans ha.count, ?_, ?_, ?_⟩
  · intro m hm
    show upd s.phase n _ m = _
    rw [upd_ne _ _ (by omega)]; exact ha.others m hm
  · show Store c O ((collectView c s n l0).store n)
    rw [f1]; exact ha.store
  · show PhaseOk c l n (Q O) _ (upd s.phase n _ n)
    rw [upd_same]
    by_cases e : l = l0
    · have hph : if l ∈ l0 :: todo then _ else _ := hph
      rw [if_pos (by rw [e]; exact List.mem_cons_self)] at hph
      obtain ⟨hn, htab, dn, hperm, hh⟩ := hph
      show if l ∈ todo then _ else _
      rw [if_neg (by rw [e]; exact (List.nodup_cons.1 hn).1)]
      exact hq e htab dn hperm hh
    · by_cases hm : l ∈ todo
      · have hph : if l ∈ l0 :: todo then _ else _ := hph
        rw [if_pos (List.mem_cons_of_mem _ hm)] at hph
        obtain ⟨hn, htab, dn, hperm, hh⟩ := hph
        show if l ∈ todo then _ else _
        rw [if_pos hm]
        refine ⟨(List.nodup_cons.1 hn).2, ?_, dn, ?_, ?_⟩
        · show Tab c l ((collectView c s n l0).store n) ((collectView c s n l0).view l).data
          rw [f1, f5 l e]; exact htab
        · show dn.Perm (pending ((collectView c s n l0).store n))
          rw [f1]; exact hperm
        · intro k h hkm
          have hkm : (k, h) ∈ ((collectView c s n l0).view l).data := hkm
          rw [f5 l e] at hkm
          show (collectView c s n l0).heap h = _
          rw [collectView_heap hi n e (hi.data l k h hkm)]; exact hh k h hkm
      · have hph : if l ∈ l0 :: todo then _ else _ := hph
        rw [if_neg (by rw [List.mem_cons, not_or]; exact ⟨e, hm⟩)] at hph
        show if l ∈ todo then _ else _
        rw [if_neg hm]
        exact hq' e hm hph

theorem Alone.step {c : Cfg K N S} (hnd : ∀ o, (c.leavesOf o).Nodup) {own : Nat → Nat} {s s' : State K N S} (hi : Inv c own s) {l n : Nat}
    {Q : List (Nat × K × N) → State K N S → Prop} (hlv : l ∈ c.views) {O : List (Nat × K × N)} (ha : Alone c l n Q O s)
    (hq : ∀ l0 todo, s.phase n = .collect (l0 :: todo) →
      (l = l0 → Tab c l (s.store n) (s.view l).data → ∀ dn, dn.Perm (pending (s.store n)) → Holds c l s dn →
        Q O { collectView c s n l0 with phase := upd s.phase n (.collect todo) }) ∧
      (l ≠ l0 → l ∉ todo → Q O s → Q O { collectView c s n l0 with phase := upd s.phase n (.collect todo) }))
    {a : Action K N} (hns : a ≠ .start)
    (h : Overlap.step c s a = some s') : Alone c l n Q (O ++ observations c n [a]) s' := by
  have hm : ∀ m, m < s.count → m ≠ n → s.phase m = .collect [] := by
    intro m hm hne
    rw [ha.count] at hm
    exact ha.others m (by omega)
  cases a with
  | start => exact absurd rfl hns
  | observe m obs set val =>
    simp only [Overlap.step] at h
    split at h
    · rename_i hc
      cases h
      by_cases e : m = n
      · subst e
        have : observations c m [.observe m obs set val] = [(obs, c.canon obs set, val)] := by simp [observations]
        rw [this]
        exact ha.observe hnd hi hc.2.1 obs set val
      · rw [hm m hc.1 e] at hc; cases hc.2.1
    · cases h
  | returned m =>
    have : observations c n [.returned m] = [] := by simp [observations]
    rw [this, List.append_nil]
    simp only [Overlap.step] at h
    split at h
    · rename_i hc
      cases h
      by_cases e : m = n
      · subst e
        have hph := ha.phase
        rw [hc.2] at hph
        refine ⟨ha.count, ?_, ha.store, ?_⟩
        · intro k hk
          show upd s.phase m _ k = _
          rw [upd_ne _ _ (by omega)]; exact ha.others k hk
        · show PhaseOk c l m (Q O) _ (upd s.phase m _ m)
          rw [upd_same]
          exact ⟨hph.1, [], by rw [List.nil_append], hph.2⟩
      · rw [hm m hc.1 e] at hc; cases hc.2
    · cases h
  | snap m i =>
    have : observations c n [.snap m i] = [] := by simp [observations]
    rw [this, List.append_nil]
    simp only [Overlap.step] at h
    split at h
    · rename_i hc
      by_cases e : m = n
      · subst e
        split at h
        · rename_i rest hr
          split at h
          · rename_i x hx
            cases h
            exact ha.snap hi hlv hr hx
          · split at h
            · rename_i he
              cases h
              have hph := ha.phase
              rw [hr, he] at hph
              obtain ⟨htab, dn, hperm, hh⟩ := hph
              rw [List.append_nil] at hperm
              refine ⟨ha.count, ?_, ha.store, ?_⟩
              · intro k hk
                show upd s.phase m _ k = _
                rw [upd_ne _ _ (by omega)]; exact ha.others k hk
              · show PhaseOk c l m (Q O) _ (upd s.phase m _ m)
                rw [upd_same]
                show if l ∈ c.views then _ else _
                rw [if_pos hlv]
                exact ⟨c.views_nodup, htab, dn, hperm, hh⟩
            · cases h
        · cases h
      · rw [hm m hc e] at h; cases h
    · cases h
  | collect m =>
    have : observations c n [.collect m] = [] := by simp [observations]
    rw [this, List.append_nil]
    simp only [Overlap.step] at h
    split at h
    · rename_i hc
      by_cases e : m = n
      · subst e
        split at h
        · rename_i l0 todo hp
          cases h
          exact ha.collect hi hp (hq l0 todo hp).1 (hq l0 todo hp).2
        · cases h
      · rw [hm m hc e] at h; cases h
    · cases h

theorem observations_cons (c : Cfg K N S) (n : Nat) (a : Action K N) (as : List (Action K N)) :
    observations c n (a :: as) = observations c n [a] ++ observations c n as := by
  unfold observations
  rw [← List.filterMap_append]; rfl

theorem Alone.run {c : Cfg K N S} (hnd : ∀ o, (c.leavesOf o).Nodup) {l n : Nat} (hl : c.delta l = false) (hlv : l ∈ c.views)
    (acts : List (Action K N)) {own : Nat → Nat} {s s' : State K N S} (hi : Inv c own s) {O : List (Nat × K × N)}
    (ha : Alone c l n (fun O s => Reports c l O (s.out n l)) O s)
    (hns : .start ∉ acts) (h : Overlap.run c s acts = some s') : Alone c l n (fun O s => Reports c l O (s.out n l)) (O ++ observations c n acts) s' := by
  induction acts generalizing own s O with
  | nil =>
    cases h
    have : observations c n ([] : List (Action K N)) = [] := rfl
    rw [this, List.append_nil]; exact ha
  | cons a as ih =>
    simp only [Overlap.run] at h
    cases hs : Overlap.step c s a with
    | none => rw [hs] at h; cases h
    | some s1 =>
      rw [hs] at h
      rw [List.mem_cons, not_or] at hns
      have a1 := ha.step hnd hi hlv (by
        intro l0 todo hp
        refine ⟨?_, ?_⟩
        · intro e htab dn hperm hh
          subst e
          have ho : (collectView c s n l).out n l = (s.view l).data.map (fun e => (e.1, s.heap e.2)) := by
            unfold collectView
            simp [hl]
          show Reports c l O ((collectView c s n l).out n l)
          rw [ho]
          exact reports hnd hi ha.store htab hperm hh
        · intro e _ hr
          show Reports c l O ((collectView c s n l0).out n l)
          rw [(collectView_frame c s n l0).2.2.2.2.2 l e]; exact hr) (fun e => hns.1 e.symm) hs
      obtain ⟨own1, i1⟩ := hi.step hs
      rw [observations_cons, ← List.append_assoc]
      exact ih i1 a1 hns.2 h

end Verif.Overlap
