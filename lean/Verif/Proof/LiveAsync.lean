import Verif.Model.Async

/-!
Helper file: two configurations which agree on the asynchronous instruments and output metrics in use make the same steps.
-/

namespace Verif.Async
variable {A N S : Type} [DecidableEq A] [DecidableEq N]

/-- The configurations agree on the instruments `K` and the output metrics `L`. -/
structure Alike (K L : Nat → Prop) (c c' : Cfg A N S) : Prop where
  ovf : c'.ovf = c.ovf
  zero : c'.zero = c.zero
  leaves : ∀ o, K o → c'.leavesOf o = c.leavesOf o
  closed : ∀ o, K o → ∀ l ∈ c.leavesOf o, L l
  inRange : ∀ o, K o → c'.inRange o = c.inRange o
  canon : ∀ o, K o → c'.canon o = c.canon o
  filt : ∀ l, L l → c'.filt l = c.filt l
  lim : ∀ l, L l → c'.lim l = c.lim l
  delta : ∀ l, L l → c'.delta l = c.delta l
  agg : ∀ l, L l → c'.agg l = c.agg l

/-- Only the instruments `K` and the output metrics `L` are in use. -/
structure Using (K L : Nat → Prop) (s : State A N S) : Prop where
  op : ∀ i, (s.op i).pc ≠ .rejected → K (s.op i).obs
  view : ∀ l, ¬ L l → s.view l = ⟨[], []⟩
  out : ∀ n l, ¬ L l → s.out n l = []

variable {K L : Nat → Prop} {c c' : Cfg A N S} {s s' : State A N S}

omit [DecidableEq A] [DecidableEq N] in
theorem Using.mono {K' L' : Nat → Prop} (h : Using K L s) (hk : ∀ o, K o → K' o) (hl : ∀ l, L l → L' l) : Using K' L' s :=
  ⟨fun i hi => hk _ (h.op i hi), fun l hn => h.view l (fun e => hn (hl l e)), fun n l hn => h.out n l (fun e => hn (hl l e))⟩

omit [DecidableEq A] [DecidableEq N] in
theorem Using.initial (c : Cfg A N S) (k0 : A) : Using K L (Async.initial c k0) := ⟨fun _ h => absurd rfl h, fun _ _ => rfl, fun _ _ _ => rfl⟩

omit [DecidableEq N] in
theorem Alike.newAccs (h : Alike K L c c') (set : A) (ls : List Nat) (hl : ∀ l ∈ ls, L l) (v : Nat → View A S) : newAccs c' set ls v = newAccs c set ls v := by
  induction ls generalizing v with
  | nil => rfl
  | cons l ls ih =>
    have hL := hl l (List.mem_cons_self ..)
    have e : newAcc c' l (v l).data set = newAcc c l (v l).data set := by
      unfold newAcc; rw [h.lim l hL, h.ovf, h.filt l hL, h.agg l hL]
    unfold Async.newAccs
    simp only [e, ih (fun l' h' => hl l' (List.mem_cons_of_mem _ h'))]

omit [DecidableEq N] in
theorem Alike.getOrCreate (h : Alike K L c c') {o : Nat} (ho : K o) (n : Nat) (set : A) : getOrCreate c' s n o set = getOrCreate c s n o set := by
  unfold Async.getOrCreate
  simp only [h.leaves o ho, h.newAccs set _ (h.closed o ho), h.zero]

omit [DecidableEq N] in
theorem snap_nil (c : Cfg A N S) (l : Nat) (order : List (Entry A N)) : snap c l [] order = [] := by
  unfold snap
  have : ∀ (es : List (Entry A N)) (t : Storage.Table A S), t = [] →
      es.foldl (fun t e => e.keys.foldl (fun t p => if p.1 = l then modify t p.2 (fun x => (c.agg l).upd x e.cur) else t) t) t = [] := by
    intro es
    induction es with
    | nil => intro t ht; exact ht
    | cons e es ih =>
      intro t ht
      rw [List.foldl_cons]
      refine ih _ ?_
      generalize e.keys = ks
      induction ks generalizing t with
      | nil => exact ht
      | cons p ks ih2 =>
        rw [List.foldl_cons]
        refine ih2 _ ?_
        subst ht
        split <;> rfl
  exact this order [] rfl

omit [DecidableEq N] in
theorem collect_nil (c : Cfg A N S) (l : Nat) : collect c l ⟨[], []⟩ [] = ([], ⟨[], []⟩) := by
  unfold collect
  split <;> rfl

omit [DecidableEq N] in
theorem Alike.snap (h : Alike K L c c') {l : Nat} (hl : L l) (t : Storage.Table A S) (order : List (Entry A N)) : snap c' l t order = snap c l t order := by
  unfold Async.snap; rw [h.agg l hl]

omit [DecidableEq N] in
theorem Alike.collect (h : Alike K L c c') {l : Nat} (hl : L l) (v : View A S) (t : Storage.Table A S) : collect c' l v t = collect c l v t := by
  unfold Async.collect; rw [h.agg l hl, h.delta l hl, h.ovf]

theorem Alike.step (h : Alike K L c c') (hw : Using K L s) (a : Action A N) : step c' s a = step c s a := by
  cases a with
  | startCb insts => rfl
  | endCb id => rfl
  | observe cb o as v => rfl
  | op i =>
    unfold Async.step
    dsimp only
    split
    · rfl
    · split
      · rename_i hpc
        have ho := hw.op i (by rw [hpc]; intro e; cases e)
        rw [h.inRange _ ho, h.leaves _ ho]
      · rename_i hpc
        have ho := hw.op i (by rw [hpc]; intro e; cases e)
        rw [h.getOrCreate ho, h.canon _ ho]
      · rename_i hpc
        have ho := hw.op i (by rw [hpc]; intro e; cases e)
        rw [h.canon _ ho]
      · rfl
  | finish order =>
    have e1 : (fun l => Async.snap c' l (s.view l).data order) = fun l => Async.snap c l (s.view l).data order := by
      funext l
      by_cases hl : L l
      · exact h.snap hl _ _
      · rw [hw.view l hl]; exact (snap_nil c' l order).trans (snap_nil c l order).symm
    have e2 : ∀ l, Async.collect c' l (s.view l) (Async.snap c' l (s.view l).data order) = Async.collect c l (s.view l) (Async.snap c l (s.view l).data order) := by
      intro l
      rw [congrFun e1 l]
      by_cases hl : L l
      · exact h.collect hl _ _
      · rw [hw.view l hl]
        show Async.collect c' l _ (Async.snap c l [] order) = Async.collect c l _ (Async.snap c l [] order)
        rw [snap_nil]; exact (collect_nil c' l).trans (collect_nil c l).symm
    unfold Async.step
    simp only [e1, e2]

/-- The action is on instruments in `K`. -/
def Action.In (K : Nat → Prop) : Action A N → Prop
  | .observe _ o _ _ => K o
  | _ => True

omit [DecidableEq N] in
theorem newAccs_keep (set : A) (ls : List Nat) (v : Nat → View A S) (l : Nat) (hl : l ∉ ls) : (newAccs c set ls v).2 l = v l := by
  induction ls generalizing v with
  | nil => rfl
  | cons l' ls ih =>
    have h1 : l ≠ l' := fun e => hl (e ▸ List.mem_cons_self ..)
    have h2 : l ∉ ls := fun e => hl (List.mem_cons_of_mem _ e)
    unfold newAccs
    dsimp only
    rw [ih _ h2]
    unfold upd
    rw [if_neg h1]

theorem Using.step (h : Using K L s) (hc : ∀ o, K o → ∀ l ∈ c.leavesOf o, L l) {a : Action A N} (ha : a.In K) (hs : step c s a = some s') : Using K L s' := by
  cases a with
  | startCb insts => cases hs; exact ⟨h.op, h.view, h.out⟩
  | endCb id =>
    simp only [Async.step] at hs
    split at hs
    · cases hs; exact ⟨h.op, h.view, h.out⟩
    · cases hs
  | observe cb o as v =>
    simp only [Async.step] at hs
    split at hs
    · cases hs
      refine ⟨fun i hi => ?_, h.view, h.out⟩
      unfold upd at hi ⊢
      dsimp only at hi ⊢
      split
      · exact ha
      · rename_i e; rw [if_neg e] at hi; exact h.op i hi
    · cases hs
  | op i =>
    have hop : ∀ (pc : Pc), (s.op i).pc ≠ .rejected → ∀ j, ((upd s.op i { s.op i with pc := pc }) j).pc ≠ .rejected → K ((upd s.op i { s.op i with pc := pc }) j).obs := by
      intro pc h0 j hj
      unfold upd at hj ⊢
      split
      · exact h.op i h0
      · rename_i e; rw [if_neg e] at hj; exact h.op j hj
    unfold Async.step at hs
    dsimp only at hs
    split at hs
    · cases hs
    · split at hs
      · rename_i hpc
        have h0 : (s.op i).pc ≠ .rejected := by rw [hpc]; intro e; cases e
        split at hs
        · split at hs <;> (cases hs; exact ⟨hop _ h0, h.view, h.out⟩)
        · cases hs; exact ⟨hop _ h0, h.view, h.out⟩
      · rename_i hpc
        have h0 : (s.op i).pc ≠ .rejected := by rw [hpc]; intro e; cases e
        cases hs
        unfold getOrCreate
        split
        · exact ⟨hop _ h0, h.view, h.out⟩
        · refine ⟨hop _ h0, fun l hl => ?_, h.out⟩
          dsimp only
          rw [newAccs_keep _ _ _ _ (fun hm => hl (hc _ (h.op i h0) l hm))]
          exact h.view l hl
      · rename_i hpc
        have h0 : (s.op i).pc ≠ .rejected := by rw [hpc]; intro e; cases e
        cases hs
        exact ⟨hop _ h0, h.view, h.out⟩
      · cases hs
  | finish order =>
    unfold Async.step at hs
    dsimp only at hs
    split at hs
    · cases hs
      have e : ∀ l, ¬ L l → Async.collect c l (s.view l) (Async.snap c l (s.view l).data order) = ([], ⟨[], []⟩) := by
        intro l hl
        rw [h.view l hl]
        show Async.collect c l _ (Async.snap c l [] order) = _
        rw [snap_nil, collect_nil]
      refine ⟨h.op, fun l hl => by dsimp only; rw [e l hl], fun n l hl => ?_⟩
      dsimp only
      unfold upd
      split
      · dsimp only; rw [e l hl]
      · exact h.out n l hl
    · cases hs

end Verif.Async
