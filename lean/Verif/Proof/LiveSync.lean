import Verif.Model.SyncMachine

/-!
Helper file: two configurations which agree on the instruments and output metrics in use make the same steps.
-/

namespace Verif.Sync
variable {AL KS N S : Type} [DecidableEq KS]

/-- The configurations agree on the instruments `K` and the output metrics `L`. -/
structure Alike (K L : Nat → Prop) (c c' : Cfg AL KS N S) : Prop where
  fp : c'.fp = c.fp
  eqv : c'.eqv = c.eqv
  ignoreColl : c'.ignoreColl = c.ignoreColl
  overflowAL : c'.overflowAL = c.overflowAL
  overflowKS : c'.overflowKS = c.overflowKS
  newSet : c'.newSet = c.newSet
  limit : c'.limit = c.limit
  periods : c'.periods = c.periods
  W : c'.W = c.W
  leaves : ∀ o, K o → c'.leavesOf o = c.leavesOf o
  closed : ∀ o, K o → ∀ l ∈ c.leavesOf o, L l
  filt : ∀ l, L l → c'.filt l = c.filt l
  lim : ∀ l, L l → c'.lim l = c.lim l
  delta : ∀ l, L l → c'.delta l = c.delta l
  agg : ∀ l, L l → c'.agg l = c.agg l

/-- The output metric a task collects. -/
def TPc.leafR : TPc KS → Option Nat
  | .lockl l => some l
  | .lscan l _ => some l
  | .lmv l _ _ _ _ => some l
  | _ => none

/-- Only the instruments `K` and the output metrics `L` are in use. -/
structure Using (K L : Nat → Prop) (s : State AL KS N S) : Prop where
  op : ∀ i, (s.op i).pc ≠ .idle → K (s.op i).obs
  opr : ∀ i r, (s.op i).pc = .ini r → K (s.recs r).obs
  table : ∀ o, ∀ r ∈ s.table o, K (s.recs r).obs
  accs : ∀ r, ∀ a ∈ (s.recs r).accs, L (s.acc a).leaf
  todo : ∀ t, ∀ r ∈ (s.task t).todoR, K (s.recs r).obs
  cur : ∀ t r, (s.task t).curR = some r → K (s.recs r).obs
  leaf : ∀ t l, (s.task t).leafR = some l → L l
  emits : ∀ e ∈ s.emits, L e.leaf

variable {K L : Nat → Prop} {c c' : Cfg AL KS N S} {s s' : State AL KS N S}

omit [DecidableEq KS] in
theorem Using.mono {K' L' : Nat → Prop} (h : Using K L s) (hk : ∀ o, K o → K' o) (hl : ∀ l, L l → L' l) : Using K' L' s :=
  ⟨fun i hi => hk _ (h.op i hi), fun i r hi => hk _ (h.opr i r hi), fun o r hr => hk _ (h.table o r hr), fun r a ha => hl _ (h.accs r a ha),
    fun t r hr => hk _ (h.todo t r hr), fun t r hr => hk _ (h.cur t r hr), fun t l ht => hl _ (h.leaf t l ht), fun e he => hl _ (h.emits e he)⟩

omit [DecidableEq KS] in
theorem Using.initial (c : Cfg AL KS N S) (n0 : N) : Using K L (Sync.initial c n0) :=
  ⟨fun _ h => absurd rfl h, fun _ _ h => (by cases h), fun _ _ h => (List.not_mem_nil h).elim, fun _ _ h => (List.not_mem_nil h).elim,
    fun _ _ h => (List.not_mem_nil h).elim, fun _ _ h => (by cases h), fun _ _ h => (by cases h), fun _ h => (List.not_mem_nil h).elim⟩

/-! ### The same steps -/

omit [DecidableEq KS] in
theorem Alike.findRead (h : Alike K L c c') (s : State AL KS N S) (o : Nat) (a : AL) : findRead c' s o a = findRead c s o a := by
  unfold Sync.findRead chain; rw [h.fp, h.eqv, h.ignoreColl]

omit [DecidableEq KS] in
theorem Alike.readPass (h : Alike K L c c') (s : State AL KS N S) (o : Nat) (a : AL) : readPass c' s o a = readPass c s o a := by
  unfold Sync.readPass; rw [h.findRead]

omit [DecidableEq KS] in
theorem Alike.acquireRead (h : Alike K L c c') (s : State AL KS N S) (o : Nat) (a : AL) : acquireRead c' s o a = acquireRead c s o a := by
  unfold Sync.acquireRead tableLen; simp only [h.readPass, h.limit, h.fp, h.overflowAL]

omit [DecidableEq KS] in
theorem Alike.acquireWrite (h : Alike K L c c') (s : State AL KS N S) (o : Nat) (a : AL) : acquireWrite c' s o a = acquireWrite c s o a := by
  unfold Sync.acquireWrite findWrite chain; rw [h.fp, h.eqv, h.ignoreColl]

theorem Alike.initStep (h : Alike K L c c') {r : Nat} (hr : K (s.recs r).obs) : initStep c' s r = initStep c s r := by
  unfold Sync.initStep
  rw [h.leaves _ hr]
  cases hl : (c.leavesOf (s.recs r).obs)[(s.recs r).accs.length]? with
  | none => rfl
  | some l =>
    have := h.closed _ hr l (List.mem_of_getElem? hl)
    simp only [h.filt l this, h.lim l this, h.agg l this, h.newSet, h.overflowKS]

omit [DecidableEq KS] in
theorem Alike.numLeaves (h : Alike K L c c') {r : Nat} (hr : K (s.recs r).obs) : numLeaves c' s r = numLeaves c s r := by
  unfold Sync.numLeaves; rw [h.leaves _ hr]

theorem Alike.stepOp (h : Alike K L c c') (hw : Using K L s) (i : Nat) : stepOp c' s i = stepOp c s i := by
  unfold Sync.stepOp
  dsimp only
  split
  · rfl
  · rfl
  · rw [h.acquireRead]
  · rw [h.acquireWrite]
  · rename_i r hpc
    rw [h.numLeaves (hw.opr i r hpc), h.initStep (hw.opr i r hpc)]
  · rfl
  · rename_i r k sq hpc
    cases ha : (s.recs r).accs[k]? with
    | none => rfl
    | some a =>
      dsimp only
      unfold setAcc
      dsimp only
      rw [h.agg _ (hw.accs r a (List.mem_of_getElem? ha))]
  · rw [h.W]
  · rfl

theorem Alike.stepTask (h : Alike K L c c') (hw : Using K L s) (t ch : Nat) : stepTask c' s t ch = stepTask c s t ch := by
  unfold Sync.stepTask
  split
  · rfl
  · rfl
  · rfl
  · rw [h.periods]
  · rfl
  · rfl
  · rename_i o td r mods modsN rel hpc
    have hr := hw.cur t r (by rw [hpc]; rfl)
    rw [h.numLeaves hr, h.initStep hr]
  · rename_i o td r mods modsN rel k hpc
    cases ha : (s.recs r).accs[k]? with
    | none => rfl
    | some a =>
      dsimp only
      unfold setAcc
      dsimp only
      rw [h.agg _ (hw.accs r a (List.mem_of_getElem? ha))]
  · rename_i o td r mods modsN rel k hpc
    cases ha : (s.recs r).accs[k]? with
    | none => rfl
    | some a =>
      dsimp only
      rw [h.agg _ (hw.accs r a (List.mem_of_getElem? ha))]
  · rfl
  · rfl
  · rename_i l td hpc
    rw [h.delta l (hw.leaf t l (by rw [hpc]; rfl))]
  · rename_i l td k hh nr hpc
    rw [h.agg l (hw.leaf t l (by rw [hpc]; rfl))]

theorem Alike.step (h : Alike K L c c') (hw : Using K L s) (a : Action AL N) : step c' s a = step c s a := by
  cases a with
  | observe o a n => rfl
  | snapshot o => rfl
  | collect l => rfl
  | op i => exact h.stepOp hw i
  | task t ch => exact h.stepTask hw t ch

/-! ### The instruments in use -/

/-- The action is on an instrument in `K` or an output metric in `L`. -/
def Action.In (K L : Nat → Prop) : Action AL N → Prop
  | .observe o _ _ => K o
  | .snapshot _ => True
  | .collect l => L l
  | .op _ => True
  | .task _ _ => True

omit [DecidableEq KS] in
/-- Changes of records which keep their instrument, and of accumulators which keep their output metric. -/
theorem Using.change (h : Using K L s) (hrec : ∀ r, (s'.recs r).obs = (s.recs r).obs ∨ K (s'.recs r).obs)
    (hop : ∀ i, (s'.op i).pc ≠ .idle → K (s'.op i).obs) (hopr : ∀ i r, (s'.op i).pc = .ini r → (s.op i).pc = .ini r ∨ K (s.recs r).obs ∨ K (s'.recs r).obs)
    (htab : ∀ o, ∀ r ∈ s'.table o, r ∈ s.table o ∨ K (s'.recs r).obs)
    (haccs : ∀ r, ∀ a ∈ (s'.recs r).accs, L (s'.acc a).leaf)
    (htodo : ∀ t, ∀ r ∈ (s'.task t).todoR, r ∈ (s.task t).todoR ∨ K (s.recs r).obs)
    (hcur : ∀ t r, (s'.task t).curR = some r → (s.task t).curR = some r ∨ K (s.recs r).obs)
    (hleaf : ∀ t l, (s'.task t).leafR = some l → (s.task t).leafR = some l ∨ L l)
    (hem : ∀ e ∈ s'.emits, e ∈ s.emits ∨ L e.leaf) : Using K L s' := by
  have up : ∀ r, K (s.recs r).obs → K (s'.recs r).obs := by
    intro r hr
    rcases hrec r with e | e
    · rw [e]; exact hr
    · exact e
  refine ⟨hop, fun i r hi => ?_, fun o r hr => ?_, haccs, fun t r hr => ?_, fun t r hr => ?_, fun t l hl => ?_, fun e he => ?_⟩
  · rcases hopr i r hi with h1 | h1 | h1
    · exact up r (h.opr i r h1)
    · exact up r h1
    · exact h1
  · rcases htab o r hr with h1 | h1
    · exact up r (h.table o r h1)
    · exact h1
  · rcases htodo t r hr with h1 | h1
    · exact up r (h.todo t r h1)
    · exact up r h1
  · rcases hcur t r hr with h1 | h1
    · exact up r (h.cur t r h1)
    · exact up r h1
  · rcases hleaf t l hl with h1 | h1
    · exact h.leaf t l h1
    · exact h1
  · rcases hem e he with h1 | h1
    · exact h.emits e h1
    · exact h1

omit [DecidableEq KS] in
theorem Using.setRec (h : Using K L s) (r : Nat) (f : Rec AL → Rec AL) (h1 : (f (s.recs r)).obs = (s.recs r).obs) (h2 : (f (s.recs r)).accs = (s.recs r).accs) :
    Using K L (setRec s r f) := by
  have e1 : ∀ q, ((Sync.setRec s r f).recs q).obs = (s.recs q).obs := by
    intro q; unfold Sync.setRec upd; dsimp only; split
    · rename_i e; subst e; exact h1
    · rfl
  have e2 : ∀ q, ((Sync.setRec s r f).recs q).accs = (s.recs q).accs := by
    intro q; unfold Sync.setRec upd; dsimp only; split
    · rename_i e; subst e; exact h2
    · rfl
  exact h.change (fun q => .inl (e1 q)) h.op (fun _ _ h => .inl h) (fun _ _ h => .inl h) (fun q a ha => h.accs q a (by rw [← e2]; exact ha)) (fun _ _ h => .inl h)
    (fun _ _ h => .inl h) (fun _ _ h => .inl h) (fun _ h => .inl h)

omit [DecidableEq KS] in
theorem Using.setAcc (h : Using K L s) (a : Nat) (f : Acc KS S → Acc KS S) (h1 : (f (s.acc a)).leaf = (s.acc a).leaf) : Using K L (setAcc s a f) := by
  refine h.change (fun _ => .inl rfl) h.op (fun _ _ h => .inl h) (fun _ _ h => .inl h) (fun q b hb => ?_) (fun _ _ h => .inl h)
    (fun _ _ h => .inl h) (fun _ _ h => .inl h) (fun _ h => .inl h)
  have := h.accs q b hb
  unfold Sync.setAcc upd
  dsimp only
  split
  · rename_i e; subst e; rw [h1]; exact this
  · exact this

omit [DecidableEq KS] in
theorem Using.setOpPc (h : Using K L s) (i : Nat) (pc : OPc AL) (h0 : (s.op i).pc ≠ .idle) (h1 : ∀ r, pc = .ini r → K (s.recs r).obs) : Using K L (setOpPc s i pc) := by
  refine h.change (fun _ => .inl rfl) (fun j hj => ?_) (fun j r hj => ?_) (fun _ _ h => .inl h) h.accs (fun _ _ h => .inl h)
    (fun _ _ h => .inl h) (fun _ _ h => .inl h) (fun _ h => .inl h)
  · unfold Sync.setOpPc upd at hj ⊢
    dsimp only at hj ⊢
    split
    · exact h.op i h0
    · rename_i e; rw [if_neg e] at hj; exact h.op j hj
  · unfold Sync.setOpPc upd at hj
    dsimp only at hj
    split at hj
    · exact .inr (.inl (h1 r hj))
    · exact .inl hj

omit [DecidableEq KS] in
theorem Using.setTask (h : Using K L s) (t : Nat) (pc : TPc KS) (h1 : ∀ r ∈ pc.todoR, K (s.recs r).obs) (h2 : ∀ r, pc.curR = some r → K (s.recs r).obs)
    (h3 : ∀ l, pc.leafR = some l → L l) : Using K L (setTask s t pc) := by
  refine h.change (fun _ => .inl rfl) h.op (fun _ _ h => .inl h) (fun _ _ h => .inl h) h.accs (fun q r hr => ?_) (fun q r hr => ?_) (fun q l hl => ?_) (fun _ h => .inl h)
  · unfold Sync.setTask upd at hr
    dsimp only at hr
    split at hr
    · exact .inr (h1 r hr)
    · exact .inl hr
  · unfold Sync.setTask upd at hr
    dsimp only at hr
    split at hr
    · exact .inr (h2 r hr)
    · exact .inl hr
  · unfold Sync.setTask upd at hl
    dsimp only at hl
    split at hl
    · exact .inr (h3 l hl)
    · exact .inl hl

omit [DecidableEq KS] in
theorem Using.setHold (h : Using K L s) (a : Nat) (f : Holder KS S → Holder KS S) : Using K L (setHold s a f) :=
  h.change (fun _ => .inl rfl) h.op (fun _ _ h => .inl h) (fun _ _ h => .inl h) h.accs (fun _ _ h => .inl h) (fun _ _ h => .inl h) (fun _ _ h => .inl h) (fun _ h => .inl h)

omit [DecidableEq KS] in
theorem Using.tryRef (h : Using K L s) (r : Nat) : Using K L (tryRef s r).1 := h.setRec r (fun x => { x with word := (refWord x.word).1 }) rfl rfl

omit [DecidableEq KS] in
theorem chain_table {o : Nat} {f : UInt64} {r : Nat} (h : r ∈ chain c s o f) : r ∈ s.table o := (List.mem_filter.1 h).1

omit [DecidableEq KS] in
theorem findRead_mem {o : Nat} {a : AL} {r : Nat} (h : findRead c s o a = some r) : r ∈ s.table o := by
  unfold findRead at h
  split at h
  · exact chain_table (List.mem_of_head? h)
  · exact chain_table (List.mem_of_find?_eq_some h)

omit [DecidableEq KS] in
theorem tryRef_obs (r q : Nat) : ((tryRef s r).1.recs q).obs = (s.recs q).obs := by
  unfold tryRef Sync.setRec upd; dsimp only; split
  · rename_i e; subst e; rfl
  · rfl

omit [DecidableEq KS] in
theorem Using.readPass (h : Using K L s) (o : Nat) (a : AL) :
    Using K L (readPass c s o a).1 ∧ (∀ i, (readPass c s o a).1.op i = s.op i) ∧ ∀ r, (readPass c s o a).2 = some r → K ((readPass c s o a).1.recs r).obs := by
  unfold Sync.readPass
  cases hf : findRead c s o a with
  | none => exact ⟨h, fun _ => rfl, fun _ h => by cases h⟩
  | some r =>
    refine ⟨h.tryRef r, fun _ => rfl, fun q hq => ?_⟩
    dsimp only at hq ⊢
    split at hq
    · cases hq
      rw [tryRef_obs]
      exact h.table o r (findRead_mem hf)
    · cases hq

omit [DecidableEq KS] in
theorem Using.acquireRead (h : Using K L s) (o : Nat) (a : AL) :
    Using K L (acquireRead c s o a).1 ∧ (∀ i, (acquireRead c s o a).1.op i = s.op i) ∧ ∀ r, (acquireRead c s o a).2.2 = some r → K ((acquireRead c s o a).1.recs r).obs := by
  have h1 := h.readPass (c := c) o a
  unfold Sync.acquireRead
  generalize hr : Sync.readPass c s o a = p at h1
  obtain ⟨s1, r⟩ := p
  cases r with
  | some r => exact ⟨h1.1, h1.2.1, fun q hq => by cases hq; exact h1.2.2 r rfl⟩
  | none =>
    dsimp only
    split
    · have h2 := h1.1.readPass (c := c) o c.overflowAL
      exact ⟨h2.1, fun i => (h2.2.1 i).trans (h1.2.1 i), h2.2.2⟩
    · exact ⟨h1.1, h1.2.1, fun _ h => by cases h⟩

omit [DecidableEq KS] in
theorem Using.acquireWrite (h : Using K L s) {o : Nat} (ho : K o) (a : AL) :
    Using K L (acquireWrite c s o a).1 ∧ (∀ i, (acquireWrite c s o a).1.op i = s.op i) ∧ ∀ r, (acquireWrite c s o a).2 = some r → K ((acquireWrite c s o a).1.recs r).obs := by
  unfold Sync.acquireWrite
  cases hf : findWrite c s o a with
  | some r =>
    refine ⟨h.tryRef r, fun _ => rfl, fun q hq => ?_⟩
    dsimp only at hq ⊢
    split at hq
    · cases hq
      rw [tryRef_obs]
      exact h.table o r (chain_table (List.mem_of_find?_eq_some hf))
    · cases hq
  | none =>
    have hnew : ∀ q, ((upd s.recs s.nextRec (newRec o a)) q).obs = (s.recs q).obs ∨ K ((upd s.recs s.nextRec (newRec o a)) q).obs := by
      intro q; unfold upd; split
      · exact .inr ho
      · exact .inl rfl
    have hat : K ((upd s.recs s.nextRec (newRec o a)) s.nextRec).obs := by unfold upd; rw [if_pos rfl]; exact ho
    refine ⟨h.change hnew h.op (fun _ _ h => .inl h) (fun q r hr => ?_) (fun q b hb => ?_) (fun _ _ h => .inl h) (fun _ _ h => .inl h) (fun _ _ h => .inl h)
      (fun _ h => .inl h), fun _ => rfl, fun q hq => ?_⟩
    · dsimp only at hr
      unfold upd at hr
      split at hr
      · rename_i e
        rcases List.mem_cons.1 hr with rfl | hr
        · exact .inr hat
        · exact .inl (by rw [e]; exact hr)
      · exact .inl hr
    · dsimp only at hb ⊢
      unfold upd at hb
      split at hb
      · exact (List.not_mem_nil hb).elim
      · exact h.accs q b hb
    · dsimp only at hq ⊢
      cases hq
      exact hat

theorem Using.initStep (h : Using K L s) (hc : ∀ o, K o → ∀ l ∈ c.leavesOf o, L l) {r : Nat} (hr : K (s.recs r).obs) (hs : initStep c s r = some s') : Using K L s' := by
  unfold Sync.initStep at hs
  cases hl : (c.leavesOf (s.recs r).obs)[(s.recs r).accs.length]? with
  | none => rw [hl] at hs; cases hs
  | some l =>
    rw [hl] at hs
    dsimp only at hs
    split at hs
    · cases hs
    · have hL := hc _ hr l (List.mem_of_getElem? hl)
      simp only [Option.some.injEq] at hs
      subst hs
      refine h.change (fun q => .inl ?_) h.op (fun _ _ h => .inl h) (fun _ _ h => .inl h) (fun q b hb => ?_) (fun _ _ h => .inl h) (fun _ _ h => .inl h) (fun _ _ h => .inl h)
        (fun _ h => .inl h)
      · unfold upd; dsimp only; split
        · rename_i e; subst e; rfl
        · rfl
      · dsimp only at hb ⊢
        unfold upd at hb ⊢
        by_cases e : b = s.nextAcc
        · rw [if_pos e]; exact hL
        · rw [if_neg e]
          split at hb
          · rename_i e2
            rcases List.mem_append.1 hb with hb | hb
            · exact h.accs r b hb
            · exact absurd (List.mem_singleton.1 hb) e
          · exact h.accs q b hb

theorem Using.stepOp (h : Using K L s) (hc : ∀ o, K o → ∀ l ∈ c.leavesOf o, L l) {i : Nat} (hs : stepOp c s i = some s') : Using K L s' := by
  unfold Sync.stepOp at hs
  dsimp only at hs
  split at hs
  · cases hs
  · cases hs
  · rename_i a hpc
    have h0 : (s.op i).pc ≠ .idle := by rw [hpc]; intro e; cases e
    split at hs
    · cases hs
    · have h1 := h.acquireRead (c := c) (s.op i).obs a
      generalize Sync.acquireRead c s (s.op i).obs a = p at hs h1
      obtain ⟨s1, a1, r⟩ := p
      cases r with
      | some r => cases hs; exact h1.1.setOpPc i _ (by rw [h1.2.1]; exact h0) (fun q hq => by cases hq; exact h1.2.2 r rfl)
      | none => cases hs; exact h1.1.setOpPc i _ (by rw [h1.2.1]; exact h0) (fun q hq => by cases hq)
  · rename_i a hpc
    have h0 : (s.op i).pc ≠ .idle := by rw [hpc]; intro e; cases e
    split at hs
    · cases hs
    · have h1 := h.acquireWrite (c := c) (h.op i h0) a
      generalize Sync.acquireWrite c s (s.op i).obs a = p at hs h1
      obtain ⟨s1, r⟩ := p
      cases r with
      | some r => cases hs; exact h1.1.setOpPc i _ (by rw [h1.2.1]; exact h0) (fun q hq => by cases hq; exact h1.2.2 r rfl)
      | none => cases hs; exact h1.1
  · rename_i r hpc
    have h0 : (s.op i).pc ≠ .idle := by rw [hpc]; intro e; cases e
    split at hs
    · exact h.initStep hc (h.opr i r hpc) hs
    · cases hs; exact h.setOpPc i _ h0 (fun q hq => by cases hq)
  · rename_i r k hpc
    have h0 : (s.op i).pc ≠ .idle := by rw [hpc]; intro e; cases e
    split at hs
    · cases hs
      have h1 : Using K L { s with seq := s.seq + 1 } := h.change (fun _ => .inl rfl) h.op (fun _ _ h => .inl h) (fun _ _ h => .inl h) h.accs (fun _ _ h => .inl h)
        (fun _ _ h => .inl h) (fun _ _ h => .inl h) (fun _ h => .inl h)
      exact h1.setOpPc i _ h0 (fun q hq => by cases hq)
    · cases hs; exact h.setOpPc i _ h0 (fun q hq => by cases hq)
  · rename_i r k sq hpc
    have h0 : (s.op i).pc ≠ .idle := by rw [hpc]; intro e; cases e
    split at hs
    · cases hs
    · rename_i a ha
      cases hs
      have h1 := h.setAcc a (fun x => { x with cur := { val := (c.agg x.leaf).upd x.cur.val (s.op i).num sq, ops := (i, sq) :: x.cur.ops } }) rfl
      have h2 : Using K L { (Sync.setAcc s a (fun x => { x with cur := { val := (c.agg x.leaf).upd x.cur.val (s.op i).num sq, ops := (i, sq) :: x.cur.ops } })) with
          applied := ((s.acc a).leaf, (s.acc a).key, i, sq) :: s.applied } :=
        h1.change (fun _ => .inl rfl) h1.op (fun _ _ h => .inl h) (fun _ _ h => .inl h) h1.accs (fun _ _ h => .inl h) (fun _ _ h => .inl h) (fun _ _ h => .inl h) (fun _ h => .inl h)
      exact h2.setOpPc i _ h0 (fun q hq => by cases hq)
  · rename_i r hpc
    have h0 : (s.op i).pc ≠ .idle := by rw [hpc]; intro e; cases e
    cases hs
    have h1 := h.setRec r (fun x => { x with updateCount := (x.updateCount + 1) % c.W, updN := x.updN + 1 }) rfl rfl
    refine h1.change (fun _ => .inl rfl) (fun j hj => ?_) (fun j q hj => ?_) (fun _ _ h => .inl h) h1.accs (fun _ _ h => .inl h) (fun _ _ h => .inl h) (fun _ _ h => .inl h) (fun _ h => .inl h)
    · unfold upd at hj ⊢
      dsimp only at hj ⊢
      split
      · exact h.op i h0
      · rename_i e; rw [if_neg e] at hj; exact h.op j hj
    · unfold upd at hj
      dsimp only at hj
      split at hj
      · cases hj
      · exact .inl hj
  · rename_i r hpc
    have h0 : (s.op i).pc ≠ .idle := by rw [hpc]; intro e; cases e
    cases hs
    exact (h.setRec r _ rfl rfl).setOpPc i _ h0 (fun q hq => by cases hq)

omit [DecidableEq KS] in
theorem setRec_obs (f : Rec AL → Rec AL) (r q : Nat) (h1 : (f (s.recs r)).obs = (s.recs r).obs) : ((setRec s r f).recs q).obs = (s.recs q).obs := by
  unfold Sync.setRec upd; dsimp only; split
  · rename_i e; subst e; exact h1
  · rfl

omit [DecidableEq KS] in
theorem Using.finishRec (h : Using K L s) (t o : Nat) (td : List Nat) (r mods modsN : Nat) (rel : Bool) (h1 : ∀ r ∈ td, K (s.recs r).obs) :
    Using K L (finishRec s t o td r mods modsN rel) := by
  unfold Sync.finishRec
  dsimp only
  have h2 := h.setRec r (fun x => { x with collectedCount := mods, colN := modsN, inactive := 0 }) rfl rfl
  split
  · have h3 := h2.change (s' := { (Sync.setRec s r (fun x => { x with collectedCount := mods, colN := modsN, inactive := 0 })) with
        table := upd (Sync.setRec s r (fun x => { x with collectedCount := mods, colN := modsN, inactive := 0 })).table o
          (((Sync.setRec s r (fun x => { x with collectedCount := mods, colN := modsN, inactive := 0 })).table o).filter (fun x => !(x == r))) })
      (fun _ => .inl rfl) h2.op (fun _ _ h => .inl h) (fun q u hu => by
        unfold upd at hu
        dsimp only at hu
        split at hu
        · rename_i e; subst e; exact .inl (List.mem_filter.1 hu).1
        · exact .inl hu) h2.accs (fun _ _ h => .inl h) (fun _ _ h => .inl h) (fun _ _ h => .inl h) (fun _ h => .inl h)
    refine h3.setTask t _ (fun q hq => ?_) (fun q hq => by cases hq) (fun l hl => by cases hl)
    have := h1 q hq
    rw [← setRec_obs (fun x => { x with collectedCount := mods, colN := modsN, inactive := 0 }) r q rfl] at this
    exact this
  · refine h2.setTask t _ (fun q hq => ?_) (fun q hq => by cases hq) (fun l hl => by cases hl)
    rw [setRec_obs _ r q rfl]
    exact h1 q hq

theorem Using.stepTask (h : Using K L s) (hc : ∀ o, K o → ∀ l ∈ c.leavesOf o, L l) {t ch : Nat} (hs : stepTask c s t ch = some s') : Using K L s' := by
  unfold Sync.stepTask at hs
  split at hs
  · cases hs
  · cases hs
  · rename_i o hpc
    split at hs
    · cases hs
    · cases hs
      have h1 : Using K L { s with lock := upd s.lock o (some t) } := h.change (fun _ => .inl rfl) h.op (fun _ _ h => .inl h) (fun _ _ h => .inl h) h.accs (fun _ _ h => .inl h)
        (fun _ _ h => .inl h) (fun _ _ h => .inl h) (fun _ h => .inl h)
      exact h1.setTask t _ (fun r hr => h.table o r hr) (fun q hq => by cases hq) (fun l hl => by cases hl)
  · rename_i o td hpc
    have htd : ∀ r ∈ td, K (s.recs r).obs := fun r hr => h.todo t r (by rw [hpc]; exact hr)
    split at hs
    · split at hs
      · cases hs
        have h1 : Using K L { s with lock := upd s.lock o none } := h.change (fun _ => .inl rfl) h.op (fun _ _ h => .inl h) (fun _ _ h => .inl h) h.accs (fun _ _ h => .inl h)
          (fun _ _ h => .inl h) (fun _ _ h => .inl h) (fun _ h => .inl h)
        exact h1.setTask t _ (fun r hr => (List.not_mem_nil hr).elim) (fun q hq => by cases hq) (fun l hl => by cases hl)
      · cases hs
    · rename_i r hr
      dsimp only at hs
      have hrK := htd r (List.mem_of_getElem? hr)
      have hf : ∀ q ∈ td.filter (fun x => !(x == r)), K (s.recs q).obs := fun q hq => htd q (List.mem_filter.1 hq).1
      split at hs
      · have h1 := h.setRec r (fun x => { x with inactive := x.inactive + 1 }) rfl rfl
        split at hs
        · cases hs
          exact h1.setTask t _ (fun q hq => by rw [setRec_obs _ r q rfl]; exact hf q hq) (fun q hq => by cases hq) (fun l hl => by cases hl)
        · cases hs
          exact h1.setTask t _ (fun q hq => by rw [setRec_obs _ r q rfl]; exact hf q hq) (fun q hq => by cases hq; rw [setRec_obs _ r r rfl]; exact hrK) (fun l hl => by cases hl)
      · cases hs
        exact h.setTask t _ hf (fun q hq => by cases hq; exact hrK) (fun l hl => by cases hl)
  · rename_i o td r hpc
    have htd : ∀ r ∈ td, K (s.recs r).obs := fun r hr => h.todo t r (by rw [hpc]; exact hr)
    have hrK : K (s.recs r).obs := h.cur t r (by rw [hpc]; rfl)
    cases hs
    exact (h.setRec r _ rfl rfl).setTask t _ (fun q hq => by rw [setRec_obs _ r q rfl]; exact htd q hq) (fun q hq => by cases hq; rw [setRec_obs _ r r rfl]; exact hrK)
      (fun l hl => by cases hl)
  · rename_i o td r rel hpc
    have htd : ∀ r ∈ td, K (s.recs r).obs := fun r hr => h.todo t r (by rw [hpc]; exact hr)
    have hrK : K (s.recs r).obs := h.cur t r (by rw [hpc]; rfl)
    dsimp only at hs
    split at hs
    · cases hs
      exact (h.setRec r _ rfl rfl).setTask t _ (fun q hq => by rw [setRec_obs _ r q rfl]; exact htd q hq) (fun q hq => by cases hq) (fun l hl => by cases hl)
    · cases hs
      exact h.setTask t _ htd (fun q hq => by cases hq; exact hrK) (fun l hl => by cases hl)
  · rename_i o td r mods modsN rel hpc
    have htd : ∀ r ∈ td, K (s.recs r).obs := fun r hr => h.todo t r (by rw [hpc]; exact hr)
    have hrK : K (s.recs r).obs := h.cur t r (by rw [hpc]; rfl)
    split at hs
    · exact h.initStep hc hrK hs
    · cases hs
      exact h.setTask t _ htd (fun q hq => by cases hq; exact hrK) (fun l hl => by cases hl)
  · rename_i o td r mods modsN rel k hpc
    have htd : ∀ r ∈ td, K (s.recs r).obs := fun r hr => h.todo t r (by rw [hpc]; exact hr)
    have hrK : K (s.recs r).obs := h.cur t r (by rw [hpc]; rfl)
    split at hs
    · cases hs
      exact h.finishRec t o td r mods modsN rel htd
    · split at hs
      · cases hs
      · cases hs
        exact (h.setAcc _ _ rfl).setTask t _ htd (fun q hq => by cases hq; exact hrK) (fun l hl => by cases hl)
  · rename_i o td r mods modsN rel k hpc
    have htd : ∀ r ∈ td, K (s.recs r).obs := fun r hr => h.todo t r (by rw [hpc]; exact hr)
    have hrK : K (s.recs r).obs := h.cur t r (by rw [hpc]; rfl)
    split at hs
    · cases hs
    · cases hs
      exact ((h.setHold _ _).setAcc _ _ rfl).setTask t _ htd (fun q hq => by cases hq; exact hrK) (fun l hl => by cases hl)
  · rename_i o td r mods modsN rel k hpc
    have htd : ∀ r ∈ td, K (s.recs r).obs := fun r hr => h.todo t r (by rw [hpc]; exact hr)
    have hrK : K (s.recs r).obs := h.cur t r (by rw [hpc]; rfl)
    split at hs
    · cases hs
    · rename_i a ha
      dsimp only at hs
      cases rel with
      | false =>
        cases hs
        exact (h.setAcc _ _ rfl).setTask t _ htd (fun q hq => by cases hq; exact hrK) (fun l hl => by cases hl)
      | true =>
        cases hs
        exact ((h.setHold (s.acc a).holder (fun y => { y with aux := y.aux - 1 })).setAcc a (fun x => { x with slock := none, released := true }) rfl).setTask t
          (.mv o td r mods modsN true (k + 1)) htd (fun q hq => by cases hq; exact hrK) (fun l hl => by cases hl)
  · rename_i l hpc
    have hL : L l := h.leaf t l (by rw [hpc]; rfl)
    split at hs
    · cases hs
    · cases hs
      have h1 : Using K L { s with llock := upd s.llock l (some t) } := h.change (fun _ => .inl rfl) h.op (fun _ _ h => .inl h) (fun _ _ h => .inl h) h.accs (fun _ _ h => .inl h)
        (fun _ _ h => .inl h) (fun _ _ h => .inl h) (fun _ h => .inl h)
      exact h1.setTask t _ (fun r hr => (List.not_mem_nil hr).elim) (fun q hq => by cases hq) (fun l' hl => by cases hl; exact hL)
  · rename_i l td hpc
    have hL : L l := h.leaf t l (by rw [hpc]; rfl)
    split at hs
    · split at hs
      · cases hs
        have h1 : Using K L { s with llock := upd s.llock l none } := h.change (fun _ => .inl rfl) h.op (fun _ _ h => .inl h) (fun _ _ h => .inl h) h.accs (fun _ _ h => .inl h)
          (fun _ _ h => .inl h) (fun _ _ h => .inl h) (fun _ h => .inl h)
        exact h1.setTask t _ (fun r hr => (List.not_mem_nil hr).elim) (fun q hq => by cases hq) (fun l' hl => by cases hl)
      · cases hs
    · rename_i k hh he
      dsimp only at hs
      split at hs
      · cases hs
        exact h.setTask t _ (fun r hr => (List.not_mem_nil hr).elim) (fun q hq => by cases hq) (fun l' hl => by cases hl; exact hL)
      · cases hs
        have h1 : Using K L { s with emits := { leaf := l, key := k, val := (s.hold hh).store.val, ops := (s.hold hh).store.ops, kept := true } :: s.emits } :=
          h.change (fun _ => .inl rfl) h.op (fun _ _ h => .inl h) (fun _ _ h => .inl h) h.accs (fun _ _ h => .inl h)
            (fun _ _ h => .inl h) (fun _ _ h => .inl h) (fun e he => by
              rcases List.mem_cons.1 he with rfl | he
              · exact .inr hL
              · exact .inl he)
        exact h1.setTask t _ (fun r hr => (List.not_mem_nil hr).elim) (fun q hq => by cases hq) (fun l' hl => by cases hl; exact hL)
  · rename_i l td k hh nr hpc
    have hL : L l := h.leaf t l (by rw [hpc]; rfl)
    dsimp only at hs
    have h1 := h.setHold hh (fun x => { x with store := { val := (c.agg l).reset (s.hold hh).store.val, ops := [] } })
    split at hs
    all_goals
      cases hs
      refine Using.setTask ?_ t _ (fun r hr => (List.not_mem_nil hr).elim) (fun q hq => by cases hq) (fun l' hl => by cases hl; exact hL)
      refine h1.change (fun _ => .inl rfl) h1.op (fun _ _ h => .inl h) (fun _ _ h => .inl h) h1.accs (fun _ _ h => .inl h)
            (fun _ _ h => .inl h) (fun _ _ h => .inl h) (fun e he => ?_)
      rcases List.mem_cons.1 he with rfl | he
      · exact .inr hL
      · exact .inl he

theorem Using.step (h : Using K L s) (hc : ∀ o, K o → ∀ l ∈ c.leavesOf o, L l) {a : Action AL N} (ha : a.In K L) (hs : step c s a = some s') : Using K L s' := by
  cases a with
  | observe o a n =>
    cases hs
    refine h.change (fun _ => .inl rfl) (fun j hj => ?_) (fun j r hj => ?_) (fun _ _ h => .inl h) h.accs (fun _ _ h => .inl h) (fun _ _ h => .inl h) (fun _ _ h => .inl h)
      (fun _ h => .inl h)
    · unfold upd at hj ⊢
      dsimp only at hj ⊢
      split
      · exact ha
      · rename_i e; rw [if_neg e] at hj; exact h.op j hj
    · unfold upd at hj
      dsimp only at hj
      split at hj
      · cases hj
      · exact .inl hj
  | snapshot o =>
    cases hs
    exact (h.setTask s.nextTask (.lockw o) (fun r hr => (List.not_mem_nil hr).elim) (fun q hq => by cases hq) (fun l' hl => by cases hl)).change
      (fun _ => .inl rfl) h.op (fun _ _ h => .inl h) (fun _ _ h => .inl h) h.accs (fun _ _ h => .inl h) (fun _ _ h => .inl h) (fun _ _ h => .inl h) (fun _ h => .inl h)
  | collect l =>
    cases hs
    exact (h.setTask s.nextTask (.lockl l) (fun r hr => (List.not_mem_nil hr).elim) (fun q hq => by cases hq) (fun l' hl => by cases hl; exact ha)).change
      (fun _ => .inl rfl) h.op (fun _ _ h => .inl h) (fun _ _ h => .inl h) h.accs (fun _ _ h => .inl h) (fun _ _ h => .inl h) (fun _ _ h => .inl h) (fun _ h => .inl h)
  | op i => exact h.stepOp hc hs
  | task t ch => exact h.stepTask hc hs

end Verif.Sync
