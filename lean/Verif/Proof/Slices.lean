import Verif.Model.Slices
import Verif.Proof.SyncIdle
import Verif.Proof.SyncProg

/-!
Helper file: a record that is not completely initialised belongs to a call in progress, so reading the caller's slice gives
the list the call was made with.
-/

namespace Verif.Slices
open Verif Verif.Sync
variable {AL KS N S : Type} [DecidableEq KS] [DecidableEq AL]

/-- The slices of calls in progress are untouched; an incomplete record refers to the slice of a call that is still
initialising it, or to the overflow slice. -/
structure Inv (c : Cfg AL KS N S) (w : State AL KS N S) : Prop where
  mem : ∀ i, i < w.base.nextOp → (w.base.op i).pc ≠ .done → w.mem i = (w.base.op i).attrs
  own : ∀ r i, r < w.base.nextRec → (w.base.recs r).accs.length < numLeaves c w.base r → w.src r = some i →
    i < w.base.nextOp ∧ (w.base.op i).pc = .ini r ∧ (w.base.op i).attrs = (w.base.recs r).attrs
  over : ∀ r, r < w.base.nextRec → (w.base.recs r).accs.length < numLeaves c w.base r → w.src r = none →
    (w.base.recs r).attrs = c.overflowAL

section
variable {c : Cfg AL KS N S} {s s' : Sync.State AL KS N S}
set_option maxHeartbeats 1000000

omit [DecidableEq AL] in
theorem readPass_nextRec (o : Nat) (a : AL) : (readPass c s o a).1.nextRec = s.nextRec := by
  unfold readPass
  split <;> rfl

omit [DecidableEq AL] in
theorem acquireRead_nextRec (o : Nat) (a : AL) : (acquireRead c s o a).1.nextRec = s.nextRec := by
  unfold acquireRead
  split
  · rename_i s1 r h
    have := readPass_nextRec (c := c) (s := s) o a
    rw [h] at this; exact this
  · rename_i s1 h
    have := readPass_nextRec (c := c) (s := s) o a
    rw [h] at this
    split
    · simp only [readPass_nextRec]; exact this
    · exact this

omit [DecidableEq AL] in
theorem initStep_nextRec {r : Nat} (h : initStep c s r = some s') : s'.nextRec = s.nextRec := by
  unfold initStep at h
  split at h
  · cases h
  · split at h
    · cases h
    · simp only [Option.some.injEq] at h
      rw [← h]

omit [DecidableEq AL] in
/-- Records are created only by the write step of a call. -/
theorem created {a : Sync.Action AL N} (h : Sync.step c s a = some s') (hn : s'.nextRec ≠ s.nextRec) :
    ∃ i al, a = .op i ∧ (s.op i).pc = .wr al ∧ s'.nextRec = s.nextRec + 1 ∧ (s'.op i).pc = .ini s.nextRec ∧
      (s'.op i).attrs = (s.op i).attrs ∧ s'.nextOp = s.nextOp ∧
      (s'.recs s.nextRec).attrs = al ∧ (∀ r, r < s.nextRec → s'.recs r = s.recs r) ∧ (∀ j, j ≠ i → s'.op j = s.op j) := by
  cases a with
  | observe o a n => simp only [Sync.step, Option.some.injEq] at h; subst h; exact absurd rfl hn
  | snapshot o => simp only [Sync.step, Option.some.injEq] at h; subst h; exact absurd rfl hn
  | collect l => simp only [Sync.step, Option.some.injEq] at h; subst h; exact absurd rfl hn
  | op i =>
    refine ⟨i, ?_⟩
    simp only [Sync.step, stepOp] at h
    split at h
    · cases h
    · cases h
    · rename_i al hpc
      split at h
      · cases h
      · split at h
        · rename_i s1 _ r he
          have := acquireRead_nextRec (c := c) (s := s) (s.op i).obs al
          rw [he] at this
          simp only [Option.some.injEq] at h; subst h
          exact absurd this hn
        · rename_i s1 _ he
          have := acquireRead_nextRec (c := c) (s := s) (s.op i).obs al
          rw [he] at this
          simp only [Option.some.injEq] at h; subst h
          exact absurd this hn
    · rename_i al hpc
      split at h
      · cases h
      · unfold acquireWrite at h
        cases hf : findWrite c s (s.op i).obs al with
        | some r =>
          rw [hf] at h
          simp only at h
          split at h
          · rename_i s1 r' he
            simp only [Option.some.injEq] at h; subst h
            simp only [tryRef, setRec, Prod.mk.injEq] at he
            rw [← he.1] at hn
            exact absurd rfl hn
          · rename_i s1 he
            simp only [Option.some.injEq] at h; subst h
            simp only [tryRef, setRec, Prod.mk.injEq] at he
            rw [← he.1] at hn
            exact absurd rfl hn
        | none =>
          rw [hf] at h
          simp only [Option.some.injEq] at h
          subst h
          refine ⟨al, rfl, hpc, rfl, ?_, ?_, rfl, ?_, ?_, ?_⟩
          · simp [setOpPc]
          · simp [setOpPc]
          · simp [setOpPc, newRec]
          · intro r hr
            have : r ≠ s.nextRec := by omega
            simp [setOpPc, this]
          · intro j hj
            simp [setOpPc, hj]
    · split at h
      · exact absurd (initStep_nextRec h) hn
      · simp only [Option.some.injEq] at h; subst h; exact absurd rfl hn
    · split at h <;> (simp only [Option.some.injEq] at h; subst h; exact absurd rfl hn)
    · split at h
      · cases h
      · simp only [Option.some.injEq] at h; subst h; exact absurd rfl hn
    · simp only [Option.some.injEq] at h; subst h; exact absurd rfl hn
    · simp only [Option.some.injEq] at h; subst h; exact absurd rfl hn
  | task t ch =>
    exfalso
    apply hn
    simp only [Sync.step, stepTask] at h
    split at h
    case h_7 =>
      split at h
      · exact initStep_nextRec h
      · simp only [Option.some.injEq] at h; subst h; rfl
    all_goals
      (repeat' split at h) <;> first
        | cases h; done
        | (simp only [Option.some.injEq] at h; subst h
           first | rfl | (simp only [finishRec, setTask, setRec, setAcc, setHold]; split <;> rfl))

omit [DecidableEq AL] in
/-- What a step leaves alone. -/
theorem frame (hs : Step c s s') (hi : Sync.Inv c s) :
    s.nextOp ≤ s'.nextOp ∧
    (∀ i, i < s.nextOp → (s'.op i).attrs = (s.op i).attrs ∧ ((s.op i).pc = .done → (s'.op i).pc = .done)) ∧
    (∀ r, r < s.nextRec → (s'.recs r).attrs = (s.recs r).attrs ∧ (s'.recs r).obs = (s.recs r).obs ∧
      (s.recs r).accs.length ≤ (s'.recs r).accs.length) ∧
    (∀ i r, i < s.nextOp → r < s.nextRec → (s.op i).pc = .ini r →
      (s'.recs r).accs.length < (c.leavesOf (s'.recs r).obs).length → (s'.op i).pc = .ini r) := by
  have hid := hi.wf.opIdle
  clear hi
  cases hs
  all_goals
    refine ⟨?_, ?_, ?_, ?_⟩
    · ssimp; try omega
    · intro i hi
      have := hid i
      ssimp
      grind
    · intro r hr
      ssimp
      grind [List.length_append, newRec]
    · intro i r hi hr hp hlen
      revert hlen
      ssimp
      grind [numLeaves]

/-- Under the invariant, the list read from memory is the list the record was created for. -/
theorem listOf_eq {w : State AL KS N S} (h : Inv c w) {r : Nat} (hr : r < w.base.nextRec)
    (hlen : (w.base.recs r).accs.length < numLeaves c w.base r) : listOf c w r = (w.base.recs r).attrs := by
  unfold listOf
  split
  · cases hsrc : w.src r with
    | none => simp only; rw [h.over r hr hlen hsrc]
    | some i =>
      have ho := h.own r i hr hlen hsrc
      simp only
      rw [h.mem i ho.1 (by rw [ho.2.1]; simp), ho.2.2]
  · rfl

omit [DecidableEq KS] [DecidableEq AL] in
theorem setRec_attrs_self {s : Sync.State AL KS N S} {r : Nat} {l : AL} (h : (s.recs r).attrs = l) :
    setRec s r (fun x => { x with attrs := l }) = s := by
  subst h
  have : upd s.recs r (s.recs r) = s.recs := by
    funext y
    simp only [upd_apply]
    split
    · rename_i e; subst e; rfl
    · rfl
  show { s with recs := upd s.recs r (s.recs r) } = s
  rw [this]

omit [DecidableEq AL] in
theorem initStep_attrs {r : Nat} (h : initStep c s r = some s') : (s'.recs r).attrs = (s.recs r).attrs := by
  unfold initStep at h
  split at h
  · cases h
  · split at h
    · cases h
    · simp only [Option.some.injEq] at h
      rw [← h]
      simp

omit [DecidableEq AL] in
/-- Initialising from the list the record was created for is the step of the synchronous machine. -/
theorem initFrom_self (r : Nat) : initFrom c s r (s.recs r).attrs = initStep c s r := by
  unfold initFrom
  rw [setRec_attrs_self rfl]
  cases h : initStep c s r with
  | none => rfl
  | some s' => simp only [Option.map_some, Option.some.injEq]; exact setRec_attrs_self (initStep_attrs h)

omit [DecidableEq AL] in
theorem initialises_step {a : Sync.Action AL N} {r : Nat} (h : initialises c s a = some r) :
    Sync.step c s a = initStep c s r ∧ (s.recs r).accs.length < numLeaves c s r ∧
    ((∃ i, (s.op i).pc = .ini r) ∨ (∃ t o td m mN rel, s.task t = .ini o td r m mN rel)) := by
  unfold initialises at h
  cases a with
  | observe o a n => cases h
  | snapshot o => cases h
  | collect l => cases h
  | op i =>
    simp only at h
    split at h
    · rename_i r' hpc
      split at h
      · rename_i hlt
        simp only [Option.some.injEq] at h; subst h
        refine ⟨?_, hlt, Or.inl ⟨i, hpc⟩⟩
        simp only [Sync.step, stepOp, hpc, if_pos hlt]
      · cases h
    · cases h
  | task t ch =>
    simp only at h
    split at h
    · rename_i o td r' m mN rel hpc
      split at h
      · rename_i hlt
        simp only [Option.some.injEq] at h; subst h
        refine ⟨?_, hlt, Or.inr ⟨t, o, td, m, mN, rel, hpc⟩⟩
        simp only [Sync.step, stepTask, hpc, if_pos hlt]
      · cases h
    · cases h

/-- Under the invariant, a step with the callers' memory is the step of the synchronous machine. -/
theorem base_step {w w' : State AL KS N S} {a : Sync.Action AL N} (hi : Sync.Inv c w.base) (h : Inv c w)
    (hs : step c w (.base a) = some w') : Sync.step c w.base a = some w'.base := by
  simp only [step, Option.map_eq_some_iff] at hs
  obtain ⟨s', h1, h2⟩ := hs
  rw [← h2]
  simp only
  split at h1
  · rename_i r hr
    obtain ⟨e, hlt, hw⟩ := initialises_step hr
    have hr' := ini_lt hi.wf.opRec hi.wf.todoMem hi.wf.tblLt hw
    rw [listOf_eq h hr' hlt, initFrom_self] at h1
    rw [e]; exact h1
  · exact h1

omit [DecidableEq AL] in
theorem readPass_nextOp (o : Nat) (a : AL) : (readPass c s o a).1.nextOp = s.nextOp := by
  unfold readPass
  split <;> rfl

omit [DecidableEq AL] in
theorem acquireRead_nextOp (o : Nat) (a : AL) : (acquireRead c s o a).1.nextOp = s.nextOp := by
  unfold acquireRead
  split
  · rename_i s1 r h
    have := readPass_nextOp (c := c) (s := s) o a
    rw [h] at this; exact this
  · rename_i s1 h
    have := readPass_nextOp (c := c) (s := s) o a
    rw [h] at this
    split
    · simp only [readPass_nextOp]; exact this
    · exact this

omit [DecidableEq AL] in
theorem acquireWrite_nextOp (o : Nat) (a : AL) : (acquireWrite c s o a).1.nextOp = s.nextOp := by
  unfold acquireWrite
  split <;> rfl

omit [DecidableEq AL] in
theorem initStep_nextOp {r : Nat} (h : initStep c s r = some s') : s'.nextOp = s.nextOp := by
  unfold initStep at h
  split at h
  · cases h
  · split at h
    · cases h
    · simp only [Option.some.injEq] at h
      rw [← h]

omit [DecidableEq AL] in
/-- Calls start only by being made. -/
theorem started {a : Sync.Action AL N} (h : Sync.step c s a = some s') :
    (∃ o al n, a = .observe o al n ∧ s'.nextOp = s.nextOp + 1 ∧ (s'.op s.nextOp).attrs = al) ∨
    (s'.nextOp = s.nextOp ∧ ∀ o al n, a ≠ .observe o al n) := by
  cases a with
  | observe o al n =>
    simp only [Sync.step, Option.some.injEq] at h; subst h
    exact Or.inl ⟨o, al, n, rfl, rfl, by simp⟩
  | snapshot o => simp only [Sync.step, Option.some.injEq] at h; subst h; exact Or.inr ⟨rfl, by intros; simp⟩
  | collect l => simp only [Sync.step, Option.some.injEq] at h; subst h; exact Or.inr ⟨rfl, by intros; simp⟩
  | op i =>
    refine Or.inr ⟨?_, by intros; simp⟩
    simp only [Sync.step, stepOp] at h
    split at h
    · cases h
    · cases h
    · rename_i al hpc
      split at h
      · cases h
      · have := acquireRead_nextOp (c := c) (s := s) (s.op i).obs al
        split at h <;> rename_i he <;> rw [he] at this <;> simp only [Option.some.injEq] at h <;> subst h <;> exact this
    · rename_i al hpc
      split at h
      · cases h
      · have := acquireWrite_nextOp (c := c) (s := s) (s.op i).obs al
        split at h <;> rename_i he <;> rw [he] at this <;> simp only [Option.some.injEq] at h <;> subst h <;> exact this
    · split at h
      · exact initStep_nextOp h
      · simp only [Option.some.injEq] at h; subst h; rfl
    · split at h <;> (simp only [Option.some.injEq] at h; subst h; rfl)
    · split at h
      · cases h
      · simp only [Option.some.injEq] at h; subst h; rfl
    · simp only [Option.some.injEq] at h; subst h; rfl
    · simp only [Option.some.injEq] at h; subst h; rfl
  | task t ch =>
    refine Or.inr ⟨?_, by intros; simp⟩
    simp only [Sync.step, stepTask] at h
    split at h
    case h_7 =>
      split at h
      · exact initStep_nextOp h
      · simp only [Option.some.injEq] at h; subst h; rfl
    all_goals
      (repeat' split at h) <;> first
        | cases h; done
        | (simp only [Option.some.injEq] at h; subst h
           first | rfl | (simp only [finishRec, setTask, setRec, setAcc, setHold]; split <;> rfl))

theorem Inv.preserved {w w' : State AL KS N S} {a : Action AL N} (hi : Sync.Inv c w.base) (ho : OpWr c w.base)
    (h : Inv c w) (hs : step c w a = some w') : Inv c w' := by
  cases a with
  | write i v =>
    simp only [step] at hs
    split at hs
    · rename_i hd
      simp only [Option.some.injEq] at hs; subst hs
      refine ⟨?_, h.own, h.over⟩
      intro j hj hp
      have : j ≠ i := by intro e; subst e; exact hp hd
      simp only [upd_ne _ _ this]
      exact h.mem j hj hp
    · cases hs
  | base a =>
    have hb := base_step hi h hs
    have fr := frame (hi.step_sound hb) hi
    simp only [step, Option.map_eq_some_iff] at hs
    obtain ⟨s', -, h2⟩ := hs
    subst h2
    simp only at hb fr ⊢
    obtain ⟨f1, f2, f3, f4⟩ := fr
    constructor
    · intro i hlt hp
      simp only at hlt hp ⊢
      rcases started hb with ⟨o, al, n, rfl, hn, hat⟩ | ⟨hn, hne⟩
      · by_cases e : i = w.base.nextOp
        · subst e; simp only [memAfter, upd_same]; exact hat.symm
        · have hlt' : i < w.base.nextOp := by omega
          simp only [memAfter, upd_ne _ _ e]
          rw [(f2 i hlt').1]
          exact h.mem i hlt' (fun hd => hp ((f2 i hlt').2 hd))
      · have hlt' : i < w.base.nextOp := by omega
        have hm : memAfter w a = w.mem := by
          cases a with
          | observe o al n => exact absurd rfl (hne o al n)
          | _ => rfl
        rw [hm, (f2 i hlt').1]
        exact h.mem i hlt' (fun hd => hp ((f2 i hlt').2 hd))
    all_goals
      intro r
      simp only [numLeaves]
    · intro i hr hlen hsrc
      by_cases hn : s'.nextRec = w.base.nextRec
      · rw [if_pos hn] at hsrc
        rw [hn] at hr
        have f := f3 r hr
        have := h.own r i hr (by simp only [numLeaves]; rw [f.2.1] at hlen; omega) hsrc
        refine ⟨by omega, f4 i r this.1 hr this.2.1 hlen, ?_⟩
        rw [(f2 i this.1).1, f.1]; exact this.2.2
      · rw [if_neg hn] at hsrc
        obtain ⟨j, al, rfl, hpc, hn', hpc', hat, hno, hal, hrs, hops⟩ := created hb hn
        by_cases e : r = w.base.nextRec
        · subst e
          simp only [upd_same, creator, hpc] at hsrc
          split at hsrc
          · rename_i hown
            simp only [Option.some.injEq] at hsrc; subst hsrc
            refine ⟨?_, hpc', ?_⟩
            · rw [hno]
              rcases Nat.lt_or_ge j w.base.nextOp with hlt | hge
              · exact hlt
              · rw [hi.wf.opIdle j hge] at hpc; cases hpc
            · rw [hat, hal, hown]
          · cases hsrc
        · have hr' : r < w.base.nextRec := by omega
          simp only [upd_ne _ _ e] at hsrc
          have f := f3 r hr'
          have := h.own r i hr' (by simp only [numLeaves]; rw [f.2.1] at hlen; omega) hsrc
          refine ⟨by omega, f4 i r this.1 hr' this.2.1 hlen, ?_⟩
          rw [(f2 i this.1).1, f.1]; exact this.2.2
    · intro hr hlen hsrc
      by_cases hn : s'.nextRec = w.base.nextRec
      · rw [if_pos hn] at hsrc
        rw [hn] at hr
        have f := f3 r hr
        rw [f.1]
        exact h.over r hr (by simp only [numLeaves]; rw [f.2.1] at hlen; omega) hsrc
      · rw [if_neg hn] at hsrc
        obtain ⟨j, al, rfl, hpc, hn', hpc', hat, hno, hal, hrs, hops⟩ := created hb hn
        by_cases e : r = w.base.nextRec
        · subst e
          simp only [upd_same, creator, hpc] at hsrc
          split at hsrc
          · cases hsrc
          · rename_i hown
            rw [hal]
            rcases ho.2 j al hpc with h' | h'
            · exact absurd h' hown
            · exact h'
        · have hr' : r < w.base.nextRec := by omega
          simp only [upd_ne _ _ e] at hsrc
          have f := f3 r hr'
          rw [f.1]
          exact h.over r hr' (by simp only [numLeaves]; rw [f.2.1] at hlen; omega) hsrc

omit [DecidableEq KS] [DecidableEq AL] in
theorem Inv.initial (n0 : N) : Inv c (initial c n0) := by
  constructor
  · intro i hi; simp [Slices.initial, Sync.initial] at hi
  · intro r i hr; simp [Slices.initial, Sync.initial] at hr
  · intro r hr; simp [Slices.initial, Sync.initial] at hr

/-- Running with the callers' memory. -/
theorem run_base {n0 : N} {w : State AL KS N S} (acts : List (Action AL N)) : ∀ (w0 : State AL KS N S),
    Reachable c n0 w0.base → Inv c w0 → run c w0 acts = some w →
    Reachable c n0 w.base ∧ Inv c w ∧
    Sync.run c w0.base (acts.filterMap (fun a => match a with | .base b => some b | .write _ _ => none)) = some w.base := by
  induction acts with
  | nil =>
    intro w0 hr hinv h
    simp only [run, Option.some.injEq] at h; subst h
    exact ⟨hr, hinv, rfl⟩
  | cons a as ih =>
    intro w0 hr hinv h
    simp only [run, Option.bind_eq_some_iff] at h
    obtain ⟨w1, h1, h2⟩ := h
    have hp := reachable_prog hr
    have hinv1 := hinv.preserved hp.1 hp.2.opWr h1
    cases a with
    | write i v =>
      have hb : w1.base = w0.base := by
        simp only [step] at h1
        split at h1
        · simp only [Option.some.injEq] at h1; rw [← h1]
        · cases h1
      rw [← hb] at hr ⊢
      exact ih w1 hr hinv1 h2
    | base b =>
      have hb := base_step hp.1 hinv h1
      obtain ⟨i1, i2, i3⟩ := ih w1 (reachable_step hr hb) hinv1 h2
      refine ⟨i1, i2, ?_⟩
      simp only [List.filterMap_cons, Sync.run, hb, Option.bind_some]
      exact i3

end
end Verif.Slices
