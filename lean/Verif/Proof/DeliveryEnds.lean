import Verif.Proof.DeliveryDone

/-!
From the return of `ForceFlush` or `Shutdown` to a program which ends with a collection.
-/

namespace Verif.Sync
variable {AL KS N S : Type} [DecidableEq KS] {c : Cfg AL KS N S} {s s' : State AL KS N S}

omit [DecidableEq KS] in
theorem readPass_ops (o : Nat) (a : AL) : (readPass c s o a).1.op = s.op := by
  unfold readPass
  split <;> rfl

omit [DecidableEq KS] in
theorem acquireRead_ops (o : Nat) (a : AL) : (acquireRead c s o a).1.op = s.op := by
  unfold acquireRead
  have h := readPass_ops (c := c) (s := s) o a
  split
  · rename_i s1 r e
    rw [e] at h
    exact h
  · rename_i s1 e
    rw [e] at h
    dsimp only at h
    split
    · exact (readPass_ops (c := c) (s := s1) o c.overflowAL).trans h
    · exact h

omit [DecidableEq KS] in
theorem acquireWrite_ops (o : Nat) (a : AL) : (acquireWrite c s o a).1.op = s.op := by
  unfold acquireWrite
  split <;> rfl

theorem initStep_ops {r : Nat} (h : initStep c s r = some s') : s'.op = s.op := by
  unfold initStep at h
  split at h
  · cases h
  · split at h
    · cases h
    · cases h; rfl

theorem stepOp_done {i : Nat} (h : stepOp c s i = some s') : (s.op i).pc ≠ .done ∧ ∀ j, j ≠ i → s'.op j = s.op j := by
  have key : ∀ {s1 : State AL KS N S} {pc : OPc AL}, s1.op = s.op → ∀ j, j ≠ i → (setOpPc s1 i pc).op j = s.op j := by
    intro s1 pc h1 j hj
    unfold setOpPc
    show upd _ _ _ j = _
    rw [upd_ne _ _ hj, h1]
  unfold stepOp at h
  dsimp only at h
  split at h
  · cases h
  · cases h
  all_goals (rename_i hpc; refine ⟨by rw [hpc]; simp, ?_⟩)
  · rename_i a
    split at h
    · cases h
    · have hr := acquireRead_ops (c := c) (s := s) (s.op i).obs a
      split at h <;> rename_i e <;> rw [e] at hr <;> cases h <;> first | exact key hr | exact fun j _ => congrFun hr j
  · rename_i a
    split at h
    · cases h
    · have hr := acquireWrite_ops (c := c) (s := s) (s.op i).obs a
      split at h <;> rename_i e <;> rw [e] at hr <;> cases h <;> first | exact key hr | exact fun j _ => congrFun hr j
  · split at h
    · intro j _; rw [initStep_ops h]
    · cases h; exact key rfl
  · split at h <;> cases h <;> exact key rfl
  · split at h
    · cases h
    · cases h; exact key rfl
  · cases h
    intro j hj
    show upd _ _ _ j = _
    rw [upd_ne _ _ hj]
    rfl
  · cases h; exact key (s1 := setRec s _ _) rfl

theorem stepTask_ops {t ch : Nat} (h : stepTask c s t ch = some s') : s'.op = s.op := by
  unfold stepTask at h
  split at h
  · cases h
  · cases h
  · split at h
    · cases h
    · cases h; rfl
  · split at h
    · split at h
      · cases h; rfl
      · cases h
    · dsimp only at h
      split at h
      · split at h <;> cases h <;> rfl
      · cases h; rfl
  · cases h; rfl
  · dsimp only at h
    split at h <;> cases h <;> rfl
  · split at h
    · exact initStep_ops h
    · cases h; rfl
  · split at h
    · cases h
      unfold finishRec
      dsimp only
      show State.op _ = _
      unfold setTask
      dsimp only
      split <;> rfl
    · split at h
      · cases h
      · cases h; rfl
  · split at h
    · cases h
    · cases h; rfl
  · split at h
    · cases h
    · cases h
      show State.op (setTask (setAcc _ _ _) _ _) = _
      unfold setTask setAcc
      dsimp only
      split <;> rfl
  · split at h
    · cases h
    · cases h; rfl
  · split at h
    · split at h
      · cases h; rfl
      · cases h
    · dsimp only at h
      split at h <;> cases h <;> rfl
  · dsimp only at h
    cases h
    show State.op (setTask _ _ _) = _
    unfold setTask
    dsimp only
    split <;> rfl

/-- Calls which have returned have returned. -/
theorem step_done {a : Action AL N} (hna : ∀ o x n, a ≠ .observe o x n) (h : step c s a = some s') (hd : ∀ i, i < s.nextOp → (s.op i).pc = .done) :
    ∀ i, i < s'.nextOp → (s'.op i).pc = .done := by
  rw [nextOp_step hna h]
  intro i hi
  cases a with
  | observe o x n => exact absurd rfl (hna o x n)
  | snapshot o => cases h; exact hd i hi
  | collect l => cases h; exact hd i hi
  | op j =>
    obtain ⟨h1, h2⟩ := stepOp_done h
    by_cases e : i = j
    · subst e
      exact absurd (hd i hi) h1
    · rw [h2 i e]; exact hd i hi
  | task t ch =>
    rw [stepTask_ops h]
    exact hd i hi

end Verif.Sync

namespace Verif.Whole
open Verif.Attr Verif.Number
variable {H : Type} {P : Parts H} {R : Pipeline.Reader H}

theorem run_done {x y : Sys H} {acts : List Act} (hc : calls acts = []) (h : run P R x acts = some y) (hd : ∀ i, i < x.sync.nextOp → (x.sync.op i).pc = .done) :
    ∀ i, i < y.sync.nextOp → (y.sync.op i).pc = .done := by
  induction acts generalizing x with
  | nil => cases h; exact hd
  | cons a acts ih =>
    rw [run] at h
    obtain ⟨x1, h1, h2⟩ := Option.bind_eq_some_iff.1 h
    rw [show a :: acts = [a] ++ acts from rfl, calls, List.filterMap_append, List.append_eq_nil_iff] at hc
    refine ih hc.2 h2 ?_
    cases a with
    | call i as n => cases hc.1
    | sched a =>
      simp only [step] at h1
      split at h1
      · cases h1
      · rename_i hno
        obtain ⟨z, h3, rfl⟩ := Option.map_eq_some_iff.1 h1
        refine Sync.step_done (fun o v n e => hno ?_) h3 hd
        rw [e]
        rfl
    | cb a =>
      simp only [step] at h1
      split at h1
      · cases h1
      · obtain ⟨z, h3, rfl⟩ := Option.map_eq_some_iff.1 h1
        exact hd
    | collect order q =>
      simp only [step] at h1
      obtain ⟨z, h3, rfl⟩ := Option.map_eq_some_iff.1 h1
      exact hd

end Verif.Whole

namespace Verif.Live
open Verif.Attr Verif.Number Verif.Assembly
variable {C G ν : Type} [DecidableEq C]
variable {farm : Str → UInt64} {w : World C G} {fsub : Bits → Bits → Bits} {x : Views.Ext C} {pipe : Nat}

omit [DecidableEq C] in
theorem all_run {acts : List (Act ν)} (h : makes acts = []) : acts = (rest acts).map .run := by
  induction acts with
  | nil => rfl
  | cons a acts ih =>
    cases a with
    | make c => cases h
    | run b => exact congrArg (Act.run b :: ·) (ih h)

theorem Running.front {views : List (Views.Views C)} {as bs : List (Act ν)} {y z : Sys C G ν} (h : Running farm w fsub x views pipe (as ++ bs) z)
    (hy : run farm w fsub x pipe (initial farm w fsub z.p views pipe) as = some y) (hp : y.p = z.p) : Running farm w fsub x views pipe as y := by
  refine ⟨h.resource, fun e he => h.typed e ?_, fun cb o as' v hm => h.observed cb o as' v (List.mem_append_left _ hm), ?_, by rw [hp]; exact hy⟩
  · rw [rest_append, Whole.calls, List.filterMap_append]
    exact List.mem_append_left _ he
  · rw [hp]
    intro before order q after v h1 h2
    exact h.orderly before order q (after ++ bs) v (by rw [h1, List.append_assoc]; rfl) h2

end Verif.Live

namespace Verif.Delivery
open Verif.Attr Verif.Number Verif.Assembly
variable {C G ν : Type} [DecidableEq C]
variable {farm : Str → UInt64} {w : World C G} {fsub : Bits → Bits → Bits} {x : Views.Ext C} {pipe : Nat} {views : List (Views.Views C)} {start : Int}
  {acts after : List (Act ν)} {s s' : Sys C G ν}

/-- The program up to the last collection. -/
theorem Closing.ends (h : Closing farm w fsub x views pipe start acts after s s') :
    ∃ (lacts : List (Live.Act ν)) (coll : List Whole.Act) (z z' : Live.Sys C G ν), Live.Ending farm w fsub x views pipe lacts coll z z' ∧ z'.p = s'.z.p ∧ z'.s.sent = s'.z.s.sent ∧
      Live.makes lacts = makes acts ∧ Whole.calls (Live.rest lacts) = Pipeline.calls (measured acts) ∧
      ∃ ls, lacts = lives farm w fsub x pipe (initial farm w fsub s'.z.p views pipe start) acts ++ ls.map .run ∧ Whole.calls ls = [] := by
  generalize hi : initial farm w fsub s'.z.p views pipe start = ini
  have hbefore := h.before
  have hruns := h.running.runs
  rw [hi] at hbefore hruns
  have hafter : run farm w fsub x pipe s after = some s' := by
    rw [run_append, hbefore] at hruns
    exact hruns
  have hlive := h.running.live
  rw [hi, lives_append hbefore] at hlive
  have hlk : Locked s := by
    have := locked_initial (farm := farm) (w := w) (fsub := fsub) (pipe := pipe) s'.z.p views start
    rw [hi] at this
    exact this.run hbefore
  -- the provider does not change any more
  have hmk : Live.makes (lives farm w fsub x pipe s after) = [] := by rw [lives_makes hafter]; exact h.quiet.1
  have hW := Live.all_run hmk
  have hcW : Whole.calls (Live.rest (lives farm w fsub x pipe s after)) = [] := by rw [lives_calls hafter, h.quiet.2]; rfl
  generalize hWW : Live.rest (lives farm w fsub x pipe s after) = W at hW hcW
  rw [hW] at hlive
  have hrun := run_lives hafter
  rw [hW] at hrun
  obtain ⟨hpp, hrunW⟩ := Live.fixed_run hrun
  have hlist : ∀ m ∈ s.z.p.ordered, Provider.Listed m := by
    have := Live.run_prov (run_lives hbefore)
    rw [this]
    refine Provider.listed_run ?_ _
    intro m hm
    rw [← hi] at hm
    cases hm
  have hn : 1 ≤ s.r.threads.length := by
    obtain ⟨th, h1, -⟩ := hlk.per.loop
    exact (List.getElem?_eq_some_iff.1 h1).1
  have start : Ahead s.z.p pipe (Whole.parts farm w fsub s.z.p pipe) (reader w s.z.p pipe) s.z.s s.r.threads.length [] s := by
    refine ⟨rfl, rfl, hlk, Or.inr ⟨fun t th ht hth => ?_, fun ⟨t, th, ht, hth, _⟩ => ?_⟩⟩
    · rw [List.getElem?_eq_none ht] at hth; cases hth
    · rw [List.getElem?_eq_none ht] at hth; cases hth
  have fin := start.run hlist hn h.quiet.1 hafter
  rw [List.nil_append, hWW] at fin
  obtain ⟨t, kind, ht, hth⟩ := h.call
  have hdone := fin.phase.elim (·.1) (fun hh => absurd (Or.inr (Or.inr rfl)) (hh.1 t _ ht hth))
  obtain ⟨ls, mid, tail, y, y', g1, g2, g3, g4, g5, g6, -⟩ := hdone
  rw [g1] at hrun hcW hlive
  rw [List.map_append, List.map_append, Live.run_append, Live.run_append] at hrun
  obtain ⟨z2, hrun, k3⟩ := Option.bind_eq_some_iff.1 hrun
  obtain ⟨z1, k1, k2⟩ := Option.bind_eq_some_iff.1 hrun
  obtain ⟨p1, q1⟩ := Live.fixed_run k1
  rw [g2] at q1
  have q1 := Option.some.inj q1
  obtain ⟨p2, q2⟩ := Live.fixed_run k2
  rw [p1, ← q1, g3] at q2
  have q2 := Option.some.inj q2
  have hz2 : z2.p = s'.z.p := by rw [p2, p1, hpp]
  rw [Whole.calls, List.filterMap_append, List.filterMap_append, List.append_eq_nil_iff, List.append_eq_nil_iff] at hcW
  have hz1 : Live.run farm w fsub x pipe ini.z (lives farm w fsub x pipe ini acts ++ ls.map .run) = some z1 := by
    rw [Live.run_append, run_lives hbefore]
    exact k1
  have hiz : Live.initial farm w fsub z2.p views pipe = ini.z := by rw [← hi, hz2]; rfl
  refine ⟨lives farm w fsub x pipe ini acts ++ ls.map .run, mid, z1, z2, ?_, hz2, ?_, ?_, ?_, ls, rfl, hcW.1.1⟩
  · refine ⟨?_, ?_, ?_, ?_, ?_, hcW.1.2⟩
    · rw [List.map_append, List.map_append, ← List.append_assoc, ← List.append_assoc] at hlive
      refine hlive.front ?_ hz2
      rw [← hz2, hiz, Live.run_append, hz1]
      exact k2
    · rw [Live.rest_append, Live.rest_run, Whole.calls, List.filterMap_append, hcW.1.1, List.append_nil]
      show (Whole.calls _).length < _
      rw [lives_calls hbefore]
      exact Nat.lt_of_le_of_lt (List.length_filterMap_le ..) h.few
    · rw [hiz]; exact hz1
    · rw [← q1]
      exact Whole.run_done hcW.1.1 g2 h.returned
    · rw [p1, ← q1, ← q2]
      intro sc hsc o ho hsy
      obtain ⟨⟨m, k⟩, hmk', rfl⟩ := List.mem_map.1 hsc
      have hk := List.mem_zipIdx_iff_getElem?.1 hmk'
      obtain ⟨j, hj⟩ := List.getElem?_of_mem ho
      rw [Live.outs_get] at hj
      obtain ⟨f, h4, rfl⟩ := Option.map_eq_some_iff.1 hj
      obtain ⟨c, h5, h6⟩ := Option.bind_eq_some_iff.1 h4
      exact g6 k m c j hk h5 (List.getElem?_eq_some_iff.1 h6).1 hsy
  · rw [← q2, g5]
  · rw [Live.makes_append, Live.makes_run, List.append_nil, lives_makes hbefore]
  · rw [Live.rest_append, Live.rest_run, Whole.calls, List.filterMap_append, hcW.1.1, List.append_nil]
    exact lives_calls hbefore

/-- Calls are made where they are. -/
theorem lives_call {s : Sys C G ν} {acts : List (Act ν)} {b : List (Live.Act ν)} {i : Front.Inst} {kvs : List KV} {n : Bits} {c : List (Live.Act ν)}
    {z : Live.Sys C G ν} (h : lives farm w fsub x pipe s acts = b ++ .run (.call i kvs n) :: c) (hb : Live.run farm w fsub x pipe s.z b = some z) :
    ∃ before after y, acts = before ++ .call i kvs n :: after ∧ run farm w fsub x pipe s before = some y ∧ y.z = z := by
  induction acts generalizing s b with
  | nil => rw [lives] at h; simp at h
  | cons a acts ih =>
    rw [lives] at h
    cases hl : liveOf pipe s a with
    | none =>
      rw [hl, Option.toList_none, List.nil_append] at h
      split at h
      · simp at h
      · rename_i y hy
        have hz := step_live hy
        rw [hl] at hz
        have hz : s.z = y.z := Option.some.inj hz
        obtain ⟨before, after, v, h1, h2, h4⟩ := ih h (by rw [← hz]; exact hb)
        exact ⟨a :: before, after, v, by rw [h1]; rfl, by rw [run, hy]; exact h2, h4⟩
    | some la =>
      rw [hl, Option.toList_some, List.singleton_append] at h
      cases b with
      | nil =>
        obtain ⟨rfl, -⟩ := List.cons.inj h
        cases hb
        cases a with
        | call i' kvs' n' =>
          simp only [liveOf, Option.some.injEq, Live.Act.run.injEq, Whole.Act.call.injEq] at hl
          obtain ⟨rfl, rfl, rfl⟩ := hl
          exact ⟨[], acts, s, rfl, rfl, rfl⟩
        | reader a' order' =>
          rcases readerLive_cases s a' order' with e | ⟨_, e, hr, -⟩ <;> rw [liveOf, e] at hl <;> cases hl
        | produce now =>
          rcases produceLive_cases pipe s with e | ⟨_, e⟩ | ⟨_, e⟩ <;> rw [liveOf, e] at hl <;> cases hl
        | _ => simp [liveOf] at hl
      | cons lb b =>
        obtain ⟨rfl, h'⟩ := List.cons.inj h
        clear h
        split at h'
        · simp at h'
        · rename_i y hy
          have hz := step_live hy
          rw [hl] at hz
          rw [Live.run] at hb
          obtain ⟨z1, h5, h6⟩ := Option.bind_eq_some_iff.1 hb
          rw [Option.toList_some, run_one h5] at hz
          cases hz
          obtain ⟨before, after, v, h1, h2, h4⟩ := ih h' h6
          exact ⟨a :: before, after, v, by rw [h1]; rfl, by rw [run, hy]; exact h2, h4⟩

/-! ### The reader -/

theorem step_reader {a : Act ν} (h : step farm w fsub x pipe s a = some s') : s'.r = Periodic.run s.r (readerActs [a]) := by
  by_cases ha : outside a = true
  · rw [(outside_keeps ha h).1]
    cases a <;> first | rfl | cases ha
  · cases a with
    | produce now => exact (produce_keeps h).1
    | reader a order =>
      simp only [step] at h
      split at h
      · split at h
        · obtain ⟨z, -, rfl⟩ := Option.map_eq_some_iff.1 h
          rfl
        · cases h
      · cases h
        rfl
    | _ => exact absurd rfl ha

theorem run_reader (h : run farm w fsub x pipe s acts = some s') : s'.r = Periodic.run s.r (readerActs acts) := by
  induction acts generalizing s with
  | nil => cases h; rfl
  | cons a acts ih =>
    rw [run] at h
    obtain ⟨y, h1, h2⟩ := Option.bind_eq_some_iff.1 h
    rw [ih h2, step_reader h1, show a :: acts = [a] ++ acts from rfl, readerActs, readerActs, readerActs, List.filterMap_append, Periodic.run, Periodic.run, Periodic.run,
      List.foldl_append]

/-- Steps which do not end a collection send nothing. -/
theorem live_sent {z z' : Live.Sys C G ν} {b : Live.Act ν} (hb : ∀ order q, b ≠ .run (.collect order q)) (h : Live.step farm w fsub x pipe z b = some z') :
    z'.s.sent = z.s.sent := by
  cases b with
  | make c => cases h; rfl
  | run b =>
    simp only [Live.step] at h
    split at h
    · obtain ⟨y, h1, rfl⟩ := Option.map_eq_some_iff.1 h
      refine step_sent ?_ h1
      cases b with
      | collect order q => exact absurd rfl (hb order q)
      | _ => rfl
    · cases h

/-- The collections made. -/
def collectsOf (log : List (Nat × Periodic.What)) : List Nat := log.filterMap (fun e => match e.2 with | .collect => some e.1 | _ => none)

theorem collects_step (r : Periodic.State) (a : Periodic.Act) : (collectsOf (Periodic.step r a).log).length = (collectsOf r.log).length + (returns r a).toNat := by
  cases a with
  | tick => rfl
  | callShutdown => rfl
  | callFlush => rfl
  | go t quit =>
    simp only [Periodic.step, returns]
    cases ht : r.threads[t]? with
    | none => rfl
    | some th =>
      dsimp only
      unfold Periodic.advance
      cases hp : th.pos with
      | idle =>
        dsimp only
        unfold Periodic.select
        split
        · split <;> rfl
        · split <;> rfl
      | start => rfl
      | stopped => dsimp only; split <;> rfl
      | wait => dsimp only; split <;> rfl
      | crit c =>
        have happ : ∀ e, collectsOf (r.log ++ [e]) = collectsOf r.log ++ collectsOf [e] := fun e => List.filterMap_append ..
        cases c with
        | locked =>
          show (collectsOf (r.log ++ [(t, Periodic.What.collect)])).length = _
          rw [happ, List.length_append]
          rfl
        | produced =>
          show (collectsOf (r.log ++ [(t, Periodic.What.export th.kind)])).length = _
          rw [happ, List.length_append]
          rfl
        | exporting =>
          show (collectsOf (r.log ++ [(t, Periodic.What.returned)])).length = _
          rw [happ, List.length_append]
          rfl
      | done => rfl

omit [DecidableEq C] in
theorem collections_append (as bs : List Whole.Act) : Whole.collections (as ++ bs) = Whole.collections as ++ Whole.collections bs := List.filterMap_append ..

theorem step_collects {a : Act ν} (h : step farm w fsub x pipe s a = some s') :
    (collectsOf s'.r.log).length = (collectsOf s.r.log).length + (Whole.collections (Live.rest (liveOf pipe s a).toList)).length := by
  by_cases ha : outside a = true
  · rw [(outside_keeps ha h).1]
    cases a <;> first | rfl | cases ha
  · cases a with
    | produce now =>
      rw [(produce_keeps h).1]
      rcases produceLive_cases pipe s with e | ⟨_, e⟩ | ⟨_, e⟩ <;> rw [liveOf, e] <;> rfl
    | reader a order =>
      show _ = _ + (Whole.collections (Live.rest (readerLive s a order).toList)).length
      simp only [step] at h
      unfold readerLive
      split at h
      · rename_i hr
        split at h
        · rename_i hpos
          obtain ⟨z, -, rfl⟩ := Option.map_eq_some_iff.1 h
          dsimp only
          rw [collects_step, hpos]
          rw [if_pos hr, hr]
          rfl
        · cases h
      · rename_i hr
        cases h
        dsimp only
        rw [collects_step, if_neg hr, Bool.eq_false_iff.2 hr]
        rfl
    | _ => exact absurd rfl ha

theorem run_collects (h : run farm w fsub x pipe s acts = some s') :
    (collectsOf s'.r.log).length = (collectsOf s.r.log).length + (Whole.collections (Live.rest (lives farm w fsub x pipe s acts))).length := by
  induction acts generalizing s with
  | nil => cases h; rfl
  | cons a acts ih =>
    rw [run] at h
    obtain ⟨y, h1, h2⟩ := Option.bind_eq_some_iff.1 h
    rw [ih h2, step_collects h1, lives, h1, Live.rest_append, collections_append, List.length_append]
    dsimp only
    omega

/-! ### After a shutdown -/

/-- Every goroutine of the reader has returned. -/
def AllDone (r : Periodic.State) : Prop := ∀ (t : Nat) (th : Periodic.Thread), r.threads[t]? = some th → th.pos = .done

theorem all_done_step {r : Periodic.State} {a : Periodic.Act} (h : AllDone r) (ha : a ≠ .callFlush ∧ a ≠ .callShutdown) : AllDone (Periodic.step r a) ∧ returns r a = false := by
  cases a with
  | tick => exact ⟨h, rfl⟩
  | callShutdown => exact absurd rfl ha.2
  | callFlush => exact absurd rfl ha.1
  | go t quit =>
    simp only [Periodic.step, returns]
    cases ht : r.threads[t]? with
    | none => exact ⟨h, rfl⟩
    | some th =>
      have hd := h t th ht
      refine ⟨?_, by simp [hd]⟩
      dsimp only
      unfold Periodic.advance
      rw [hd]
      exact h

theorem silent (hd : AllDone s.r) (hq : ∀ a ∈ readerActs acts, a ≠ .callFlush ∧ a ≠ .callShutdown) (h : run farm w fsub x pipe s acts = some s') : s'.z.s.sent = s.z.s.sent := by
  induction acts generalizing s with
  | nil => cases h; rfl
  | cons a acts ih =>
    rw [run] at h
    obtain ⟨y, h1, h2⟩ := Option.bind_eq_some_iff.1 h
    rw [show a :: acts = [a] ++ acts from rfl, readerActs, List.filterMap_append] at hq
    have hy : AllDone y.r ∧ ∀ order q, liveOf pipe s a ≠ some (.run (.collect order q)) := by
      by_cases ha : outside a = true
      · refine ⟨by rw [(outside_keeps ha h1).1]; exact hd, fun order q e => ?_⟩
        cases a <;> first | (cases e; done) | (cases ha; done)
      · cases a with
        | produce now =>
          refine ⟨by rw [(produce_keeps h1).1]; exact hd, fun order q e => ?_⟩
          rcases produceLive_cases pipe s with e' | ⟨_, e'⟩ | ⟨_, e'⟩ <;> rw [liveOf, e'] at e <;> cases e
        | reader a order =>
          obtain ⟨g1, g2⟩ := all_done_step hd (hq a (List.mem_append_left _ (List.mem_singleton.2 rfl)))
          refine ⟨by rw [step_reader h1]; exact g1, fun order' q e => ?_⟩
          rw [liveOf] at e
          unfold readerLive at e
          rw [g2] at e
          cases e
        | _ => exact absurd rfl ha
    rw [ih hy.1 (fun a ha => hq a (List.mem_append_right _ ha)) h2]
    have hl := step_live h1
    cases hla : liveOf pipe s a with
    | none =>
      rw [hla] at hl
      rw [Option.some.inj hl]
    | some b =>
      rw [hla] at hl
      rw [Option.toList_some, Live.run] at hl
      obtain ⟨z, h3, h4⟩ := Option.bind_eq_some_iff.1 hl
      have h4 : z = y.z := Option.some.inj h4
      rw [← h4]
      exact live_sent (fun order q e => hy.2 order q (by rw [hla, e])) h3

end Verif.Delivery
