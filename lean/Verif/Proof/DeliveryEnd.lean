import Verif.Proof.Delivery

/-!
When `ForceFlush` or `Shutdown` has returned, everything was collected.
-/

namespace Verif.Sync
variable {AL KS N S : Type} [DecidableEq KS] {c : Cfg AL KS N S} {s s' : State AL KS N S}

/-! ### Finished tasks -/

omit [DecidableEq KS] in
theorem readPass_tasks (o : Nat) (a : AL) : (readPass c s o a).1.task = s.task ∧ (readPass c s o a).1.nextTask = s.nextTask := by
  unfold readPass
  split <;> exact ⟨rfl, rfl⟩

omit [DecidableEq KS] in
theorem acquireRead_tasks (o : Nat) (a : AL) : (acquireRead c s o a).1.task = s.task ∧ (acquireRead c s o a).1.nextTask = s.nextTask := by
  unfold acquireRead
  have h := readPass_tasks (c := c) (s := s) o a
  split
  · rename_i s1 r e
    rw [e] at h
    exact h
  · rename_i s1 e
    rw [e] at h
    dsimp only at h
    split
    · have h' := readPass_tasks (c := c) (s := s1) o c.overflowAL
      exact ⟨h'.1.trans h.1, h'.2.trans h.2⟩
    · exact h

omit [DecidableEq KS] in
theorem acquireWrite_tasks (o : Nat) (a : AL) : (acquireWrite c s o a).1.task = s.task ∧ (acquireWrite c s o a).1.nextTask = s.nextTask := by
  unfold acquireWrite
  split <;> exact ⟨rfl, rfl⟩

theorem initStep_tasks {r : Nat} (h : initStep c s r = some s') : s'.task = s.task ∧ s'.nextTask = s.nextTask := by
  unfold initStep at h
  split at h
  · cases h
  · split at h
    · cases h
    · cases h; exact ⟨rfl, rfl⟩

theorem stepOp_tasks {i : Nat} (h : stepOp c s i = some s') : s'.task = s.task ∧ s'.nextTask = s.nextTask := by
  unfold stepOp at h
  dsimp only at h
  split at h
  · cases h
  · cases h
  · rename_i a _
    split at h
    · cases h
    · have hr := acquireRead_tasks (c := c) (s := s) (s.op i).obs a
      split at h <;> rename_i e <;> rw [e] at hr <;> cases h <;> exact hr
  · rename_i a _
    split at h
    · cases h
    · have hr := acquireWrite_tasks (c := c) (s := s) (s.op i).obs a
      split at h <;> rename_i e <;> rw [e] at hr <;> cases h <;> exact hr
  · split at h
    · exact initStep_tasks h
    · cases h; exact ⟨rfl, rfl⟩
  · split at h <;> cases h <;> exact ⟨rfl, rfl⟩
  · split at h
    · cases h
    · cases h; exact ⟨rfl, rfl⟩
  · cases h; exact ⟨rfl, rfl⟩
  · cases h; exact ⟨rfl, rfl⟩

theorem stepTask_tasks {t ch : Nat} (h : stepTask c s t ch = some s') : s.task t ≠ .done ∧ s'.nextTask = s.nextTask ∧ ∀ u, u ≠ t → s'.task u = s.task u := by
  have key : ∀ {s1 : State AL KS N S} {pc : TPc KS}, s1.task = s.task → s1.nextTask = s.nextTask →
      (setTask s1 t pc).nextTask = s.nextTask ∧ ∀ u, u ≠ t → (setTask s1 t pc).task u = s.task u := by
    intro s1 pc h1 h2
    refine ⟨h2, fun u hu => ?_⟩
    show upd s1.task t pc u = _
    rw [upd_ne _ _ hu, h1]
  unfold stepTask at h
  split at h
  · cases h
  · cases h
  all_goals (rename_i hpc; refine ⟨by rw [hpc]; simp, ?_⟩)
  · split at h
    · cases h
    · cases h; exact key rfl rfl
  · split at h
    · split at h
      · cases h; exact key rfl rfl
      · cases h
    · dsimp only at h
      split at h
      · split at h <;> cases h <;> exact key rfl rfl
      · cases h; exact key rfl rfl
  · cases h; exact key rfl rfl
  · dsimp only at h
    split at h <;> cases h <;> exact key rfl rfl
  · split at h
    · obtain ⟨h1, h2⟩ := initStep_tasks h
      exact ⟨h2, fun u _ => by rw [h1]⟩
    · cases h; exact key rfl rfl
  · split at h
    · cases h
      unfold finishRec
      dsimp only
      refine key ?_ ?_ <;> split <;> rfl
    · split at h
      · cases h
      · cases h; exact key rfl rfl
  · split at h
    · cases h
    · cases h; exact key rfl rfl
  · split at h
    · cases h
    · cases h
      refine key ?_ ?_ <;> show _ = _ <;> unfold setAcc <;> dsimp only <;> split <;> rfl
  · split at h
    · cases h
    · cases h; exact key rfl rfl
  · split at h
    · split at h
      · cases h; exact key rfl rfl
      · cases h
    · dsimp only at h
      split at h <;> cases h <;> exact key rfl rfl
  · dsimp only at h
    cases h
    refine key ?_ ?_ <;> split <;> rfl

theorem step_tasks {a : Action AL N} (h : step c s a = some s') : s.nextTask ≤ s'.nextTask ∧ ∀ t, t < s.nextTask → s.task t = .done → s'.task t = .done := by
  cases a with
  | observe o a n => cases h; exact ⟨Nat.le_refl _, fun _ _ h => h⟩
  | snapshot o =>
    cases h
    refine ⟨Nat.le_succ _, fun t ht hd => ?_⟩
    show upd _ _ _ _ = _
    rw [upd_ne _ _ (by omega)]
    exact hd
  | collect l =>
    cases h
    refine ⟨Nat.le_succ _, fun t ht hd => ?_⟩
    show upd _ _ _ _ = _
    rw [upd_ne _ _ (by omega)]
    exact hd
  | op i =>
    obtain ⟨h1, h2⟩ := stepOp_tasks h
    exact ⟨Nat.le_of_eq h2.symm, fun t _ hd => by rw [h1]; exact hd⟩
  | task u ch =>
    obtain ⟨h0, h1, h2⟩ := stepTask_tasks h
    refine ⟨Nat.le_of_eq h1.symm, fun t _ hd => ?_⟩
    rw [h2 t (fun e => h0 (by rw [← e]; exact hd))]
    exact hd

end Verif.Sync

namespace Verif.Whole
open Verif.Attr Verif.Number
variable {H : Type} {P : Parts H} {R : Pipeline.Reader H} {x x' y y' : Sys H} {mid : List Act} {a : Act} {o l t : Nat}

theorem step_tasks (h : step P R y a = some y') : y.sync.nextTask ≤ y'.sync.nextTask ∧ ∀ t, t < y.sync.nextTask → y.sync.task t = .done → y'.sync.task t = .done := by
  cases a with
  | call i as n =>
    cases h
    show _ ≤ (Front.observe P.c y.sync (some i) as n).nextTask ∧ ∀ t, _ → _ → (Front.observe P.c y.sync (some i) as n).task t = _
    unfold Front.observe
    dsimp only
    split
    · exact ⟨Nat.le_refl _, fun _ _ h => h⟩
    · exact ⟨Nat.le_refl _, fun _ _ h => h⟩
  | sched a =>
    simp only [step] at h
    split at h
    · cases h
    · obtain ⟨s, h1, rfl⟩ := Option.map_eq_some_iff.1 h
      exact Sync.step_tasks h1
  | cb a =>
    simp only [step] at h
    split at h
    · cases h
    · obtain ⟨s, h1, rfl⟩ := Option.map_eq_some_iff.1 h
      exact ⟨Nat.le_refl _, fun _ _ h => h⟩
  | collect order q =>
    simp only [step] at h
    obtain ⟨s, h1, rfl⟩ := Option.map_eq_some_iff.1 h
    exact ⟨Nat.le_refl _, fun _ _ h => h⟩

/-- From `x`, the actions `mid` lead to `y`; in them the snapshot of the instrument `o` was started as task `t`. -/
def Snap (P : Parts H) (R : Pipeline.Reader H) (x : Sys H) (mid : List Act) (y : Sys H) (o t : Nat) : Prop :=
  ∃ m1 m2 v, mid = m1 ++ .sched (.snapshot o) :: m2 ∧ run P R x m1 = some v ∧ v.sync.nextTask = t ∧ t < y.sync.nextTask

/-- It is finished. -/
def Snapped (P : Parts H) (R : Pipeline.Reader H) (x : Sys H) (mid : List Act) (y : Sys H) (o : Nat) : Prop :=
  ∃ t, Snap P R x mid y o t ∧ y.sync.task t = .done

/-- The collection of the output metric `l` was started as task `t`, after finished snapshots of all its instruments. -/
def Coll (P : Parts H) (R : Pipeline.Reader H) (x : Sys H) (mid : List Act) (y : Sys H) (l t : Nat) : Prop :=
  ∃ m1 m2 v, mid = m1 ++ .sched (.collect l) :: m2 ∧ run P R x m1 = some v ∧ v.sync.nextTask = t ∧ t < y.sync.nextTask ∧
    ∀ o, l ∈ P.c.leavesOf o → Snapped P R x m1 v o

/-- It is finished. -/
def Colled (P : Parts H) (R : Pipeline.Reader H) (x : Sys H) (mid : List Act) (y : Sys H) (l : Nat) : Prop :=
  ∃ t, Coll P R x mid y l t ∧ y.sync.task t = .done

theorem Snap.more (h : Snap P R x mid y o t) (hs : step P R y a = some y') : Snap P R x (mid ++ [a]) y' o t := by
  obtain ⟨m1, m2, v, h1, h2, h3, h4⟩ := h
  exact ⟨m1, m2 ++ [a], v, by rw [h1, List.append_assoc]; rfl, h2, h3, Nat.lt_of_lt_of_le h4 (step_tasks hs).1⟩

theorem Snapped.more (h : Snapped P R x mid y o) (hs : step P R y a = some y') : Snapped P R x (mid ++ [a]) y' o := by
  obtain ⟨t, h1, h2⟩ := h
  have h1' := h1
  obtain ⟨-, -, -, -, -, -, h4⟩ := h1'
  exact ⟨t, h1.more hs, (step_tasks hs).2 t h4 h2⟩

theorem Coll.more (h : Coll P R x mid y l t) (hs : step P R y a = some y') : Coll P R x (mid ++ [a]) y' l t := by
  obtain ⟨m1, m2, v, h1, h2, h3, h4, h5⟩ := h
  exact ⟨m1, m2 ++ [a], v, by rw [h1, List.append_assoc]; rfl, h2, h3, Nat.lt_of_lt_of_le h4 (step_tasks hs).1, h5⟩

theorem Colled.more (h : Colled P R x mid y l) (hs : step P R y a = some y') : Colled P R x (mid ++ [a]) y' l := by
  obtain ⟨t, h1, h2⟩ := h
  have h1' := h1
  obtain ⟨-, -, -, -, -, -, h4, -⟩ := h1'
  exact ⟨t, h1.more hs, (step_tasks hs).2 t h4 h2⟩

theorem Snap.start (hr : run P R x mid = some y) (hs : step P R y (.sched (.snapshot o)) = some y') :
    Snap P R x (mid ++ [.sched (.snapshot o)]) y' o y.sync.nextTask := by
  refine ⟨mid, [], y, rfl, hr, rfl, ?_⟩
  simp only [step, Pipeline.isObserve, Bool.false_eq_true, if_false, Sync.step, Option.map_some, Option.some.injEq] at hs
  rw [← hs]
  exact Nat.lt_succ_self _

theorem Coll.start (hr : run P R x mid = some y) (hd : ∀ o, l ∈ P.c.leavesOf o → Snapped P R x mid y o) (hs : step P R y (.sched (.collect l)) = some y') :
    Coll P R x (mid ++ [.sched (.collect l)]) y' l y.sync.nextTask := by
  refine ⟨mid, [], y, rfl, hr, rfl, ?_, hd⟩
  simp only [step, Pipeline.isObserve, Bool.false_eq_true, if_false, Sync.step, Option.map_some, Option.some.injEq] at hs
  rw [← hs]
  exact Nat.lt_succ_self _

theorem Colled.collected {order : List (Async.Entry (List KV) Bits)} {q : Times.Seq} (h : Colled P R x mid y l) (hr : run P R x mid = some y)
    (hs : step P R y (.collect order q) = some x') : Collected P R l x (mid ++ [.collect order q]) x' := by
  obtain ⟨t, ⟨m1, m2, v, h1, h2, h3, h4, h5⟩, h6⟩ := h
  rw [h1, run_append, h2, Option.bind_some] at hr
  refine ⟨m1, m2, v, y, order, q, by rw [h1], h2, hr, hs, by rw [h3]; exact h6, fun o ho => ?_⟩
  obtain ⟨t', ⟨n1, n2, u, g1, g2, g3, -⟩, g4⟩ := h5 o ho
  exact ⟨n1, n2, u, g1, g2, by rw [g3]; exact g4⟩

end Verif.Whole

namespace Verif.Delivery
open Verif.Attr Verif.Number Verif.Assembly
open Verif.Whole (Snap Snapped Coll Colled)
variable {C G ν : Type}
variable {farm : Str → UInt64} {w : World C G} {fsub : Bits → Bits → Bits} {pipe : Nat} {p : Provider.Provider C ν} {P : Whole.Parts G} {R : Pipeline.Reader G}
  {x y y' : Whole.Sys G} {mid : List Whole.Act} {a : Whole.Act} {k : Nat} {ks : List Nat} {pos : Pos}

/-! ### Where `Produce` is -/

/-- The output metrics of synchronous instruments which a meter has for the reader are collected. -/
def MeterDone (p : Provider.Provider C ν) (pipe : Nat) (P : Whole.Parts G) (R : Pipeline.Reader G) (x : Whole.Sys G) (mid : List Whole.Act) (y : Whole.Sys G) (k : Nat) : Prop :=
  ∀ m c j, p.ordered[k]? = some m → m.comps[pipe]? = some c → j < c.collectors.length → syncLeaf p (leafAddr k pipe j) = true → Colled P R x mid y (leafAddr k pipe j)

/-- All meters but `k` and those to come are done. -/
def OthersDone (p : Provider.Provider C ν) (pipe : Nat) (P : Whole.Parts G) (R : Pipeline.Reader G) (x : Whole.Sys G) (mid : List Whole.Act) (y : Whole.Sys G) (k : Nat)
    (ks : List Nat) : Prop := ∀ k', k' < p.ordered.length → k' = k ∨ k' ∈ ks ∨ MeterDone p pipe P R x mid y k'

/-- The synchronous instruments of the meter are snapshotted. -/
def InstsDone (p : Provider.Provider C ν) (P : Whole.Parts G) (R : Pipeline.Reader G) (x : Whole.Sys G) (mid : List Whole.Act) (y : Whole.Sys G) (k : Nat) : Prop :=
  ∀ m i, p.ordered[k]? = some m → some i ∈ m.sync → Snapped P R x mid y (instAddr k i)

/-- What is done when `Produce`, which began in `x`, is at a position. -/
def At (p : Provider.Provider C ν) (pipe : Nat) (P : Whole.Parts G) (R : Pipeline.Reader G) (x : Whole.Sys G) (mid : List Whole.Act) (y : Whole.Sys G) : Pos → Prop
  | .out => True
  | .meters _ ks => ∀ k, k < p.ordered.length → k ∈ ks ∨ MeterDone p pipe P R x mid y k
  | .callbacks _ k insts ks => OthersDone p pipe P R x mid y k ks ∧ ∀ m, p.ordered[k]? = some m → insts = m.sync
  | .insts _ k todo wait ks => OthersDone p pipe P R x mid y k ks ∧ ∀ m i, p.ordered[k]? = some m → some i ∈ m.sync →
      some i ∈ todo ∨ (∃ t, wait = some t ∧ Snap P R x mid y (instAddr k i) t) ∨ Snapped P R x mid y (instAddr k i)
  | .outputs _ k todo wait ks => OthersDone p pipe P R x mid y k ks ∧ InstsDone p P R x mid y k ∧ ∀ m c j, p.ordered[k]? = some m → m.comps[pipe]? = some c →
      j < c.collectors.length → syncLeaf p (leafAddr k pipe j) = true →
      j ∈ todo ∨ (∃ t, wait = some t ∧ Coll P R x mid y (leafAddr k pipe j) t) ∨ Colled P R x mid y (leafAddr k pipe j)

theorem MeterDone.more (h : MeterDone p pipe P R x mid y k) (hs : Whole.step P R y a = some y') : MeterDone p pipe P R x (mid ++ [a]) y' k :=
  fun m c j h1 h2 h3 h4 => (h m c j h1 h2 h3 h4).more hs

theorem OthersDone.more (h : OthersDone p pipe P R x mid y k ks) (hs : Whole.step P R y a = some y') : OthersDone p pipe P R x (mid ++ [a]) y' k ks :=
  fun k' hk => (h k' hk).imp id (·.imp id (·.more hs))

theorem InstsDone.more (h : InstsDone p P R x mid y k) (hs : Whole.step P R y a = some y') : InstsDone p P R x (mid ++ [a]) y' k :=
  fun m i h1 h2 => (h m i h1 h2).more hs

/-- Anything else may happen. -/
theorem At.more (h : At p pipe P R x mid y pos) (hs : Whole.step P R y a = some y') : At p pipe P R x (mid ++ [a]) y' pos := by
  cases pos with
  | out => trivial
  | meters q ks => exact fun k hk => (h k hk).imp id (·.more hs)
  | callbacks q k insts ks => exact ⟨h.1.more hs, h.2⟩
  | insts q k todo wait ks =>
    exact ⟨h.1.more hs, fun m i h1 h2 => (h.2 m i h1 h2).imp id (·.imp (fun ⟨t, e, h⟩ => ⟨t, e, h.more hs⟩) (·.more hs))⟩
  | outputs q k todo wait ks =>
    exact ⟨h.1.more hs, h.2.1.more hs, fun m c j h1 h2 h3 h4 => (h.2.2 m c j h1 h2 h3 h4).imp id (·.imp (fun ⟨t, e, h⟩ => ⟨t, e, h.more hs⟩) (·.more hs))⟩

/-- The instruments which feed an output metric of a meter are in the list of this meter. -/
theorem fed_listed (hl : ∀ m ∈ p.ordered, Provider.Listed m) {j o : Nat} (ho : leafAddr k pipe j ∈ leavesOf p o) :
    ∃ m i, p.ordered[k]? = some m ∧ some i ∈ m.sync ∧ o = instAddr k i := by
  unfold leavesOf at ho
  cases hi : instAt p o with
  | none => rw [hi] at ho; cases ho
  | some inst =>
    rw [hi] at ho
    dsimp only at ho
    split at ho
    · rename_i hsy
      obtain ⟨e, -, he⟩ := List.mem_flatMap.1 ho
      obtain ⟨j', -, hj'⟩ := List.mem_map.1 he
      have hk := (leafAddr_inj hj').1
      unfold instAt at hi
      obtain ⟨m, h1, h2⟩ := Option.bind_eq_some_iff.1 hi
      rw [hk] at h1
      refine ⟨m, (unpair o).2, h1, hl m (List.mem_of_getElem? h1) _ _ h2 hsy, ?_⟩
      unfold instAddr
      rw [← hk, pair_unpair]
    · cases ho

variable [DecidableEq C] {e : Views.Ext C} {s s' : Sys C G ν} {now : Int}

theorem whole_step {b : Whole.Act} {z : Live.Sys C G ν} (hp : s.z.p = p) (h : Live.step farm w fsub e pipe s.z (.run b) = some z) :
    z.p = p ∧ Whole.step (Whole.parts farm w fsub p pipe) (reader w p pipe) s.z.s b = some z.s := by
  simp only [Live.step] at h
  split at h
  · obtain ⟨s1, h1, rfl⟩ := Option.map_eq_some_iff.1 h
    rw [hp] at h1
    exact ⟨hp, h1⟩
  · cases h

/-- `Produce` begins. -/
theorem At.begins (hp : s.z.p = p) (h : produce farm w fsub e pipe now s = some s') (hout : s.pos = .out) :
    s'.z = s.z ∧ s'.r = s.r ∧ producing s.r = true ∧ s'.pos ≠ .out ∧ At p pipe (Whole.parts farm w fsub p pipe) (reader w p pipe) s'.z.s [] s'.z.s s'.pos := by
  unfold produce at h
  rw [hout] at h
  dsimp only at h
  split at h
  · cases h
    refine ⟨rfl, rfl, by assumption, by simp, fun k hk => Or.inl ?_⟩
    rw [hp]
    exact List.mem_range.2 hk
  · cases h

/-- `Produce` goes on. -/
theorem At.goes (hp : s.z.p = p) (hl : ∀ m ∈ p.ordered, Provider.Listed m)
    (hr : Whole.run (Whole.parts farm w fsub p pipe) (reader w p pipe) x mid = some s.z.s) (hat : At p pipe (Whole.parts farm w fsub p pipe) (reader w p pipe) x mid s.z.s s.pos)
    (h : produce farm w fsub e pipe now s = some s') (hout : s.pos ≠ .out) :
    s'.r = s.r ∧ s'.pos ≠ .out ∧ At p pipe (Whole.parts farm w fsub p pipe) (reader w p pipe) x (mid ++ Live.rest (produceLive pipe s).toList) s'.z.s s'.pos := by
  unfold produce at h
  unfold produceLive
  split at h
  · rename_i hpos; exact absurd hpos hout
  · cases h
  · rename_i q k ks hpos
    rw [hpos] at hat ⊢
    split at h
    · cases h
    · rename_i m hm
      cases h
      rw [hp] at hm
      refine ⟨rfl, by simp, ?_⟩
      show At _ _ _ _ _ (mid ++ []) _ _
      rw [List.append_nil]
      refine ⟨fun k' hk' => ?_, fun m' hm' => ?_⟩
      · rcases hat k' hk' with h1 | h1
        · rcases List.mem_cons.1 h1 with h1 | h1
          · exact Or.inl h1
          · exact Or.inr (Or.inl h1)
        · exact Or.inr (Or.inr h1)
      · rw [hm] at hm'
        cases hm'
        rfl
  · rename_i q k insts ks hpos
    rw [hpos] at hat ⊢
    split at h
    · cases h
      refine ⟨rfl, by simp, ?_⟩
      show At _ _ _ _ _ (mid ++ []) _ _
      rw [List.append_nil]
      refine ⟨hat.1, fun m i h1 h2 => Or.inl ?_⟩
      rw [hat.2 m h1]
      exact h2
    · cases h
  · rename_i q k todo t ks hpos
    rw [hpos] at hat ⊢
    split at h
    · rename_i hd
      cases h
      refine ⟨rfl, by simp, ?_⟩
      show At _ _ _ _ _ (mid ++ []) _ _
      rw [List.append_nil]
      refine ⟨hat.1, fun m i h1 h2 => ?_⟩
      rcases hat.2 m i h1 h2 with h3 | ⟨t', h3, h4⟩ | h3
      · exact Or.inl h3
      · cases h3
        refine Or.inr (Or.inr ⟨t, h4, ?_⟩)
        exact hd
      · exact Or.inr (Or.inr h3)
    · cases h
  · rename_i q k i todo ks hpos
    rw [hpos] at hat ⊢
    obtain ⟨z, h1, rfl⟩ := Option.map_eq_some_iff.1 h
    obtain ⟨-, h2⟩ := whole_step hp h1
    refine ⟨rfl, by simp, hat.1.more h2, fun m i' h3 h4 => ?_⟩
    rcases hat.2 m i' h3 h4 with h5 | ⟨_, h5, -⟩ | h5
    · rcases List.mem_cons.1 h5 with h5 | h5
      · cases h5
        exact Or.inr (Or.inl ⟨_, rfl, Snap.start hr h2⟩)
      · exact Or.inl h5
    · cases h5
    · exact Or.inr (Or.inr (h5.more h2))
  · cases h
  · rename_i q k ks hpos
    rw [hpos] at hat ⊢
    split at h
    · cases h
    · rename_i c hc
      rw [hp] at hc
      obtain ⟨m0, hm0, hc0⟩ := Option.bind_eq_some_iff.1 hc
      cases h
      refine ⟨rfl, by simp, ?_⟩
      show At _ _ _ _ _ (mid ++ []) _ _
      rw [List.append_nil]
      refine ⟨hat.1, fun m i h1 h2 => ?_, fun m c' j h1 h2 h3 h4 => Or.inl ?_⟩
      · rcases hat.2 m i h1 h2 with h3 | ⟨_, h3, -⟩ | h3
        · cases h3
        · cases h3
        · exact h3
      · rw [hm0] at h1
        cases h1
        rw [hc0] at h2
        cases h2
        exact List.mem_range.2 h3
  · rename_i q k todo t ks hpos
    rw [hpos] at hat ⊢
    split at h
    · rename_i hd
      cases h
      refine ⟨rfl, by simp, ?_⟩
      show At _ _ _ _ _ (mid ++ []) _ _
      rw [List.append_nil]
      refine ⟨hat.1, hat.2.1, fun m c j h1 h2 h3 h4 => ?_⟩
      rcases hat.2.2 m c j h1 h2 h3 h4 with h5 | ⟨t', h5, h6⟩ | h5
      · exact Or.inl h5
      · cases h5
        refine Or.inr (Or.inr ⟨t, h6, ?_⟩)
        exact hd
      · exact Or.inr (Or.inr h5)
    · cases h
  · rename_i q k j todo ks hpos
    rw [hpos] at hat ⊢
    dsimp only
    split at h
    · rename_i hsy
      rw [if_pos hsy]
      obtain ⟨z, h1, rfl⟩ := Option.map_eq_some_iff.1 h
      obtain ⟨-, h2⟩ := whole_step hp h1
      refine ⟨rfl, by simp, hat.1.more h2, hat.2.1.more h2, fun m c j' h3 h4 h5 h6 => ?_⟩
      rcases hat.2.2 m c j' h3 h4 h5 h6 with h7 | ⟨_, h7, -⟩ | h7
      · rcases List.mem_cons.1 h7 with h7 | h7
        · cases h7
          refine Or.inr (Or.inl ⟨_, rfl, Coll.start hr (fun o ho => ?_) h2⟩)
          obtain ⟨m', i, g1, g2, rfl⟩ := fed_listed hl ho
          exact hat.2.1 m' i g1 g2
        · exact Or.inl h7
      · cases h7
      · exact Or.inr (Or.inr (h7.more h2))
    · rename_i hsy
      rw [if_neg hsy]
      cases h
      refine ⟨rfl, by simp, ?_⟩
      show At _ _ _ _ _ (mid ++ []) _ _
      rw [List.append_nil]
      refine ⟨hat.1, hat.2.1, fun m c j' h3 h4 h5 h6 => ?_⟩
      rcases hat.2.2 m c j' h3 h4 h5 h6 with h7 | ⟨_, h7, -⟩ | h7
      · rcases List.mem_cons.1 h7 with h7 | h7
        · cases h7
          rw [hp] at hsy
          exact absurd h6 hsy
        · exact Or.inl h7
      · cases h7
      · exact Or.inr (Or.inr h7)
  · rename_i q k ks hpos
    rw [hpos] at hat ⊢
    cases h
    refine ⟨rfl, by simp, ?_⟩
    show At _ _ _ _ _ (mid ++ []) _ _
    rw [List.append_nil]
    intro k' hk'
    rcases hat.1 k' hk' with h1 | h1 | h1
    · subst h1
      refine Or.inr (fun m c j h3 h4 h5 h6 => ?_)
      rcases hat.2.2 m c j h3 h4 h5 h6 with h7 | ⟨_, h7, -⟩ | h7
      · cases h7
      · cases h7
      · exact h7
    · exact Or.inl h1
    · exact Or.inr h1

end Verif.Delivery

namespace Verif.Periodic

/-! ### Where the goroutines of the reader are -/

/-- Has collected. -/
def Past (p : Pos) : Prop := p = .crit .produced ∨ p = .crit .exporting ∨ p = .done

theorem producing_iff (s : State) (h : Inv s) : Delivery.producing s = true ↔ ∃ (t : Nat) (th : Thread), s.threads[t]? = some th ∧ th.pos = .crit .locked := by
  unfold Delivery.producing
  constructor
  · intro hp
    split at hp
    · cases hp
    · rename_i t ht
      split at hp
      · cases hp
      · rename_i th hth
        exact ⟨t, th, hth, of_decide_eq_true hp⟩
  · rintro ⟨t, th, h1, h2⟩
    rw [(h.lock t).2 ⟨th, _, h1, h2⟩]
    dsimp only
    rw [h1]
    exact decide_eq_true h2

theorem same_holder {s : State} (h : Inv s) {t u : Nat} {th tu : Thread} {c d : Crit} (h1 : s.threads[t]? = some th) (h2 : th.pos = .crit c) (h3 : s.threads[u]? = some tu)
    (h4 : tu.pos = .crit d) : t = u := by
  have e1 := (h.lock t).2 ⟨th, c, h1, h2⟩
  have e2 := (h.lock u).2 ⟨tu, d, h3, h4⟩
  rw [e1] at e2
  exact Option.some.inj e2

/-- A step which is not the return of `Produce`. -/
theorem unrelated_step {s : State} (h : Inv s) {a : Act} (ha : Delivery.returns s a = false) {t : Nat} {th : Thread} (ht : (step s a).threads[t]? = some th) :
    (th.pos = .crit .locked → s.threads[t]? = some th ∨ s.lock = none) ∧
    (t ≠ 0 → Past th.pos → ∃ th', s.threads[t]? = some th' ∧ Past th'.pos) := by
  have same : s.threads[t]? = some th → (th.pos = .crit .locked → s.threads[t]? = some th ∨ s.lock = none) ∧
      (t ≠ 0 → Past th.pos → ∃ th', s.threads[t]? = some th' ∧ Past th'.pos) := fun h => ⟨fun _ => Or.inl h, fun _ hp => ⟨th, h, hp⟩⟩
  have fresh : ∀ x : Thread, x.pos = .start ∨ x.pos = .wait → (s.threads ++ [x])[t]? = some th → (th.pos = .crit .locked → s.threads[t]? = some th ∨ s.lock = none) ∧
      (t ≠ 0 → Past th.pos → ∃ th', s.threads[t]? = some th' ∧ Past th'.pos) := by
    intro x hx hh
    rw [List.getElem?_append] at hh
    by_cases hlt : t < s.threads.length
    · rw [if_pos hlt] at hh; exact same hh
    · rw [if_neg hlt] at hh
      have := List.mem_singleton.1 (List.mem_of_getElem? hh)
      subst this
      rcases hx with hx | hx <;> simp [hx, Past]
  have moved : ∀ (u : Nat) (x : Thread) (p : Pos), s.threads[u]? = some x → (p = .crit .locked → s.lock = none) → (u ≠ 0 → Past p → Past x.pos) →
      (s.threads.set u { x with pos := p })[t]? = some th → (th.pos = .crit .locked → s.threads[t]? = some th ∨ s.lock = none) ∧
      (t ≠ 0 → Past th.pos → ∃ th', s.threads[t]? = some th' ∧ Past th'.pos) := by
    intro u x p hx h1 h2 hh
    rw [get_set hx] at hh
    by_cases e : t = u
    · subst e
      rw [if_pos rfl] at hh
      cases hh
      exact ⟨fun hp => Or.inr (h1 hp), fun h0 hp => ⟨x, hx, h2 h0 hp⟩⟩
    · rw [if_neg e] at hh; exact same hh
  cases a with
  | tick => exact same ht
  | callShutdown => exact fresh _ (Or.inl rfl) ht
  | callFlush => exact fresh _ (Or.inr rfl) ht
  | go u quit =>
    simp only [step] at ht
    cases hu : s.threads[u]? with
    | none => rw [hu] at ht; exact same ht
    | some x =>
      rw [hu] at ht
      dsimp only at ht
      unfold advance at ht
      have hx : x.pos ≠ .crit .locked := by
        intro hc
        unfold Delivery.returns at ha
        dsimp only at ha
        rw [hu] at ha
        simp [hc] at ha
      cases hp : x.pos with
      | idle =>
        rw [hp] at ht
        dsimp only at ht
        unfold select at ht
        have h0 : u ≠ 0 → False := fun h0 => (h.calls u x hu h0).2 hp
        split at ht
        · split at ht
          · exact moved u x _ hu (fun e => by cases e) (fun h' => (h0 h').elim) ht
          · exact same ht
        · split at ht
          · exact moved u x _ hu (fun e => by cases e) (fun h' => (h0 h').elim) ht
          · exact same ht
      | start => rw [hp] at ht; exact moved u x _ hu (fun e => by cases e) (fun _ h' => by simp [Past] at h') ht
      | stopped =>
        rw [hp] at ht
        dsimp only at ht
        split at ht
        · exact moved u x _ hu (fun e => by cases e) (fun _ h' => by simp [Past] at h') ht
        · exact same ht
      | wait =>
        rw [hp] at ht
        dsimp only at ht
        split at ht
        · rename_i hl
          exact moved u x _ hu (fun _ => hl) (fun _ h' => by simp [Past] at h') ht
        · exact same ht
      | crit c =>
        rw [hp] at ht
        cases c with
        | locked => exact absurd hp hx
        | produced => exact moved u x _ hu (fun e => by cases e) (fun _ _ => by rw [hp]; simp [Past]) ht
        | exporting => exact moved u x _ hu (fun e => by split at e <;> cases e) (fun _ _ => by rw [hp]; simp [Past]) ht
      | done => rw [hp] at ht; exact same ht

theorem other_producing {s : State} (h : Inv s) {a : Act} (ha : Delivery.returns s a = false) (hp : Delivery.producing s = true) : Delivery.producing (step s a) = true := by
  rw [producing_iff _ (step_inv h a)]
  rw [producing_iff _ h] at hp
  obtain ⟨t, th, h1, h2⟩ := hp
  refine ⟨t, th, ?_, h2⟩
  have fresh : ∀ x : Thread, (s.threads ++ [x])[t]? = some th := fun x => by
    rw [List.getElem?_append_left (List.getElem?_eq_some_iff.1 h1).1]
    exact h1
  have moved : ∀ (u : Nat) (x : Thread) (p : Pos), s.threads[u]? = some x → t ≠ u → (s.threads.set u { x with pos := p })[t]? = some th := by
    intro u x p hx hne
    rw [get_set hx, if_neg hne]
    exact h1
  cases a with
  | tick => exact h1
  | callShutdown => exact fresh _
  | callFlush => exact fresh _
  | go u quit =>
    simp only [step]
    cases hu : s.threads[u]? with
    | none => exact h1
    | some x =>
      dsimp only
      unfold advance
      have hne : t ≠ u := by
        intro e
        subst e
        rw [h1] at hu
        cases hu
        unfold Delivery.returns at ha
        dsimp only at ha
        rw [h1] at ha
        simp [h2] at ha
      cases hp : x.pos with
      | idle =>
        dsimp only
        unfold select
        split
        · split
          · exact moved u x _ hu hne
          · exact h1
        · split
          · exact moved u x _ hu hne
          · exact h1
      | start => exact moved u x _ hu hne
      | stopped =>
        dsimp only
        split
        · exact moved u x _ hu hne
        · exact h1
      | wait =>
        dsimp only
        split
        · exact moved u x _ hu hne
        · exact h1
      | crit c =>
        cases c with
        | locked => exact moved u x _ hu hne
        | produced => exact moved u x _ hu hne
        | exporting => exact moved u x _ hu hne
      | done => exact h1

/-- The return of `Produce`. -/
theorem return_step {s : State} (h : Inv s) {a : Act} (ha : Delivery.returns s a = true) :
    (∃ (t : Nat) (th : Thread), s.threads[t]? = some th ∧ th.pos = .crit .locked ∧ (step s a).threads[t]? = some { th with pos := .crit .produced }) ∧
    ∀ (t : Nat) (th : Thread), (step s a).threads[t]? = some th → th.pos ≠ .crit .locked := by
  cases a with
  | go u quit =>
    unfold Delivery.returns at ha
    dsimp only at ha
    split at ha
    · cases ha
    · rename_i x hu
      have hx := of_decide_eq_true ha
      have hst : (step s (.go u quit)).threads = s.threads.set u { x with pos := .crit .produced } := by
        simp only [step]
        rw [hu]
        dsimp only
        unfold advance
        rw [hx]
        rfl
      refine ⟨⟨u, x, hu, hx, ?_⟩, fun t th ht hp => ?_⟩
      · rw [hst, get_set hu, if_pos rfl]
      · rw [hst, get_set hu] at ht
        by_cases e : t = u
        · rw [if_pos e] at ht; cases ht; cases hp
        · rw [if_neg e] at ht
          exact e (same_holder h ht hp hu hx)
  | _ => cases ha

end Verif.Periodic
