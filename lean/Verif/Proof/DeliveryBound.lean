import Verif.Proof.SyncBound
import Verif.Proof.DeliveryNil

/-!
Helper file: the number of steps of a call in a whole program.
-/

namespace Verif.Whole
open Verif.Attr Verif.Number
variable {H : Type} {P : Parts H} {R : Pipeline.Reader H} {x y : Sys H}

/-- A step of call `i`. -/
def isOf (i : Nat) : Act → Bool
  | .sched (.op j) => j == i
  | _ => false

theorem observe_left {i : Nat} (hi : i < x.sync.nextOp) (h : Sync.Halt P.c x.sync) (inst : Front.Inst) (as : List KV) (n : Bits) :
    Sync.left P.c (Front.observe P.c x.sync (some inst) as n) i ≤ Sync.left P.c x.sync i ∧ ((Front.observe P.c x.sync (some inst) as n).op i).obs = (x.sync.op i).obs ∧
      x.sync.nextOp ≤ (Front.observe P.c x.sync (some inst) as n).nextOp := by
  unfold Front.observe
  dsimp only
  split
  · split
    · rename_i h1
      obtain ⟨g1, g2⟩ := Sync.left_other h hi (by simp) h1
      exact ⟨g1, g2, Sync.nextOp_mono h1⟩
    · exact ⟨Nat.le_refl _, rfl, Nat.le_refl _⟩
  · exact ⟨Nat.le_refl _, rfl, Nat.le_refl _⟩

theorem left_step {i : Nat} (hi : i < x.sync.nextOp) (h : Sync.Halt P.c x.sync) {a : Act} (hs : step P R x a = some y) :
    (if isOf i a then 1 else 0) + Sync.left P.c y.sync i ≤ Sync.left P.c x.sync i ∧ (y.sync.op i).obs = (x.sync.op i).obs ∧ x.sync.nextOp ≤ y.sync.nextOp := by
  cases a with
  | call inst as n =>
    cases hs
    have := observe_left hi h inst as n
    simp only [isOf, Bool.false_eq_true, if_false, Nat.zero_add]
    exact this
  | sched a =>
    simp only [step] at hs
    split at hs
    · cases hs
    · obtain ⟨s, h1, rfl⟩ := Option.map_eq_some_iff.1 hs
      have hno := Sync.nextOp_mono h1
      by_cases ha : a = .op i
      · subst ha
        obtain ⟨g1, g2⟩ := Sync.left_own h h1
        simp only [isOf, beq_self_eq_true, if_true]
        exact ⟨by omega, g2, hno⟩
      · obtain ⟨g1, g2⟩ := Sync.left_other h hi ha h1
        have : isOf i (.sched a) = false := by
          cases a with
          | op j => simp only [isOf, beq_eq_false_iff_ne]; exact fun e => ha (by rw [e])
          | _ => rfl
        rw [this]
        simp only [Bool.false_eq_true, if_false, Nat.zero_add]
        exact ⟨g1, g2, hno⟩
  | cb a =>
    simp only [step] at hs
    split at hs
    · cases hs
    · obtain ⟨s, h1, rfl⟩ := Option.map_eq_some_iff.1 hs
      simp [isOf]
  | collect order q =>
    simp only [step] at hs
    obtain ⟨s, h1, rfl⟩ := Option.map_eq_some_iff.1 hs
    simp [isOf]

theorem left_run {i : Nat} (hi : i < x.sync.nextOp) (h : Sync.Halt P.c x.sync) {acts : List Act} (hs : run P R x acts = some y) :
    acts.countP (isOf i) + Sync.left P.c y.sync i ≤ Sync.left P.c x.sync i := by
  induction acts generalizing x with
  | nil => cases hs; exact Nat.le_of_eq (Nat.zero_add _)
  | cons a acts ih =>
    rw [run] at hs
    obtain ⟨x1, h1, h2⟩ := Option.bind_eq_some_iff.1 hs
    obtain ⟨g1, g2, g3⟩ := left_step hi h h1
    have := ih (Nat.lt_of_lt_of_le hi g3) (halt_step h h1) h2
    rw [List.countP_cons]
    omega

end Verif.Whole

namespace Verif.Delivery
open Verif.Attr Verif.Number Verif.Assembly
variable {C G ν : Type} [DecidableEq C]
variable {farm : Str → UInt64} {w : World C G} {fsub : Bits → Bits → Bits} {x : Views.Ext C} {pipe : Nat} {s s' s1 : Sys C G ν}

theorem rest_append (as bs : List (Live.Act ν)) : Live.rest (as ++ bs) = Live.rest as ++ Live.rest bs := by
  unfold Live.rest
  rw [List.filterMap_append]

/-- The steps of a call, among those of the machine. -/
theorem stepsOf_lives {i : Nat} {acts : List (Act ν)} (h : run farm w fsub x pipe s acts = some s') :
    (Live.rest (lives farm w fsub x pipe s acts)).countP (Whole.isOf i) = stepsOf i acts := by
  induction acts generalizing s with
  | nil => rfl
  | cons a acts ih =>
    rw [run] at h
    obtain ⟨y, h1, h2⟩ := Option.bind_eq_some_iff.1 h
    rw [lives, h1, rest_append, List.countP_append]
    dsimp only
    rw [ih h2]
    have hr := h1
    cases a with
    | op j =>
      show List.countP (Whole.isOf i) [.sched (.op j)] + _ = _
      rw [stepsOf, List.countP_cons, List.countP_nil]
      by_cases hj : j = i
      · simp [hj, Whole.isOf]
      · simp [hj, Whole.isOf]
    | make c => exact Nat.zero_add _
    | call inst as n => exact Nat.zero_add _
    | task t ch => exact Nat.zero_add _
    | cb b => exact Nat.zero_add _
    | other b =>
      have : foreign pipe b = true := by
        simp only [step] at hr
        split at hr
        · rename_i hf; exact hf
        · cases hr
      cases b with
      | op j => cases this
      | observe o a n => exact Nat.zero_add _
      | snapshot o => exact Nat.zero_add _
      | collect l => exact Nat.zero_add _
      | task t ch => exact Nat.zero_add _
    | produce now =>
      show List.countP (Whole.isOf i) (Live.rest (produceLive pipe s).toList) + _ = _
      rcases produceLive_cases (ν := ν) pipe s with h | ⟨o, h⟩ | ⟨l, h⟩ <;> rw [h] <;> exact Nat.zero_add _
    | reader b order =>
      show List.countP (Whole.isOf i) (Live.rest (readerLive s b order).toList) + _ = _
      rcases readerLive_cases (ν := ν) s b order with h | ⟨q, h, -⟩ <;> rw [h] <;> exact Nat.zero_add _

omit [DecidableEq C] in
theorem leaves_le (p : Provider.Provider C ν) {id : Nat} {o : Provider.Inst} (h : instAt p id = some o) : (leavesOf p id).length ≤ outputs o := by
  unfold leavesOf outputs
  rw [h]
  dsimp only
  split
  · have : ∀ (L : List (List Nat)) (n k : Nat), ((L.zipIdx n).flatMap (fun e => e.1.map (leafAddr k e.2))).length = (L.map List.length).sum := by
      intro L
      induction L with
      | nil => intro n k; rfl
      | cons a L ih => intro n k; simp [List.zipIdx_cons, ih]
    rw [this]
    exact Nat.le_refl _
  · exact Nat.zero_le _

/-- From when it begins, a call takes a bounded number of steps. -/
theorem call_steps {views : List (Views.Views C)} {start : Int} {acts more : List (Act ν)} {k j : Nat} {m : Provider.Meter C ν} {o : Provider.Inst}
    {proc : Option (List KV → List KV)} {as : List KV} {n : Bits}
    (h : run farm w fsub x pipe (initial farm w fsub s'.z.p views pipe start) acts = some s) (hm : s.z.p.ordered[k]? = some m) (ho : m.insts[j]? = some o)
    (hc : step farm w fsub x pipe s (.call (instrument w k j o proc) as n) = some s1) (hb : s.z.s.sync.nextOp < s1.z.s.sync.nextOp)
    (hr : run farm w fsub x pipe s1 more = some s') : stepsOf s.z.s.sync.nextOp more ≤ 3 * outputs o + 6 := by
  have hl := run_lives h
  have hpr : s1.z.p = s.z.p := by
    obtain ⟨z, hz, rfl⟩ := Option.map_eq_some_iff.1 hc
    obtain ⟨-, y, hy, rfl⟩ := live_run hz
    rfl
  have hok : Provider.ProvOk x s.z.p := by
    rw [Live.run_prov hl]
    exact (Provider.run_ok (Provider.new_ok x views) _).1
  have hmore : Live.More s.z.p s'.z.p := by
    rw [prov_run hr, hpr]
    exact Live.More.run hok _
  obtain ⟨g1, g2, t, g3, g4⟩ := Live.Sim.run (p' := s'.z.p) (Provider.new_ok x views) (Live.inUse_initial (farm := farm) (w := w) (fsub := fsub) (pipe := pipe) s'.z.p views)
    (Live.Sim.refl_nil rfl) hl hmore
  have hh : Sync.Halt (Whole.parts farm w fsub s'.z.p pipe).c t.sync := Whole.halt_run (Sync.Halt.initial _ _) g3
  -- the call
  have hl1 := step_live hc
  obtain ⟨g5, g6, t1, g7, g8⟩ := Live.Sim.run (p' := s'.z.p) g1 g2 g4 hl1 (by rw [hpr]; exact hmore)
  have hl2 := run_lives hr
  obtain ⟨g9, g10, t2, g11, g12⟩ := Live.Sim.run (p' := s'.z.p) g5 g6 g8 hl2 (Live.More.refl _)
  have e0 : t.sync = s.z.s.sync := by rw [g4.state]
  have e1 : t1.sync = s1.z.s.sync := by rw [g8.state]
  have hh1 := Whole.halt_run hh g7
  have hb1 := Whole.left_run (i := s.z.s.sync.nextOp) (by rw [e1]; exact hb) hh1 g11
  rw [stepsOf_lives hr] at hb1
  refine Nat.le_trans (Nat.le_trans (Nat.le_add_right _ _) hb1) ?_
  -- the first line
  have hcall : t1.sync = Front.observe (Whole.parts farm w fsub s'.z.p pipe).c t.sync (some (instrument w k j o proc)) as n := by
    have g7' : (some { t with sync := Front.observe (Whole.parts farm w fsub s'.z.p pipe).c t.sync (some (instrument w k j o proc)) as n } : Option (Whole.Sys G)).bind
        (fun y => some y) = some t1 := g7
    injection g7' with g7'
    rw [← g7']
  have hop : t1.sync.op s.z.s.sync.nextOp = { obs := instAddr k j, attrs := (instrument w k j o proc).attrs as, num := n, pc := .rd ((instrument w k j o proc).attrs as), rank := 0 } := by
    have hb' : t.sync.nextOp < t1.sync.nextOp := by rw [e0, e1]; exact hb
    rw [← e0]
    rw [hcall] at hb' ⊢
    unfold Front.observe at hb' ⊢
    dsimp only at hb' ⊢
    split at hb'
    · rename_i hrt
      rw [if_pos hrt]
      show upd _ _ _ _ = _
      rw [upd_same]
      rfl
    · exact absurd hb' (Nat.lt_irrefl _)
  unfold Sync.left
  rw [hop]
  have hi : instAt s.z.p (instAddr k j) = some o := by
    unfold instAt instAddr
    rw [unpair_pair]
    dsimp only
    rw [hm]
    exact ho
  have := leaves_le s'.z.p (hmore.inst hi)
  show 2 * (leavesOf s'.z.p (instAddr k j)).length + 6 + (leavesOf s'.z.p (instAddr k j)).length ≤ _
  omega

/-- A call which cannot go on waits for a running collection. -/
theorem Good.waits (hg : Good farm w fsub x pipe s) {i : Nat} (hi : i < s.z.s.sync.nextOp) (hn : (s.z.s.sync.op i).pc ≠ .done) (hb : Delivery.step farm w fsub x pipe s (.op i) = none) :
    ∃ t, t < s.z.s.sync.nextTask ∧ s.z.s.sync.task t ≠ .done ∧
      (s.z.s.sync.lock (s.z.s.sync.op i).obs = some t ∨ ∃ l ∈ leavesOf s.z.p (s.z.s.sync.op i).obs, s.z.s.sync.llock l = some t) := by
  refine Sync.Halt.waits hg.halt hi hn ?_
  cases h : Sync.stepOp (Whole.parts farm w fsub s.z.p pipe).c s.z.s.sync i with
  | none => rfl
  | some σ =>
    exfalso
    have h' : Sync.step (Whole.parts farm w fsub s.z.p pipe).c s.z.s.sync (.op i) = some σ := h
    simp only [Delivery.step, Live.step, Live.possible, if_true, Whole.step, Pipeline.isObserve, Bool.false_eq_true, if_false, h', Option.map_some] at hb
    cases hb

theorem run_ops {i n : Nat} {σ : Sync.State (List KV) (List KV) Bits (Aggr.Cell Bits G)}
    (h : Sync.run (Whole.parts farm w fsub s.z.p pipe).c s.z.s.sync (List.replicate n (.op i)) = some σ) :
    run farm w fsub x pipe s (List.replicate n (.op i)) = some { s with z := { s.z with s := { s.z.s with sync := σ } } } := by
  induction n generalizing s with
  | zero => cases h; rfl
  | succ n ih =>
    rw [List.replicate_succ, Sync.run] at h
    obtain ⟨σ1, h1, h2⟩ := Option.bind_eq_some_iff.1 h
    rw [List.replicate_succ, run]
    have hs : step farm w fsub x pipe s (.op i) = some { s with z := { s.z with s := { s.z.s with sync := σ1 } } } := by
      simp only [step, Live.step, Live.possible, if_true, Whole.step, Pipeline.isObserve, Bool.false_eq_true, if_false, h1, Option.map_some]
    rw [hs]
    exact ih (s := { s with z := { s.z with s := { s.z.s with sync := σ1 } } }) h2

/-- While no collection is running a call returns by its own steps. -/
theorem Good.alone (hg : Good farm w fsub x pipe s) (hq : Quiet s) {i : Nat} (hi : i < s.z.s.sync.nextOp) :
    ∃ n s', run farm w fsub x pipe s (List.replicate n (.op i)) = some s' ∧ (s'.z.s.sync.op i).pc = .done := by
  obtain ⟨n, σ, -, h1, h2⟩ := Sync.Halt.alone hg.halt hi hq
  exact ⟨n, _, run_ops h1, h2⟩

/-- Steps of calls, tasks, observations and `Produce` lower the measures. -/
theorem moves_lower (hh : Halting farm w fsub pipe s) {a : Act ν} (ha : (∃ i, a = .op i) ∨ (∃ t ch, a = .task t ch) ∨ (∃ i, a = .cb (.op i)) ∨ ∃ now, a = .produce now)
    (h : step farm w fsub x pipe s a = some s') : LexBy (measures farm w fsub pipe) s' s := by
  rcases ha with ⟨i, rfl⟩ | ⟨t, ch, rfl⟩ | ⟨i, rfl⟩ | ⟨now, rfl⟩
  · obtain ⟨z, hz, rfl⟩ := Option.map_eq_some_iff.1 h
    obtain ⟨-, y, hy, rfl⟩ := live_run hz
    simp only [Whole.step, Pipeline.isObserve, Bool.false_eq_true, if_false] at hy
    obtain ⟨σ, hσ, rfl⟩ := Option.map_eq_some_iff.1 hy
    exact lower_sync rfl rfl rfl (hh.op_lower hσ)
  · obtain ⟨z, hz, rfl⟩ := Option.map_eq_some_iff.1 h
    obtain ⟨-, y, hy, rfl⟩ := live_run hz
    simp only [Whole.step, Pipeline.isObserve, Bool.false_eq_true, if_false] at hy
    obtain ⟨σ, hσ, rfl⟩ := Option.map_eq_some_iff.1 hy
    exact lower_sync rfl rfl rfl (hh.task_lower hσ)
  · simp only [step] at h
    split at h
    · obtain ⟨z, hz, rfl⟩ := Option.map_eq_some_iff.1 h
      obtain ⟨-, y, hy, rfl⟩ := live_run hz
      simp only [Whole.step, AsyncPipeline.isFinish, Bool.false_eq_true, if_false] at hy
      obtain ⟨σ, hσ, rfl⟩ := Option.map_eq_some_iff.1 hy
      exact lower_async rfl rfl rfl rfl (.inl (Async.ranks_op hσ))
    · cases h
  · exact produce_lower h

theorem view_length {x : Views.Ext C} {v : Views.Views C} (hv : v.clauses = []) (sc : Views.Scope) (d : Views.Desc) : (Views.behaviors x v sc d).1.length ≤ 1 := by
  unfold Views.behaviors
  dsimp only
  rw [hv]
  rw [if_pos (by rfl)]
  dsimp only
  split <;> simp

/-- An instrument made by the provider of the launcher has at most one output metric. -/
theorem launched_outputs {e : Launched.Outside C G} {t : Front.IKind → Views.Tempo} {cs : List (Provider.Call ν)} {k j : Nat} {m : Provider.Meter C ν} {o : Provider.Inst}
    (hm : (Provider.run e.x (Provider.new (Launched.views e t)) cs).ordered[k]? = some m) (ho : m.insts[j]? = some o) : outputs o ≤ 1 := by
  have hok := Provider.run_ok (Provider.new_ok e.x (Launched.views e t) : Provider.ProvOk e.x (Provider.new (Launched.views e t) : Provider.Provider C ν)) cs
  have hmo := hok.1.meters m (List.mem_of_getElem? hm)
  have hvs : (Provider.run e.x (Provider.new (Launched.views e t) : Provider.Provider C ν) cs).views = [Launched.view e t] := hok.2
  rw [hvs] at hmo
  have hmem := List.mem_of_getElem? ho
  have h1 := hmo.leaves o hmem
  unfold outputs
  match hls : o.leaves, h1 with
  | [ls], _ =>
    have hcl : m.comps.length = 1 := hmo.comps
    have hc : m.comps[0]? = some m.comps[0] := List.getElem?_eq_getElem (by omega)
    have := (hmo.count o hmem 0 ls (Launched.view e t) _ (by rw [hls]; rfl) rfl hc).length
    have h3 := view_length (x := e.x) (Launched.view_clauses e t) m.scope o.desc
    simp only [List.map_cons, List.map_nil, List.sum_cons, List.sum_nil]
    omega

end Verif.Delivery
