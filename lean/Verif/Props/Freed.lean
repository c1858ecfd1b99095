import Verif.Proof.Freed
import Verif.Examples.SyncCfg
import Verif.Examples.AssemblyProgram

/-!
# A program that stops recording gives its memory back (C109)
-/

namespace Verif.Props
open Verif Verif.Sync
variable {AL KS N S : Type} [DecidableEq KS] {c : Cfg AL KS N S} {n0 : N} {s s' s1 s2 : State AL KS N S}
variable {os ls : List Nat} {n : Nat}

/-- C109 (records). Once the program has stopped recording, `InactiveCollectionPeriods + 1` collections, however their
tasks are interleaved with each other and with those of other readers, leave no record in the instruments collected. -/
theorem C109_records (hP : 0 < c.periods) (hr : Reachable c n0 s) (hrest : AtRest s) (hround : Rounds c os ls n s s')
    (hn : c.periods + 1 ≤ n) : ∀ o, o ∈ os → s'.table o = [] :=
  (rounds_after hP (hrest.still hr) hround).empty hn

/-- C109 (series). Two more collections leave no series in a view with delta temporality that is collected along with
all instruments writing to it; `hagg` holds of every aggregator of the library, see `C109_reset`. -/
theorem C109_series (hP : 0 < c.periods) (hr : Reachable c n0 s) (hrest : AtRest s) (hround : Rounds c os ls n s s')
    (hn : c.periods + 3 ≤ n) {l : Nat} (hl : l ∈ ls) (hd : c.delta l = true) (hf : ∀ o, l ∈ c.leavesOf o → o ∈ os)
    (hagg : ∀ v, (c.agg l).hasChange ((c.agg l).reset v) = false) : s'.data l = [] :=
  (rounds_after hP (hrest.still hr) hround).gone hn l hl hd hf hagg

/-- C109 (quiet). One collection earlier, no series of the view has anything left to report. -/
theorem C109_quiet (hP : 0 < c.periods) (hr : Reachable c n0 s) (hrest : AtRest s) (hround : Rounds c os ls n s s')
    (hn : c.periods + 2 ≤ n) {l : Nat} (hl : l ∈ ls) (hd : c.delta l = true) (hf : ∀ o, l ∈ c.leavesOf o → o ∈ os)
    (hagg : ∀ v, (c.agg l).hasChange ((c.agg l).reset v) = false) {k : KS} {h : Nat} (hm : (k, h) ∈ s'.data l) :
    (c.agg l).hasChange (s'.hold h).store.val = false :=
  (rounds_after hP (hrest.still hr) hround).clean hn l hl hd hf hagg k h hm

/-- C109 (aggregators). What `Move` leaves behind has nothing to report: for every aggregation of a program, whatever its
number kind and configuration, provided a cleared external histogram has count 0. -/
theorem C109_reset {C G : Type} (w : Assembly.World C G) (hh : ∀ num cfg, (w.hist num cfg).count (w.hist num cfg).empty = 0)
    (kind : Views.AggKind) (num : Number.Kind) (cfg : C) (v : Aggr.Cell Number.Bits G) :
    (w.agg kind num cfg).hasChange ((w.agg kind num cfg).reset v) = false := by
  have hz : (w.ops num).nonzero (w.ops num).zero = false := by
    cases num
    · show ((0 : Number.Bits) != 0) = false
      decide
    · simp only [Assembly.World.ops, Number.fltOps]
      decide
  cases kind <;> simp [Assembly.World.agg, Aggr.histAgg, Aggr.mmscAgg, Aggr.gaugeAgg, Aggr.sumAgg, hh, hz]

/-- C109 (program). For the instruments and views of a program, whatever they are: after `InactiveCollectionPeriods + 3`
collections without recording, every view with delta temporality is empty. -/
theorem C109_program {C G ν : Type} (farm : List UInt8 → UInt64) (w : Assembly.World C G) (p : Provider.Provider C ν) (hP : 0 < w.periods)
    (hh : ∀ num cfg, (w.hist num cfg).count (w.hist num cfg).empty = 0) {n0 : Number.Bits}
    {s s' : State (List Attr.KV) (List Attr.KV) Number.Bits (Aggr.Cell Number.Bits G)}
    (hr : Reachable (Front.realCfg farm (Assembly.setup w p)) n0 s) (hrest : AtRest s)
    (hround : Rounds (Front.realCfg farm (Assembly.setup w p)) os ls n s s') (hn : w.periods + 3 ≤ n) {l : Nat} (hl : l ∈ ls)
    {f : Views.Leaf C} (hleaf : Assembly.leafAt p l = some f) (hd : f.delta = true)
    (hf : ∀ o, l ∈ Assembly.leavesOf p o → o ∈ os) : s'.data l = [] := by
  refine C109_series hP hr hrest hround hn hl ?_ hf ?_
  · show ((Assembly.leafAt p l).map (·.delta)).getD false = true
    rw [hleaf]; exact hd
  · intro v
    have : (Front.realCfg farm (Assembly.setup w p)).agg l = w.agg f.kind f.desc.num f.acfg.hist := by
      show (match Assembly.leafAt p l with | some f => w.agg f.kind f.desc.num f.acfg.hist | none => _) = _
      rw [hleaf]
    rw [this]
    exact C109_reset w hh _ _ _ v

/-- C109 (room). The next call, with whatever attributes, is not sent to the overflow record. -/
theorem C109_room (hP : 0 < c.periods) (hr : Reachable c n0 s) (hrest : AtRest s) (hround : Rounds c os ls n s s')
    (hn : c.periods + 1 ≤ n) {o : Nat} (ho : o ∈ os) (hlim : 2 ≤ c.limit) {a : AL} {x : N}
    (h1 : step c s' (.observe o a x) = some s1) (h2 : step c s1 (.op s'.nextOp) = some s2) :
    (s2.op s'.nextOp).pc = .wr a := by
  have ht := C109_records hP hr hrest hround hn o ho
  simp only [step, Option.some.injEq] at h1
  subst h1
  simp only [step, stepOp, upd_same] at h2
  split at h2
  · cases h2
  · have hfr : findRead c { s' with op := upd s'.op s'.nextOp { obs := o, attrs := a, num := x, pc := .rd a, rank := 0 },
                                    nextOp := s'.nextOp + 1 } o a = none := by
      simp [findRead, chain, ht]
    have htl : tableLen c { s' with op := upd s'.op s'.nextOp { obs := o, attrs := a, num := x, pc := .rd a, rank := 0 },
                                    nextOp := s'.nextOp + 1 } o = 0 := by
      simp [tableLen, ht]
    simp only [acquireRead, readPass, hfr, htl] at h2
    rw [if_neg (by omega)] at h2
    simp only [Option.some.injEq] at h2
    rw [← h2]
    simp [setOpPc]

/-- C109 (cumulative). A view with cumulative temporality keeps all its series, however many collections follow. -/
theorem C109_cumulative (hr : Reachable c n0 s) (hround : Rounds c os ls n s s') {l : Nat} (hd : c.delta l = false)
    {k : KS} {h : Nat} (hm : (k, h) ∈ s.data l) : (k, h) ∈ s'.data l := by
  have hf := reachable_full hr
  have key : Full c s' ∧ (k, h) ∈ s'.data l := by
    induction hround with
    | none s => exact ⟨hf, hm⟩
    | more acts hr' hrun hq ho hl ih =>
      obtain ⟨h1, h2⟩ := ih hr hm hf
      exact run_ind (P := fun s => (k, h) ∈ s.data l) h1 h2 (along_true acts)
        (fun s s' hfu _ hp hs => cum_kept hd hfu.vals.p.lmvDelta hs hp) hrun
  exact key.2

section Examples
open Verif.Examples

section
variable {AL KS N S : Type} [DecidableEq KS] {c : Cfg AL KS N S}

/-- Steps of one task. -/
def stepsOf (t n : Nat) : List (Action AL N) := List.replicate n (.task t 0)

/-- The two tasks of one collection of instrument 0 and view 0, with the numbers of steps they take. -/
def collection (t a b : Nat) : List (Action AL N) := (.snapshot 0 :: stepsOf t a) ++ (.collect 0 :: stepsOf (t + 1) b)

/-- Whether a task has finished. -/
def isDone : TPc AL → Bool
  | .done => true
  | _ => false

theorem isDone_eq {t : TPc AL} (h : isDone t = true) : t = .done := by cases t <;> simp [isDone] at h ⊢

/-- Evaluate whether the two tasks of a collection are carried out. -/
def collects (c : Cfg AL KS N S) (s : State AL KS N S) (t a b : Nat) : Option (State AL KS N S) :=
  (run c s (collection t a b)).bind (fun s2 => (run c s (.snapshot 0 :: stepsOf t a)).bind (fun s1 =>
    if isDone (s2.task s.nextTask) = true ∧ isDone (s2.task s1.nextTask) = true then some s2 else none))

theorem collects_round {n : Nat} {s s1 s2 : State AL KS N S} {t a b : Nat} (h : Rounds c [0] [0] n s s1)
    (hc : collects c s1 t a b = some s2) : Rounds c [0] [0] (n + 1) s s2 := by
  simp only [collects, Option.bind_eq_some_iff, Option.ite_none_right_eq_some] at hc
  obtain ⟨s3, h3, s4, h4, ⟨h5, h6⟩, h7⟩ := hc
  simp only [Option.some.injEq] at h7
  subst h7
  refine Rounds.more (collection t a b) h h3 ?_ ?_ ?_
  · intro o x y hm
    simp [collection, stepsOf] at hm
  · intro o ho
    simp only [List.mem_singleton] at ho
    subst ho
    exact ⟨[], _, s1, s3, rfl, rfl, h3, isDone_eq h5⟩
  · intro l hl
    simp only [List.mem_singleton] at hl
    subst hl
    exact ⟨.snapshot 0 :: stepsOf t a, stepsOf (t + 1) b, s4, s3, rfl, h4, h3, isDone_eq h6⟩

/-- Whether all calls and tasks have finished. -/
def restB (s : State AL KS N S) : Bool :=
  (List.range s.nextOp).all (fun i => match (s.op i).pc with | .done => true | _ => false) && (List.range s.nextTask).all (fun t => isDone (s.task t))

omit [DecidableEq KS] in
theorem restB_sound {s : State AL KS N S} (h : restB s = true) : AtRest s := by
  simp only [restB, Bool.and_eq_true, List.all_eq_true, List.mem_range] at h
  refine ⟨fun i hi => ?_, fun t ht => isDone_eq (h.2 t ht)⟩
  have := h.1 i hi
  split at this
  · assumption
  · cases this

end

/-- Two calls on the counter, with attribute lists 1 and 5. -/
def schedTwo : List Act := [.observe 0 1 5] ++ call 0 12 ++ [.observe 0 5 7] ++ call 1 12

/-- The hypotheses of `C109_records`, `C109_series`, `C109_quiet` and `C109_room` are met: after two calls the counter
has two records and its delta view two series; the configured period is 2, and five collections follow. The cumulative
view 1, fed by the same counter, still has its series (`C109_cumulative`). -/
example : ∃ s s', Reachable cfg 0 s ∧ AtRest s ∧ (s.table 0).length = 2 ∧ (s.data 0).length = 2 ∧ (s.data 1).length = 1 ∧
    Rounds cfg [0] [0] 5 s s' ∧ cfg.periods + 3 ≤ 5 ∧ cfg.delta 0 = true ∧ cfg.delta 1 = false ∧
    (∀ o, 0 ∈ cfg.leavesOf o → o ∈ [0]) ∧ (∀ v, (cfg.agg 0).hasChange ((cfg.agg 0).reset v) = false) ∧
    s'.table 0 = [] ∧ s'.data 0 = [] ∧ (s'.data 1).length = 1 := by
  obtain ⟨s, h1, h2⟩ := exists_of_eval (x := run cfg init0 schedTwo)
    (P := fun s => restB s = true ∧ (s.table 0).length = 2 ∧ (s.data 0).length = 2 ∧ (s.data 1).length = 1 ∧
      ((collects cfg s 0 20 6).bind fun s1 => (collects cfg s1 2 4 6).bind fun s2 => (collects cfg s2 4 24 6).bind fun s3 =>
        (collects cfg s3 6 2 2).bind fun s4 => (collects cfg s4 8 2 2).map fun s5 => (s5.data 1).length) = some 1) (by decide +kernel)
  obtain ⟨hrest, ht, hd0, hd1, hc⟩ := h2
  simp only [Option.bind_eq_some_iff, Option.map_eq_some_iff] at hc
  obtain ⟨s1, c1, s2, c2, s3, c3, s4, c4, s5, c5, hlen⟩ := hc
  have hR := collects_round (collects_round (collects_round (collects_round (collects_round (Rounds.none s) c1) c2) c3) c4) c5
  have hr : Reachable cfg 0 s := ⟨_, h1⟩
  have hf : ∀ o, 0 ∈ cfg.leavesOf o → o ∈ [0] := by
    intro o ho
    simp only [cfg] at ho
    split at ho
    · simp_all
    · split at ho <;> simp at ho
  have hagg : ∀ v, (cfg.agg 0).hasChange ((cfg.agg 0).reset v) = false := fun v => rfl
  exact ⟨s, s5, hr, restB_sound hrest, ht, hd0, hd1, hR, by decide, rfl, rfl, hf, hagg,
    C109_records (by decide) hr (restB_sound hrest) hR (by decide) 0 (by simp),
    C109_series (by decide) hr (restB_sound hrest) hR (by decide) (by simp) rfl hf hagg, hlen⟩

/-- One collection too few: after two of them (`InactiveCollectionPeriods`) the records are still there, so the bound of
`C109_records` cannot be lowered. -/
theorem C109_fewer_kept : ∃ s s', Reachable cfg 0 s ∧ AtRest s ∧ Rounds cfg [0] [0] cfg.periods s s' ∧ s'.table 0 ≠ [] := by
  obtain ⟨s, h1, h2⟩ := exists_of_eval (x := run cfg init0 schedTwo)
    (P := fun s => restB s = true ∧
      ((collects cfg s 0 20 6).bind fun s1 => (collects cfg s1 2 4 6).map fun s2 => (s2.table 0).length) = some 2) (by decide +kernel)
  obtain ⟨hrest, hc⟩ := h2
  simp only [Option.bind_eq_some_iff, Option.map_eq_some_iff] at hc
  obtain ⟨s1, c1, s2, c2, hlen⟩ := hc
  refine ⟨s, s2, ⟨_, h1⟩, restB_sound hrest, collects_round (collects_round (Rounds.none s) c1) c2, ?_⟩
  intro h
  rw [h] at hlen
  cases hlen

/-- A program with one reader, one meter and one counter, with delta temporality. -/
def onlyP : Provider.Provider Nat Nat :=
  Provider.run ViewEx.x (Provider.new [Asm.v0 .delta .delta .monoSum])
    [.meter Asm.scA, .instrument 0 (Instruments.Ctor.int64Counter.desc (Views.lit "n") [] (Views.lit "s"))]

/-- The configuration of that program. -/
def onlyC : Cfg (List Attr.KV) (List Attr.KV) Number.Bits (Aggr.Cell Number.Bits (List Number.Bits)) :=
  Front.realCfg (fun _ => 0) (Assembly.setup Asm.w onlyP)

theorem onlyP_leaves {l o : Nat} (hl : l ∈ Assembly.leavesOf onlyP o) : o ∈ [0] := by
  have h : onlyP.ordered.map (fun m => m.insts.length) = [1] := by decide +kernel
  unfold Assembly.leavesOf Assembly.instAt at hl
  cases hm : onlyP.ordered[(Assembly.unpair o).1]? with
  | none => rw [hm] at hl; cases hl
  | some m =>
    cases ho : m.insts[(Assembly.unpair o).2]? with
    | none => rw [hm, Option.bind_some, ho] at hl; cases hl
    | some i =>
      have h1 : (onlyP.ordered.map (fun m => m.insts.length))[(Assembly.unpair o).1]? = some m.insts.length := by
        rw [List.getElem?_map, hm]; rfl
      have h2 : (Assembly.unpair o).2 < m.insts.length := (List.getElem?_eq_some_iff.1 ho).1
      rw [h] at h1
      have h3 : o = Assembly.pair (Assembly.unpair o).1 (Assembly.unpair o).2 := (Assembly.pair_unpair o).symm
      rw [h3]
      clear h3 hl hm ho
      generalize (Assembly.unpair o).2 = b at h2 ⊢
      generalize (Assembly.unpair o).1 = a at h1 ⊢
      match a, h1 with
      | 0, h1 =>
        simp only [List.getElem?_cons_zero, Option.some.injEq] at h1
        rw [← h1] at h2
        match b, h2 with
        | 0, _ => decide
      | _ + 1, h1 => simp at h1

/-- The hypotheses of `C109_program` are met: the program calls `Add` once, and five collections follow. -/
example : ∃ s s' f, Reachable onlyC 0 s ∧ AtRest s ∧ (s.data 0).length = 1 ∧ Rounds onlyC [0] [0] 5 s s' ∧ Asm.w.periods + 3 ≤ 5 ∧
    Assembly.leafAt onlyP 0 = some f ∧ f.delta = true ∧ s'.data 0 = [] := by
  obtain ⟨s, h1, h2⟩ := exists_of_eval (x := run onlyC (initial onlyC 0) (.observe 0 Asm.ka 5 :: List.replicate 9 (.op 0)))
    (P := fun s => restB s = true ∧ (s.data 0).length = 1 ∧
      ((collects onlyC s 0 8 4).bind fun s1 => (collects onlyC s1 2 3 4).bind fun s2 => (collects onlyC s2 4 10 4).bind fun s3 =>
        (collects onlyC s3 6 2 2).bind fun s4 => (collects onlyC s4 8 2 2).map fun s5 => (s5.data 1).length) = some 0) (by decide +kernel)
  obtain ⟨f, hf, hd⟩ := exists_of_eval (x := Assembly.leafAt onlyP 0) (P := fun f => f.delta = true) (by decide +kernel)
  obtain ⟨hrest, hd0, hc⟩ := h2
  simp only [Option.bind_eq_some_iff, Option.map_eq_some_iff] at hc
  obtain ⟨s1, c1, s2, c2, s3, c3, s4, c4, s5, c5, _⟩ := hc
  have hR := collects_round (collects_round (collects_round (collects_round (collects_round (Rounds.none s) c1) c2) c3) c4) c5
  have hr : Reachable onlyC 0 s := ⟨_, h1⟩
  exact ⟨s, s5, f, hr, restB_sound hrest, hd0, hR, by decide, hf, hd,
    C109_program _ Asm.w onlyP (by decide) (fun _ _ => rfl) hr (restB_sound hrest) hR (by decide) (by simp) hf hd (fun o => onlyP_leaves)⟩

end Examples
end Verif.Props
