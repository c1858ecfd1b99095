import Verif.Examples.PipelineCfg
import Verif.Spec.Pipeline

/-!
A second program: gauges and floats.
-/

namespace Verif.Examples.PipeG
open Verif Verif.Attr Verif.Number Verif.Aggr Verif.Export Verif.Pipeline Verif.Examples
open Verif.Examples.Pipe (kvb out lib ops tasks q0)

/-- Some addition. -/
def fadd (a b : Bits) : Bits := a + b

/-- Instrument 0 records integers, feeding output metric 0 (delta gauge without attributes) and 1 (cumulative gauge); instrument 1 records floats, feeding
2 (delta min/max/sum/count), 3 (cumulative min/max/sum/count), 4 (delta sum), 5 (cumulative sum), 6 (delta histogram), 7 (cumulative histogram). -/
def su : Front.Setup (Cell Bits (List Bits)) where
  ignoreColl := false
  limit := 4
  periods := 2
  leavesOf := fun o => if o = 0 then [0, 1] else if o = 1 then [2, 3, 4, 5, 6, 7] else []
  keys := fun l => if l = 0 then some [] else none
  lim := fun _ => 4
  delta := fun l => l % 2 = 0
  agg := fun l => if l ≤ 1 then gaugeAgg intOps listH else if l ≤ 3 then mmscAgg (fltOps fadd) listH else if l ≤ 5 then sumAgg (fltOps fadd) listH
    else histAgg (fltOps fadd) listH
where
  listH : HistOps Bits (List Bits) := { empty := [], update := fun l v => v :: l, mergeFrom := fun a b => b ++ a, count := List.length }

def sc : Sync.Cfg (List KV) (List KV) Bits (Cell Bits (List Bits)) := Front.realCfg (fun _ => 0) su

def rd : Reader (List Bits) where
  resource := [kvb 114 true]
  scopes := [(lib, [out 0 .int64 .gauge, out 1 .int64 .gauge, out 2 .float64 .mmsc, out 3 .float64 .mmsc, out 4 .float64 .monotonic,
    out 5 .float64 .monotonic, out 6 .float64 .hist, out 7 .float64 .hist])]
  toHist := fun n => { sum := 0, count := n.length, min := 0, max := 0, zeroCount := n.length, scale := 0, posOffset := 0, pos := [], negOffset := 0, neg := [] }
  mapping := fun _ => none

def gauge : Front.Inst := { id := 0, kind := .syncUpDownCounter, num := .int64, sizeLimit := 100, proc := none }
def histo : Front.Inst := { id := 1, kind := .syncHistogram, num := .float64, sizeLimit := 100, proc := none }

def ka : List KV := [kvb 97 true]
def kb : List KV := [kvb 98 true]

/-- Another reader's snapshot is at the second series of the gauge when the delta gauge is collected and exported; the floats 1.0 and 2.0 are collected
and exported, too, then 2.0 is recorded again. -/
def acts : List Pipeline.Act :=
  [.sched (.snapshot 0)] ++ tasks 0 2 ++ [.call gauge ka 3] ++ ops 0 12 ++ [.call gauge kb 4] ++ ops 1 12 ++
  [.call histo [] 0x3ff0000000000000] ++ ops 2 24 ++ [.call histo [] 0x4000000000000000] ++ ops 3 17 ++
  [.sched (.snapshot 0)] ++ tasks 1 9 ++ [.sched (.snapshot 1)] ++ tasks 2 23 ++
  [.sched (.collect 0)] ++ tasks 3 4 ++ [.sched (.collect 2)] ++ tasks 4 4 ++ [.sched (.collect 4)] ++ tasks 5 4 ++ [.sched (.collect 6)] ++ tasks 6 4 ++
  [.export q0] ++ tasks 1 11 ++ [.call histo [] 0x4000000000000000] ++ ops 4 17

def mid1 : List Pipeline.Act := .sched (.snapshot 0) :: tasks 7 4
def mid2 : List Pipeline.Act := .sched (.snapshot 1) :: tasks 8 23

/-- The last collection and export of output metric `l`; collecting takes `n` steps. -/
def coll (l n : Nat) : List Pipeline.Act := (mid1 ++ mid2) ++ .sched (.collect l) :: tasks 9 n ++ [.export q0]

structure Stages where
  x : Sys (List Bits)
  w : Sys (List Bits)
  y : Sys (List Bits)
  z : Sys (List Bits)
  x' : Sys (List Bits)

def stages (l n : Nat) : Option Stages :=
  (Pipeline.run sc rd (initial sc) acts).bind fun x => (Pipeline.run sc rd x mid1).bind fun w => (Pipeline.run sc rd w mid2).bind fun y =>
    (Pipeline.run sc rd y (.sched (.collect l) :: tasks 9 n)).bind fun z => (Pipeline.step sc rd z (.export q0)).bind fun x' => some ⟨x, w, y, z, x'⟩

def Good (t : Stages) : Prop :=
  (∀ i, i < t.x.s.nextOp → (t.x.s.op i).pc = .done) ∧ t.y.s.task t.x.s.nextTask = .done ∧ t.y.s.task t.w.s.nextTask = .done ∧
    t.z.s.task t.y.s.nextTask = .done

instance : DecidablePred Good := fun t => by unfold Good; infer_instance

theorem run_app {c : Sync.Cfg (List KV) (List KV) Bits (Cell Bits (List Bits))} {as bs : List Pipeline.Act} {x y z : Sys (List Bits)}
    (h1 : Pipeline.run c rd x as = some y) (h2 : Pipeline.run c rd y bs = some z) : Pipeline.run c rd x (as ++ bs) = some z := by
  induction as generalizing x with
  | nil => simp only [Pipeline.run, Option.some.injEq] at h1; subst h1; exact h2
  | cons a as ih =>
    simp only [Pipeline.run, Option.bind_eq_some_iff, List.cons_append] at h1 ⊢
    obtain ⟨x1, h3, h4⟩ := h1
    exact ⟨x1, h3, ih h4⟩

theorem session {l n : Nat} {o : Out} {shapes : List Shape} (ho : o.leaf = l) (honly : Only rd lib o.name o) (hshape : o.shape ∈ shapes)
    {t : Stages} (ht : stages l n = some t) (hg : Good t) : Session (fun _ => 0) su rd lib o.name o shapes acts (coll l n) t.x t.x' := by
  unfold stages at ht
  simp only [Option.bind_eq_some_iff, Option.some.injEq] at ht
  obtain ⟨x, h1, w, h2, y, h3, z, h4, x', h5, e⟩ := ht
  subst e
  obtain ⟨g1, g2, g3, g4⟩ := hg
  subst ho
  refine ⟨by unfold Exportable; decide, honly, hshape, ?_, by decide, h1, g1, ⟨mid1 ++ mid2, tasks 9 n, y, z, q0, rfl, run_app h2 h3, h4, h5, g4, ?_⟩, ?_⟩
  · intro e he
    have h : ∀ e ∈ Pipeline.calls acts, (e.1.attrs e.2.1).all (fun kv => decide (kv.val ≠ .invalid)) = true := by decide
    have := h e he
    rw [List.all_eq_true] at this
    exact fun kv hkv => of_decide_eq_true (this kv hkv)
  · intro i hi
    by_cases h0 : i = 0
    · subst h0
      exact ⟨[], tasks 7 4 ++ mid2, x, rfl, rfl, g2⟩
    · by_cases h0' : i = 1
      · subst h0'
        exact ⟨mid1, tasks 8 23, w, rfl, h2, g3⟩
      · have : (Front.realCfg (fun _ => 0) su).leavesOf i = [] := by
          show (if i = 0 then _ else _) = _
          rw [if_neg h0, if_neg h0']
        rw [this] at hi
        cases hi
  · have h1 : Pipeline.calls (mid1 ++ mid2) = [] := by decide
    have h2 : Pipeline.calls (tasks 9 n) = [] := by
      unfold Pipeline.calls
      rw [List.filterMap_eq_nil_iff]
      intro a ha
      rw [(List.mem_replicate.1 ha).2]
    unfold coll
    unfold Pipeline.calls at h1 h2 ⊢
    rw [List.filterMap_append, List.filterMap_append, h1]
    exact congrArg (· ++ []) h2

theorem fits (l : Nat) : Fits su l acts := by
  refine ⟨fun _ => [ka, kb, []], [ka, kb, []], fun _ _ => (by decide : 3 < 4), (by decide : 3 < 4), ?_, ?_⟩
  · intro e he _
    have h : ∀ e ∈ Pipeline.calls acts, e.1.attrs e.2.1 ∈ [ka, kb, []] := by decide
    exact h e he
  · intro o _ a ha
    refine ⟨?_, a, ha, fun _ _ _ => rfl⟩
    rintro ⟨kv, hkv, xs, hv, _⟩
    simp only [List.mem_cons, List.not_mem_nil, or_false] at ha
    rcases ha with rfl | rfl | rfl <;> simp only [ka, kb, List.mem_cons, List.not_mem_nil, or_false] at hkv <;> rw [hkv] at hv <;> cases hv

theorem noEmpty : ∀ e ∈ Pipeline.calls acts, NoEmptyList (e.1.attrs e.2.1) := by
  intro e he kv hkv
  have h : ∀ e ∈ Pipeline.calls acts, (e.1.attrs e.2.1).all (fun kv => decide (kv.val ≠ .bools [] ∧ kv.val ≠ .ints [] ∧ kv.val ≠ .floats [] ∧ kv.val ≠ .strs [])) = true := by
    decide
  have := h e he
  rw [List.all_eq_true] at this
  exact of_decide_eq_true (this kv hkv)

/-- Evaluates `Sequential` along a run, for all output metrics at once. -/
def seqB : Sys (List Bits) → List Pipeline.Act → Bool
  | _, [] => true
  | w, a :: as => (match a with | .call _ _ _ => (List.range w.s.nextOp).all (fun j => (w.s.op j).pc == .done) | _ => true) &&
    (match Pipeline.step sc rd w a with | none => true | some w' => seqB w' as)

theorem seqB_spec {as : List Pipeline.Act} {w0 : Sys (List Bits)} (h : seqB w0 as = true) {before after : List Pipeline.Act} {i : Front.Inst} {kvs : List KV}
    {n : Bits} {w : Sys (List Bits)} (e : as = before ++ .call i kvs n :: after) (hr : Pipeline.run sc rd w0 before = some w) :
    ∀ j, j < w.s.nextOp → (w.s.op j).pc = .done := by
  induction before generalizing as w0 with
  | nil =>
    subst e
    simp only [Pipeline.run, Option.some.injEq] at hr
    subst hr
    simp only [List.nil_append, seqB, Bool.and_eq_true] at h
    intro j hj
    have := List.all_eq_true.1 h.1 j (List.mem_range.2 hj)
    simpa using this
  | cons b before ih =>
    subst e
    simp only [Pipeline.run, Option.bind_eq_some_iff] at hr
    obtain ⟨w1, h1, h2⟩ := hr
    simp only [List.cons_append, seqB, Bool.and_eq_true, h1] at h
    exact ih h.2 rfl h2

theorem sequential (l : Nat) : Sequential sc rd l acts :=
  fun _ _ _ _ _ _ e hr _ j hj _ => seqB_spec (by decide +kernel : seqB (initial sc) acts = true) e hr j hj

end Verif.Examples.PipeG
