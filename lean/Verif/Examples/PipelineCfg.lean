import Verif.Model.Pipeline
import Verif.Spec.Pipeline
import Verif.Examples.SyncCfg

/-!
A concrete program with a reader, used to show that the hypotheses of the theorems about the whole path are met by non-trivial cases.
-/

namespace Verif.Examples.Pipe
open Verif Verif.Attr Verif.Number Verif.Aggr Verif.Export Verif.Pipeline Verif.Examples

def kvb (k : UInt8) (b : Bool) : KV := ⟨[k], .bool b⟩

/-- Instrument 0 is an integer counter, feeding output metric 0 (delta sum) and 1 (cumulative sum of kvb 97 only); instrument 1 is a float histogram,
feeding 2 (delta histogram) and 3 (cumulative min/max/sum/count). -/
def su : Front.Setup (Cell Bits Nat) where
  ignoreColl := false
  limit := 4
  periods := 2
  leavesOf := fun o => if o = 0 then [0, 1] else if o = 1 then [2, 3] else []
  keys := fun l => if l = 1 then some [[97]] else none
  lim := fun _ => 4
  delta := fun l => l = 0 || l = 2
  agg := fun l => if l = 2 then histAgg (fltOps (fun a _ => a)) hOps else if l = 3 then mmscAgg (fltOps (fun a _ => a)) hOps else sumAgg intOps hOps

def sc : Sync.Cfg (List KV) (List KV) Bits (Cell Bits Nat) := Front.realCfg (fun _ => 0) su

def lib : Library := ⟨[108], [], []⟩
def out (l : Nat) (n : Kind) (s : Shape) : Out := { leaf := l, name := [109, UInt8.ofNat l], unit := [], description := [], num := n, shape := s }

def rd : Reader Nat where
  resource := [kvb 114 true]
  scopes := [(lib, [out 0 .int64 .monotonic, out 1 .int64 .monotonic, out 2 .float64 .hist, out 3 .float64 .mmsc])]
  toHist := fun n => { sum := 0, count := n, min := 0, max := 0, zeroCount := n, scale := 0, posOffset := 0, pos := [], negOffset := 0, neg := [] }
  mapping := fun _ => none

def counter : Front.Inst := { id := 0, kind := .syncCounter, num := .int64, sizeLimit := 100, proc := none }
def histo : Front.Inst := { id := 1, kind := .syncHistogram, num := .float64, sizeLimit := 100, proc := none }

def ops (i n : Nat) : List Pipeline.Act := List.replicate n (.sched (.op i))
def tasks (t n : Nat) : List Pipeline.Act := List.replicate n (.sched (.task t 0))
def q0 : Times.Seq := ⟨1, 2, 3⟩
/-- Two counter calls overlap, with a rejected one between; a collection and an export of the delta sum happen; then there are more calls. -/
def acts : List Pipeline.Act :=
  [.call counter [kvb 97 true] 7, .call counter [kvb 97 true, kvb 98 false] 5, .call counter [kvb 97 true] (-1)] ++ ops 0 7 ++ ops 1 12 ++ ops 0 5 ++
  [.sched (.snapshot 0)] ++ tasks 0 20 ++ [.sched (.collect 0)] ++ tasks 1 6 ++ [.export q0] ++
  [.call counter [kvb 97 true] 30] ++ ops 2 9 ++ [.call histo [kvb 97 true] 0x3ff0000000000000] ++ ops 3 12 ++ [.call histo [] 0] ++ ops 4 12

def mid1 : List Pipeline.Act := .sched (.snapshot 0) :: tasks 2 12
def mid2 : List Pipeline.Act := .sched (.snapshot 1) :: tasks 3 20

/-- The last collection and export of output metric `l`; collecting takes `n` steps. -/
def coll (l n : Nat) : List Pipeline.Act := (mid1 ++ mid2) ++ .sched (.collect l) :: tasks 4 n ++ [.export q0]

structure Stages where
  x : Sys Nat
  w : Sys Nat
  y : Sys Nat
  z : Sys Nat
  x' : Sys Nat

def stages (l n : Nat) : Option Stages :=
  (Pipeline.run sc rd (initial sc) acts).bind fun x => (Pipeline.run sc rd x mid1).bind fun w => (Pipeline.run sc rd w mid2).bind fun y =>
    (Pipeline.run sc rd y (.sched (.collect l) :: tasks 4 n)).bind fun z => (Pipeline.step sc rd z (.export q0)).bind fun x' => some ⟨x, w, y, z, x'⟩

def Good (t : Stages) : Prop :=
  (∀ i, i < t.x.s.nextOp → (t.x.s.op i).pc = .done) ∧ t.y.s.task t.x.s.nextTask = .done ∧ t.y.s.task t.w.s.nextTask = .done ∧
    t.z.s.task t.y.s.nextTask = .done

instance : DecidablePred Good := fun t => by unfold Good; infer_instance

theorem run_app {c : Sync.Cfg (List KV) (List KV) Bits (Cell Bits Nat)} {as bs : List Pipeline.Act} {x y z : Sys Nat}
    (h1 : Pipeline.run c rd x as = some y) (h2 : Pipeline.run c rd y bs = some z) : Pipeline.run c rd x (as ++ bs) = some z := by
  induction as generalizing x with
  | nil => simp only [Pipeline.run, Option.some.injEq] at h1; subst h1; exact h2
  | cons a as ih =>
    simp only [Pipeline.run, Option.bind_eq_some_iff, List.cons_append] at h1 ⊢
    obtain ⟨x1, h3, h4⟩ := h1
    exact ⟨x1, h3, ih h4⟩

theorem session {l n : Nat} {o : Out} {shapes : List Shape} (ho : o.leaf = l) (honly : Only rd lib o.name o) (hshape : o.shape ∈ shapes)
    {t : Stages} (ht : stages l n = some t) (hg : Good t) : Session (fun _ => 0) su rd lib o.name o shapes acts (coll l n) t.x t.x' := by
  unfold stages at ht
  simp only [Option.bind_eq_some_iff, Option.some.injEq] at ht
  obtain ⟨x, h1, w, h2, y, h3, z, h4, x', h5, e⟩ := ht
  subst e
  obtain ⟨g1, g2, g3, g4⟩ := hg
  subst ho
  refine ⟨by unfold Exportable; decide, honly, hshape, ?_, by decide, h1, g1, ⟨mid1 ++ mid2, tasks 4 n, y, z, q0, rfl, run_app h2 h3, h4, h5, g4, ?_⟩, ?_⟩
  · intro e he
    have h : ∀ e ∈ Pipeline.calls acts, (e.1.attrs e.2.1).all (fun kv => decide (kv.val ≠ .invalid)) = true := by decide
    have := h e he
    rw [List.all_eq_true] at this
    exact fun kv hkv => of_decide_eq_true (this kv hkv)
  · intro i hi
    by_cases h0 : i = 0
    · subst h0
      exact ⟨[], tasks 2 12 ++ mid2, x, rfl, rfl, g2⟩
    · by_cases h0' : i = 1
      · subst h0'
        exact ⟨mid1, tasks 3 20, w, rfl, h2, g3⟩
      · have : (Front.realCfg (fun _ => 0) su).leavesOf i = [] := by
          show (if i = 0 then _ else _) = _
          rw [if_neg h0, if_neg h0']
        rw [this] at hi
        cases hi
  · have h1 : Pipeline.calls (mid1 ++ mid2) = [] := by decide
    have h2 : Pipeline.calls (tasks 4 n) = [] := by
      unfold Pipeline.calls
      rw [List.filterMap_eq_nil_iff]
      intro a ha
      rw [(List.mem_replicate.1 ha).2]
    unfold coll
    unfold Pipeline.calls at h1 h2 ⊢
    rw [List.filterMap_append, List.filterMap_append, h1]
    exact congrArg (· ++ []) h2

theorem fits (l : Nat) : Fits su l acts := by
  refine ⟨fun _ => [[kvb 97 true], [kvb 97 true, kvb 98 false], []], [[kvb 97 true], [kvb 97 true, kvb 98 false], []], fun _ _ => (by decide : 3 < 4), (by decide : 3 < 4), ?_, ?_⟩
  · intro e he _
    have h : ∀ e ∈ Pipeline.calls acts, e.1.attrs e.2.1 ∈ [[kvb 97 true], [kvb 97 true, kvb 98 false], []] := by decide
    exact h e he
  · intro o _ a ha
    refine ⟨?_, a, ha, fun _ _ _ => rfl⟩
    rintro ⟨kv, hkv, xs, hv, _⟩
    simp only [List.mem_cons, List.not_mem_nil, or_false] at ha
    rcases ha with rfl | rfl | rfl <;> simp only [List.mem_cons, List.not_mem_nil, or_false] at hkv
    · rw [hkv] at hv; cases hv
    · rcases hkv with hkv | hkv <;> rw [hkv] at hv <;> cases hv

theorem noEmpty : ∀ e ∈ Pipeline.calls acts, NoEmptyList (e.1.attrs e.2.1) := by
  intro e he kv hkv
  have h : ∀ e ∈ Pipeline.calls acts, (e.1.attrs e.2.1).all (fun kv => decide (kv.val ≠ .bools [] ∧ kv.val ≠ .ints [] ∧ kv.val ≠ .floats [] ∧ kv.val ≠ .strs [])) = true := by
    decide
  have := h e he
  rw [List.all_eq_true] at this
  exact of_decide_eq_true (this kv hkv)

end Verif.Examples.Pipe
