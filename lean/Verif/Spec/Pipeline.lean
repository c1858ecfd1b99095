import Verif.Model.Pipeline
import Verif.Props.Numbers
import Verif.Spec.Attr
import Verif.Spec.Export

/-!
What a user sees of a pipeline: the calls made and the points in the payloads sent.
-/

namespace Verif.Pipeline
open Verif.Attr Verif.Number

/-- The number points of a metric. -/
def numbers : Export.PData → List Export.PNumber
  | .sum _ _ ps => ps
  | .gauge ps => ps
  | _ => []

/-- The exponential histogram points of a metric. -/
def expPoints : Export.PData → List Export.PExp
  | .exp _ ps => ps
  | _ => []

/-- The explicit-boundary histogram points of a metric. -/
def histPoints : Export.PData → List Export.PHist
  | .hist _ ps => ps
  | _ => []

/-- The points of the metrics with this scope and name in a payload. -/
def pointsIn {D : Type} (get : Export.PData → List D) (lib : Export.Library) (name : Str) (p : Export.Payload) : List D :=
  (p.scopes.filter (fun s => s.library = lib)).flatMap (fun s => (s.metrics.filter (fun m => m.name = name)).flatMap (fun m => get m.data))

/-- All points sent for a metric, oldest payload first. -/
def sentPoints {D : Type} (get : Export.PData → List D) (lib : Export.Library) (name : Str) (ps : List Export.Payload) : List D :=
  ps.flatMap (pointsIn get lib name)

/-- The integer values of points. -/
def ints (ps : List Export.PNumber) : List Bits :=
  ps.filterMap (fun p => match p.value with | .int v => some v | .double _ => none)

/-- The calls among the actions. -/
def calls (acts : List Act) : List (Front.Inst × List KV × Bits) :=
  acts.filterMap (fun a => match a with | .call i as n => some (i, as, n) | _ => none)

/-- The values recorded on instruments which feed output metric `l` by calls whose attributes satisfy `Q`, in the order of the calls; rejected values
(see C09) do not count. The attributes of a call are those given by the caller after truncation and the measurement processor (see C18). An instrument
normally feeds an output metric once; if views list it several times the value counts that often (see C30). -/
noncomputable def recordedOn (leavesOf : Nat → List Nat) (l : Nat) (Q : List KV → Prop) (acts : List Act) : List Bits :=
  (calls acts).flatMap (fun e => open Classical in
    if ¬ Props.Rejected e.1.num e.1.kind e.2.2 ∧ Q (e.1.attrs e.2.1) then List.replicate ((leavesOf e.1.id).count l) e.2.2 else [])

/-- The exported attributes `m` are what a view with the optional key list `f` shows of the attributes `as`: of each listed non-empty key the last value,
sorted by key. -/
def Describes (f : Option (List Str)) (as : List KV) (m : Export.PMap) : Prop :=
  m.Pairwise (fun x y => x.1 < y.1) ∧
  ∀ k v, (k, v) ∈ m ↔ k ≠ [] ∧ (∀ ks, f = some ks → k ∈ ks) ∧ ∃ w, lastValue k as = some w ∧ Export.ValueOf (canonVal w) v

/-- A view with the optional key list `f` sees no difference between the attributes. -/
def SameSeries (f : Option (List Str)) (a b : List KV) : Prop :=
  ∀ k, k ≠ [] → (∀ ks, f = some ks → k ∈ ks) → (lastValue k a).map canonVal = (lastValue k b).map canonVal

/-- No value is an empty list. (Empty lists of different types are exported alike.) -/
def NoEmptyList (l : List KV) : Prop := ∀ kv ∈ l, kv.val ≠ .bools [] ∧ kv.val ≠ .ints [] ∧ kv.val ≠ .floats [] ∧ kv.val ≠ .strs []

/-- The attributes of the calls on instruments feeding output metric `l` stay within the limits: fewer than `limit` different lists per instrument, and
fewer than `lim l` different sets for the view. No list has a NaN inside a float slice (such a list is different from itself, see C17). -/
def Fits {S : Type} (u : Front.Setup S) (l : Nat) (acts : List Act) : Prop :=
  ∃ (A : Nat → List (List KV)) (B : List (List KV)),
    (∀ o, l ∈ u.leavesOf o → (A o).length < u.limit) ∧ B.length < u.lim l ∧
    (∀ e ∈ calls acts, l ∈ u.leavesOf e.1.id → e.1.attrs e.2.1 ∈ A e.1.id) ∧
    ∀ o, l ∈ u.leavesOf o → ∀ a ∈ A o, ¬ HasNaNSlice a ∧ ∃ b ∈ B, SameSeries (u.keys l) a b

/-- The same for all calls made so far in a state of the machine. -/
def FitsNow {S : Type} (u : Front.Setup S) (l : Nat) (s : Sync.State (List KV) (List KV) Bits S) : Prop :=
  ∃ (A : Nat → List (List KV)) (B : List (List KV)),
    (∀ o, l ∈ u.leavesOf o → (A o).length < u.limit) ∧ B.length < u.lim l ∧
    (∀ i, i < s.nextOp → l ∈ u.leavesOf (s.op i).obs → (s.op i).attrs ∈ A (s.op i).obs) ∧
    ∀ o, l ∈ u.leavesOf o → ∀ a ∈ A o, ¬ HasNaNSlice a ∧ ∃ b ∈ B, SameSeries (u.keys l) a b

/-- Every attribute used has a type. -/
def Typed (acts : List Act) : Prop := ∀ e ∈ calls acts, ∀ kv ∈ e.1.attrs e.2.1, kv.val ≠ .invalid

variable {H : Type}

/-- Exactly one output metric of the reader has this scope and name. -/
def Only (R : Reader H) (lib : Export.Library) (name : Str) (o : Out) : Prop :=
  (R.scopes.flatMap (fun sc => (sc.2.filter (fun o => sc.1 = lib ∧ o.name = name)))) = [o]

/-- A collection of output metric `l` and its export: from `x`, the actions `mid` contain for each instrument feeding `l` a snapshot which is
finished in `y`; then `l` is collected, which is finished in `z`; then the exporter is called. Other things may happen at the same time. -/
structure Collected (c : Sync.Cfg (List KV) (List KV) Bits (Aggr.Cell Bits H)) (R : Reader H) (l : Nat) (x : Sys H) (acts : List Act) (x' : Sys H) :
    Prop where
  split : ∃ mid fin y z q, acts = mid ++ .sched (.collect l) :: fin ++ [.export q] ∧ run c R x mid = some y ∧
    run c R y (.sched (.collect l) :: fin) = some z ∧ step c R z (.export q) = some x' ∧ z.s.task y.s.nextTask = .done ∧
    ∀ o, l ∈ c.leavesOf o → ∃ m1 m2 w, mid = m1 ++ .sched (.snapshot o) :: m2 ∧ run c R x m1 = some w ∧ y.s.task w.s.nextTask = .done

/-- Calls on the instruments feeding output metric `l` do not overlap: such a call starts only after every earlier one has returned. Collections, exports
and calls on other instruments happen at any time. -/
def Sequential (c : Sync.Cfg (List KV) (List KV) Bits (Aggr.Cell Bits H)) (R : Reader H) (l : Nat) (acts : List Act) : Prop :=
  ∀ before i kvs n after w, acts = before ++ .call i kvs n :: after → run c R (initial c) before = some w → l ∈ c.leavesOf i.id →
    ∀ j, j < w.s.nextOp → l ∈ c.leavesOf (w.s.op j).obs → (w.s.op j).pc = .done

/-- The values are divided into groups, and each group is shown by one point, in this order. -/
def Grouped {D : Type} (Shows : List Bits → D → Prop) (vals : List Bits) (ds : List D) : Prop :=
  ∃ gs : List (List Bits), gs.flatten.Perm vals ∧ Export.Pointwise Shows gs ds

/-- A program with one reader and its push exporter: any calls and collections and exports happen (`acts`), until all calls have returned; then the
reader collects output metric `o` once more and exports it (`coll`). The metric is the only one with this name in its scope, and is of one of the
given shapes. Fewer than 2^32 calls are made. -/
structure Session (farm : Str → UInt64) (u : Front.Setup (Aggr.Cell Bits H)) (R : Reader H) (lib : Export.Library) (name : Str) (o : Out)
    (shapes : List Shape) (acts coll : List Act) (x x' : Sys H) : Prop where
  resource : Export.Exportable R.resource
  only : Only R lib name o
  shape : o.shape ∈ shapes
  typed : Typed acts
  few : (calls acts).length < 2 ^ 32
  before : run (Front.realCfg farm u) R (initial (Front.realCfg farm u)) acts = some x
  returned : ∀ i, i < x.s.nextOp → (x.s.op i).pc = .done
  collected : Collected (Front.realCfg farm u) R o.leaf x coll x'
  quiet : calls coll = []

end Verif.Pipeline
