import Verif.Model.AsyncPipeline
import Verif.Spec.Async
import Verif.Spec.Aggr
import Verif.Spec.Payload

/-!
What a user sees of asynchronous instruments: the observations made by callbacks and the points in the payloads sent.
-/

namespace Verif.AsyncPipeline
open Verif.Attr Verif.Number
variable {H : Type}

/-- The collections among the actions, with their clock readings. -/
def collections (acts : List Act) : List Times.Seq := acts.filterMap (fun a => match a with | .collect _ q => some q | _ => none)

/-- Every attribute used in an observation has a type. -/
def Typed (acts : List Act) : Prop := ∀ cb o as v, .cb (.observe cb o as v) ∈ acts → ∀ kv ∈ as, kv.val ≠ .invalid

/-- Callbacks wait for the observations they start: whenever a collection goes on, none is half done. -/
def Orderly (u : Setup) (R : Pipeline.Reader H) : Sys → List Act → Prop
  | _, [] => True
  | x, a :: as => (∀ order q, a = .collect order q → ¬ Async.InFlight x.s) ∧ ∀ x', step u R x a = some x' → Orderly u R x' as

/-- An observation which counts, in the order in which they were made: in which collection, of which instrument, with which attribute set and value. -/
abbrev Log := List (Async.Ev (List KV) Bits)

/-- `ps` lists, each once, the instruments and attribute sets observed in collection `n` which output metric `l` shows as the attributes `k`, with
the last value observed for them in this collection. -/
def Values (u : Setup) (log : Log) (n l : Nat) (k : List KV) (ps : List (Nat × List KV × Bits)) : Prop :=
  (ps.map (fun p => (p.1, p.2.1))).Nodup ∧
  ∀ o set x, (o, set, x) ∈ ps ↔ l ∈ u.leavesOf o ∧ applyKeysFilter (u.keys l) set = k ∧ Async.lastObs log n o set = some x

/-- The value of a series made of these values: for a gauge one of them (the only one, if there is one only), for an integer sum their sum, for a float
sum their sum in some order. -/
def Combines (u : Setup) (l : Nat) (vals : List Bits) (v : Bits) : Prop :=
  match u.gauge l, u.num l with
  | true, _ => v ∈ vals
  | false, .int64 => v = Verif.Spec.total64 vals
  | false, .float64 => ∃ order : List Bits, order.Perm vals ∧ v = order.foldl u.fadd 0

/-- A series which output metric `l` shows for the observations of collection `n`. -/
def Observed (u : Setup) (log : Log) (l n : Nat) (k : List KV) : Prop :=
  ∃ v ∈ log, v.coll = n ∧ l ∈ u.leavesOf v.obs ∧ applyKeysFilter (u.keys l) v.set = k

/-- The cumulative value `v` of series `k` in collection `n`: there are observations, and `v` is made of them. -/
def CumAt (u : Setup) (log : Log) (l n : Nat) (k : List KV) (v : Bits) : Prop :=
  ∃ ps, ps ≠ [] ∧ Values u log n l k ps ∧ Combines u l (ps.map (·.2.2)) v

/-- The same in the collection before. -/
def Before (u : Setup) (log : Log) (l n : Nat) (k : List KV) (v : Bits) : Prop := ∃ m, n = m + 1 ∧ CumAt u log l m k v

/-- The attribute sets observed in collection `n` stay within the cardinality limit of output metric `l`. -/
def FitsIn (u : Setup) (log : Log) (l n : Nat) : Prop :=
  ∃ B : List (List KV), B.length < u.lim l ∧ ∀ v ∈ log, v.coll = n → l ∈ u.leavesOf v.obs → applyKeysFilter (u.keys l) v.set ∈ B

/-- No instrument feeds the output metric more than once. -/
def FedOnce (u : Setup) (l : Nat) : Prop := ∀ o, (u.leavesOf o).count l ≤ 1

/-- The output metric is what the setup says. -/
structure Agrees (u : Setup) (o : Pipeline.Out) : Prop where
  num : u.num o.leaf = o.num
  shape : if u.gauge o.leaf then o.shape = .gauge else o.shape = .monotonic ∨ o.shape = .nonMonotonic

/-! Callbacks which observe one after the other. -/

/-- One run of a callback: the instruments declared for it, and the observations it makes: instrument, attributes, value. -/
structure CbRun where
  insts : List Nat
  obs : List (Nat × List KV × Bits)

/-- The observation counts: the instrument is declared, enabled, and the value is in its range. -/
def Legal (u : Setup) (insts : List Nat) (o : Nat × List KV × Bits) : Bool :=
  insts.contains o.1 && Front.rangeTest (u.inst o.1).num o.2.2 (u.inst o.1).kind && !(u.leavesOf o.1).isEmpty

/-- The steps of one observation, number `i`, in callback run `cb`. -/
def obsActs (u : Setup) (cb i : Nat) (insts : List Nat) (o : Nat × List KV × Bits) : List Act :=
  .cb (.observe cb o.1 o.2.1 o.2.2) :: List.replicate (if Legal u insts o then 3 else 1) (.cb (.op i))

def obsListActs (u : Setup) (cb : Nat) (insts : List Nat) : Nat → List (Nat × List KV × Bits) → List Act
  | _, [] => []
  | i, o :: os => obsActs u cb i insts o ++ obsListActs u cb insts (i + 1) os

/-- The steps of runs of callbacks, the first of which is number `cb` and makes observation number `i` first. -/
def cbActs (u : Setup) : Nat → Nat → List CbRun → List Act
  | _, _, [] => []
  | cb, i, r :: rs => .cb (.startCb r.insts) :: obsListActs u cb r.insts i r.obs ++ .cb (.endCb cb) :: cbActs u (cb + 1) (i + r.obs.length) rs

/-- A program: for each collection the runs of callbacks, the order in which the results are taken, and the clock readings. -/
abbrev Program := List (List CbRun × List (Async.Entry (List KV) Bits) × Times.Seq)

def progActs (u : Setup) : Nat → Nat → Program → List Act
  | _, _, [] => []
  | cb, i, c :: cs => cbActs u cb i c.1 ++ .collect c.2.1 c.2.2 :: progActs u (cb + c.1.length) (i + (c.1.map (·.obs.length)).sum) cs

/-- The observations of a program which count: collection, instrument, attribute set, value. -/
def made (u : Setup) : Nat → Program → List (Nat × Nat × List KV × Bits)
  | _, [] => []
  | n, c :: cs => c.1.flatMap (fun r => (r.obs.filter (Legal u r.insts)).map (fun o => (n, o.1, u.set o.1 o.2.1, o.2.2))) ++ made u (n + 1) cs

end Verif.AsyncPipeline
