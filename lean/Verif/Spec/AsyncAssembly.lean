import Verif.Model.AsyncAssembly
import Verif.Spec.Assembly
import Verif.Spec.AsyncPipeline

/-!
What a user knows about a program with observable instruments: the meters and instruments asked for, what callbacks observe, and the payloads.
-/

namespace Verif.Assembly
open Verif.Attr Verif.Number Verif.Front Verif.Views Verif.Provider Verif.Instruments
variable {C G ν : Type} [DecidableEq C]

/-- A metric seen by a reader, as `Metric` says for synchronous instruments: the provider was made by the calls `cs`; an asynchronous instrument with the name `n` was made
in the `k`th meter, whose scope is `sc`; the name is used in one way in it; the reader `pipe` with the views `v` has a default aggregation which is legal for the
instrument (see C27). -/
structure Observable (x : Ext C) (views : List (Views C)) (cs : List (Call ν)) (p : Provider C ν) (pipe k : Nat) (v : Views C) (sc : Scope) (c : Ctor) (n unit : Str) :
    Prop where
  made : p = Provider.run x (Provider.new views) cs
  reader : views[pipe]? = some v
  inst : ∃ (m : Meter C ν) (o : Provider.Inst), p.ordered[k]? = some m ∧ m.scope = sc ∧ o ∈ m.insts ∧ o.desc.name = n
  async : c.kinds.2.synchronous = false
  plain : Plain v sc (requests k cs) c n unit
  legal : Legal c.kinds.2 (v.defaults.agg c.kinds.2)

/-- A program with a provider made before, and the push exporter of one of its readers: callbacks observe and collections are exported, in any way such that callbacks wait
for the observations they start. -/
structure Observing (w : World C G) (fsub : Bits → Bits → Bits) (p : Provider C ν) (pipe : Nat) (acts : List AsyncPipeline.Act) (s : AsyncPipeline.Sys) : Prop where
  resource : Export.Exportable w.resource
  typed : AsyncPipeline.Typed acts
  orderly : AsyncPipeline.Orderly (asyncSetup w fsub p pipe) (asyncReader w p pipe) (AsyncPipeline.initial (asyncSetup w fsub p pipe)) acts
  runs : AsyncPipeline.run (asyncSetup w fsub p pipe) (asyncReader w p pipe) (AsyncPipeline.initial (asyncSetup w fsub p pipe)) acts = some s

/-- An observation which counts: the number of the collection, the instrument, the attribute set, the value. -/
abbrev Seen := Nat × Nat × List KV × Bits

/-- The observations which counted, in order. -/
def seenIn (s : AsyncPipeline.Sys) : List Seen := s.s.log.map (fun v => (v.coll, v.obs, v.set, v.val))

/-- The last value observed in collection `t` by instrument `id` with the attributes `a`. -/
def lastSeen (obs : List Seen) (t id : Nat) (a : List KV) : Option Bits :=
  ((obs.filter (fun e => decide (e.1 = t ∧ e.2.1 = id ∧ e.2.2.1 = a))).getLast?).map (·.2.2.2)

/-- The attributes shown: those with a key which is selected, if keys are selected. -/
def shown (keys : Option (List Str)) (a : List KV) : List KV := a.filter (fun kv => decide (kv.key ≠ [] ∧ ∀ ks, keys = some ks → kv.key ∈ ks))

/-- `ps` lists, each once, the instruments feeding the metric and the attribute sets observed in collection `t` which are shown as `a`, with the last value
observed for them. -/
def LastValues (feeds : Nat → Prop) (keys : Option (List Str)) (obs : List Seen) (t : Nat) (a : List KV) (ps : List (Nat × List KV × Bits)) : Prop :=
  (ps.map (fun e => (e.1, e.2.1))).Nodup ∧
  ∀ id set y, (id, set, y) ∈ ps ↔ feeds id ∧ shown keys set = a ∧ lastSeen obs t id set = some y

/-- The value shown for these values: for a gauge one of them (the only one, if there is one only), for an integer sum their sum, for a float sum their sum in some
order. -/
def Combined (w : World C G) (a : AggKind) (num : Kind) (vals : List Bits) (y : Bits) : Prop :=
  if a = .gauge then y ∈ vals
  else match num with
    | .int64 => y = Spec.total64 vals
    | .float64 => ∃ order : List Bits, order.Perm vals ∧ y = order.foldl w.fadd 0

/-- Something was observed in collection `t` which is shown as `a`. -/
def Shows (feeds : Nat → Prop) (keys : Option (List Str)) (obs : List Seen) (t : Nat) (a : List KV) : Prop :=
  ∃ e ∈ obs, e.1 = t ∧ feeds e.2.1 ∧ shown keys e.2.2.1 = a

/-- The cumulative value `y` of the attributes `a` in collection `t`. -/
def Amount (w : World C G) (feeds : Nat → Prop) (keys : Option (List Str)) (agg : AggKind) (num : Kind) (obs : List Seen) (t : Nat) (a : List KV) (y : Bits) : Prop :=
  ∃ ps, ps ≠ [] ∧ LastValues feeds keys obs t a ps ∧ Combined w agg num (ps.map (·.2.2)) y

/-- The same in the collection before. -/
def AmountBefore (w : World C G) (feeds : Nat → Prop) (keys : Option (List Str)) (agg : AggKind) (num : Kind) (obs : List Seen) (t : Nat) (a : List KV) (y : Bits) : Prop :=
  ∃ t', t = t' + 1 ∧ Amount w feeds keys agg num obs t' a y

/-- Fewer than `lim` different attribute sets are shown for the observations of collection `t`. -/
def FewSets (feeds : Nat → Prop) (keys : Option (List Str)) (lim : Nat) (obs : List Seen) (t : Nat) : Prop :=
  ∃ B : List (List KV), B.length < lim ∧ ∀ e ∈ obs, e.1 = t → feeds e.2.1 → shown keys e.2.2.1 ∈ B

end Verif.Assembly
