import Verif.Model.Assembly
import Verif.Spec.Pipeline
import Verif.Spec.Provider

/-!
What a user knows about a program: the meters and instruments asked for, the calls on these, and the payloads.
-/

namespace Verif.Assembly
open Verif.Attr Verif.Number Verif.Aggr Verif.Front Verif.Views Verif.Provider Verif.Instruments
variable {C G ν : Type} [DecidableEq C]

/-- The instruments asked for on the `k`th meter. -/
def requests (k : Nat) (cs : List (Call ν)) : List Desc :=
  cs.filterMap (fun c => match c with | .instrument k' d => if k' = k then some d else none | _ => none)

/-- The name `n` is used in one way: every instrument of the meter which has this name, or is shown with this name by the reader, was made by the constructor `c`
with this unit, without a hint, and no clause of the reader's views applies to it. -/
def Plain (v : Views C) (sc : Scope) (ds : List Desc) (c : Ctor) (n unit : Str) : Prop :=
  ∀ d ∈ ds, d.name = n ∨ OutputName v sc d n → (∃ text, d = c.desc n text unit) ∧ NoHint d ∧ ∀ cl ∈ v.clauses, ¬ Applies cl sc d

/-- A metric seen by a reader: the provider was made by the calls `cs`; a synchronous instrument with the name `n` was made in the `k`th meter, whose scope is `sc`;
the name is used in one way in it; the reader `pipe` with the views `v` has a default aggregation which is legal for the instrument (see C27). -/
structure Metric (x : Ext C) (views : List (Views C)) (cs : List (Call ν)) (p : Provider C ν) (pipe k : Nat) (v : Views C) (sc : Scope) (c : Ctor) (n unit : Str) :
    Prop where
  made : p = Provider.run x (Provider.new views) cs
  reader : views[pipe]? = some v
  inst : ∃ (m : Meter C ν) (o : Provider.Inst), p.ordered[k]? = some m ∧ m.scope = sc ∧ o ∈ m.insts ∧ o.desc.name = n
  sync : c.kinds.2.synchronous = true
  plain : Plain v sc (requests k cs) c n unit
  legal : Legal c.kinds.2 (v.defaults.agg c.kinds.2)

/-- The calls are made on synchronous instruments of the provider. -/
def Genuine (w : World C G) (p : Provider C ν) (acts : List Pipeline.Act) : Prop :=
  ∀ e ∈ Pipeline.calls acts, ∃ k i m o proc, p.ordered[k]? = some m ∧ m.insts[i]? = some o ∧ o.desc.kind.synchronous = true ∧ e.1 = instrument w k i o proc

/-- The address is that of an instrument with this name of the `k`th meter. -/
def Called (p : Provider C ν) (k : Nat) (n : Str) (id : Nat) : Prop :=
  ∃ m i o, p.ordered[k]? = some m ∧ m.insts[i]? = some o ∧ o.desc.name = n ∧ id = instAddr k i

/-- The values recorded on the instruments with this name of the `k`th meter by calls whose attributes satisfy `Q`, in the order of the calls; rejected values
(see C09) do not count. The attributes of a call are those given by the caller after truncation and the measurement processor (see C18). -/
noncomputable def recordedBy (p : Provider C ν) (k : Nat) (n : Str) (Q : List KV → Prop) (acts : List Pipeline.Act) : List Bits :=
  ((Pipeline.calls acts).filter (fun e => open Classical in
    decide (¬ Props.Rejected e.1.num e.1.kind e.2.2 ∧ Q (e.1.attrs e.2.1) ∧ Called p k n e.1.id))).map (·.2.2)

/-- A program with a provider made by the calls before, and the push exporter of one of its readers: any calls, collections and exports happen (`acts`), until
all calls have returned; then the reader collects all its output metrics of synchronous instruments once more and exports (`coll`). Fewer than 2^32 calls are made. -/
structure Program (farm : Str → UInt64) (w : World C G) (p : Provider C ν) (pipe : Nat) (acts coll : List Pipeline.Act) (x x' : Pipeline.Sys G) : Prop where
  resource : Export.Exportable w.resource
  genuine : Genuine w p acts
  typed : Pipeline.Typed acts
  few : (Pipeline.calls acts).length < 2 ^ 32
  before : Pipeline.run (realCfg farm (setup w p)) (reader w p pipe) (Pipeline.initial (realCfg farm (setup w p))) acts = some x
  returned : ∀ i, i < x.s.nextOp → (x.s.op i).pc = .done
  collected : ∀ s ∈ (reader w p pipe).scopes, ∀ o ∈ s.2, syncLeaf p o.leaf = true → Pipeline.Collected (realCfg farm (setup w p)) (reader w p pipe) o.leaf x coll x'
  quiet : Pipeline.calls coll = []

/-- The attributes used stay within the limits: fewer than `instLimit` different lists for each instrument with this name of the `k`th meter, and fewer than
`lim` different sets for all of these. No list has a NaN inside a float slice (see C17). -/
def FewAttributes (w : World C G) (p : Provider C ν) (k : Nat) (n : Str) (lim : Nat) (acts : List Pipeline.Act) : Prop :=
  ∃ (A : Nat → List (List KV)) (B : List (List KV)),
    (∀ id, Called p k n id → (A id).length < w.instLimit) ∧ B.length < lim ∧
    (∀ e ∈ Pipeline.calls acts, Called p k n e.1.id → e.1.attrs e.2.1 ∈ A e.1.id) ∧
    ∀ id, Called p k n id → ∀ a ∈ A id, ¬ HasNaNSlice a ∧ ∃ b ∈ B, Pipeline.SameSeries none a b

/-- Calls on the instruments with this name of the `k`th meter do not overlap. -/
def OneByOne (farm : Str → UInt64) (w : World C G) (p : Provider C ν) (pipe k : Nat) (n : Str) (acts : List Pipeline.Act) : Prop :=
  ∀ before i kvs v after y, acts = before ++ .call i kvs v :: after →
    Pipeline.run (realCfg farm (setup w p)) (reader w p pipe) (Pipeline.initial (realCfg farm (setup w p))) before = some y → Called p k n i.id →
    ∀ j, j < y.s.nextOp → Called p k n (y.s.op j).obs → (y.s.op j).pc = .done

/-- The scope of a meter as a payload names it. -/
def sentScope (sc : Scope) : Export.Library := ⟨sc.name, sc.version, sc.schema⟩

/-- The kind of data of an aggregation, with this temporality: the two kinds of sums, gauges, exponential histograms and summaries without buckets. -/
def DataFor (a : AggKind) (t : Export.PTemporality) : Export.PData → Prop
  | .sum mono t' _ => (a = .monoSum ∧ mono = true ∨ a = .nonMonoSum ∧ mono = false) ∧ t' = t
  | .gauge _ => a = .gauge
  | .hist t' _ => a = .mmsc ∧ t' = t
  | .exp t' _ => a = .histogram ∧ t' = t

end Verif.Assembly
