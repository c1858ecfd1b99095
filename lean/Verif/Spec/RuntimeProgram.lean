import Verif.Spec.Instrumented
import Verif.Model.RuntimeProgram
import Verif.Props.RuntimeNames

/-!
A program which starts the launcher and the runtime instrumentation.
-/

namespace Verif.Runtime
open Verif.Attr Verif.Number Verif.Assembly Verif.Instruments Verif.Launched
open Verif.Provider (Provider)
variable {C ν : Type}

/-- What the runtime offers: each metric has its own name, without braces, of at most 8192 bytes; fewer than 2000. Metrics which are reported under the same name have the same
unit and type. -/
structure Offers (all : List (Str × VKind)) : Prop where
  names : all.Pairwise (fun d d' => d.1 ≠ d'.1)
  few : all.length < 2000
  short : ∀ d ∈ all, d.1.length ≤ 8192 ∧ (123 : UInt8) ∉ d.1
  same : ∀ d ∈ all, ∀ d' ∈ all, ∀ w a w' a', seriesOf d.1 d.2 = some (w, a) → seriesOf d'.1 d'.2 = some (w', a') → w.name = w'.name → w.unit = w'.unit ∧ w.isFloat = w'.isFloat

/-- The runtime metric is reported under this name, with these attributes. -/
def ReportedAs (d : Str × VKind) (n : Str) (a : List (Str × Str)) : Prop := ∃ w, seriesOf d.1 d.2 = some (w, a) ∧ w.name = n

/-- The type of the numbers of a metric. -/
def numberOf (w : Want) : Kind := if w.isFloat then .float64 else .int64

/-- The `k`th meter of the program is the one of the runtime instrumentation: only its instruments were asked for there, `meter` gives the instrument made for each, and
registration was successful. -/
structure Registered (p : Provider C ν) (k : Nat) (sc : Views.Scope) (all : List (Str × VKind)) (isFloat : Nat → Bool) (meter : Want → Option Nat) (r : Reg Nat)
    (acts : List (Live.Act ν)) : Prop where
  scope : ∃ m, p.ordered[k]? = some m ∧ m.scope = sc
  asked : ∀ d ∈ requests k (Live.makes acts), ∃ x ∈ all, ∃ w a, seriesOf x.1 x.2 = some (w, a) ∧ d = w.desc
  given : ∀ w id, meter w = some id → Called p k w.name id ∧ isFloat id = w.isFloat
  done : registerLoop meter table all ⟨[], [], []⟩ = some (some r)

/-- In collection `t` the callback of the runtime instrumentation ran once, with these values read from the runtime, and nobody else observed its instruments. -/
structure Ran (p : Provider C ν) (k : Nat) (all : List (Str × VKind)) (isFloat : Nat → Bool) (r : Reg Nat) (acts : List Whole.Act) (t : Nat) (read : Str → VKind × Bits) : Prop where
  kinds : ∀ d ∈ all, (read d.1).1 = d.2
  observed : ∃ l, callback isFloat read r r.samples.zipIdx = some l ∧
    ((Whole.observations acts).filter (fun e => open Classical in decide (e.1 = t ∧ ∃ n, Called p k n e.2.1))).map (·.2) = l.map (fun o => (o.1, textAttrs o.2.1, o.2.2))

end Verif.Runtime
