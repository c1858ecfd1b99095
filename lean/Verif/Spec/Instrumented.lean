import Verif.Spec.Counted
import Verif.Props.AsyncPipeline

/-!
Instruments which are observed at most once for each attribute set in each collection.
-/

namespace Verif.Launched
open Verif.Attr Verif.Number Verif.Export Verif.Assembly Verif.Instruments
variable {C G : Type}

/-- Attributes with text values. -/
def textAttrs (a : List (Str × Str)) : List KV := a.map (fun e => ⟨e.1, .str e.2⟩)

/-- The attributes are exactly these texts, in some order. -/
def HasTexts (a : List (Str × Str)) (m : PMap) : Prop := m.Perm (a.map (fun e => (e.1, .one (.str e.2))))

/-- The cumulative number for a single value: the value; for sums of floats the value added to zero (which is the same number). -/
def single (e : Outside C G) (c : Ctor) (v : Bits) : Bits := if (Props.promise c).num = .float64 ∧ (Props.promise c).output ≠ .gauge then e.fadd 0 v else v

/-- There is a difference between two numbers. -/
def Moved (e : Outside C G) : Kind → Bits → Bits → Prop
  | .int64, y, b => y ≠ b
  | .float64, y, b => ¬ Props.FloatZero (e.fsub y b)

/-- The difference. -/
def difference (e : Outside C G) : Kind → Bits → Bits → Bits
  | .int64, y, b => y - b
  | .float64, y, b => e.fsub y b

end Verif.Launched
