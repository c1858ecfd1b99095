import Verif.Spec.AssemblyViews
import Verif.Spec.AsyncAssembly

/-!
Observable instruments which are shown through views.
-/

namespace Verif.Assembly
open Verif.Attr Verif.Number Verif.Front Verif.Views Verif.Provider Verif.Instruments
variable {C G ν : Type} [DecidableEq C]

/-- The address is that of an instrument of the `k`th meter which is shown under the name. -/
def Feeds (p : Provider C ν) (k : Nat) (v : Views C) (sc : Scope) (n : Str) (id : Nat) : Prop := 0 < times p k v sc n id

/-- No instrument of the `k`th meter is shown several times under the name. -/
def ShownOnce (p : Provider C ν) (k : Nat) (v : Views C) (sc : Scope) (n : Str) : Prop := ∀ id, times p k v sc n id ≤ 1

end Verif.Assembly
