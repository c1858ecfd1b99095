import Verif.Proof.Payload
import Verif.Examples.PipelineCfg

/-!
C74: every export sends one payload, which describes the reader's metrics.
-/

namespace Verif.Props
open Verif Verif.Attr Verif.Number Verif.Aggr Verif.Export Verif.Pipeline
variable {H : Type} {farm : Str → UInt64} {u : Front.Setup (Cell Bits H)} {R : Reader H}

/-- C74. After any calls, collections and exports: exactly one payload was sent per export, in order. Each has the resource's attributes, all scopes of the
reader in order, and in each scope metrics for some of its output metrics in order, with name, unit, description, sort of data, monotonicity, temporality
and number type of the output metric, and points whose interval ends at the collection and starts at the previous one (delta) or at the
start (cumulative). -/
theorem C74_payloads {acts : List Act} {x : Sys H} (hres : Exportable R.resource) (ht : Typed acts)
    (hr : Pipeline.run (Front.realCfg farm u) R (initial (Front.realCfg farm u)) acts = some x) :
    Pointwise (PayloadFor R u.delta) (exports acts) x.sent := by
  obtain ⟨out, hc, ha⟩ := copyAttributes_ok hres
  have := (PayInv.initial (farm := farm) (u := u) (R := R) (out := out)).run (acts := []) hc ha ht hr
  exact this.sent

section Example
open Verif.Examples Verif.Examples.Pipe

/-- The actions of the example, then everything is collected and exported. -/
def c74Acts : List Pipeline.Act :=
  Pipe.acts ++ Pipe.mid1 ++ Pipe.mid2 ++ (.sched (.collect 0) :: tasks 4 6) ++ (.sched (.collect 1) :: tasks 5 3) ++ (.sched (.collect 2) :: tasks 6 6) ++
    (.sched (.collect 3) :: tasks 7 4) ++ [.export ⟨1, 3, 9⟩]

/-- Two exports; the first payload has one metric, the second four of three sorts: (name, number of points). -/
example : Exportable rd.resource ∧ Typed c74Acts ∧ exports c74Acts = [⟨1, 2, 3⟩, ⟨1, 3, 9⟩] ∧
    ∃ x, Pipeline.run sc rd (initial sc) c74Acts = some x ∧
      x.sent.map (fun p => p.scopes.map (fun s => s.metrics.map (fun m => (m.name, match m.data with
        | .sum _ _ ps => ps.length | .gauge ps => ps.length | .exp _ ps => ps.length | .hist _ ps => ps.length)))) =
      [[[([109, 0], 2)]], [[([109, 0], 1), ([109, 1], 1), ([109, 2], 2), ([109, 3], 2)]]] := by
  refine ⟨by unfold Exportable; decide, ?_, by decide, exists_of_eval (by decide +kernel)⟩
  intro e he
  have h : ∀ e ∈ Pipeline.calls c74Acts, (e.1.attrs e.2.1).all (fun kv => decide (kv.val ≠ .invalid)) = true := by decide
  have := h e he
  rw [List.all_eq_true] at this
  exact fun kv hkv => of_decide_eq_true (this kv hkv)

end Example

end Verif.Props
