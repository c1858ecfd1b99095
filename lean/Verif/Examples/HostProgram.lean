import Verif.Proof.HostProgram
import Verif.Examples.RuntimeProgram

/-!
Programs which start the launcher and the host or the process instrumentation.
-/

namespace Verif.Examples.Ho
open Verif Verif.Attr Verif.Number Verif.Export Verif.Assembly Verif.Instruments Verif.Launched Verif.Examples Verif.HostMetrics
open Verif.Examples.Asm (scA)
open Verif.Views (lit)
open Verif.Examples.Cn (sees)

/-- The place of an instrument among those asked for. -/
def place (asked : List (Want × Str)) (w : Want) : Nat := asked.findIdx (fun x => decide (x.1 = w))

def id (asked : List (Want × Str)) (w : Want) : Nat := instAddr 0 (place asked w)

def cs (asked : List (Want × Str)) : List (Provider.Call Nat) := .meter scA :: asked.map (fun x => .instrument 0 (x.1.desc x.2))

/-- The callback runs. -/
def ran (asked : List (Want × Str)) (i cb : Nat) (obs : List Obs) : List Whole.Act :=
  [.cb (.startCb (asked.map (fun x => id asked x.1)))] ++ obs.zipIdx.flatMap (fun o => sees (i + o.2) cb (id asked o.1.inst) (textAttrs o.1.attrs) o.1.value 3) ++ [.cb (.endCb cb)]

def en (asked : List (Want × Str)) (o : Obs) : Async.Entry (List KV) Bits :=
  ⟨id asked o.inst, usedSet (textAttrs o.attrs), [(leafAddr 0 0 (place asked o.inst), usedSet (textAttrs o.attrs))], o.value⟩

/-- Two collections. -/
def body (asked : List (Want × Str)) (a b : List Obs) : List Whole.Act :=
  ran asked 0 0 a ++ [.collect (a.map (en asked)) ⟨1, 1, 2⟩] ++ ran asked a.length 1 b ++ [.collect (b.map (en asked)) ⟨1, 2, 3⟩]

/-! ### The host -/

def fdiv (a _ : Bits) : Bits := a

def host (u : Bits) (used sent : Bits) : List Obs :=
  (hostCallback (E := Unit) Ln.out.fadd fdiv (.ok [⟨u, 2, 3, 4, 0, 0, 0, 0, 0, 0⟩]) (.ok ⟨used, 5, 1⟩) (.ok [⟨sent, 6⟩])).1

/-! ### The process -/

def process (up s : Bits) : List Obs := processCallback (E := Unit) Ln.out.fadd (fun _ _ => 0) up (.ok ⟨⟨s, 0⟩, ⟨1, 0⟩⟩)

end Verif.Examples.Ho
