import Verif.Spec.Instrumented
import Verif.Model.HostProgram

/-!
A program which starts the launcher and the host or the process instrumentation.
-/

namespace Verif.HostMetrics
open Verif.Attr Verif.Number Verif.Export Verif.Assembly Verif.Instruments Verif.Launched
open Verif.Provider (Provider)
variable {C G ν : Type}

/-- The `k`th meter of the program is the one of the instrumentation: only its instruments were asked for there, and `id` is the one made for each. -/
structure Started (p : Provider C ν) (k : Nat) (sc : Views.Scope) (asked : List (Want × Str)) (id : Want → Nat) (acts : List (Live.Act ν)) : Prop where
  scope : ∃ m, p.ordered[k]? = some m ∧ m.scope = sc
  requested : ∀ d ∈ requests k (Live.makes acts), ∃ x ∈ asked, d = x.1.desc x.2
  given : ∀ x ∈ asked, Called p k x.1.name (id x.1)

/-- In collection `t` the callback of the instrumentation ran once and made these observations, and nobody else observed its instruments. -/
def Made (p : Provider C ν) (k : Nat) (id : Want → Nat) (acts : List Whole.Act) (t : Nat) (obs : List Obs) : Prop :=
  ((Whole.observations acts).filter (fun e => open Classical in decide (e.1 = t ∧ ∃ n, Called p k n e.2.1))).map (·.2) = obs.map (fun o => (id o.inst, textAttrs o.attrs, o.value))

/-- The value is among the observations, and is accepted. -/
def Gives (obs : List Obs) (w : Want) (a : List (Str × Str)) (y : Bits) : Prop := ⟨w, a, y⟩ ∈ obs ∧ Accepts w.ctor y

/-- Exactly one point for each attribute set of the instrument for which a value was accepted, with this value. -/
def SentWhole (e : Outside C G) (w : Want) (obs : List Obs) (ps : List PNumber) : Prop :=
  ∃ as : List (List (Str × Str)), as.Nodup ∧ (∀ a, a ∈ as ↔ ∃ y, Gives obs w a y) ∧
    Pointwise (fun a p => HasTexts a p.attrs ∧ ∃ y, Gives obs w a y ∧ NumOf (Props.promise w.ctor).num (single e w.ctor y) p.value) as ps

/-- Exactly one point for each attribute set of the instrument for which a value was accepted which differs from the one of the collection before, if there was one: the difference, or
the whole value. -/
def SentChange (e : Outside C G) (w : Want) (obs : Nat → List Obs) (t : Nat) (ps : List PNumber) : Prop :=
  ∃ as : List (List (Str × Str)), as.Nodup ∧
    (∀ a, a ∈ as ↔ ∃ y, Gives (obs t) w a y ∧ ∀ t' b, t = t' + 1 → Gives (obs t') w a b → Moved e (Props.promise w.ctor).num (single e w.ctor y) (single e w.ctor b)) ∧
    Pointwise (fun a p => HasTexts a p.attrs ∧ ∃ y, Gives (obs t) w a y ∧
      ((∃ t' b, t = t' + 1 ∧ Gives (obs t') w a b ∧ NumOf (Props.promise w.ctor).num (difference e (Props.promise w.ctor).num (single e w.ctor y) (single e w.ctor b)) p.value) ∨
        ((∀ t' b, t = t' + 1 → ¬ Gives (obs t') w a b) ∧ NumOf (Props.promise w.ctor).num (single e w.ctor y) p.value))) as ps

end Verif.HostMetrics
