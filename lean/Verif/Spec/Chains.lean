import Verif.Model.Chains

/-!
Specification of a table of records: one flat list, newest first, each record with its fingerprint. No pointers.
-/

namespace Verif.Chains

/-- The records of a table with their fingerprints, newest first, and the number of records ever created. -/
structure Flat where
  items : List (UInt64 × Nat)
  count : Nat

/-- A new record goes to the front; a collection removes the records it does not keep. -/
def Flat.step (t : Flat) : Op → Flat
  | .insert f => { items := (f, t.count) :: t.items, count := t.count + 1 }
  | .sweep order keep =>
    if iterates order (t.items.map (·.1)) then { t with items := t.items.filter (fun e => keep e.2) } else t

def Flat.run (ops : List Op) : Flat := ops.foldl Flat.step { items := [], count := 0 }

/-- The records with fingerprint `f`, newest first. -/
def Flat.chain (t : Flat) (f : UInt64) : List Nat := (t.items.filter (fun e => e.1 == f)).map (·.2)

end Verif.Chains
