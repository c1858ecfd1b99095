import Verif.Model.Attr
import Verif.Spec.Number

/-!
Vocabulary for the properties about attributes, independent of how the code computes things.
-/

namespace Verif.Attr
open Verif.Number

/-- The value a caller's list gives to a key: that of the last attribute with this key. -/
def lastValue (k : Str) (l : List KV) : Option Val := (l.reverse.find? (fun kv => kv.key == k)).map (·.val)

/-- The value of a key in a set. -/
def get (k : Str) (set : List KV) : Option Val := (set.find? (fun kv => kv.key == k)).map (·.val)

/-- Numerically equal float patterns (no NaN). -/
def NumEq (x y : Bits) : Prop := ¬ NaN x ∧ ¬ NaN y ∧ scaled x = scaled y

/-- The same type and the same value; elements of float slices are compared numerically. -/
def SameValue : Val → Val → Prop
  | .floats a, .floats b => a.length = b.length ∧ ∀ (i : Nat) (x y : Bits), a[i]? = some x → b[i]? = some y → NumEq x y
  | v, w => v = w

/-- The same list of keys, types and values. -/
def SameList (a b : List KV) : Prop :=
  a.length = b.length ∧
  ∀ (i : Nat) (x y : KV), a[i]? = some x → b[i]? = some y → x.key = y.key ∧ SameValue x.val y.val

/-- Some float slice in the list contains a NaN. -/
def HasNaNSlice (l : List KV) : Prop := ∃ kv ∈ l, ∃ xs, kv.val = .floats xs ∧ ∃ x ∈ xs, NaN x

end Verif.Attr
