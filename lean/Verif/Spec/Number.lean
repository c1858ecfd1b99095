import Verif.Basic

/-!
IEEE-754 binary64, read off the standard: fields of the 64 bits, and the real value as an integer multiple of `2^-1074` (the smallest
positive float). Nothing here refers to the model.
-/

namespace Verif.Number

/-- Bit 63. -/
def signBit (b : BitVec 64) : Bool := b.msb
/-- Bits 52 to 62. -/
def expField (b : BitVec 64) : Nat := (b.extractLsb' 52 11).toNat
/-- Bits 0 to 51. -/
def fracField (b : BitVec 64) : Nat := (b.extractLsb' 0 52).toNat

/-- Not a number. -/
def NaN (b : BitVec 64) : Prop := expField b = 2047 ∧ fracField b ≠ 0

/-- Neither NaN nor infinite. -/
def Finite (b : BitVec 64) : Prop := expField b ≠ 2047

instance (b : BitVec 64) : Decidable (NaN b) := inferInstanceAs (Decidable (_ ∧ _))
instance (b : BitVec 64) : Decidable (Finite b) := inferInstanceAs (Decidable (¬ _))

/-- The absolute value, in units of `2^-1074` (infinities are read as `2^1024`, above all finite numbers). -/
def absScaled (b : BitVec 64) : Nat :=
  if expField b = 0 then fracField b else (2 ^ 52 + fracField b) * 2 ^ (expField b - 1)

/-- The value, in units of `2^-1074`. -/
def scaled (b : BitVec 64) : Int := if signBit b then -(absScaled b : Int) else (absScaled b : Int)

/-- Smaller as a number; NaN is smaller than nothing and nothing is smaller than NaN. -/
def Less (a b : BitVec 64) : Prop := ¬ NaN a ∧ ¬ NaN b ∧ scaled a < scaled b

instance (a b : BitVec 64) : Decidable (Less a b) := inferInstanceAs (Decidable (_ ∧ _ ∧ _))

/-- `b` is the float nearest to the integer `i`; of two equally near ones, that with an even fraction. -/
def RoundsTo (i : Int) (b : BitVec 64) : Prop :=
  Finite b ∧ ∀ c : BitVec 64, Finite c →
    (scaled b - i * 2 ^ 1074).natAbs < (scaled c - i * 2 ^ 1074).natAbs ∨
    ((scaled b - i * 2 ^ 1074).natAbs = (scaled c - i * 2 ^ 1074).natAbs ∧ (scaled c = scaled b ∨ fracField b % 2 = 0))

end Verif.Number
