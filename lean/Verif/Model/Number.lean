import Verif.Basic

/-!
Numbers: `lightstep/sdk/metric/number/{number.go, traits.go}`.

Both number kinds are represented by their 64 bits (`number.Number` is a `uint64`, number.go:34).
-/

namespace Verif.Number

/-- 64 bits holding an `int64` or a `float64` (number.go:34). -/
abbrev Bits := BitVec 64

/-! ### IEEE-754 binary64 on bit patterns (Go's `float64`, `math.Float64bits`) -/

/-- Biased exponent. -/
def expo (b : Bits) : Nat := b.toNat / 2 ^ 52 % 2 ^ 11
/-- Fraction bits. -/
def frac (b : Bits) : Nat := b.toNat % 2 ^ 52
/-- Sign bit. -/
def neg (b : Bits) : Bool := 2 ^ 63 ≤ b.toNat

/-- `math.IsNaN` (traits.go:131-133). -/
def isNaN (b : Bits) : Bool := expo b == 2047 && frac b != 0
/-- `math.IsInf(x, 0)` (traits.go:135-137). -/
def isInf (b : Bits) : Bool := expo b == 2047 && frac b == 0

/-- Order key of a non-NaN pattern: IEEE comparison of non-NaN values is integer comparison of keys (both zeros have
key 0). -/
def key (b : Bits) : Int := if neg b then -((b.toNat - 2 ^ 63 : Nat) : Int) else (b.toNat : Int)

/-- `a < b` on `float64`: false when an operand is NaN. -/
def fltLt (a b : Bits) : Bool := !isNaN a && !isNaN b && decide (key a < key b)

/-- `a < b` on `int64`. -/
def intLt (a b : Bits) : Bool := a.slt b

/-! ### Conversions (number.go:41-56, traits.go:60-68, 101-107) -/

/-- `number.Kind` (number.go:22-30). -/
inductive Kind where
  | int64
  | float64
deriving DecidableEq, Repr

/-- `Int64Traits.ToNumber` (traits.go:60-62): `Number(x)` keeps the two's complement bits. -/
def encodeInt (i : Int) : Bits := BitVec.ofInt 64 i
/-- `Int64Traits.FromNumber`, `ToInt64` (traits.go:64-66, number.go:54-56). -/
def decodeInt (b : Bits) : Int := b.toInt

/-- Go's conversion `float64(n)` of an unsigned integer below `2^64`: round to nearest, ties to even. -/
def natToFloat (n : Nat) : Bits :=
  if n = 0 then 0
  else
    let e := n.log2
    if e ≤ 52 then BitVec.ofNat 64 ((e + 1023) * 2 ^ 52 + (n * 2 ^ (52 - e) - 2 ^ 52))
    else
      let q := n / 2 ^ (e - 52)
      let r := n % 2 ^ (e - 52)
      let half := 2 ^ (e - 53)
      let q' := if half < r ∨ (r = half ∧ q % 2 = 1) then q + 1 else q
      BitVec.ofNat 64 ((e + 1023) * 2 ^ 52 + (q' - 2 ^ 52))

/-- `Number.CoerceToFloat64` (number.go:41-46): for integers, `float64(n)` where `n` is a `uint64`. -/
def coerceToFloat64 (n : Bits) : Kind → Bits
  | .int64 => natToFloat n.toNat
  | .float64 => n

/-- The arithmetic an aggregator needs for one number kind. -/
structure Ops (N : Type) where
  zero : N
  add : N → N → N
  lt : N → N → Bool
  /-- `x != 0` -/
  nonzero : N → Bool

/-- `int64` arithmetic: two's complement, wrapping. -/
def intOps : Ops Bits := { zero := 0, add := (· + ·), lt := intLt, nonzero := fun x => x != 0 }

/-- `float64` arithmetic. Simplification: addition is an arbitrary function `fadd` (nothing about rounding is used);
comparison with zero is on the order key, so that both zeros count as zero and NaN as non-zero. -/
def fltOps (fadd : Bits → Bits → Bits) : Ops Bits :=
  { zero := 0, add := fadd, lt := fltLt, nonzero := fun x => isNaN x || key x != 0 }

end Verif.Number
