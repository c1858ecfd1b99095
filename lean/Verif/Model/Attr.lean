import Verif.Model.Number

/-!
Attributes: keys, values, fingerprints, equality, truncation, sets and key filters.

Models `lightstep/sdk/metric/internal/syncstate/bykeyvalue.go`, `internal/fprint/fprint.go`,
`sdkinstrument/performance.go`, `internal/viewstate/base_instrument.go` and the part of
`go.opentelemetry.io/otel/attribute` (external) they use.
-/

namespace Verif.Attr
open Verif.Number

/-- A Go string: a sequence of bytes. -/
abbrev Str := List UInt8

/-- `attribute.Value`: a type tag and the content. Numbers are 64-bit patterns, as in the Go struct. -/
inductive Val where
  | invalid
  | bool (b : Bool)
  | int (i : Bits)
  | float (f : Bits)
  | str (s : Str)
  | bools (l : List Bool)
  | ints (l : List Bits)
  | floats (l : List Bits)
  | strs (l : List Str)
deriving DecidableEq, Repr

/-- `attribute.KeyValue`. -/
structure KV where
  key : Str
  val : Val
deriving DecidableEq, Repr

/-! ### Fingerprints -/

/-- `fprint.Mix` (fprint.go:29-37). -/
def mix (x y : UInt64) : UInt64 :=
  let mul : UInt64 := 0x9ddfea08eb382d69
  let a := (x ^^^ y) * mul
  let a := a ^^^ (a >>> 47)
  let b := (y ^^^ a) * mul
  let b := b ^^^ (b >>> 47)
  b * mul

/-- `FingerprintBool` (fprint.go:43-48). -/
def fpBool (b : Bool) : UInt64 := if b then 1 else 0
/-- `FingerprintInt64`, `FingerprintFloat64` (fprint.go:39-41, 50-52): the 64 bits. -/
def fpBits (b : Bits) : UInt64 := UInt64.ofBitVec b

/-- `fingerprintSlice` (bykeyvalue.go:38-44). -/
def fpSlice {α : Type} (f : α → UInt64) (l : List α) : UInt64 := l.foldl (fun acc x => acc + f x) 0

/-- `fingerprintValue` (bykeyvalue.go:46-67). `farm` is `fprint.FingerprintString`, an external hash, kept abstract. -/
def fpVal (farm : Str → UInt64) : Val → UInt64
  | .bool b => fpBool b
  | .int i => fpBits i
  | .float f => fpBits f
  | .str s => farm s
  | .bools l => fpSlice fpBool l
  | .ints l => fpSlice fpBits l
  | .floats l => fpSlice fpBits l
  | .strs l => fpSlice farm l
  | .invalid => 0

/-- `fingerprintAttributes` (bykeyvalue.go:26-36). -/
def fingerprint (farm : Str → UInt64) (l : List KV) : UInt64 :=
  l.foldl (fun acc kv => acc + mix (farm kv.key) (fpVal farm kv.val)) 0

/-! ### Equality -/

/-- `==` on `float64` values. -/
def fltEq (a b : Bits) : Bool := !isNaN a && !isNaN b && decide (key a = key b)

/-- `sliceEqual` (bykeyvalue.go:69-79) with the element comparison as an argument. -/
def sliceEqual {α : Type} (eq : α → α → Bool) : List α → List α → Bool
  | [], [] => true
  | a :: as, b :: bs => eq a b && sliceEqual eq as bs
  | _, _ => false

/-- The comparison of two values (bykeyvalue.go:87-114): the types must agree; scalars are compared as Go structs, that
is by their 64 bits or string; slices element by element with Go's `==` of the element type. -/
def valEqual : Val → Val → Bool
  | .invalid, .invalid => true
  | .bool a, .bool b => a == b
  | .int a, .int b => a == b
  | .float a, .float b => a == b
  | .str a, .str b => a == b
  | .bools a, .bools b => sliceEqual (· == ·) a b
  | .ints a, .ints b => sliceEqual (· == ·) a b
  | .floats a, .floats b => sliceEqual fltEq a b
  | .strs a, .strs b => sliceEqual (· == ·) a b
  | _, _ => false

/-- `attributesEqual` (bykeyvalue.go:82-118). -/
def attributesEqual : List KV → List KV → Bool
  | [], [] => true
  | a :: as, b :: bs => valEqual a.val b.val && a.key == b.key && attributesEqual as bs
  | _, _ => false

/-! ### Truncation -/

/-- `s[:limit]` guarded by `len(s) > limit`. -/
def truncStr (limit : Nat) (s : Str) : Str := if s.length > limit then s.take limit else s

/-- The value part of the loop body of `TruncateAttributes` (performance.go:109-127). -/
def truncVal (limit : Nat) : Val → Val
  | .str s => .str (truncStr limit s)
  | .strs l => .strs (l.map (truncStr limit))
  | v => v

/-- `Performance.TruncateAttributes` (performance.go:99-130). The code overwrites the elements of the slice it is given
and returns that slice, so this is at the same time the content of the caller's slice after the call. -/
def truncate (limit : Nat) (l : List KV) : List KV :=
  if limit = 0 then l
  else l.map (fun kv => { key := truncStr limit kv.key, val := truncVal limit kv.val })

/-- `DefaultAttributeSizeLimit` (performance.go:38). -/
def defaultAttributeSizeLimit : Nat := 8192

/-- `Performance.Validate` for the attribute size limit (performance.go:92-94). -/
def validateSizeLimit (n : Nat) : Nat := if n = 0 then defaultAttributeSizeLimit else n

/-! ### Sets -/

/-- Replaces negative zeros in float slices, see `newSet`. -/
def normFlt (b : Bits) : Bits := if key b = 0 then 0 else b

def canonVal : Val → Val
  | .floats l => .floats (l.map normFlt)
  | v => v

/-- Insert into a list sorted by key, replacing an attribute with the same key. -/
def insertKV (kv : KV) : List KV → List KV
  | [] => [kv]
  | x :: xs => if kv.key = x.key then kv :: xs else if kv.key < x.key then kv :: x :: xs else x :: insertKV kv xs

/-- `attribute.NewSet` (external): attributes sorted by key, for each key the last value of the list.
`attribute.Set` values are used as Go map keys; Go compares float slices inside them with `==`, which identifies the two
zeros, so the representation normalises zeros in float slices. Simplification: a NaN inside a float slice makes a Go map
key unequal to itself; such sets are not represented faithfully (see DESIGN.md). -/
def newSet (l : List KV) : List KV :=
  l.foldl (fun acc kv => insertKV { key := kv.key, val := canonVal kv.val } acc) []

/-- `isValidAttribute` (base_instrument.go:109-111). -/
def isValidAttribute (kv : KV) : Bool := kv.key != []

/-- `keyFilter.filter` built by `keysToFilter` (viewstate.go:599-615). -/
def keyFilter (keys : List Str) (kv : KV) : Bool := keys.contains kv.key

/-- `applyKeysFilter` (base_instrument.go:117-140). `filter = none` is a nil `keysFilter`. `Set.Filter` (external) keeps
the attributes accepted by the filter. -/
def applyKeysFilter (filter : Option (List Str)) (set : List KV) : List KV :=
  let invalidFilter := set.any (fun kv => !isValidAttribute kv)
  match invalidFilter, filter with
  | false, none => set
  | false, some ks => set.filter (keyFilter ks)
  | true, none => set.filter (fun kv => isValidAttribute kv)
  | true, some ks => set.filter (fun kv => isValidAttribute kv && keyFilter ks kv)

/-- "otel.metric.overflow" (overflow.go:22). -/
def overflowKey : Str := "otel.metric.overflow".toUTF8.toList
/-- `OverflowAttributes` (overflow.go:21-23). -/
def overflowAttrs : List KV := [{ key := overflowKey, val := .bool true }]
/-- `OverflowAttributeSet` (overflow.go:26). -/
def overflowSet : List KV := newSet overflowAttrs

end Verif.Attr
