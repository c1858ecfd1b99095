import Verif.Model.Attr

/-!
Conversion of collected metrics to the OTLP data model.

Models `lightstep/sdk/internal/common.go` (CopyAttributes, ResourceMap) and `lightstep/sdk/metric/internal/export/export.go`
(d2pd and the copy functions). `none` stands for a panic. External: the pdata types (plain records here; `Map.Put*`
replaces the value of an existing key, else appends) and the bucket boundaries of go-expohisto.
-/

namespace Verif.Export
open Verif Verif.Attr Verif.Number

/-! ### Attributes -/

/-- A scalar `pcommon.Value`. -/
inductive PScalar where
  | bool (b : Bool)
  | int (i : Bits)
  | double (f : Bits)
  | str (s : Str)
deriving DecidableEq, Repr

/-- A `pcommon.Value`. -/
inductive PVal where
  | one (s : PScalar)
  | slice (l : List PScalar)
deriving DecidableEq, Repr

/-- `pcommon.Map`: keys and values in insertion order. -/
abbrev PMap := List (Str × PVal)

/-- `Map.Put*` (external). -/
def put (k : Str) (v : PVal) : PMap → PMap
  | [] => [(k, v)]
  | (k', v') :: m => if k' = k then (k, v) :: m else (k', v') :: put k v m

/-- The switch of `CopyAttributes` (common.go:75-110). -/
def convert : Val → Option PVal
  | .bool b => some (.one (.bool b))
  | .int i => some (.one (.int i))
  | .float f => some (.one (.double f))
  | .str s => some (.one (.str s))
  | .bools l => some (.slice (l.map .bool))
  | .ints l => some (.slice (l.map .int))
  | .floats l => some (.slice (l.map .double))
  | .strs l => some (.slice (l.map .str))
  | .invalid => none

/-- `CopyAttributes` (common.go:71-112). -/
def copyAttributes (dest : PMap) : List KV → Option PMap
  | [] => some dest
  | kv :: src => (convert kv.val).bind (fun v => copyAttributes (put kv.key v dest) src)

/-! ### Resource cache -/

/-- `ResourceMap` (common.go:34-40) and, in `input`, the set pointed to. -/
structure ResourceMap where
  disabled : Bool
  input : Option (List KV)
  output : PMap

def ResourceMap.new : ResourceMap := { disabled := false, input := none, output := [] }

/-- The test of the cache (common.go:46-50). The comparison of the two `attribute.Set` is Go's `==` on arrays of attributes,
that is `attributesEqual`. -/
def ResourceMap.hit (rm : ResourceMap) (set : List KV) : Bool :=
  match rm.input with
  | some i => !rm.disabled && attributesEqual i set
  | none => false

/-- A different resource switches the cache off (common.go:51-53). -/
def ResourceMap.miss (rm : ResourceMap) : ResourceMap :=
  if !rm.disabled && rm.input.isSome then { disabled := true, input := none, output := [] } else rm

/-- Remember the conversion (common.go:62-65). -/
def ResourceMap.store (rm : ResourceMap) (set : List KV) (out : PMap) : ResourceMap :=
  if rm.disabled then rm else { rm with input := some set, output := out }

/-- `ResourceMap.Get` (common.go:42-69). Returns the state, also when the conversion panics (the lock is released by `defer`). -/
def ResourceMap.get (rm : ResourceMap) (set : List KV) : ResourceMap × Option PMap :=
  if rm.hit set then (rm, some rm.output)
  else
    match copyAttributes [] set with
    | none => (rm.miss, none)
    | some out => (rm.miss.store set out, some out)

/-! ### Points -/

/-- `aggregation.Temporality` (aggregation.go). -/
inductive Temporality where
  | undefined
  | cumulative
  | delta
deriving DecidableEq, Repr

/-- `pmetric.AggregationTemporality`. -/
inductive PTemporality where
  | unspecified
  | cumulative
  | delta
deriving DecidableEq, Repr

/-- `toTemporality` (export.go:39-47). -/
def toTemporality : Temporality → PTemporality
  | .cumulative => .cumulative
  | .delta => .delta
  | .undefined => .unspecified

/-- What the exporter reads of an exponential histogram (go-expohisto, external). -/
structure ExpHist where
  sum : Bits
  count : Nat
  min : Bits
  max : Bits
  zeroCount : Nat
  scale : Int
  posOffset : Int
  pos : List Nat
  negOffset : Int
  neg : List Nat
deriving DecidableEq, Repr

/-- `minmaxsumcount.State`. -/
structure MMSC where
  sum : Bits
  count : Nat
  min : Bits
  max : Bits
deriving DecidableEq, Repr

/-- `aggregation.Aggregation`: the ten concrete types the exporter knows. -/
inductive Agg where
  | monotonic (k : Kind) (v : Bits)
  | nonMonotonic (k : Kind) (v : Bits)
  | gauge (k : Kind) (v : Bits)
  | hist (k : Kind) (h : ExpHist)
  | mmsc (k : Kind) (s : MMSC)
deriving DecidableEq, Repr

/-- `data.Point` (data.go:71-90). Times are nanoseconds since the Unix epoch. -/
structure Point where
  attrs : List KV
  temporality : Temporality
  agg : Agg
  start : Int
  stop : Int
deriving DecidableEq, Repr

/-- `data.Instrument` (data.go:60-67); of the descriptor, what the exporter reads. -/
structure Instrument where
  name : Str
  unit : Str
  description : Str
  points : List Point
deriving DecidableEq, Repr

/-- `instrumentation.Scope`. -/
structure Library where
  name : Str
  version : Str
  schemaURL : Str
deriving DecidableEq, Repr

/-- `data.Scope` (data.go:48-55). -/
structure Scope where
  library : Library
  instruments : List Instrument
deriving DecidableEq, Repr

/-- `data.Metrics` (data.go:37-43). -/
structure Metrics where
  resource : List KV
  scopes : List Scope
deriving DecidableEq, Repr

/-- `pcommon.NewTimestampFromTime` (external): `uint64(t.UnixNano())`. -/
def stamp (t : Int) : BitVec 64 := BitVec.ofInt 64 t

/-- The value of a number data point. -/
inductive PNum where
  | int (i : Bits)
  | double (f : Bits)
deriving DecidableEq, Repr

/-- `pmetric.NumberDataPoint`. -/
structure PNumber where
  start : Option (BitVec 64)
  time : BitVec 64
  attrs : PMap
  value : PNum
deriving DecidableEq, Repr

/-- `pmetric.HistogramDataPoint`. -/
structure PHist where
  start : BitVec 64
  time : BitVec 64
  attrs : PMap
  sum : Bits
  count : Nat
  min : Option Bits
  max : Option Bits
  bounds : List Bits
  counts : List Nat
deriving DecidableEq, Repr

/-- `pmetric.ExponentialHistogramDataPoint`; buckets are an offset and counts. -/
structure PExp where
  start : BitVec 64
  time : BitVec 64
  attrs : PMap
  sum : Bits
  count : Nat
  zeroCount : Nat
  scale : Int
  min : Option Bits
  max : Option Bits
  pos : Int × List Nat
  neg : Int × List Nat
deriving DecidableEq, Repr

/-- The data of a `pmetric.Metric`. -/
inductive PData where
  | sum (monotonic : Bool) (t : PTemporality) (pts : List PNumber)
  | gauge (pts : List PNumber)
  | hist (t : PTemporality) (pts : List PHist)
  | exp (t : PTemporality) (pts : List PExp)
deriving DecidableEq, Repr

/-- `pmetric.Metric`. -/
structure PMetric where
  name : Str
  unit : Str
  description : Str
  data : PData
deriving DecidableEq, Repr

/-- `pmetric.ScopeMetrics`. -/
structure PScope where
  library : Library
  metrics : List PMetric
deriving DecidableEq, Repr

/-- A list of conversions, any of which may panic. -/
def mapM {α β : Type} (f : α → Option β) : List α → Option (List β)
  | [] => some []
  | a :: as => (f a).bind (fun b => (mapM f as).bind (fun bs => some (b :: bs)))

/-- `Number` of a kind as a pdata value: `SetIntValue(ToInt64(..))` or `SetDoubleValue(ToFloat64(..))`. -/
def numOf : Kind → Bits → PNum
  | .int64, v => .int v
  | .float64, v => .double v

/-- One iteration of `copySumPoints` (export.go:54-73). -/
def sumPoint (p : Point) : Option PNumber :=
  (copyAttributes [] p.attrs).bind fun attrs =>
    match p.agg with
    | .monotonic k v | .nonMonotonic k v => some { start := some (stamp p.start), time := stamp p.stop, attrs, value := numOf k v }
    | _ => none

/-- One iteration of `copyGaugePoints` (export.go:80-95). -/
def gaugePoint (p : Point) : Option PNumber :=
  (copyAttributes [] p.attrs).bind fun attrs =>
    match p.agg with
    | .gauge k v => some { start := none, time := stamp p.stop, attrs, value := numOf k v }
    | _ => none

/-- Bucket boundaries of go-expohisto (external): `logarithm.NewMapping(scale)`, none when it returns an error, and its
`LowerBoundary(index)`, the value returned whether or not there is an error with it. -/
abbrev Mapping := Int → Option (Int → Bits)

/-- `0.0`. -/
def fzero : Bits := 0

/-- The loop of `copyExplicitHistogramBuckets` (export.go:153-171) from an element on. -/
def explicitLoop (lower : Int → Bits) (offset : Int) : Nat → List Nat → List Bits × List Nat
  | _, [] => ([], [])
  | e, c :: cs =>
    let (bs, ns) := explicitLoop lower offset (e + 1) cs
    let right := lower ((e : Int) + offset + 1)
    if e = 0 then (lower offset :: right :: bs, 0 :: c :: ns) else (right :: bs, c :: ns)

/-- `copyExplicitHistogramBuckets` (export.go:139-176). A failed `NewMapping` leaves a nil interface, using it panics. -/
def explicitBuckets (m : Mapping) (h : ExpHist) : Option (List Bits × List Nat) :=
  if h.pos.isEmpty then some ([fzero], [h.zeroCount, 0])
  else
    match m h.scale with
    | none => none
    | some lower =>
      let (bs, ns) := explicitLoop lower h.posOffset 0 h.pos
      some (fzero :: bs, h.zeroCount :: ns ++ [0])

/-- Sum, min and max as exported for histograms (export.go:112-118, 123-128, 193-201, 211-218). -/
def coerced (k : Kind) (b : Bits) : Bits :=
  match k with
  | .int64 => coerceToFloat64 b .int64
  | .float64 => b

/-- One iteration of `copyExplicitHistogramPoints` (export.go:103-134). -/
def explicitPoint (m : Mapping) (p : Point) : Option PHist :=
  (copyAttributes [] p.attrs).bind fun attrs =>
    match p.agg with
    | .hist k h => (explicitBuckets m h).map fun (bounds, counts) =>
        { start := stamp p.start, time := stamp p.stop, attrs, sum := coerced k h.sum, count := h.count
          min := if h.count ≠ 0 then some (coerced k h.min) else none
          max := if h.count ≠ 0 then some (coerced k h.max) else none
          bounds, counts }
    | _ => none

/-- `copyExponentialHistogramBuckets` under its guard (export.go:202-207, 227-236). -/
def expBuckets (offset : Int) (l : List Nat) : Int × List Nat := if l.isEmpty then (0, []) else (offset, l)

/-- One iteration of `copyExponentialHistogramPoints` (export.go:182-224). -/
def expPoint (p : Point) : Option PExp :=
  (copyAttributes [] p.attrs).bind fun attrs =>
    match p.agg with
    | .hist k h => some
        { start := stamp p.start, time := stamp p.stop, attrs, sum := coerced k h.sum, count := h.count
          zeroCount := h.zeroCount, scale := h.scale
          min := if h.count ≠ 0 then some (coerced k h.min) else none
          max := if h.count ≠ 0 then some (coerced k h.max) else none
          pos := expBuckets h.posOffset h.pos, neg := expBuckets h.negOffset h.neg }
    | _ => none

/-- One iteration of `copyMMSCPoints` (export.go:242-268). The integer sum is coerced; minimum and maximum are
`number.ToFloat64`, a reinterpretation of the bits, for both kinds. -/
def mmscPoint (p : Point) : Option PHist :=
  (copyAttributes [] p.attrs).bind fun attrs =>
    match p.agg with
    | .mmsc k s => some
        { start := stamp p.start, time := stamp p.stop, attrs, sum := coerced k s.sum, count := s.count
          min := if s.count ≠ 0 then some s.min else none
          max := if s.count ≠ 0 then some s.max else none
          bounds := [], counts := [] }
    | _ => none

/-- The switch of `d2pd` on the first point (export.go:298-313). -/
def copyPoints (m : Mapping) (useExp : Bool) (p0 : Point) (ps : List Point) : Option PData :=
  let t := toTemporality p0.temporality
  match p0.agg with
  | .monotonic _ _ => (mapM sumPoint ps).map (.sum true t)
  | .nonMonotonic _ _ => (mapM sumPoint ps).map (.sum false t)
  | .gauge _ _ => (mapM gaugePoint ps).map .gauge
  | .hist _ _ => if useExp then (mapM expPoint ps).map (.exp t) else (mapM (explicitPoint m) ps).map (.hist t)
  | .mmsc _ _ => (mapM mmscPoint ps).map (.hist t)

/-- The loop over instruments (export.go:288-314). -/
def copyInstruments (m : Mapping) (useExp : Bool) : List Instrument → Option (List PMetric)
  | [] => some []
  | i :: is =>
    match i.points with
    | [] => copyInstruments m useExp is
    | p0 :: _ =>
      (copyPoints m useExp p0 i.points).bind fun d =>
        (copyInstruments m useExp is).bind fun ms =>
          some ({ name := i.name, unit := i.unit, description := i.description, data := d } :: ms)

/-- The body of the loop over scopes (export.go:282-315). -/
def copyScope (m : Mapping) (useExp : Bool) (s : Scope) : Option PScope :=
  (copyInstruments m useExp s.instruments).map fun ms => { library := s.library, metrics := ms }

/-- `pmetric.Metrics` with its one resource entry. -/
structure Payload where
  resource : PMap
  scopes : List PScope
deriving DecidableEq, Repr

/-- `d2pd` (export.go:271-317). Returns the resource cache and the payload. -/
def d2pd (m : Mapping) (rm : ResourceMap) (in_ : Metrics) (useExp : Bool) : ResourceMap × Option Payload :=
  let (rm, res) := rm.get in_.resource
  (rm, res.bind fun resource => (mapM (copyScope m useExp) in_.scopes).map fun scopes => { resource, scopes })

end Verif.Export
