import Verif.Model.Launcher

/-!
Matching Go runtime metric names against the built-in table, and registering instruments for them.

Models `lightstep/instrumentation/runtime/{descriptor,defs,builtin}.go`.
-/

namespace Verif.Runtime
open Verif.Attr Verif.Views Verif.Launcher

instance instDecEqExcept {ε α : Type} [DecidableEq ε] [DecidableEq α] : DecidableEq (Except ε α)
  | .ok a, .ok b => decidable_of_iff (a = b) (by simp)
  | .error a, .error b => decidable_of_iff (a = b) (by simp)
  | .ok _, .error _ => isFalse (by simp)
  | .error _, .ok _ => isFalse (by simp)

/-- `builtinKind` (descriptor.go:33-40). -/
inductive BKind where
  | skip | counter | objectBytes | upDown | gauge | histogram
deriving DecidableEq, Repr

/-- `builtinMetricFamily` (descriptor.go:42-46), without its test counter. -/
structure Family where
  pattern : Str
  kind : BKind
deriving DecidableEq, Repr

/-- `s[i:j]`; `none` is the panic for bounds out of range. -/
def slice (s : Str) (i j : Int) : Option Str :=
  if 0 ≤ i ∧ i ≤ j ∧ j ≤ s.length then some ((s.drop i.toNat).take (j.toNat - i.toNat)) else none

/-- `strings.Cut` (external): the text before and after the first occurrence of `sep`. -/
def cut (sep : Str) : Str → Str × Str
  | [] => ([], [])
  | b :: rest => if sep.isPrefixOf (b :: rest) then ([], (b :: rest).drop sep.length) else let r := cut sep rest; (b :: r.1, r.2)

/-- `strings.Split(s, "/")` (external), with any one-byte separator. -/
def splitByte (sep : UInt8) : Str → List Str
  | [] => [[]]
  | b :: rest =>
    if b = sep then [] :: splitByte sep rest
    else match splitByte sep rest with
      | [] => [[b]]
      | x :: xs => (b :: x) :: xs

/-- `strings.Count(s, "*")` (external). -/
def wilds (s : Str) : Nat := s.count 42

/-- `toOTelName` (descriptor.go:74-76). -/
def toOTelName (name : Str) : Str := lit "process.runtime.go" ++ name.map (fun b => if b = 47 then 46 else b)

/-- `toOTelNameAndStatedUnit` (descriptor.go:69-72). -/
def toOTelNameAndStatedUnit (s : Str) : Str × Str :=
  let c := cutByte 58 s
  (toOTelName c.1, c.2)

/-- Decimal digits, `%d`. -/
def decimal (n : Nat) : Str := (Nat.toDigits 10 n).map (fun c => UInt8.ofNat c.toNat)

/-- `attributeName` (descriptor.go:79-84). -/
def attributeName (order : Nat) : Str := if order = 0 then lit "class" else lit "class" ++ decimal (order + 1)

inductive MatchError where
  | wildcards | unmatched | overmatched
deriving DecidableEq, Repr

/-- The condition for one family in the loop of `findFamily` (descriptor.go:213-229). -/
def matchesPat (pat name : Str) : Bool :=
  (wilds pat == 0 && name == pat) ||
    (decide (name.length > pat.length) && (cutByte 42 pat).1.isPrefixOf name && (cutByte 42 pat).2.isSuffixOf name)

/-- The loop of `findFamily` (descriptor.go:210-230): number of matches and the last family matched. -/
def familyLoop (name : Str) : List Family → Nat × Option Family → Except MatchError (Nat × Option Family)
  | [], acc => .ok acc
  | f :: rest, (n, fam) =>
    if wilds f.pattern > 1 then .error .wildcards
    else if matchesPat f.pattern name then familyLoop name rest (n + 1, some f)
    else familyLoop name rest (n, fam)

/-- `findFamily` (descriptor.go:209-239); the inner `none` is a nil dereference. -/
def findFamily (fams : List Family) (name : Str) : Option (Except MatchError Family) :=
  match familyLoop name fams (0, none) with
  | .error e => some (.error e)
  | .ok (n, fam) =>
    if n = 0 then some (.error .unmatched)
    else if n > 1 then some (.error .overmatched)
    else match fam with
      | none => none
      | some f => some (.ok f)

/-- The results of `findMatch`. -/
structure Match where
  name : Str
  unit : Str
  pattern : Str
  attrs : List (Str × Str)
  kind : BKind
deriving DecidableEq, Repr

/-- Units (descriptor.go:172-182). -/
def fixUnit (u : Str) : Str :=
  if u = lit "bytes" then lit "By"
  else if u = lit "seconds" then lit "s"
  else if u = [] then []
  else lit "{" ++ u ++ lit "}"

/-- Names ending in ".classes" (descriptor.go:184-202). -/
def fixClasses (name unit : Str) : Str :=
  if (lit ".classes").isSuffixOf name then
    let s := name.take (name.length - (lit "classes").length)
    if unit = lit "By" then s ++ lit "usage"
    else if unit = lit "{cpu-seconds}" then s ++ lit "time"
    else name
  else name

/-- Attributes for the captured parts (descriptor.go:162-164). -/
def classAttrs (vals : List Str) : List (Str × Str) := vals.zipIdx.map (fun p => (attributeName p.2, p.1))

/-- The last part of `findMatch` (descriptor.go:172-206). -/
def finish (name unit pattern : Str) (attrs : List (Str × Str)) (kind : BKind) : Match :=
  { name := fixClasses name (fixUnit unit), unit := fixUnit unit, pattern := pattern, attrs := attrs, kind := kind }

/-- `findMatch` for a family with a class wildcard (descriptor.go:155-170); `none` is a panic. -/
def classMatch (f : Family) (goname : Str) : Option Match :=
  let c := cut (lit "/*:") f.pattern
  (slice goname c.1.length goname.length).bind (fun asub =>
    (slice asub 1 (asub.length - c.2.length - 1)).map (fun mid =>
      let vals := splitByte 47 mid
      if vals.getLast? = some (lit "total") then { name := [], unit := [], pattern := [], attrs := [], kind := .skip }
      else finish (toOTelName c.1) c.2 f.pattern (classAttrs vals) f.kind))

/-- `findMatch` for a family whose pattern ends in ":*" (descriptor.go:142-154). -/
def objectMatch (goname : Str) : Match :=
  let c := toOTelNameAndStatedUnit goname
  if c.2 = lit "objects" then finish (c.1 ++ lit "." ++ c.2) [] goname [] .counter
  else finish c.1 c.2 goname [] .counter

/-- `findMatch` for a family without wildcard (descriptor.go:139-141). -/
def plainMatch (f : Family) (goname : Str) : Match :=
  let c := toOTelNameAndStatedUnit goname
  finish c.1 c.2 goname [] f.kind

/-- What `findMatch` does with the family found (descriptor.go:134-206); `none` is a panic. -/
def useFamily (f : Family) (goname : Str) : Option Match :=
  if wilds f.pattern = 0 then some (plainMatch f goname)
  else if (lit ":*").isSuffixOf f.pattern then some (objectMatch goname)
  else classMatch f goname

/-- `findMatch` (descriptor.go:129-207); `none` is a panic. -/
def findMatch (fams : List Family) (goname : Str) : Option (Except MatchError Match) :=
  match findFamily fams goname with
  | none => none
  | some (.error e) => some (.error e)
  | some (.ok f) => (useFamily f goname).map .ok

/-- `expectRuntimeMetrics` (defs.go:17-47). -/
def table : List Family :=
  [⟨lit "/godebug/non-default-behavior/*:events", .skip⟩,
   ⟨lit "/cpu/classes/*:cpu-seconds", .counter⟩,
   ⟨lit "/gc/cycles/*:gc-cycles", .counter⟩,
   ⟨lit "/memory/classes/*:bytes", .upDown⟩,
   ⟨lit "/gc/scan/*:bytes", .upDown⟩,
   ⟨lit "/gc/heap/allocs-by-size:bytes", .histogram⟩,
   ⟨lit "/gc/heap/frees-by-size:bytes", .histogram⟩,
   ⟨lit "/gc/pauses:seconds", .histogram⟩,
   ⟨lit "/sched/latencies:seconds", .histogram⟩,
   ⟨lit "/sched/pauses/stopping/gc:seconds", .histogram⟩,
   ⟨lit "/sched/pauses/stopping/other:seconds", .histogram⟩,
   ⟨lit "/sched/pauses/total/gc:seconds", .histogram⟩,
   ⟨lit "/sched/pauses/total/other:seconds", .histogram⟩,
   ⟨lit "/gc/heap/allocs:*", .objectBytes⟩,
   ⟨lit "/gc/heap/frees:*", .objectBytes⟩,
   ⟨lit "/cgo/go-to-c-calls:calls", .counter⟩,
   ⟨lit "/gc/heap/tiny/allocs:objects", .counter⟩,
   ⟨lit "/sync/mutex/wait/total:seconds", .counter⟩,
   ⟨lit "/gc/gogc:percent", .gauge⟩,
   ⟨lit "/gc/gomemlimit:bytes", .gauge⟩,
   ⟨lit "/gc/heap/goal:bytes", .gauge⟩,
   ⟨lit "/gc/heap/live:bytes", .gauge⟩,
   ⟨lit "/gc/limiter/last-enabled:gc-cycle", .gauge⟩,
   ⟨lit "/gc/stack/starting-size:bytes", .gauge⟩,
   ⟨lit "/sched/gomaxprocs:threads", .gauge⟩,
   ⟨lit "/gc/heap/objects:objects", .upDown⟩,
   ⟨lit "/sched/goroutines:goroutines", .upDown⟩]

/-! ### Registration -/

/-- `metrics.ValueKind` (external). -/
inductive VKind where
  | bad | uint64 | float64 | histogram
deriving DecidableEq, Repr

/-- An instrument to create: kind, whether float, name, unit. -/
structure Want where
  kind : BKind
  isFloat : Bool
  name : Str
  unit : Str
  pattern : Str
deriving DecidableEq, Repr

/-- The state of the registration loop (builtin.go:110-112): three parallel lists. -/
structure Reg (ι : Type) where
  instruments : List ι
  samples : List Str
  instAttrs : List (List (Str × Str))
deriving DecidableEq

/-- The instrument wanted for a matched metric (builtin.go:140-168); `none` when no instrument is made (`inst == nil`). -/
def wanted (m : Match) (k : VKind) : Option Want :=
  match m.kind, k with
  | .counter, .uint64 => some ⟨.counter, false, m.name, m.unit, m.pattern⟩
  | .counter, .float64 => some ⟨.counter, true, m.name, m.unit, m.pattern⟩
  | .upDown, .uint64 => some ⟨.upDown, false, m.name, m.unit, m.pattern⟩
  | .upDown, .float64 => some ⟨.upDown, true, m.name, m.unit, m.pattern⟩
  | .gauge, .uint64 => some ⟨.gauge, false, m.name, m.unit, m.pattern⟩
  | .gauge, .float64 => some ⟨.gauge, true, m.name, m.unit, m.pattern⟩
  | _, _ => none

/-- The loop of `register` (builtin.go:114-185). `meter` creates an instrument or fails. Results: `none` is a panic, `some none` an error return.
Error reports are not represented. -/
def registerLoop {ι : Type} (meter : Want → Option ι) (fams : List Family) : List (Str × VKind) → Reg ι → Option (Option (Reg ι))
  | [], r => some (some r)
  | (name, k) :: rest, r =>
    match findMatch fams name with
    | none => none
    | some (.error _) => registerLoop meter fams rest r
    | some (.ok m) =>
      if m.kind = .skip ∨ m.kind = .histogram then registerLoop meter fams rest r
      else match wanted m k with
        | none => registerLoop meter fams rest r
        | some w =>
          match meter w with
          | none => some none
          | some i => registerLoop meter fams rest
              { instruments := r.instruments ++ [i], samples := r.samples ++ [name], instAttrs := r.instAttrs ++ [m.attrs] }

/-- The callback (builtin.go:187-204): `read` gives each sample's kind and value as read from the runtime, `isFloat` the type of an instrument. A value
that is not a number ends the callback with an error. Results: the observations made; `none` is a panic (index out of range, or an instrument
of the other type). -/
def callback {ι ν : Type} (isFloat : ι → Bool) (read : Str → VKind × ν) (r : Reg ι) : List (Str × Nat) → Option (List (ι × List (Str × Str) × ν))
  | [] => some []
  | (s, idx) :: rest =>
    match (read s).1 with
    | .bad => some []
    | .histogram => some []
    | k =>
      match r.instruments[idx]?, r.instAttrs[idx]? with
      | some i, some a => if isFloat i = decide (k = .float64) then (callback isFloat read r rest).map (fun l => (i, a, (read s).2) :: l) else none
      | _, _ => none

end Verif.Runtime
