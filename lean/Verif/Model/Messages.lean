import Verif.Model.Views

/-!
The texts of conflict errors. Models `lightstep/sdk/metric/internal/viewstate/errors.go`, and the generated `String` methods
`sdkinstrument/kind_string.go`, `number/kind_string.go`, `aggregator/aggregation/category_string.go`.

A string is its bytes. `fmt.Sprintf` with `%q` is abstract (`quote`); with `%v` of a string and `%d` it is the string and the decimal.
-/

namespace Verif.Views
open Verif.Attr Verif.Front

variable {H : Type} [DecidableEq H]

/-- `strconv.FormatInt(i, 10)`, `%d`. -/
def dec (i : Int) : Str := lit (toString i)

/-- A `String` method made by stringer (kind_string.go:24-29, category_string.go:22-27, 45-50): `table[index[i]:index[i+1]]`, or the type and the number. -/
def stringer (type : Str) (table : Str) (index : List Nat) (i : Int) : Str :=
  if i < 0 ∨ i ≥ (index.length : Int) - 1 then type ++ lit "(" ++ dec i ++ lit ")"
  else (table.drop (index.getD i.toNat 0)).take (index.getD (i.toNat + 1) 0 - index.getD i.toNat 0)

/-- The constants of `sdkinstrument.Kind` (kind.go:22-41, kind_string.go:11-18). -/
def IKind.code : IKind → Int
  | .syncCounter => 0
  | .syncUpDownCounter => 1
  | .syncGauge => 2
  | .syncHistogram => 3
  | .asyncCounter => 4
  | .asyncUpDownCounter => 5
  | .asyncGauge => 6

/-- `sdkinstrument.Kind.String` (sdkinstrument/kind_string.go:21-30). -/
def IKind.string (k : IKind) : Str :=
  stringer (lit "Kind") (lit "SyncCounterSyncUpDownCounterSyncGaugeSyncHistogramAsyncCounterAsyncUpDownCounterAsyncGaugeNumKinds")
    [0, 11, 28, 37, 50, 62, 80, 90, 98] (IKind.code k)

/-- `number.Kind.String` (number/kind_string.go:15-24) with the constants (number.go:22-30). -/
def numString (k : Number.Kind) : Str :=
  stringer (lit "Kind") (lit "Int64KindFloat64Kind") [0, 9, 20] (match k with | .int64 => 0 | .float64 => 1)

/-- The constants of `aggregation.Kind` (aggregation.go:108-117). -/
def AggKind.code : AggKind → Int
  | .undefined => 0
  | .drop => 1
  | .anySum => 2
  | .monoSum => 3
  | .nonMonoSum => 4
  | .gauge => 5
  | .histogram => 6
  | .mmsc => 7
  | .other n => n

/-- `aggregation.Kind.String` (category_string.go:42-51). -/
def AggKind.string (k : AggKind) : Str :=
  stringer (lit "Kind") (lit "UndefinedKindDropKindAnySumKindMonotonicSumKindNonMonotonicSumKindGaugeKindHistogramKindMinMaxSumCountKind")
    [0, 13, 21, 31, 47, 66, 75, 88, 106] k.code

/-- `strings.TrimSuffix`. -/
def trimSuffix (s suffix : Str) : Str := if suffix.isSuffixOf s then s.take (s.length - suffix.length) else s

/-- `SemanticError.Error` (errors.go:195-200). -/
def SemErr.text (e : SemErr) : Str :=
  trimSuffix (IKind.string e.instrument) (lit "Kind") ++ lit " instrument incompatible with " ++ trimSuffix e.aggregation.string (lit "Kind") ++ lit " aggregation"

/-- `renameString` (errors.go:215-220). -/
def renameString (quote : Str → Str) (l : Leaf H) : Str :=
  if l.fromName = l.desc.name then [] else lit " (original " ++ quote l.fromName ++ lit ")"

/-- `fullNameString` (errors.go:209-211). -/
def fullNameString (quote : Str → Str) (l : Leaf H) : Str := lit "name " ++ quote l.desc.name ++ renameString quote l

/-- `shortString` (errors.go:225-235). -/
def shortString (l : Leaf H) : Str :=
  let s := trimSuffix (IKind.string l.desc.kind) (lit "Kind") ++ lit "-" ++ trimSuffix (numString l.desc.num) (lit "Kind") ++ lit "-" ++ trimSuffix l.kind.string (lit "Kind")
  if l.desc.unit ≠ [] then s ++ lit "-" ++ l.desc.unit else s

/-- `duplicateError` (errors.go:155-184), for the first and the last duplicate. -/
def duplicateText (quote : Str → Str) (first last : Leaf H) (n : Nat) : Str :=
  fullNameString quote first ++
    (if shortString first ≠ shortString last then
       lit " conflicts " ++ shortString first ++ lit ", " ++ shortString last ++ renameString quote last
     else if first.acfg ≠ last.acfg then lit " has conflicts: different aggregator configuration"
     else lit " has conflicts: different attribute filters") ++
    (if n > 2 then lit " and " ++ dec (n - 2 : Nat) ++ lit " more" else [])

/-- `duplicateError` (errors.go:155-184): the empty string for less than two duplicates. The duplicates are leaves of the compiler. -/
def duplicateError (quote : Str → Str) (s : State H) (c : Conflict) : Str :=
  if c.duplicates.length < 2 then []
  else
    match (c.duplicates.head?).bind (s.collectors[·]?), (c.duplicates.getLast?).bind (s.collectors[·]?) with
    | some a, some b => duplicateText quote a b c.duplicates.length
    | _, _ => []

/-- `semanticError` (errors.go:148-153). -/
def semanticError (c : Conflict) : Str :=
  match c.semantic with
  | none => []
  | some e => e.text

/-- `Conflict.Error` (errors.go:136-146). -/
def Conflict.text (quote : Str → Str) (s : State H) (c : Conflict) : Str :=
  let se := semanticError c
  let de := duplicateError quote s c
  if se = [] then de
  else if de = [] then se
  else se ++ lit "; " ++ de

/-- `ViewConflictsError.Error` (errors.go:48-67). `order` has the entries of the map in the order in which the second loop meets them; `text` is the text
of a conflict (of the reader). -/
def errorText (text : Str → Conflict → Str) (order : List (Str × List Conflict)) : Str :=
  let total := (order.map (fun e => e.2.length)).sum
  match order with
  | [] => lit "no conflicts"
  | (rd, cs) :: _ =>
    match cs with
    | [] => lit "no conflicts"
    | c :: rest =>
      if order.length = 1 then
        if rest = [] then rd ++ lit ": " ++ text rd c
        else dec total ++ lit " conflicts, e.g. " ++ rd ++ lit ": " ++ text rd c
      else dec total ++ lit " conflicts in " ++ dec order.length ++ lit " readers, e.g. " ++ rd ++ lit ": " ++ text rd c

end Verif.Views
