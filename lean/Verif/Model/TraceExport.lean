import Verif.Model.Export

/-!
Conversion of spans to the OTLP data model.

Models `lightstep/sdk/trace/exporters/otlp/otelcol/otlp.go`. `none` stands for a panic. Attribute lists go through
`attribute.NewSet` (external, `Attr.newSet`).
-/

namespace Verif.TraceExport
open Verif Verif.Attr Verif.Export

/-- `apitrace.SpanKind`, a Go int. -/
inductive SpanKind where
  | unspecified | internal | server | client | producer | consumer
  | other (n : Int)
deriving DecidableEq, Repr

/-- `ptrace.SpanKind`. -/
inductive PSpanKind where
  | unspecified | internal | server | client | producer | consumer
deriving DecidableEq, Repr

/-- `translateSpanKind` (otlp.go:61-76). -/
def translateSpanKind : SpanKind → PSpanKind
  | .internal => .internal
  | .server => .server
  | .client => .client
  | .producer => .producer
  | .consumer => .consumer
  | _ => .unspecified

/-- `codes.Code`, a Go uint32. -/
inductive Code where
  | unset | error | ok
  | other (n : Nat)
deriving DecidableEq, Repr

/-- `ptrace.StatusCode`. -/
inductive PCode where
  | unset | error | ok
deriving DecidableEq, Repr

/-- `translateSpanStatusCode` (otlp.go:50-59). -/
def translateSpanStatusCode : Code → PCode
  | .error => .error
  | .ok => .ok
  | _ => .unset

/-- `trace.Event`. -/
structure Event where
  name : Str
  time : Int
  attrs : List KV
  dropped : Int
deriving DecidableEq, Repr

/-- `trace.Link` with the parts of its span context. -/
structure Link where
  traceID : Nat
  spanID : Nat
  traceState : Str
  attrs : List KV
  dropped : Int
deriving DecidableEq, Repr

/-- `trace.ReadOnlySpan`: what the exporter reads. Identifiers are numbers. -/
structure Span where
  scope : Library
  resource : List KV
  name : Str
  kind : SpanKind
  traceID : Nat
  spanID : Nat
  parentID : Nat
  traceState : Str
  start : Int
  stop : Int
  code : Code
  message : Str
  attrs : List KV
  events : List Event
  links : List Link
  droppedAttrs : Int
  droppedEvents : Int
  droppedLinks : Int
deriving DecidableEq, Repr

structure PEvent where
  name : Str
  time : BitVec 64
  attrs : PMap
  dropped : BitVec 32
deriving DecidableEq, Repr

structure PLink where
  traceID : Nat
  spanID : Nat
  traceState : Str
  attrs : PMap
  dropped : BitVec 32
deriving DecidableEq, Repr

/-- `ptrace.Span`. -/
structure PSpan where
  name : Str
  kind : PSpanKind
  traceID : Nat
  spanID : Nat
  parentID : Nat
  traceState : Str
  start : BitVec 64
  stop : BitVec 64
  code : PCode
  message : Str
  attrs : PMap
  events : List PEvent
  links : List PLink
  droppedAttrs : BitVec 32
  droppedEvents : BitVec 32
  droppedLinks : BitVec 32
deriving DecidableEq, Repr

/-- `ptrace.ScopeSpans`. -/
structure PScopeSpans where
  library : Library
  spans : List PSpan
deriving DecidableEq, Repr

/-- `ptrace.Traces`: at most one resource entry. -/
inductive Traces where
  | empty
  | one (resource : PMap) (scopes : List PScopeSpans)
deriving DecidableEq, Repr

/-- One iteration of `copyEvents` (otlp.go:28-35). -/
def copyEvent (e : Event) : Option PEvent :=
  (copyAttributes [] (newSet e.attrs)).map fun attrs =>
    { name := e.name, time := stamp e.time, attrs, dropped := BitVec.ofInt 32 e.dropped }

/-- One iteration of `copyLinks` (otlp.go:39-47). -/
def copyLink (l : Link) : Option PLink :=
  (copyAttributes [] (newSet l.attrs)).map fun attrs =>
    { traceID := l.traceID, spanID := l.spanID, traceState := l.traceState, attrs, dropped := BitVec.ofInt 32 l.dropped }

/-- The span part of the loop of `d2pd` (otlp.go:101-118). -/
def copySpan (s : Span) : Option PSpan :=
  (copyAttributes [] (newSet s.attrs)).bind fun attrs =>
    (mapM copyEvent s.events).bind fun events =>
      (mapM copyLink s.links).map fun links =>
        { name := s.name, kind := translateSpanKind s.kind, traceID := s.traceID, spanID := s.spanID, parentID := s.parentID
          traceState := s.traceState, start := stamp s.start, stop := stamp s.stop
          code := translateSpanStatusCode s.code, message := s.message, attrs, events, links
          droppedAttrs := BitVec.ofInt 32 s.droppedAttrs, droppedEvents := BitVec.ofInt 32 s.droppedEvents
          droppedLinks := BitVec.ofInt 32 s.droppedLinks }

/-- Append a span to the last scope entry; `ss` is its zero value while there is none, and using that panics. -/
def appendSpan (p : PSpan) : List PScopeSpans → Option (List PScopeSpans)
  | [] => none
  | [e] => some [{ e with spans := e.spans ++ [p] }]
  | e :: es => (appendSpan p es).map (e :: ·)

/-- The loop of `d2pd` (otlp.go:90-119). `ss` always refers to the last entry appended. Simplification: a panic of
`ss.Spans()` and one of the attribute conversion are not told apart. -/
def loop (curName : Str) (scopes : List PScopeSpans) : List Span → Option (List PScopeSpans)
  | [] => some scopes
  | s :: rest =>
    let (curName, scopes) :=
      if s.scope.name ≠ curName then (s.scope.name, scopes ++ [{ library := s.scope, spans := [] }]) else (curName, scopes)
    (copySpan s).bind fun p => (appendSpan p scopes).bind fun scopes => loop curName scopes rest

/-- `d2pd` (otlp.go:78-122). -/
def d2pd (rm : ResourceMap) (in_ : List Span) : ResourceMap × Option Traces :=
  match in_ with
  | [] => (rm, some .empty)
  | s :: _ =>
    let (rm, res) := rm.get s.resource
    (rm, res.bind fun resource => (loop [] [] in_).map fun scopes => .one resource scopes)

end Verif.TraceExport
