import Verif.Spec.Export
import Verif.Model.TraceExport

/-! What an exported batch of spans should look like. -/

namespace Verif.TraceExport
open Verif Verif.Attr Verif.Export

/-- Attributes that can be exported: every value has a type. -/
def Typed (l : List KV) : Prop := ∀ kv ∈ l, kv.val ≠ .invalid

def Span.Typed (s : Span) : Prop :=
  TraceExport.Typed s.attrs ∧ (∀ e ∈ s.events, TraceExport.Typed e.attrs) ∧ (∀ l ∈ s.links, TraceExport.Typed l.attrs)

/-- Exported attributes are those of the set: sorted by key, last value per key. -/
def SetOf (l : List KV) (m : PMap) : Prop := AttrsOf (newSet l) m

def EventOf (e : Event) (p : PEvent) : Prop :=
  p.name = e.name ∧ p.time = stamp e.time ∧ SetOf e.attrs p.attrs ∧ p.dropped = BitVec.ofInt 32 e.dropped

def LinkOf (l : Link) (p : PLink) : Prop :=
  p.traceID = l.traceID ∧ p.spanID = l.spanID ∧ p.traceState = l.traceState ∧ SetOf l.attrs p.attrs ∧
  p.dropped = BitVec.ofInt 32 l.dropped

/-- The exported kind names the span's kind; unknown numbers become unspecified. -/
def KindOf (k : SpanKind) (p : PSpanKind) : Prop :=
  (k = .internal ↔ p = .internal) ∧ (k = .server ↔ p = .server) ∧ (k = .client ↔ p = .client) ∧
  (k = .producer ↔ p = .producer) ∧ (k = .consumer ↔ p = .consumer)

def CodeOf (c : Code) (p : PCode) : Prop := (c = .error ↔ p = .error) ∧ (c = .ok ↔ p = .ok)

/-- An exported span for a span. -/
structure SpanOf (s : Span) (p : PSpan) : Prop where
  name : p.name = s.name
  kind : KindOf s.kind p.kind
  ids : p.traceID = s.traceID ∧ p.spanID = s.spanID ∧ p.parentID = s.parentID ∧ p.traceState = s.traceState
  times : p.start = stamp s.start ∧ p.stop = stamp s.stop
  status : CodeOf s.code p.code ∧ p.message = s.message
  attrs : SetOf s.attrs p.attrs
  events : Pointwise EventOf s.events p.events
  links : Pointwise LinkOf s.links p.links
  dropped : p.droppedAttrs = BitVec.ofInt 32 s.droppedAttrs ∧ p.droppedEvents = BitVec.ofInt 32 s.droppedEvents ∧
    p.droppedLinks = BitVec.ofInt 32 s.droppedLinks

/-- Neighbouring spans whose scopes have the same name have the same scope. -/
def SameNameSameScope (l : List Span) : Prop :=
  ∀ (i : Nat) (s t : Span), l[i]? = some s → l[i + 1]? = some t → s.scope.name = t.scope.name → s.scope = t.scope

/-- The exported spans in order, each with the scope it is under. -/
def underScopes (l : List PScopeSpans) : List (Library × PSpan) := l.flatMap (fun e => e.spans.map (fun s => (e.library, s)))

end Verif.TraceExport
