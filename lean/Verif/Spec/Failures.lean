import Verif.Spec.Busy

/-!
What arrives when exports fail.

A collection hands what it has produced to the exporter once, and returns the error of the exporter (periodic.go:155-167); the error is reported to the caller of `ForceFlush` or `Shutdown`, or handed to
the error handler (periodic.go:121-123), and has no other effect. So which exports fail is independent of the rest of the program: any function `ok`.
-/

namespace Verif.Failures
open Verif.Export

/-- The payloads which arrive: those whose export succeeds. `ok i` says that the export of the `i`th payload, counted from 0, succeeds. -/
def arrived (ok : Nat → Bool) (sent : List Payload) : List Payload := (sent.zipIdx.filter (fun e => ok e.2)).map (·.1)

/-- The export of the last payload succeeds. -/
def LastArrives (ok : Nat → Bool) (sent : List Payload) : Prop := ok (sent.length - 1) = true

/-- All values of `some` are among `all`, with multiplicity. -/
def Among {α : Type} (some all : List α) : Prop := ∃ missing, all.Perm (some ++ missing)

end Verif.Failures
