import Verif.Model.SyncMachine

/-!
# Memory of the callers' attribute slices

`computeAttrsUnderLock` (sync.go:299-315) keeps the caller's own slice in the record when `IgnoreCollisions` is set, and a
private copy otherwise. `initialize` (sync.go:283-295) reads it later, possibly from another goroutine. This machine adds
that memory to the synchronous machine: the content of every call's slice, which may be overwritten by the caller.
-/

namespace Verif.Slices
open Verif Verif.Sync
variable {AL KS N S : Type} [DecidableEq KS] [DecidableEq AL]

/-- The synchronous machine together with the callers' memory. -/
structure State (AL KS N S : Type) where
  base : Sync.State AL KS N S
  /-- present content of the slice that call `i` passed -/
  mem : Nat → AL
  /-- the call whose slice record `r` refers to; `none` for the global overflow slice -/
  src : Nat → Option Nat

inductive Action (AL N : Type) where
  /-- an action of the synchronous machine -/
  | base (a : Sync.Action AL N)
  /-- the caller of call `i` overwrites its slice -/
  | write (i : Nat) (v : AL)

/-- The list that `initialize` reads for record `r` (sync.go:286-287): the caller's slice, as it is now, when collisions
are ignored; otherwise the copy made at creation (312-314). -/
def listOf (c : Cfg AL KS N S) (w : State AL KS N S) (r : Nat) : AL :=
  if c.ignoreColl then
    match w.src r with
    | some i => w.mem i
    | none => c.overflowAL
  else (w.base.recs r).attrs

/-- The record that an action initialises, if any: `readAccumulator` (sync.go:274-277), called by the measurement (359) or
by a collection (266). -/
def initialises (c : Cfg AL KS N S) (s : Sync.State AL KS N S) : Sync.Action AL N → Option Nat
  | .op i =>
    match (s.op i).pc with
    | .ini r => if (s.recs r).accs.length < numLeaves c s r then some r else none
    | _ => none
  | .task t _ =>
    match s.task t with
    | .ini _ _ r _ _ _ => if (s.recs r).accs.length < numLeaves c s r then some r else none
    | _ => none
  | _ => none

/-- One step of `initialize` with the list read from memory. The record's own `attrs` (needed for the fingerprint, which
is the key of the map and never read again from the list) is put back afterwards. -/
def initFrom (c : Cfg AL KS N S) (s : Sync.State AL KS N S) (r : Nat) (l : AL) : Option (Sync.State AL KS N S) :=
  (initStep c (setRec s r (fun x => { x with attrs := l })) r).map
    (fun s' => setRec s' r (fun x => { x with attrs := (s.recs r).attrs }))

/-- The call that creates a record in a step, with the list it passes on (bykeyvalue.go:194-200): its own slice or the
overflow slice. -/
def creator (s : Sync.State AL KS N S) : Sync.Action AL N → Option Nat
  | .op i =>
    match (s.op i).pc with
    | .wr a => if a = (s.op i).attrs then some i else none
    | _ => none
  | _ => none

/-- The callers' memory after an action: a new call comes with its slice. -/
def memAfter (w : State AL KS N S) : Sync.Action AL N → (Nat → AL)
  | .observe _ al _ => upd w.mem w.base.nextOp al
  | _ => w.mem

/-- A step. The slice of a call is filled when the call starts; the caller may overwrite it once the call has returned. -/
def step (c : Cfg AL KS N S) (w : State AL KS N S) : Action AL N → Option (State AL KS N S)
  | .write i v => if (w.base.op i).pc = .done then some { w with mem := upd w.mem i v } else none
  | .base a =>
    let next := match initialises c w.base a with
      | some r => initFrom c w.base r (listOf c w r)
      | none => Sync.step c w.base a
    next.map (fun s' =>
      { base := s'
        mem := memAfter w a
        src := if s'.nextRec = w.base.nextRec then w.src else upd w.src w.base.nextRec (creator w.base a) })

def run (c : Cfg AL KS N S) : State AL KS N S → List (Action AL N) → Option (State AL KS N S)
  | w, [] => some w
  | w, a :: as => (step c w a).bind (fun w' => run c w' as)

def initial (c : Cfg AL KS N S) (n0 : N) : State AL KS N S :=
  { base := Sync.initial c n0, mem := fun _ => c.overflowAL, src := fun _ => none }

end Verif.Slices
