import Verif.Basic

/-!
Callback registrations of a meter.

Models `meter.RegisterCallback` (meter.go:76-90), `metricRegistration.Unregister` (meter.go:93-115) and the callback part
of `collectFor` (producer.go:103-113), with Go slices: `m.callbacks` is a header (backing array, length, capacity) and
the arrays are shared. `RegisterCallback` holds the meter lock, a collection copies the header under it, but
`Unregister` only holds the lock of the registration, so its reads and writes of the header and of the array are separate
steps.

Simplifications: only successful registrations (valid instruments) are steps; a header is read and written as one (the Go
race could tear it); the scan of the array by `Unregister` is one step, so is running a callback (what runs inside is the
subject of `Model/Async`).
-/

namespace Verif.Callbacks
open Verif

/-- A slice header; the capacity is that of the backing array. -/
structure Hdr where
  arr : Nat
  len : Nat
deriving DecidableEq, Repr

/-- Progress of an `Unregister` call. -/
inductive UPc where
  /-- not called, or failed -/
  | idle
  /-- the header was read (meter.go:102) -/
  | read (h : Hdr)
  /-- the scan found the callback at an index (meter.go:104-105), or not -/
  | found (h : Hdr) (i : Nat)
  | notFound
  /-- the last element was copied over it (meter.go:106) -/
  | moved (h : Hdr)
  /-- the header was written (meter.go:107), only `mr.callback = nil` is left -/
  | cut
deriving DecidableEq, Repr

/-- A collection in progress: the copied header, the next index, the callbacks run so far. `snap`, `dead`, `before` and
`disturbed` are ghost: the callbacks listed, those unregistered and the number registered when it began, and whether some `Unregister` worked on the list since. -/
structure Coll where
  hdr : Hdr
  pos : Nat
  ran : List Nat
  snap : List Nat
  dead : List Nat
  before : Nat
  disturbed : Bool
  ended : Bool
deriving Repr

structure State where
  /-- contents and capacity of the backing arrays -/
  arr : Nat → Nat → Nat
  cap : Nat → Nat
  nextArr : Nat
  /-- `m.callbacks` -/
  hdr : Hdr
  /-- callbacks are numbered in registration order -/
  next : Nat
  /-- `mr.callback != nil` -/
  active : Nat → Bool
  upc : Nat → UPc
  /-- calls of `Unregister` that returned `ErrAlreadyUnregistered` -/
  errors : List Nat
  colls : List Coll
  /-- ghost: completed successful unregistrations -/
  gone : List Nat

/-- A new meter: `callbacks` is nil. -/
def init : State :=
  { arr := fun _ _ => 0, cap := fun _ => 0, nextArr := 1, hdr := ⟨0, 0⟩, next := 0, active := fun _ => false,
    upc := fun _ => .idle, errors := [], colls := [], gone := [] }

/-- The elements of a slice. -/
def State.list (s : State) (h : Hdr) : List Nat := (List.range h.len).map (s.arr h.arr)

/-- `append(m.callbacks, cb)`: in place if the capacity allows, else into a new array of capacity `extra` more than needed. -/
def append (s : State) (c extra : Nat) : State :=
  if s.hdr.len < s.cap s.hdr.arr then
    { s with arr := fun a i => if a = s.hdr.arr ∧ i = s.hdr.len then c else s.arr a i
             hdr := ⟨s.hdr.arr, s.hdr.len + 1⟩ }
  else
    { s with arr := fun a i => if a = s.nextArr then (if i = s.hdr.len then c else s.arr s.hdr.arr i) else s.arr a i
             cap := fun a => if a = s.nextArr then s.hdr.len + 1 + extra else s.cap a
             nextArr := s.nextArr + 1
             hdr := ⟨s.nextArr, s.hdr.len + 1⟩ }

inductive Action where
  /-- `RegisterCallback` (meter.go:76-90); `extra` is the choice of the allocator -/
  | register (extra : Nat)
  /-- the next step of `Unregister` on a registration -/
  | unreg (r : Nat)
  /-- `collectFor` copies the header (producer.go:103-107) -/
  | start
  /-- the loop of a collection runs the next callback (producer.go:111-113), or ends -/
  | run (k : Nat)
deriving Repr

/-- Every collection in progress has been disturbed. -/
def disturb (s : State) : State := { s with colls := s.colls.map (fun c => if c.ended then c else { c with disturbed := true }) }

/-- One step of `Unregister` (meter.go:93-115). -/
def unregStep (s : State) (r : Nat) : State :=
  let set (s : State) (p : UPc) : State := { s with upc := upd s.upc r p }
  match s.upc r with
  | .idle =>
    if s.active r then set s (.read s.hdr)
    else { s with errors := s.errors ++ [r] }
  | .read h =>
    match (List.range h.len).find? (fun i => s.arr h.arr i = r) with
    | some i => set s (.found h i)
    | none => set s .notFound
  | .found h i =>
    disturb (set { s with arr := fun a j => if a = h.arr ∧ j = i then s.arr h.arr (h.len - 1) else s.arr a j } (.moved h))
  | .moved h => disturb (set { s with hdr := ⟨h.arr, h.len - 1⟩ } .cut)
  | .notFound | .cut => set { s with active := upd s.active r false, gone := r :: s.gone } .idle

def step (s : State) : Action → Option State
  | .register extra =>
    let s' := append s s.next extra
    some { s' with next := s.next + 1, active := upd s.active s.next true }
  | .unreg r => if r < s.next then some (unregStep s r) else none
  | .start =>
    some { s with colls := s.colls ++ [{ hdr := s.hdr, pos := 0, ran := [], snap := s.list s.hdr, dead := s.gone, before := s.next,
                                         disturbed := false, ended := false }] }
  | .run k =>
    match s.colls[k]? with
    | none => none
    | some c =>
      if c.ended then none
      else if c.pos < c.hdr.len then
        some { s with colls := s.colls.set k { c with pos := c.pos + 1, ran := c.ran ++ [s.arr c.hdr.arr c.pos] } }
      else some { s with colls := s.colls.set k { c with ended := true } }

def run (s : State) : List Action → Option State
  | [] => some s
  | a :: as => (step s a).bind (fun s' => run s' as)

end Verif.Callbacks
