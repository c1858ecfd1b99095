import Verif.Basic

/-!
# Records with the same fingerprint: the linked lists of `Observer.currentFP`

Pointer-level model of the table of an instrument (sync.go:57) and of the three pieces of code that follow or change its
`next` pointers: the search (bykeyvalue.go:145-152, 222-232), the insertion (bykeyvalue.go:234-235) and the rebuilding of the
lists during a collection (sync.go:96-140). All of them run under `Observer.lock`, so each is one step here.

A loop that follows more pointers than there are records, and a nil dereference, are both the result `none`.
-/

namespace Verif.Chains
open Verif

/-- A table and the memory of its records. Records are numbered in the order of their allocation. -/
structure State where
  /-- `recordKV.next` (sync.go:209-212) -/
  next : Nat → Option Nat
  /-- the Go map `currentFP` (sync.go:57), as pairs with distinct keys -/
  cur : List (UInt64 × Nat)
  /-- number of records allocated so far -/
  alloc : Nat

/-- `m[k]`. -/
def get (m : List (UInt64 × Nat)) (k : UInt64) : Option Nat := (m.find? (fun e => e.1 == k)).map (·.2)

/-- `delete(m, k)`. -/
def del (m : List (UInt64 × Nat)) (k : UInt64) : List (UInt64 × Nat) := m.filter (fun e => !(e.1 == k))

/-- `m[k] = v`. -/
def set (m : List (UInt64 × Nat)) (k : UInt64) (v : Nat) : List (UInt64 × Nat) := (k, v) :: del m k

/-- The search along `next` for a record satisfying `p`: `attributesEqual` in both searches, or anything at all when
collisions are ignored (bykeyvalue.go:145-152, 222-224). -/
def walk (next : Nat → Option Nat) (p : Nat → Bool) : Nat → Option Nat → Option (Option Nat)
  | 0, _ => none
  | _ + 1, none => some none
  | n + 1, some r => if p r then some (some r) else walk next p n (next r)

/-- Search in the list of fingerprint `f`. -/
def lookup (s : State) (f : UInt64) (p : Nat → Bool) : Option (Option Nat) := walk s.next p (s.alloc + 1) (get s.cur f)

/-- The insertion of a new record under fingerprint `f` (bykeyvalue.go:234-235). -/
def insert (s : State) (f : UInt64) : State :=
  { next := upd s.next s.alloc (get s.cur f), cur := set s.cur f s.alloc, alloc := s.alloc + 1 }

/-- `tail.next = rec` (sync.go:123). -/
def setNext (next : Nat → Option Nat) (tail : Option Nat) (v : Option Nat) : Option (Nat → Option Nat) :=
  tail.map (fun t => upd next t v)

/-- The loop over one list (sync.go:108-127). `keep` is the result of `inst.collect` for each record; the last component
lists the records `collect` was called on, in order. -/
def scan (keep : Nat → Bool) : Nat → (Nat → Option Nat) → Option Nat → Option Nat → Option Nat → List Nat →
    Option ((Nat → Option Nat) × Option Nat × Option Nat × List Nat)
  | 0, _, _, _, _, _ => none
  | _ + 1, next, none, head, tail, seen => some (next, head, tail, seen)
  | n + 1, next, some r, head, tail, seen =>
    if keep r then
      if head.isNone then scan keep n next (next r) (some r) (some r) (seen ++ [r])
      else (setNext next tail (some r)).bind (fun nx => scan keep n nx (nx r) head (some r) (seen ++ [r]))
    else scan keep n next (next r) head tail (seen ++ [r])

/-- The rest of the loop body (sync.go:129-140): delete the entry when nothing was kept, otherwise terminate the list and
store its head if it changed. -/
def finish (s : State) (f : UInt64) (first : Nat) (next : Nat → Option Nat) (head tail : Option Nat) : Option State :=
  match head with
  | none => some { s with next := next, cur := del s.cur f }
  | some h =>
    (setNext next tail none).map (fun nx =>
      { s with next := nx, cur := if h = first then s.cur else set s.cur f h })

/-- One round of the outer loop of `SnapshotAndProcess` (sync.go:100-140), for fingerprint `f`. -/
def sweepOne (keep : Nat → Bool) (s : State) (f : UInt64) : Option (State × List Nat) :=
  match get s.cur f with
  | none => some (s, [])
  | some first =>
    (scan keep (s.alloc + 1) s.next (some first) none none []).bind (fun x =>
      (finish s f first x.1 x.2.1 x.2.2.1).map (fun s' => (s', x.2.2.2)))

/-- The outer loop (sync.go:100-140) with the fingerprints in the order the map iteration yields them. -/
def sweep (keep : Nat → Bool) : State → List UInt64 → Option (State × List Nat)
  | s, [] => some (s, [])
  | s, f :: fs =>
    (sweepOne keep s f).bind (fun x => (sweep keep x.1 fs).map (fun y => (y.1, x.2 ++ y.2)))

/-- What can happen to a table: a record is inserted under a fingerprint, or a collection runs, visiting the fingerprints in
the given order and keeping the records chosen by `keep`. -/
inductive Op where
  | insert (f : UInt64)
  | sweep (order : List UInt64) (keep : Nat → Bool)

/-- Go's map iteration yields every key exactly once. -/
def iterates (order keys : List UInt64) : Bool :=
  decide (order.Nodup ∧ (∀ f, f ∈ order → f ∈ keys) ∧ (∀ f, f ∈ keys → f ∈ order))

/-- Orders that are no map iteration cannot happen and are skipped. -/
def step (s : State) : Op → Option State
  | .insert f => some (insert s f)
  | .sweep order keep =>
    if iterates order (s.cur.map (·.1)) then (sweep keep s order).map (·.1) else some s

def run : State → List Op → Option State
  | s, [] => some s
  | s, op :: ops => (step s op).bind (fun s' => run s' ops)

/-- A new table (sync.go:73). -/
def initial : State := { next := fun _ => none, cur := [], alloc := 0 }

end Verif.Chains
