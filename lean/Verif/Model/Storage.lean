import Verif.Basic

/-!
The per-view series table (`instrumentBase.data`) and its cardinality limit.
Models `lightstep/sdk/metric/internal/viewstate/base_instrument.go`.
-/

namespace Verif.Storage

variable {K V : Type} [DecidableEq K]

/-- `instrumentBase.data` (base_instrument.go:57): a map from attribute sets to entries, as an association list.
Keys are kept distinct by construction (`getOrCreate` inserts only absent keys). Simplification: Go map iteration
order is arbitrary, the list order carries no meaning. -/
abbrev Table (K V : Type) := List (K × V)

/-- Map lookup `entry, has := metric.data[kvs]` (base_instrument.go:143). -/
def find (t : Table K V) (k : K) : Option V :=
  (t.find? (fun e => e.1 == k)).map (·.2)

/-- `_, has := metric.data[k]`. -/
def has (t : Table K V) (k : K) : Bool := t.any (fun e => e.1 == k)

/-- The key under which `getOrCreateEntry` finds or creates the entry (base_instrument.go:142-187):
* 143-146 existing key: itself;
* 152-163 `sz == lim`: the overflow key when present, otherwise (internal error path) the key itself;
* 164-180 `sz == lim-1`: the overflow key when the key is not the overflow key and no overflow entry exists;
* otherwise the key itself.
`lim` is `acfg.CardinalityLimit` (a positive number after `Config.Validate`, aggregator.go:104-106). -/
def resolveKey (lim : Nat) (ovf : K) (t : Table K V) (k : K) : K :=
  if has t k then k
  else if t.length = lim then
    (if has t ovf then ovf else k)
  else if t.length + 1 = lim then
    (if k ≠ ovf ∧ has t ovf = false then ovf else k)
  else k

/-- `getOrCreateEntry` (base_instrument.go:142-187): returns the resolved key, the entry and the new table.
`fresh` is the newly initialised `storageHolder` used when an entry has to be created (183-186). -/
def getOrCreate (lim : Nat) (ovf : K) (t : Table K V) (k : K) (fresh : V) : K × V × Table K V :=
  let k' := resolveKey lim ovf t k
  match find t k' with
  | some v => (k', v, t)
  | none => (k', fresh, (k', fresh) :: t)

/-- `delete(p.data, set)` (collectors.go:89). -/
def delete (t : Table K V) (k : K) : Table K V := t.filter (fun e => !(e.1 == k))

end Verif.Storage
