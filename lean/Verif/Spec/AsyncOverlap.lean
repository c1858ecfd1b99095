import Verif.Model.AsyncOverlap

/-!
# What a collection of asynchronous instruments has to report

Used by C77. The observations of one collection are a list; for every instrument and attribute set the last one counts.
-/

namespace Verif.Overlap
open Verif

variable {K N S : Type} [DecidableEq K] [DecidableEq N]

/-- The observations made by the callbacks of collection `n`, oldest first: instrument, attribute set, value. -/
def observations (c : Cfg K N S) (n : Nat) (acts : List (Action K N)) : List (Nat × K × N) :=
  acts.filterMap (fun a => match a with
    | .observe m o set v => if m = n then some (o, c.canon o set, v) else none
    | _ => none)

/-- The last value observed for an instrument and an attribute set. -/
def lastVal (O : List (Nat × K × N)) (o : Nat) (set : K) : Option N :=
  (O.reverse.find? (fun x => x.1 == o && x.2.1 == set)).map (·.2.2)

/-- Under which point an attribute set counts: its own (filtered) set, or overflow if there is no such point. -/
def Under (c : Cfg K N S) (l : Nat) (pts : List (K × S)) (set k : K) : Prop :=
  c.filt l set = k ∨ (k = c.ovf ∧ c.filt l set ∉ pts.map (·.1))

/-- The points `pts` of view `l` are exactly what was observed: one point for each series, its value made of the last values
of the instruments and attribute sets that count under it, each once; every pair observed is there, under overflow only if
the view is full. -/
structure Reports (c : Cfg K N S) (l : Nat) (O : List (Nat × K × N)) (pts : List (K × S)) : Prop where
  nodup : (pts.map (·.1)).Nodup
  value : ∀ k v, (k, v) ∈ pts → ∃ ps : List (Nat × K × N), (ps.map (fun p => (p.1, p.2.1))).Nodup ∧ ps ≠ [] ∧
    (∀ o set x, (o, set, x) ∈ ps ↔ l ∈ c.leavesOf o ∧ Under c l pts set k ∧ lastVal O o set = some x) ∧
    v = (ps.map (·.2.2)).foldl (c.agg l).upd (c.agg l).init
  all : ∀ o set x, l ∈ c.leavesOf o → lastVal O o set = some x →
    c.filt l set ∈ pts.map (·.1) ∨ (c.ovf ∈ pts.map (·.1) ∧ pts.length = c.lim l)

/-- The points `out` are the differences between the points `now` and those of the collection before: a series not there
before with its whole value, others with the difference, unless nothing changed. -/
structure Differences (a : Async.AAgg N S) (before now out : List (K × S)) : Prop where
  nodup : (out.map (·.1)).Nodup
  point : ∀ k d, (k, d) ∈ out ↔ ∃ v, (k, v) ∈ now ∧
    ((k ∉ before.map (·.1) ∧ d = v) ∨ ∃ p, (k, p) ∈ before ∧ d = a.sub p v ∧ a.hasChange d = true)

/-- Few enough attribute sets: all of view `l` (filtered) are in the list `F`, which is shorter than the limit. -/
def FewSets (c : Cfg K N S) (l : Nat) (F : List K) (acts : List (Action K N)) : Prop :=
  F.length < c.lim l ∧ c.ovf ∉ F ∧ ∀ n o set v, .observe n o set v ∈ acts → l ∈ c.leavesOf o → c.filt l (c.canon o set) ∈ F

end Verif.Overlap
