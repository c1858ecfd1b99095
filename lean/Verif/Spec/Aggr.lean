import Verif.Model.Number

/-!
Specification vocabulary for aggregation: what an aggregate of a list of numbers should be.
-/

namespace Verif.Spec

/-- Total of a list of numbers. -/
def total {N : Type} (zero : N) (add : N → N → N) (vals : List N) : N := vals.foldr add zero

/-- Total of 64-bit integers, modulo 2^64. -/
def total64 (vals : List (BitVec 64)) : BitVec 64 := total 0 (· + ·) vals

/-- `m` is one of the values and none is smaller. -/
def IsLeast {N : Type} (lt : N → N → Bool) (m : N) (vals : List N) : Prop := m ∈ vals ∧ ∀ x, x ∈ vals → lt x m = false

/-- `m` is one of the values and none is larger. -/
def IsGreatest {N : Type} (lt : N → N → Bool) (m : N) (vals : List N) : Prop := m ∈ vals ∧ ∀ x, x ∈ vals → lt m x = false

/-- `v` is the result of adding up exactly the values in the list, in some order and with some bracketing, starting
from zeros. This is all that can be said for floating point, where addition is not associative. -/
inductive SumOf {N : Type} (zero : N) (add : N → N → N) : N → List N → Prop
  | zero : SumOf zero add zero []
  | one (v : N) {s : N} {vals : List N} (h : SumOf zero add s vals) : SumOf zero add (add s v) (v :: vals)
  | join {s₁ s₂ : N} {v₁ v₂ : List N} (h₁ : SumOf zero add s₁ v₁) (h₂ : SumOf zero add s₂ v₂) :
      SumOf zero add (add s₁ s₂) (v₂ ++ v₁)

/-- `min`, `max`, `sum`, `count` are those of exactly the given values: the count is their number, the sum adds up exactly
them, and unless there are none the minimum and maximum are attained and bound them all. -/
structure Describes {N : Type} (zero : N) (add : N → N → N) (lt : N → N → Bool) (min max sum : N) (count : Nat) (vals : List N) :
    Prop where
  count : count = vals.length
  sum : SumOf zero add sum vals
  min : vals ≠ [] → IsLeast lt min vals
  max : vals ≠ [] → IsGreatest lt max vals

/-- `h` is the result of recording exactly the values in the list, each once, into histograms that start empty and are merged
together in some way. -/
inductive HistOf {N H : Type} (empty : H) (update : H → N → H) (mergeFrom : H → H → H) : H → List N → Prop
  | empty : HistOf empty update mergeFrom empty []
  | one (v : N) {h : H} {vals : List N} (hv : HistOf empty update mergeFrom h vals) :
      HistOf empty update mergeFrom (update h v) (v :: vals)
  | join {h₁ h₂ : H} {v₁ v₂ : List N} (hv₁ : HistOf empty update mergeFrom h₁ v₁) (hv₂ : HistOf empty update mergeFrom h₂ v₂) :
      HistOf empty update mergeFrom (mergeFrom h₁ h₂) (v₂ ++ v₁)

/-- Any way of splitting recorded values over storages and merging them: start empty, update, move the content out
(leaving an emptied storage), merge one storage into another. -/
inductive Split (N : Type) where
  | empty
  | update (t : Split N) (n : N)
  | emptied (t : Split N)
  | merge (to from_ : Split N)

/-- The values contained in a storage built this way. -/
def Split.contents {N : Type} : Split N → List N
  | .empty => []
  | .update t n => n :: t.contents
  | .emptied _ => []
  | .merge a b => b.contents ++ a.contents

end Verif.Spec
