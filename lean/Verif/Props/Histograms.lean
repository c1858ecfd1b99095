import Verif.Proof.SyncValues
import Verif.Proof.Number
import Verif.Examples.SyncCfg

/-!
# C61: histogram points

The exponential histogram itself is an external library; `hh` are its operations. What is proved here is that the pipeline
uses it right: a reported histogram is made of exactly the measurements of its point.
-/

namespace Verif.Props
open Verif Verif.Sync Verif.Number Verif.Aggr Verif.Spec
variable {AL KS H : Type} [DecidableEq KS] {hh : HistOps Bits H} {o : Ops Bits}
variable {c : Cfg AL KS Bits (Cell Bits H)} {n0 : Bits} {s : State AL KS Bits (Cell Bits H)}

/-- **C61** (one point). A histogram point, delta or cumulative, under any schedule, is the result of recording exactly the
measurements it contains (C01 and C07 say which those are), each once, into empty histograms and merging these. -/
theorem C61_point (hr : Reachable c n0 s) (e : Emit KS (Cell Bits H)) (he : e ∈ s.emits) (ha : c.agg e.leaf = histAgg o hh) :
    HistOf hh.empty hh.update hh.mergeFrom e.val.hist (values s e.ops) := by
  have h := emit_holds (reachable_more hr) he
  rw [ha] at h
  exact holds_hist h

theorem histOf_measure {N H : Type} {empty : H} {update : H → N → H} {mergeFrom : H → H → H} (μ : H → Nat) (w : N → Nat)
    (h0 : μ empty = 0) (hu : ∀ h n, μ (update h n) = μ h + w n) (hm : ∀ a b, μ (mergeFrom a b) = μ a + μ b) {h : H} {vals : List N}
    (hh : HistOf empty update mergeFrom h vals) : μ h = (vals.map w).sum := by
  induction hh with
  | empty => simpa using h0
  | one v _ ih => rw [hu, ih]; simp [Nat.add_comm]
  | join _ _ ih1 ih2 => rw [hm, ih1, ih2]; simp [Nat.add_comm]

/-- **C61** (anything the library counts). Any quantity `μ` of a histogram which is zero when it is empty, grows by `w n`
when `n` is recorded and is added when histograms are merged, is in every reported point the total of `w` over the
measurements of the point. For instance the count (`w n = 1`), the zero count (`w n = 1` for zero, else 0), or the number of
measurements between two fixed boundaries. -/
theorem C61_measure (hr : Reachable c n0 s) (e : Emit KS (Cell Bits H)) (he : e ∈ s.emits) (ha : c.agg e.leaf = histAgg o hh)
    (μ : H → Nat) (w : Bits → Nat) (h0 : μ hh.empty = 0) (hu : ∀ h n, μ (hh.update h n) = μ h + w n)
    (hm : ∀ a b, μ (hh.mergeFrom a b) = μ a + μ b) : μ e.val.hist = ((values s e.ops).map w).sum :=
  histOf_measure μ w h0 hu hm (C61_point hr e he ha)

/-- **C61** (sum). The same for the 64-bit sum of an integer histogram. -/
theorem C61_sum (hr : Reachable c n0 s) (e : Emit KS (Cell Bits H)) (he : e ∈ s.emits) (ha : c.agg e.leaf = histAgg o hh)
    (σ : H → Bits) (h0 : σ hh.empty = 0) (hu : ∀ h n, σ (hh.update h n) = σ h + n)
    (hm : ∀ a b, σ (hh.mergeFrom a b) = σ a + σ b) : σ e.val.hist = total64 (values s e.ops) := by
  have h := C61_point hr e he ha
  generalize e.val.hist = v at h
  generalize values s e.ops = vals at h
  induction h with
  | empty => exact h0
  | one v _ ih => rw [hu, ih]; simp only [total64, total, List.foldr_cons]; rw [BitVec.add_comm]
  | join _ _ ih1 ih2 => rw [hm, ih1, ih2, total64_append, BitVec.add_comm]

/-- What is assumed of the library's `Count()`: it is the number of values recorded. -/
structure Counts (hh : HistOps Bits H) : Prop where
  empty : hh.count hh.empty = 0
  update : ∀ h n, hh.count (hh.update h n) = hh.count h + 1
  merge : ∀ a b, hh.count (hh.mergeFrom a b) = hh.count a + hh.count b

/-- **C61** (count). -/
theorem C61_count (hl : Counts hh) (hr : Reachable c n0 s) (e : Emit KS (Cell Bits H)) (he : e ∈ s.emits)
    (ha : c.agg e.leaf = histAgg o hh) : hh.count e.val.hist = e.ops.length := by
  rw [C61_measure hr e he ha hh.count (fun _ => 1) hl.empty hl.update hl.merge]
  simp only [values, List.map_map]
  generalize e.ops = l
  induction l with
  | nil => rfl
  | cons a t ih => simp only [List.map_cons, List.sum_cons, ih, List.length_cons, Function.comp_apply]; omega

/-- **C61** (empty). A delta histogram point is exported exactly when it contains measurements; a cumulative one always. -/
theorem C61_exported_iff (hl : Counts hh) (hr : Reachable c n0 s) (e : Emit KS (Cell Bits H)) (he : e ∈ s.emits)
    (ha : c.agg e.leaf = histAgg o hh) : e.kept = true ↔ c.delta e.leaf = false ∨ e.ops ≠ [] := by
  have h1 := C61_count hl hr e he ha
  have h2 := reachable_kept hr e he
  rw [h2]
  cases hd : c.delta e.leaf with
  | false => simp
  | true =>
    rw [if_pos rfl, ha]
    simp only [histAgg, bne_iff_ne, ne_eq, h1, List.length_eq_zero_iff, Bool.true_eq_false, false_or]

/-- **C61** (nothing lost, nothing twice). Once every call has returned, the counts of all exported points of a delta
histogram view and the number of measurements still pending add up to the number of measurements recorded. -/
theorem C61_total (hl : Counts hh) (hr : Reachable c n0 s) (l : Nat) (hd : c.delta l = true) (ha : c.agg l = histAgg o hh)
    (hall : ∀ i, i < s.nextOp → (s.op i).pc = .done) :
    ((exported s l).map (fun e => hh.count e.val.hist)).sum + (inAccsAll s l ++ inSeriesAll s l).length =
      (recorded c s l).length := by
  have hm := reachable_more hr
  have h1 := (applied_calls hm l hall).length_eq
  have h2 := (view_cons hm hd).length_eq
  simp only [values, List.length_map] at h1
  rw [← h1, h2, List.append_assoc, List.length_append (as := reportedView s l)]
  congr 1
  unfold reportedView exported
  have gen : ∀ L : List (Emit KS (Cell Bits H)), (∀ e, e ∈ L → e ∈ s.emits) →
      ((L.filter (fun e => e.leaf == l && e.kept)).map (fun e => hh.count e.val.hist)).sum =
        ((L.filter (fun e => e.leaf == l)).flatMap (·.ops)).length := by
    intro L
    induction L with
    | nil => intro _; rfl
    | cons e t ih =>
      intro hsub
      have ih := ih (fun x hx => hsub x (List.mem_cons_of_mem _ hx))
      have he := hsub e (List.mem_cons_self ..)
      by_cases hle : e.leaf = l
      · have ha' : c.agg e.leaf = histAgg o hh := by rw [hle]; exact ha
        have hc := C61_count hl hr e he ha'
        have hk := C61_exported_iff hl hr e he ha'
        rw [hle, hd] at hk
        simp only [Bool.true_eq_false, false_or] at hk
        cases hkk : e.kept with
        | true => simp [hle, hkk, hc, ih]
        | false =>
          have : e.ops = [] := by
            apply Decidable.not_not.1
            intro hne
            rw [hk.2 hne] at hkk
            cases hkk
          simp [hle, hkk, ih, this]
      · simp [hle, ih]
  exact gen s.emits (fun _ h => h)

/-! A concrete case: the library keeps the list of recorded values. Three calls on the histogram instrument, on two attribute
lists, a snapshot between them, and one collection. -/

section
open Verif.Examples

def listOps : HistOps Bits (List Bits) :=
  { empty := [], update := fun h n => n :: h, mergeFrom := fun a b => b ++ a, count := List.length }

def cfgH : Cfg Nat Nat Bits (Cell Bits (List Bits)) where
  fp := fun a => UInt64.ofNat (a % 4)
  eqv := fun a b => a == b
  ignoreColl := false
  overflowAL := 99
  overflowKS := 99
  newSet := id
  limit := 4
  periods := 2
  W := 4294967296
  leavesOf := fun _ => [0]
  filt := fun _ k => k
  lim := fun _ => 10
  delta := fun _ => true
  agg := fun _ => histAgg intOps listOps

example : Counts listOps := ⟨rfl, fun _ _ => rfl, fun _ _ => by simp [listOps, Nat.add_comm]⟩

def histSched : List Act :=
  [.observe 0 1 5] ++ call 0 9 ++ [.snapshot 0] ++ steps 0 8 ++ [.observe 0 1 7] ++ call 1 7 ++ [.observe 0 5 0] ++ call 2 9 ++
  [.snapshot 0] ++ steps 1 13 ++ [.collect 0] ++ steps 2 5

example : ∃ s, run cfgH (initial cfgH 0) histSched = some s ∧
    ((exported s 0).map (fun e => (e.key, e.val.hist, e.kept)) = [(1, [7, 5], true), (5, [0], true)] ∧
      (∀ i, i < s.nextOp → (s.op i).pc = .done) ∧ (recorded cfgH s 0).length = 3) :=
  exists_of_eval (by decide +kernel)

end

end Verif.Props
