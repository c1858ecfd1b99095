import Verif.Proof.TraceExport
import Verif.Proof.Number
import Verif.Props.Numbers

/-!
# Export: explicit buckets (C41), min-max-sum-count (C42), resource cache (C43), attributes (C44), payload (C45), spans (C46)
-/

namespace Verif.Props
open Verif Verif.Attr Verif.Number Verif.Export

/-! ## C44 attributes -/

/-- C44 (part: typed attributes). Converting any attribute set whose values all have a type succeeds and keeps the number
and order of attributes, the keys and the values. Missing: the zero attribute value (see below). -/
theorem C44_attributes_partial (l : List KV) (hd : l.Pairwise (fun x y => x.key ≠ y.key)) (hv : ∀ kv ∈ l, kv.val ≠ .invalid) :
    ∃ m, copyAttributes [] l = some m ∧ AttrsOf l m :=
  copyAttributes_ok ⟨hv, hd⟩

/-- C44 (part: any list). The same for the set made from any list of typed attributes, keys repeated or not. -/
theorem C44_any_list_partial (l : List KV) (hv : ∀ kv ∈ l, kv.val ≠ .invalid) :
    ∃ m, copyAttributes [] (newSet l) = some m ∧ AttrsOf (newSet l) m :=
  copyAttributes_ok (TraceExport.newSet_exportable hv)

/-- C44 (fails for the zero value). An attribute with a key but without a value is accepted: no filter removes it. Converting
any set with such an attribute panics. -/
theorem C44_untyped_fails :
    (∀ (k : Str), k ≠ [] → applyKeysFilter none (newSet [⟨k, .invalid⟩]) = [⟨k, .invalid⟩]) ∧
    ∀ (l : List KV) (kv : KV), kv ∈ l → kv.val = .invalid → copyAttributes [] l = none := by
  refine ⟨?_, fun l kv h hi => copyAttributes_none ⟨kv, h, hi⟩⟩
  intro k hk
  have hv : isValidAttribute ⟨k, .invalid⟩ = true := by simp [isValidAttribute, hk]
  simp [applyKeysFilter, newSet, insertKV, canonVal, hv]

example : copyAttributes [] (newSet [⟨[98], .strs [[1], []]⟩, ⟨[97], .float 0x8000000000000000⟩, ⟨[98], .ints []⟩, ⟨[99], .bool true⟩]) =
    some [([97], .one (.double 0x8000000000000000)), ([98], .slice []), ([99], .one (.bool true))] := by decide

/-! ## C43 resource cache -/

/-- The results of converting resources one after the other through the cache, and the cache after. -/
def feed (rm : ResourceMap) : List (List KV) → ResourceMap × List (Option PMap)
  | [] => (rm, [])
  | r :: rs => ((feed (rm.get r).1 rs).1, (rm.get r).2 :: (feed (rm.get r).1 rs).2)

/-- What is remembered was converted. -/
def RmOk (rm : ResourceMap) : Prop := ∀ i, rm.input = some i → copyAttributes [] i = some rm.output

theorem get_spec {rm : ResourceMap} (h : RmOk rm) (set : List KV) :
    RmOk (rm.get set).1 ∧ ((rm.get set).2 = copyAttributes [] set ∨
      ∃ i, rm.input = some i ∧ attributesEqual i set = true ∧ (rm.get set).2 = copyAttributes [] i) := by
  unfold ResourceMap.get
  split
  · rename_i hit
    refine ⟨h, Or.inr ?_⟩
    unfold ResourceMap.hit at hit
    cases hi : rm.input with
    | none => rw [hi] at hit; cases hit
    | some i =>
      rw [hi] at hit
      simp only [Bool.and_eq_true] at hit
      exact ⟨i, rfl, hit.2, (h i hi).symm⟩
  · have hk : RmOk rm.miss := by
      unfold ResourceMap.miss
      split
      · intro i hi; cases hi
      · exact h
    cases hc : copyAttributes [] set with
    | none => exact ⟨hk, Or.inl rfl⟩
    | some out =>
      refine ⟨?_, Or.inl rfl⟩
      dsimp only
      unfold ResourceMap.store
      split
      · exact hk
      · intro i hi
        dsimp only at hi ⊢
        cases hi
        exact hc

/-- No float slice in the set contains a negative zero. -/
def NoNegZero (l : List KV) : Prop := ∀ kv ∈ l, ∀ xs, kv.val = .floats xs → (0x8000000000000000 : Bits) ∉ xs

theorem numEq_eq {x y : Bits} (h : NumEq x y) (hx : x ≠ 0x8000000000000000) (hy : y ≠ 0x8000000000000000) : x = y := by
  have h3 := (key_eq_iff x y).2 h.2.2
  have hx' : x.toNat ≠ 2 ^ 63 := fun e => hx (BitVec.eq_of_toNat_eq e)
  have hy' : y.toNat ≠ 2 ^ 63 := fun e => hy (BitVec.eq_of_toNat_eq e)
  have e1 : neg x = decide (2 ^ 63 ≤ x.toNat) := rfl
  have e2 : neg y = decide (2 ^ 63 ≤ y.toNat) := rfl
  unfold key at h3
  rw [e1, e2] at h3
  apply BitVec.eq_of_toNat_eq
  simp only [decide_eq_true_eq] at h3
  split at h3 <;> split at h3 <;> omega

theorem sameList_eq {a b : List KV} (h : SameList a b) (ha : NoNegZero a) (hb : NoNegZero b) : a = b := by
  apply List.ext_getElem?
  intro i
  by_cases hi : i < a.length
  · have e1 := List.getElem?_eq_getElem hi
    have e2 := List.getElem?_eq_getElem (h.1 ▸ hi : i < b.length)
    have := h.2 i _ _ e1 e2
    rw [e1, e2]
    have ma := ha a[i] (List.getElem_mem hi)
    have mb := hb (b[i]'(h.1 ▸ hi)) (List.getElem_mem _)
    revert this ma mb
    generalize a[i] = x
    generalize b[i]'(h.1 ▸ hi) = y
    intro this ma mb
    cases x with | mk kx vx => cases y with | mk ky vy =>
    simp only [Option.some.injEq, KV.mk.injEq]
    refine ⟨this.1, ?_⟩
    have hv := this.2
    cases vx <;> cases vy <;> first | exact hv | skip
    rename_i xs ys
    congr 1
    apply List.ext_getElem?
    intro j
    by_cases hj : j < xs.length
    · have f1 := List.getElem?_eq_getElem hj
      have f2 := List.getElem?_eq_getElem (hv.1 ▸ hj : j < ys.length)
      rw [f1, f2]
      congr 1
      refine numEq_eq (hv.2 j _ _ f1 f2) ?_ ?_
      · intro e; exact ma xs rfl (e ▸ List.getElem_mem hj)
      · intro e; exact mb ys rfl (e ▸ List.getElem_mem (hv.1 ▸ hj : j < ys.length))
    · have := hv.1
      rw [List.getElem?_eq_none (by omega), List.getElem?_eq_none (by omega)]
  · have := h.1
    rw [List.getElem?_eq_none (by omega), List.getElem?_eq_none (by omega)]

theorem inputs_fed {rm : ResourceMap} (P : List KV → Prop) (h : ∀ i, rm.input = some i → P i) {set : List KV} (hs : P set) :
    ∀ i, (rm.get set).1.input = some i → P i := by
  unfold ResourceMap.get
  split
  · exact h
  · have hok : ∀ i, rm.miss.input = some i → P i := by
      unfold ResourceMap.miss
      split
      · intro i hi; cases hi
      · exact h
    cases copyAttributes [] set with
    | none => exact hok
    | some out =>
      dsimp only
      unfold ResourceMap.store
      split
      · exact hok
      · intro i hi; dsimp only at hi; cases hi; exact hs

/-- C43 (part: no negative zero inside float slices). Whatever resources were converted before, each result is exactly the
conversion of the resource given, including whether it panics. Missing: resources with a negative zero inside a float slice
(see below). -/
theorem C43_transparent_partial (rs : List (List KV)) (h : ∀ r ∈ rs, NoNegZero r) :
    (feed ResourceMap.new rs).2 = rs.map (copyAttributes []) := by
  have key : ∀ (rs : List (List KV)) (rm : ResourceMap), RmOk rm → (∀ i, rm.input = some i → NoNegZero i) → (∀ r ∈ rs, NoNegZero r) →
      (feed rm rs).2 = rs.map (copyAttributes []) := by
    intro rs
    induction rs with
    | nil => intro _ _ _ _; rfl
    | cons r rs ih =>
      intro rm hrm hin hall
      have hr := hall r (List.mem_cons_self)
      obtain ⟨h1, h2⟩ := get_spec hrm r
      rw [feed, List.map_cons, ih _ h1 (inputs_fed NoNegZero hin hr) (fun x hx => hall x (List.mem_cons_of_mem _ hx))]
      have h3 : (rm.get r).2 = copyAttributes [] r := by
        rcases h2 with h2 | ⟨i, hi, he, h2⟩
        · exact h2
        · rw [h2, sameList_eq ((attributesEqual_iff _ _).1 he) (hin i hi) hr]
      rw [h3]
  exact key rs _ (by intro i hi; cases hi) (by intro i hi; cases hi) h

/-- C43 (every resource). In general each result is the conversion of a resource with the same keys, types and values, numbers
inside float slices being compared numerically. -/
theorem C43_same_values (before : List (List KV)) (r : List KV) :
    ∃ i, (i = r ∨ SameList i r) ∧ ((feed ResourceMap.new before).1.get r).2 = copyAttributes [] i := by
  have key : ∀ (rs : List (List KV)) (rm : ResourceMap), RmOk rm → RmOk (feed rm rs).1 := by
    intro rs
    induction rs with
    | nil => intro _ h; exact h
    | cons r rs ih => intro rm h; exact ih _ (get_spec h r).1
  rcases (get_spec (key before ResourceMap.new (by intro i hi; cases hi)) r).2 with h | ⟨i, _, he, h⟩
  · exact ⟨r, Or.inl rfl, h⟩
  · exact ⟨i, Or.inr ((attributesEqual_iff _ _).1 he), h⟩

/-- C43 (fails for negative zeros). After a resource with `[0.0]`, one with `[-0.0]` is exported as `[0.0]`. -/
theorem C43_negative_zero_fails : ∃ a b : List KV, copyAttributes [] a ≠ copyAttributes [] b ∧
    (feed ResourceMap.new [a, b]).2 = [copyAttributes [] a, copyAttributes [] a] :=
  ⟨[⟨[107], .floats [0]⟩], [⟨[107], .floats [0x8000000000000000]⟩], by decide, by decide⟩

example :
    let a : List KV := [⟨[107], .str [1]⟩]
    let b : List KV := [⟨[107], .str [2]⟩, ⟨[108], .floats [0x7ff8000000000001]⟩]
    (feed ResourceMap.new [a, a, b, b, a]).2 = [a, a, b, b, a].map (copyAttributes []) ∧ copyAttributes [] a ≠ copyAttributes [] b := by decide

/-! ## C41 explicit buckets -/

/-- The boundaries the conversion uses are positive and increasing. -/
def GoodBounds (lower : Int → Bits) (h : ExpHist) : Prop :=
  Less 0 (lower h.posOffset) ∧
  ∀ i : Nat, i < h.pos.length → Less (lower (h.posOffset + i)) (lower (h.posOffset + i + 1))

/-- C41 (part: boundaries available). For a histogram without negative values, whenever the boundary function for its scale
exists and is positive and increasing on the indexes used: boundaries are strictly increasing, there is one more count than
boundaries, and the counts add up to the count of the histogram. Missing: scales and indexes for which the library has no
boundaries (see below). -/
theorem C41_explicit_partial (m : Mapping) (h : ExpHist) (hneg : h.neg = []) (hcount : h.count = h.zeroCount + h.pos.sum + h.neg.sum)
    (hm : h.pos ≠ [] → ∃ lower, m h.scale = some lower ∧ GoodBounds lower h) :
    ∃ bounds counts, explicitBuckets m h = some (bounds, counts) ∧ bounds.Pairwise Less ∧
      counts.length = bounds.length + 1 ∧ counts.sum = h.count := by
  by_cases hp : h.pos = []
  · refine ⟨[fzero], [h.zeroCount, 0], by simp [explicitBuckets, hp], List.pairwise_singleton _ _, rfl, ?_⟩
    simp [hcount, hneg, hp]
  · obtain ⟨lower, h1, h2, h3⟩ := hm hp
    refine ⟨_, _, explicitBuckets_eq hp h1, ?_, by simp, ?_⟩
    · have hinc : ((List.range (h.pos.length + 1)).map (fun (i : Nat) => lower (h.posOffset + i))).Pairwise Less := by
        apply increasing_pairwise
        intro i hi
        have := h3 i (by omega)
        rw [show h.posOffset + ((i + 1 : Nat) : Int) = h.posOffset + i + 1 by omega]
        exact this
      rw [List.pairwise_cons]
      refine ⟨?_, hinc⟩
      intro b hb
      rw [List.range_succ_eq_map, List.map_cons, List.mem_cons] at hb
      rw [List.range_succ_eq_map, List.map_cons, List.pairwise_cons] at hinc
      rcases hb with rfl | hb
      · simpa [fzero] using h2
      · exact less_trans (by simpa [fzero] using h2) (hinc.1 b hb)
    · simp [hcount, hneg]

/-- C41 (each bucket). The first count is the zero count, up to boundary 0; each bucket's count stands between that bucket's own
boundaries; the first gap and the last bucket are empty. -/
theorem C41_each_bucket_partial (m : Mapping) (h : ExpHist) (lower : Int → Bits) (hm : m h.scale = some lower) (hp : h.pos ≠ []) :
    ∃ bounds counts, explicitBuckets m h = some (bounds, counts) ∧ bounds[0]? = some 0 ∧ counts[0]? = some h.zeroCount ∧
      bounds[1]? = some (lower h.posOffset) ∧ counts[1]? = some 0 ∧
      (∀ (i n : Nat), h.pos[i]? = some n → counts[i + 2]? = some n ∧ bounds[i + 1]? = some (lower (h.posOffset + i)) ∧
        bounds[i + 2]? = some (lower (h.posOffset + i + 1))) ∧
      counts[h.pos.length + 2]? = some 0 := by
  refine ⟨_, _, explicitBuckets_eq hp hm, rfl, rfl, ?_, rfl, ?_, ?_⟩
  · simp
  · intro i n hi
    have hlt : i < h.pos.length := by
      rw [List.getElem?_eq_some_iff] at hi; exact hi.1
    refine ⟨?_, ?_, ?_⟩
    · simp only [List.cons_append, List.getElem?_cons_succ]
      rw [List.getElem?_append_left hlt, hi]
    · simp only [List.getElem?_cons_succ, List.getElem?_map]
      rw [List.getElem?_range (by omega)]; rfl
    · simp only [List.getElem?_cons_succ, List.getElem?_map]
      rw [List.getElem?_range (by omega)]
      simp only [Option.map_some]
      congr 2
      omega
  · simp

/-- The logarithm mapping of go-expohisto v1.0.0 (external, not in the repository; from its published source): it exists for
scales 1 to 20; above the index of the largest float the boundary is an error with value 0, likewise below the smallest.
`exact` stands for the floating-point computation in between. -/
def logMapping (exact : Int → Int → Bits) : Mapping := fun scale =>
  if scale < 1 ∨ 20 < scale then none
  else some fun index =>
    if index > 1024 * 2 ^ scale.toNat - 1 then 0 else if index < -1022 * 2 ^ scale.toNat - 1 then 0 else exact scale index

/-- C41 (fails at low scales). A histogram whose scale is not positive, that is whose values span a wide range, and that has a
positive value cannot be converted: the conversion panics. -/
theorem C41_low_scale_fails (exact : Int → Int → Bits) (h : ExpHist) (hs : h.scale ≤ 0) (hp : h.pos ≠ []) :
    explicitBuckets (logMapping exact) h = none := by
  unfold explicitBuckets
  cases hl : h.pos with
  | nil => exact absurd hl hp
  | cons c l =>
    simp only [List.isEmpty_cons, Bool.false_eq_true, if_false]
    rw [logMapping, if_pos (by omega)]

/-- C41 (fails for the largest values). If the last bucket is that of the largest floats, its upper boundary is exported as 0, below
all positive boundaries. -/
theorem C41_largest_fails (exact : Int → Int → Bits) (h : ExpHist) (hs : 1 ≤ h.scale ∧ h.scale ≤ 20) (hp : h.pos ≠ [])
    (htop : h.posOffset + h.pos.length = 1024 * 2 ^ h.scale.toNat) :
    ∃ bounds counts, explicitBuckets (logMapping exact) h = some (bounds, counts) ∧ bounds.head? = some 0 ∧ bounds.getLast? = some 0 ∧
      ¬ bounds.Pairwise Less := by
  have hm : logMapping exact h.scale = some (fun index => if index > 1024 * 2 ^ h.scale.toNat - 1 then 0
      else if index < -1022 * 2 ^ h.scale.toNat - 1 then 0 else exact h.scale index) := by rw [logMapping, if_neg (by omega)]
  refine ⟨_, _, explicitBuckets_eq hp hm, rfl, ?_, ?_⟩
  · rw [List.range_succ, List.map_append, List.getLast?_cons, List.getLast?_append]
    simp only [List.map_singleton, List.getLast?_singleton, Option.some_or, Option.getD_some, Option.some.injEq]
    rw [if_pos (by omega)]
  · rw [List.pairwise_cons]
    rintro ⟨h1, _⟩
    have := h1 0 (by
      rw [List.mem_map]
      exact ⟨h.pos.length, by simp, by rw [if_pos (by omega)]⟩)
    revert this
    decide

/-- Two zeros, three values in the first and one in the third bucket; boundaries 1, 2, 4, 8 given by some mapping. -/
example :
    let m : Mapping := fun _ => some fun i => natToFloat (2 ^ i.toNat)
    let h : ExpHist := { sum := 0, count := 6, min := 0, max := 0, zeroCount := 2, scale := 0, posOffset := 0, pos := [3, 0, 1], negOffset := 0, neg := [] }
    h.count = h.zeroCount + h.pos.sum + h.neg.sum ∧ (∃ lower, m h.scale = some lower ∧ GoodBounds lower h) ∧
    explicitBuckets m h = some ([0, natToFloat 1, natToFloat 2, natToFloat 4, natToFloat 8], [2, 0, 3, 0, 1, 0]) := by
  refine ⟨by decide, ⟨_, rfl, (fltLt_less _ _).1 (by decide), ?_⟩, by decide⟩
  intro i hi
  have : i = 0 ∨ i = 1 ∨ i = 2 := by simp at hi; omega
  rcases this with rfl | rfl | rfl <;> exact (fltLt_less _ _).1 (by decide)

/-! ## C42 min, max, sum and count -/

/-- The exported minimum, maximum and sum of a point. -/
def exported (k : Kind) (s : MMSC) (attrs : List KV) : Option (Option Bits × Option Bits × Bits × Nat) :=
  (mmscPoint { attrs, temporality := .cumulative, agg := .mmsc k s, start := 0, stop := 0 }).map (fun d => (d.min, d.max, d.sum, d.count))

/-- C42 (part: float points). Exported minimum, maximum, sum and count are the recorded ones, bit for bit; minimum and maximum
are left out exactly when nothing was recorded. Missing: integer points (see below). -/
theorem C42_float_partial (s : MMSC) : exported .float64 s [] =
    some (if s.count = 0 then none else some s.min, if s.count = 0 then none else some s.max, s.sum, s.count) := by
  simp only [exported, mmscPoint, copyAttributes, Option.bind_some, Option.map_some, coerced]
  by_cases h : s.count = 0 <;> simp [h]

/-- C42 (part: the sum of integer points). A non-negative integer sum is exported as its float value. -/
theorem C42_int_sum_partial (i : Int) (h1 : 0 ≤ i) (h2 : i < 2 ^ 63) (s : MMSC) (hs : s.sum = encodeInt i) :
    ∃ b, (exported .int64 s []).map (fun e => e.2.2.1) = some b ∧ RoundsTo i b := by
  have : (encodeInt i).toNat = i.toNat := by
    simp only [encodeInt, BitVec.toNat_ofInt]
    omega
  refine ⟨natToFloat i.toNat, by simp [exported, mmscPoint, copyAttributes, coerced, hs, coerceToFloat64, this], ?_⟩
  have := natToFloat_rounds (n := i.toNat) (by omega)
  rwa [Int.toNat_of_nonneg h1] at this

/-- C42 (fails for integer minimum and maximum). For every positive integer below `2^53` the exported value is the integer times
`2^-1074` (its bits are taken for those of a float); for every negative integer down to `-2^51` it is not even a number. -/
theorem C42_int_extremes_fails (s : MMSC) (hc : s.count ≠ 0) (i : Int) (hs : s.min = encodeInt i) :
    (0 < i → i < 2 ^ 53 → ∃ b, (exported .int64 s []).map (·.1) = some (some b) ∧ scaled b = i ∧ ¬ RoundsTo i b) ∧
    (-(2 ^ 51) ≤ i → i < 0 → ∃ b, (exported .int64 s []).map (·.1) = some (some b) ∧ NaN b) := by
  have hex : (exported .int64 s []).map (·.1) = some (some (encodeInt i)) := by
    simp [exported, mmscPoint, copyAttributes, hc, hs]
  constructor
  · intro h1 h2
    have hn : (encodeInt i).toNat = i.toNat := by
      simp only [encodeInt, BitVec.toNat_ofInt]
      omega
    have hsc : scaled (encodeInt i) = i := by
      rw [scaled_of_small (by omega), hn]
      have : magnitude i.toNat = i.toNat := by
        unfold magnitude
        by_cases h : i.toNat / 2 ^ 52 = 0
        · rw [if_pos h]; omega
        · rw [if_neg h, show i.toNat / 2 ^ 52 = 1 by omega]; omega
      omega
    refine ⟨_, hex, hsc, ?_⟩
    rintro ⟨_, h⟩
    have h0 := h (natToFloat i.toNat) (natToFloat_finite (by omega))
    rw [hsc, scaled_of_small (natToFloat_lt (by omega)), natToFloat_exact (by omega)] at h0
    have e : ((i.toNat * 2 ^ 1074 : Nat) : Int) = i * 2 ^ 1074 := by
      rw [Int.natCast_mul, Int.toNat_of_nonneg (by omega)]; simp
    rw [e] at h0
    have h3 : i * 1 < i * 2 ^ 1074 := by
      apply Int.mul_lt_mul_of_pos_left _ h1
      have : (2 ^ 0 : Nat) < 2 ^ 1074 := Nat.pow_lt_pow_right (by omega) (by omega)
      have e2 : ((2 ^ 1074 : Nat) : Int) = 2 ^ 1074 := by simp
      rw [← e2]; omega
    generalize i * 2 ^ 1074 = T at *
    omega
  · intro h1 h2
    refine ⟨_, hex, ?_⟩
    have hn : (encodeInt i).toNat = 2 ^ 64 - i.natAbs := by
      simp only [encodeInt, BitVec.toNat_ofInt]
      omega
    unfold NaN
    rw [expField_eq, fracField_eq]
    unfold expo frac
    rw [hn]
    omega

/-- C42 (fails for negative integer sums): the exported sum is positive. See also C16. -/
theorem C42_int_sum_fails (s : MMSC) (i : Int) (h1 : -(2 ^ 63) ≤ i) (h2 : i < 0) (hs : s.sum = encodeInt i) :
    ∃ b, (exported .int64 s []).map (fun e => e.2.2.1) = some b ∧ 0 < scaled b :=
  ⟨coerceToFloat64 (encodeInt i) .int64, by simp [exported, mmscPoint, copyAttributes, coerced, hs], coerce_negative_pos h1 h2⟩

/-- Recorded integers 1 and 3: sum 4.0 is right, minimum and maximum are the denormal numbers 5e-324 and 1.5e-323. -/
example : exported .int64 { sum := 4, count := 2, min := 1, max := 3 } [] = some (some 1, some 3, natToFloat 4, 2) ∧
    natToFloat 1 = 0x3ff0000000000000 := by decide

/-! ## C45 payload -/

/-- C45 (part: convertible points). Whatever was exported before, the payload of reported metrics has one scope entry per scope in order, with one metric
per instrument with points in order, with one data point per point in order, of the right kind, with the right
temporality and monotonicity, attributes, times and values (`ScopeOf`), and the resource's attributes.
Reported metrics: within an instrument all points have one kind and temporality and typed attributes (`Uniform`). Missing: what
C41, C43 and C44 miss (boundaries the library does not have, negative zeros inside float slices of resources, untyped attributes). -/
theorem C45_payload_partial (m : Mapping) (before : List (List KV)) (in_ : Metrics) (useExp : Bool) (hres : Exportable in_.resource)
    (hu : ∀ s ∈ in_.scopes, ∀ i ∈ s.instruments, Uniform i)
    (hm : useExp = false → ∀ s ∈ in_.scopes, ∀ i ∈ s.instruments, ∀ p ∈ i.points, HasMapping m p) (hb : ∀ r ∈ in_.resource :: before, NoNegZero r) :
    ∃ out, (d2pd m (feed ResourceMap.new before).1 in_ useExp).2 = some out ∧ AttrsOf in_.resource out.resource ∧
      Pointwise (ScopeOf useExp) in_.scopes out.scopes := by
  obtain ⟨r, h1, h2⟩ := copyAttributes_ok hres
  obtain ⟨ss, h3, h4⟩ := mapM_pointwise (fun s hs => copyScope_ok (m := m) (useExp := useExp) (hu s hs) (fun e => hm e s hs))
  have hget : ((feed ResourceMap.new before).1.get in_.resource).2 = copyAttributes [] in_.resource := by
    have h := C43_transparent_partial (before ++ [in_.resource]) (by
      intro r hr
      apply hb
      rw [List.mem_append, List.mem_singleton] at hr
      rcases hr with hr | hr
      · exact List.mem_cons_of_mem _ hr
      · rw [hr]; exact List.mem_cons_self)
    have key : ∀ (l : List (List KV)) (rm : ResourceMap) (x : List KV), (feed rm (l ++ [x])).2.getLast? = some ((feed rm l).1.get x).2 := by
      intro l
      induction l with
      | nil => intro rm x; rfl
      | cons a l ih =>
        intro rm x
        rw [List.cons_append, feed, List.getLast?_cons, ih]
        rfl
    have h' := key before ResourceMap.new in_.resource
    rw [h] at h'
    simpa using h'.symm
  refine ⟨{ resource := r, scopes := ss }, ?_, h2, h4⟩
  simp only [d2pd]
  rw [hget, h1, Option.bind_some, h3]
  rfl

/-- C45 (fails for untyped attributes). One point with an untyped attribute and the whole payload is lost: the conversion panics. -/
theorem C45_untyped_fails (m : Mapping) (rm : ResourceMap) (in_ : Metrics) (useExp : Bool) (s : Scope) (hs : s ∈ in_.scopes) (i : Instrument)
    (hi : i ∈ s.instruments) (p : Point) (hp : p ∈ i.points) (kv : KV) (hkv : kv ∈ p.attrs) (hv : kv.val = .invalid) :
    (d2pd m rm in_ useExp).2 = none := by
  have h0 : copyAttributes [] p.attrs = none := copyAttributes_none ⟨kv, hkv, hv⟩
  have hmap : ∀ {α β : Type} (f : α → Option β) (l : List α) (a : α), a ∈ l → f a = none → mapM f l = none := by
    intro α β f l a ha hf
    induction l with
    | nil => cases ha
    | cons x xs ih =>
      rw [mapM]
      rcases List.mem_cons.1 ha with rfl | ha
      · rw [hf]; rfl
      · cases f x with
        | none => rfl
        | some b => rw [Option.bind_some, ih ha]; rfl
  have h1 : ∀ p0, copyPoints m useExp p0 i.points = none := by
    intro p0
    have e1 : sumPoint p = none := by rw [sumPoint, h0]; rfl
    have e2 : gaugePoint p = none := by rw [gaugePoint, h0]; rfl
    have e3 : explicitPoint m p = none := by rw [explicitPoint, h0]; rfl
    have e4 : expPoint p = none := by rw [expPoint, h0]; rfl
    have e5 : mmscPoint p = none := by rw [mmscPoint, h0]; rfl
    unfold copyPoints
    dsimp only
    split <;> (try split) <;> rw [hmap _ _ p hp (by assumption)] <;> rfl
  have h2 : ∀ is, i ∈ is → copyInstruments m useExp is = none := by
    intro is
    induction is with
    | nil => intro h; cases h
    | cons x xs ih =>
      intro h
      rw [copyInstruments]
      rcases List.mem_cons.1 h with rfl | h
      · cases hl : i.points with
        | nil => rw [hl] at hp; cases hp
        | cons q qs => dsimp only; rw [← hl, h1]; rfl
      · cases x.points with
        | nil => exact ih h
        | cons q qs =>
          dsimp only
          cases copyPoints m useExp q (q :: qs) with
          | none => rfl
          | some d => rw [Option.bind_some, ih h]; rfl
  have h3 : copyScope m useExp s = none := by rw [copyScope, h2 _ hi]; rfl
  simp only [d2pd]
  rw [hmap _ _ s hs h3]
  cases (rm.get in_.resource).2 <;> rfl

/-- Times in the range of the format are kept apart. -/
theorem C45_times (t t' : Int) (h1 : 0 ≤ t ∧ t < 2 ^ 64) (h2 : 0 ≤ t' ∧ t' < 2 ^ 64) (h : stamp t = stamp t') : t = t' := by
  have := congrArg BitVec.toNat h
  simp only [stamp, BitVec.toNat_ofInt] at this
  omega

/-- Two scopes; a counter with two points, an instrument without points and a gauge. -/
example :
    let pt (k : Str) (a : Agg) : Point := { attrs := [⟨k, .bool true⟩], temporality := .delta, agg := a, start := 5, stop := 9 }
    let in_ : Metrics := { resource := [⟨[114], .str [1]⟩], scopes := [
      { library := ⟨[97], [], []⟩, instruments := [
        { name := [1], unit := [], description := [], points := [pt [97] (.monotonic .int64 7), pt [98] (.monotonic .int64 8)] },
        { name := [2], unit := [], description := [], points := [] }] },
      { library := ⟨[98], [], []⟩, instruments := [{ name := [3], unit := [], description := [], points := [pt [97] (.gauge .float64 3)] }] }] }
    (d2pd (fun _ => none) ResourceMap.new in_ true).2 = some
      { resource := [([114], .one (.str [1]))], scopes := [
        { library := ⟨[97], [], []⟩, metrics := [{ name := [1], unit := [], description := [], data := .sum true .delta [
            { start := some 5, time := 9, attrs := [([97], .one (.bool true))], value := .int 7 },
            { start := some 5, time := 9, attrs := [([98], .one (.bool true))], value := .int 8 }] }] },
        { library := ⟨[98], [], []⟩, metrics := [{ name := [3], unit := [], description := [], data := .gauge [
            { start := none, time := 9, attrs := [([97], .one (.bool true))], value := .double 3 }] }] }] } := by
  decide

/-! ## C46 spans -/

open Verif.TraceExport in
/-- C46 (part: named scopes). A batch whose first span has a named scope and in which neighbouring spans of scopes with the same
name have the same scope: every span is exported exactly once, in order, under an entry with exactly its scope. Missing:
scopes without a name, and different scopes with the same name (see below). -/
theorem C46_spans_partial (rm : ResourceMap) (l : List Span) (res : PMap) (hres : ∀ s, l.head? = some s → (rm.get s.resource).2 = some res)
    (ht : ∀ s ∈ l, s.Typed) (hn : ∀ s, l.head? = some s → s.scope.name ≠ []) (hsame : SameNameSameScope l) (hne : l ≠ []) :
    ∃ scopes, (TraceExport.d2pd rm l).2 = some (.one res scopes) ∧
      Pointwise (fun s e => e.1 = s.scope ∧ SpanOf s e.2) l (underScopes scopes) := by
  cases l with
  | nil => exact absurd rfl hne
  | cons s rest =>
    obtain ⟨ps, h1, h2⟩ := mapM_pointwise (fun s hs => copySpan_ok (ht s hs))
    obtain ⟨out, h3, h4, h5⟩ := loop_start (hn s rfl) h1
    refine ⟨out, ?_, ?_⟩
    · simp only [TraceExport.d2pd, hres s rfl, h3, Option.bind_some, Option.map_some]
    · rw [h5 (consistent_of hsame)]
      refine ⟨?_, ?_⟩
      · rw [List.length_zip, List.length_map, ← h2.1]; omega
      · intro i a b ha hb
        rw [List.getElem?_zip_eq_some] at hb
        rw [List.getElem?_map, ha] at hb
        obtain ⟨hb1, hb2⟩ := hb
        simp only [Option.map_some, Option.some.injEq] at hb1
        exact ⟨hb1.symm, h2.2 i a b.2 ha hb2⟩

open Verif.TraceExport in
/-- C46 (part: order). Even if scopes share names, every span is exported exactly once and in order. -/
theorem C46_order_partial (rm : ResourceMap) (l : List Span) (res : PMap) (hres : ∀ s, l.head? = some s → (rm.get s.resource).2 = some res)
    (ht : ∀ s ∈ l, s.Typed) (hn : ∀ s, l.head? = some s → s.scope.name ≠ []) (hne : l ≠ []) :
    ∃ scopes, (TraceExport.d2pd rm l).2 = some (.one res scopes) ∧ Pointwise SpanOf l ((underScopes scopes).map (·.2)) := by
  cases l with
  | nil => exact absurd rfl hne
  | cons s rest =>
    obtain ⟨ps, h1, h2⟩ := mapM_pointwise (fun s hs => copySpan_ok (ht s hs))
    obtain ⟨out, h3, h4, h5⟩ := loop_start (hn s rfl) h1
    refine ⟨out, ?_, by rw [h4]; exact h2⟩
    simp only [TraceExport.d2pd, hres s rfl, h3, Option.bind_some, Option.map_some]

open Verif.TraceExport in
/-- C46 (fails for a scope without a name). Exporting any batch whose first span has a scope with an empty name panics. -/
theorem C46_unnamed_fails (rm : ResourceMap) (s : Span) (rest : List Span) (h : s.scope.name = []) :
    (TraceExport.d2pd rm (s :: rest)).2 = none := by
  simp only [TraceExport.d2pd, loop_empty_name h]
  cases (rm.get s.resource).2 <;> rfl

namespace SpanEx
open Verif.TraceExport

def span (name version : Str) (id : Nat) : Span :=
  { scope := ⟨name, version, []⟩, resource := [], name := [], kind := .server, traceID := 1, spanID := id, parentID := 0, traceState := []
    start := 1, stop := 2, code := .ok, message := [], attrs := [⟨[97], .int 1⟩], events := [], links := []
    droppedAttrs := 0, droppedEvents := 0, droppedLinks := 0 }

end SpanEx

open Verif.TraceExport SpanEx in
/-- C46 (fails for scopes that share a name). The second span is exported under the version of the first. -/
theorem C46_version_fails : ∃ (l : List Span) (res : PMap) (scopes : List PScopeSpans), (TraceExport.d2pd ResourceMap.new l).2 = some (.one res scopes) ∧
    l.map (·.scope.version) = [[1], [2]] ∧ (underScopes scopes).map (fun e => (e.1.version, e.2.spanID)) = [([1], 1), ([1], 2)] :=
  ⟨[span [97] [1] 1, span [97] [2] 2], _, _, rfl, rfl, by decide⟩

open Verif.TraceExport SpanEx in
/-- Three spans, two scopes with the same name but different versions that are not neighbours. -/
example :
    let l := [span [97] [1] 1, span [97] [1] 2, span [98] [] 3, span [97] [2] 4]
    (∀ s ∈ l, s.Typed) ∧ SameNameSameScope l ∧ ∃ res scopes, (TraceExport.d2pd ResourceMap.new l).2 = some (.one res scopes) ∧
      (underScopes scopes).map (fun e => (e.1.name, e.1.version, e.2.spanID)) = [([97], [1], 1), ([97], [1], 2), ([98], [], 3), ([97], [2], 4)] ∧
      scopes.length = 3 := by
  refine ⟨?_, ?_, _, _, rfl, by decide, by decide⟩
  · intro s hs
    simp at hs
    rcases hs with rfl | rfl | rfl | rfl <;> (refine ⟨?_, by simp [span], by simp [span]⟩; intro kv hkv; simp [span] at hkv; simp [hkv])
  · intro i s t hs ht
    match i with
    | 0 => simp at hs ht; subst hs; subst ht; decide
    | 1 => simp at hs ht; subst hs; subst ht; decide
    | 2 => simp at hs ht; subst hs; subst ht; decide
    | n + 3 => simp at ht

end Verif.Props
