import Verif.Model.Aggregators
import Verif.Spec.Aggr
import Verif.Proof.SyncVals

/-!
Helper file: what each aggregator holds after any tree of updates, moves and merges.
-/

namespace Verif.Aggr
open Verif.Sync Verif.Number Verif.Spec
variable {N H : Type} {o : Ops N} {hh : HistOps N H} {f : Nat → N} {b : Bool}

/-- The numbers of a list of updates. -/
def nums (f : Nat → N) (ops : List (Nat × Nat)) : List N := ops.map (fun e => f e.1)

theorem total_append {zero : N} {add : N → N → N} (h0 : ∀ x, add zero x = x) (ha : ∀ x y z, add (add x y) z = add x (add y z))
    (l₁ l₂ : List N) : total zero add (l₁ ++ l₂) = add (total zero add l₁) (total zero add l₂) := by
  induction l₁ with
  | nil => simp [total, h0]
  | cons x t ih => simp only [total, List.cons_append, List.foldr_cons] at *; rw [ih, ha]

theorem total64_append (l₁ l₂ : List (BitVec 64)) : total64 (l₁ ++ l₂) = total64 l₁ + total64 l₂ :=
  total_append (by simp) (fun x y z => BitVec.add_assoc x y z) l₁ l₂

theorem total64_perm {l₁ l₂ : List (BitVec 64)} (h : l₁.Perm l₂) : total64 l₁ = total64 l₂ := by
  unfold total64 total
  exact h.foldr_eq' (fun x _ y _ z => by rw [← BitVec.add_assoc, BitVec.add_comm y x, BitVec.add_assoc]) 0

theorem SumOf.total64 {v : BitVec 64} {vals : List (BitVec 64)} (h : SumOf 0 (· + ·) v vals) : v = Spec.total64 vals := by
  induction h with
  | zero => rfl
  | one v h ih => rw [ih]; simp only [Spec.total64, Spec.total, List.foldr_cons]; rw [BitVec.add_comm]
  | join h₁ h₂ ih₁ ih₂ => rw [total64_append, ih₁, ih₂, BitVec.add_comm]

theorem holds_sum {v : Cell N H} {ops : List (Nat × Nat)} (h : Holds (sumAgg o hh) f b v ops) :
    SumOf o.zero o.add v.value (nums f ops) := by
  induction h with
  | init => exact .zero
  | reset _ _ => exact .zero
  | upd i sq _ _ _ ih => exact .one _ ih
  | merge _ _ ih1 ih2 => simp only [nums, List.map_append]; exact .join ih1 ih2

theorem holds_gauge {v : Cell N H} {ops : List (Nat × Nat)} (h : Holds (gaugeAgg o hh) f b v ops) :
    (v.seq = 0 ↔ ops = []) ∧ (ops ≠ [] → ∃ i, (i, v.seq) ∈ ops ∧ v.value = f i) := by
  induction h with
  | init => simp [gaugeAgg, emptyCell]
  | reset _ _ => simp [gaugeAgg]
  | upd i sq _ hsq _ ih =>
    simp only [gaugeAgg, List.mem_cons]
    refine ⟨by simp; omega, fun _ => ⟨i, by simp⟩⟩
  | @merge v1 v2 o1 o2 _ _ ih1 ih2 =>
    simp only [gaugeAgg, List.mem_append, List.append_eq_nil_iff]
    by_cases hc : v2.seq ≠ 0 ∧ v1.seq < v2.seq
    · simp only [hc, ne_eq, not_false_eq_true, and_self, if_true]
      have hne : o2 ≠ [] := fun e => hc.1 (ih2.1.mpr e)
      obtain ⟨i, hi, hv⟩ := ih2.2 hne
      exact ⟨by simp [hc.1, hne], fun _ => ⟨i, Or.inl hi, hv⟩⟩
    · simp only [hc, if_false]
      have h1 : v1.seq = 0 → o2 = [] := by
        intro h
        apply ih2.1.mp
        omega
      refine ⟨⟨fun h => ⟨h1 h, ih1.1.mp h⟩, fun h => ih1.1.mpr h.2⟩, ?_⟩
      intro hne
      have : o1 ≠ [] := by
        intro e
        exact hne (by rw [h1 (ih1.1.mpr e), e]; rfl)
      obtain ⟨i, hi, hv⟩ := ih1.2 this
      exact ⟨i, Or.inr hi, hv⟩

theorem holds_gauge_max {v : Cell N H} {ops : List (Nat × Nat)} (h : Holds (gaugeAgg o hh) f true v ops) :
    ∀ e, e ∈ ops → e.2 ≤ v.seq := by
  induction h with
  | init => simp
  | reset _ _ => simp
  | upd i sq _ hsq hb ih =>
    intro e he
    simp only [gaugeAgg, List.mem_cons] at he ⊢
    rcases he with he | he
    · rw [he]; exact Nat.le_refl _
    · exact Nat.le_of_lt (hb rfl e he)
  | @merge v1 v2 o1 o2 _ hm2 ih1 ih2 =>
    intro e he
    simp only [gaugeAgg, List.mem_append] at *
    by_cases hc : v2.seq ≠ 0 ∧ v1.seq < v2.seq
    · simp only [hc, ne_eq, not_false_eq_true, and_self, if_true]
      rcases he with he | he
      · exact ih2 e he
      · have := ih1 e he; omega
    · simp only [hc, if_false]
      rcases he with he | he
      · have h1 := ih2 e he
        have h2 : v2.seq ≠ 0 := fun e0 => by
          rw [(holds_gauge hm2).1.mp e0] at he; cases he
        omega
      · exact ih1 e he

/-- Order laws used by minimum and maximum. `ok` excludes NaN for floats. -/
structure LtLaws (lt : N → N → Bool) (ok : N → Prop) : Prop where
  irrefl : ∀ x, lt x x = false
  trans : ∀ x y z, lt x y = true → lt y z = true → lt x z = true
  negTrans : ∀ x y z, ok y → lt x z = true → lt x y = true ∨ lt y z = true

/-- A MinMaxSumCount storage describes exactly the given values. -/
def MmscIs (o : Ops N) (v : Cell N H) (vals : List N) : Prop :=
  v.count = vals.length ∧ SumOf o.zero o.add v.sum vals ∧ (vals ≠ [] → IsLeast o.lt v.min vals ∧ IsGreatest o.lt v.max vals)

theorem MmscIs.upd {ok : N → Prop} (hl : LtLaws o.lt ok) {v : Cell N H} {vals : List N} (ih : MmscIs o v vals) (n : N) :
    MmscIs o (mmscUpd o v n) (n :: vals) := by
  refine ⟨by simp [mmscUpd, ih.1], .one _ ih.2.1, fun _ => ?_⟩
  by_cases hc : vals = []
  · subst hc
    have : v.count = 0 := by simp [ih.1]
    simp [mmscUpd, this, IsLeast, IsGreatest, hl.irrefl]
  · have hcnt : v.count ≠ 0 := by rw [ih.1]; simpa using hc
    obtain ⟨⟨m1, m2⟩, ⟨x1, x2⟩⟩ := ih.2.2 hc
    simp only [mmscUpd, hcnt, if_false, IsLeast, IsGreatest, List.mem_cons]
    constructor
    · split
      · rename_i hlt
        refine ⟨Or.inl rfl, ?_⟩
        intro x hx
        rcases hx with hx | hx
        · rw [hx]; exact hl.irrefl _
        · cases hq : o.lt x n with
          | false => rfl
          | true => have := hl.trans _ _ _ hq hlt; rw [m2 x hx] at this; cases this
      · rename_i hlt
        refine ⟨Or.inr m1, ?_⟩
        intro x hx
        rcases hx with hx | hx
        · rw [hx]; simpa using hlt
        · exact m2 x hx
    · split
      · rename_i hlt
        refine ⟨Or.inl rfl, ?_⟩
        intro x hx
        rcases hx with hx | hx
        · rw [hx]; exact hl.irrefl _
        · cases hq : o.lt n x with
          | false => rfl
          | true => have := hl.trans _ _ _ hlt hq; rw [x2 x hx] at this; cases this
      · rename_i hlt
        refine ⟨Or.inr x1, ?_⟩
        intro x hx
        rcases hx with hx | hx
        · rw [hx]; simpa using hlt
        · exact x2 x hx

theorem MmscIs.merge {ok : N → Prop} (hl : LtLaws o.lt ok) {v1 v2 : Cell N H} {a1 a2 : List N} (ih1 : MmscIs o v1 a1)
    (ih2 : MmscIs o v2 a2) (okmem : ∀ x, x ∈ a1 ∨ x ∈ a2 → ok x) : MmscIs o (mmscMerge o v1 v2) (a2 ++ a1) := by
  refine ⟨by simp [mmscMerge, ih1.1, ih2.1]; omega, .join ih1.2.1 ih2.2.1, fun hne => ?_⟩
  by_cases h2 : a2 = []
  · subst h2
    have hc2 : v2.count = 0 := by simp [ih2.1]
    have h1 : a1 ≠ [] := by simpa using hne
    have := ih1.2.2 h1
    simpa [mmscMerge, hc2] using this
  · have hc2 : v2.count ≠ 0 := by rw [ih2.1]; simpa using h2
    by_cases h1 : a1 = []
    · subst h1
      have hc1 : v1.count = 0 := by simp [ih1.1]
      have := ih2.2.2 h2
      simpa [mmscMerge, hc1, hc2] using this
    · have hc1 : v1.count ≠ 0 := by rw [ih1.1]; simpa using h1
      obtain ⟨⟨m1, m2⟩, ⟨x1, x2⟩⟩ := ih1.2.2 h1
      obtain ⟨⟨m3, m4⟩, ⟨x3, x4⟩⟩ := ih2.2.2 h2
      simp only [mmscMerge, hc1, hc2, ne_eq, not_false_eq_true, if_true, if_false, IsLeast, IsGreatest, List.mem_append]
      constructor
      · split
        · rename_i hlt
          refine ⟨Or.inl m3, ?_⟩
          intro x hx
          rcases hx with hx | hx
          · exact m4 x hx
          · cases hq : o.lt x v2.min with
            | false => rfl
            | true => have := hl.trans _ _ _ hq hlt; rw [m2 x hx] at this; cases this
        · rename_i hlt
          refine ⟨Or.inr m1, ?_⟩
          intro x hx
          rcases hx with hx | hx
          · cases hq : o.lt x v1.min with
            | false => rfl
            | true =>
              rcases hl.negTrans _ v2.min _ (okmem _ (Or.inr m3)) hq with h | h
              · rw [m4 x hx] at h; cases h
              · exact absurd h hlt
          · exact m2 x hx
      · split
        · rename_i hlt
          refine ⟨Or.inl x3, ?_⟩
          intro x hx
          rcases hx with hx | hx
          · exact x4 x hx
          · cases hq : o.lt v2.max x with
            | false => rfl
            | true => have := hl.trans _ _ _ hlt hq; rw [x2 x hx] at this; cases this
        · rename_i hlt
          refine ⟨Or.inr x1, ?_⟩
          intro x hx
          rcases hx with hx | hx
          · cases hq : o.lt v1.max x with
            | false => rfl
            | true =>
              rcases hl.negTrans _ v2.max _ (okmem _ (Or.inr x3)) hq with h | h
              · exact absurd h hlt
              · rw [x4 x hx] at h; cases h
          · exact x2 x hx

theorem holds_mmsc {ok : N → Prop} (hl : LtLaws o.lt ok) {v : Cell N H} {ops : List (Nat × Nat)}
    (h : Holds (mmscAgg o hh) f b v ops) (hok : ∀ e, e ∈ ops → ok (f e.1)) : MmscIs o v (nums f ops) := by
  induction h with
  | init => exact ⟨rfl, .zero, fun h => absurd rfl h⟩
  | reset _ _ => exact ⟨rfl, .zero, fun h => absurd rfl h⟩
  | @upd v ops i sq hv _ _ ih => exact (ih (fun e he => hok e (List.mem_cons_of_mem _ he))).upd hl _
  | @merge v1 v2 o1 o2 _ _ ih1 ih2 =>
    have ih1 := ih1 (fun e he => hok e (List.mem_append_right _ he))
    have ih2 := ih2 (fun e he => hok e (List.mem_append_left _ he))
    have hnums : nums f (o2 ++ o1) = nums f o2 ++ nums f o1 := by simp [nums]
    rw [hnums]
    refine ih1.merge hl ih2 ?_
    intro x hx
    simp only [nums, List.mem_map] at hx
    rcases hx with ⟨e, he, rfl⟩ | ⟨e, he, rfl⟩
    · exact hok e (List.mem_append_right _ he)
    · exact hok e (List.mem_append_left _ he)

theorem intLaws : LtLaws intOps.lt (fun _ => True) where
  irrefl := by intro x; simp [intOps, intLt, BitVec.slt]
  trans := by
    intro x y z h1 h2
    simp only [intOps, intLt, BitVec.slt, decide_eq_true_eq] at *
    omega
  negTrans := by
    intro x y z _ h
    simp only [intOps, intLt, BitVec.slt, decide_eq_true_eq] at *
    omega

theorem fltLaws (fadd : Bits → Bits → Bits) : LtLaws (fltOps fadd).lt (fun x => isNaN x = false) where
  irrefl := by intro x; simp [fltOps, fltLt]
  trans := by
    intro x y z h1 h2
    simp only [fltOps, fltLt, Bool.and_eq_true, Bool.not_eq_true', decide_eq_true_eq] at *
    refine ⟨⟨h1.1.1, h2.1.2⟩, ?_⟩
    omega
  negTrans := by
    intro x y z hy h
    simp only [fltOps, fltLt, Bool.and_eq_true, Bool.not_eq_true', decide_eq_true_eq] at *
    rcases Int.lt_or_le (key x) (key y) with h1 | h1
    · left; exact ⟨⟨h.1.1, hy⟩, h1⟩
    · right; exact ⟨⟨hy, h.1.2⟩, by omega⟩

theorem holds_hist {v : Cell N H} {ops : List (Nat × Nat)} (h : Holds (histAgg o hh) f b v ops) :
    HistOf hh.empty hh.update hh.mergeFrom v.hist (nums f ops) := by
  induction h with
  | init => exact .empty
  | reset _ _ => exact .empty
  | upd i sq _ _ _ ih => exact .one _ ih
  | merge _ _ ih1 ih2 => simp only [nums, List.map_append]; exact .join ih1 ih2

end Verif.Aggr
