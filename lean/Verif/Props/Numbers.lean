import Verif.Model.Front
import Verif.Model.AtomicAdd
import Verif.Proof.Number

/-!
# Numbers: range test (C09), atomic addition (C15), encoding (C16)
-/

namespace Verif.Props
open Verif Verif.Number Verif.Attr Verif.Front

/-! ## C09 out-of-range values -/

/-- What the API promises to reject: NaN and infinities on any instrument, negative values on a Counter or Histogram.
A float is negative when its real value is below zero (so negative zero is not). -/
def Rejected (nk : Kind) (kind : IKind) (num : Bits) : Prop :=
  (nk = .float64 ∧ ¬ Finite num) ∨
  ((kind = .syncCounter ∨ kind = .syncHistogram) ∧
    ((nk = .int64 ∧ num.toInt < 0) ∨ (nk = .float64 ∧ Finite num ∧ scaled num < 0)))

theorem finite_iff (b : Bits) : Finite b ↔ isInf b = false ∧ isNaN b = false := by
  unfold Finite isInf isNaN
  rw [expField_eq]
  by_cases h : expo b = 2047
  · by_cases h2 : frac b = 0 <;> simp [h, h2]
  · simp [h]

theorem ltZero_int (b : Bits) : ltZero .int64 b = true ↔ b.toInt < 0 := by
  simp [ltZero, intLt, BitVec.slt]

theorem ltZero_float {b : Bits} (h : Finite b) : ltZero .float64 b = true ↔ scaled b < 0 := by
  have : scaled 0 = 0 := by decide
  rw [← this]
  exact fltLt_iff h (by decide)

/-- C09 (decision). The range test accepts exactly the values that are not to be rejected. -/
theorem C09_range_test (nk : Kind) (kind : IKind) (num : Bits) : rangeTest nk num kind = false ↔ Rejected nk kind num := by
  have hf := finite_iff num
  cases nk with
  | int64 =>
    have := ltZero_int num
    unfold rangeTest Rejected
    cases kind <;> simp [this]
  | float64 =>
    unfold rangeTest Rejected
    by_cases hfin : Finite num
    · have h1 := hf.1 hfin
      have := ltZero_float hfin
      cases kind <;> simp [h1, hfin, this]
    · have h1 : isInf num = true ∨ isNaN num = true := by
        cases h2 : isInf num <;> cases h3 : isNaN num <;> simp_all
      rcases h1 with h1 | h1
      · simp [h1, hfin]
      · simp [h1, hfin]

/-- C09 (rejected). A rejected value, or any value on a disabled instrument, changes nothing. -/
theorem C09_rejected_no_effect {S : Type} (c : Sync.Cfg (List KV) (List KV) Bits S) (s : Sync.State (List KV) (List KV) Bits S)
    (i : Inst) (kvs : List KV) (num : Bits) (h : Rejected i.num i.kind num) : observe c s (some i) kvs num = s := by
  simp [observe, (C09_range_test _ _ _).2 h]

/-- C09 (accepted). Any other value starts a measurement call with exactly that value. -/
theorem C09_accepted {S : Type} (c : Sync.Cfg (List KV) (List KV) Bits S) (s : Sync.State (List KV) (List KV) Bits S)
    (i : Inst) (kvs : List KV) (num : Bits) (h : ¬ Rejected i.num i.kind num) :
    (observe c s (some i) kvs num).nextOp = s.nextOp + 1 ∧
    ((observe c s (some i) kvs num).op s.nextOp).num = num ∧
    ((observe c s (some i) kvs num).op s.nextOp).obs = i.id := by
  have : rangeTest i.num num i.kind = true := by
    cases hr : rangeTest i.num num i.kind with
    | true => rfl
    | false => exact absurd ((C09_range_test _ _ _).1 hr) h
  simp [observe, this, Sync.step]

/-- Negative zero and the smallest negative float on a float counter; -1 on integer counters and up-down counters;
quiet NaN; infinity. -/
example : ¬ Rejected .float64 .syncCounter 0x8000000000000000 ∧ Rejected .float64 .syncCounter 0x8000000000000001 ∧
    Rejected .int64 .syncCounter (-1) ∧ ¬ Rejected .int64 .syncUpDownCounter (-1) ∧
    Rejected .float64 .syncGauge 0x7ff8000000000000 ∧ Rejected .float64 .asyncGauge 0xfff0000000000000 := by
  simp only [← C09_range_test]
  decide

/-! ## C15 atomic float addition -/

section
open Verif.AtomicAdd
variable {fadd : Bits → Bits → Bits}

/-- The value after applying the recorded operations one after the other. -/
def replay (fadd : Bits → Bits → Bits) (x : Bits) : List Event → Bits
  | [] => x
  | .add _ v :: es => replay fadd (fadd x v) es
  | .swap _ v _ :: es => replay fadd v es

/-- The recorded results of the swaps are those of the sequential execution. -/
def SwapsOk (fadd : Bits → Bits → Bits) (x : Bits) : List Event → Prop
  | [] => True
  | .add _ v :: es => SwapsOk fadd (fadd x v) es
  | .swap _ v got :: es => got = x ∧ SwapsOk fadd v es

/-- The operations a goroutine contributed to the order. -/
def Event.thread : Event → Nat
  | .add t _ => t
  | .swap t _ _ => t

theorem replay_append (x : Bits) (es fs : List Event) : replay fadd x (es ++ fs) = replay fadd (replay fadd x es) fs := by
  induction es generalizing x with
  | nil => rfl
  | cons e es ih => cases e <;> simp [replay, ih]

theorem swapsOk_append (x : Bits) (es fs : List Event) :
    SwapsOk fadd x (es ++ fs) ↔ SwapsOk fadd x es ∧ SwapsOk fadd (replay fadd x es) fs := by
  induction es generalizing x with
  | nil => simp [SwapsOk, replay]
  | cons e es ih => cases e <;> simp [replay, SwapsOk, ih, and_assoc]

/-- The invariant: the cell is the result of the recorded order, and each goroutine's entries match what it did. -/
structure Lin (fadd : Bits → Bits → Bits) (x : Bits) (s : AtomicAdd.State) : Prop where
  cell : s.cell = replay fadd x s.log
  swaps : SwapsOk fadd x s.log
  mine : ∀ t, s.log.filter (fun e => Event.thread e == t) =
    match s.pc t with
    | .added v => [.add t v]
    | .swapped v got => [.swap t v got]
    | _ => []

theorem lin_step {x : Bits} {s s' : AtomicAdd.State} {a : AtomicAdd.Action} (h : Lin fadd x s) (hs : AtomicAdd.step fadd s a = some s') :
    Lin fadd x s' := by
  obtain ⟨h1, h2, h3⟩ := h
  cases a with
  | startAdd t v =>
    simp only [AtomicAdd.step] at hs
    split at hs
    · rename_i hp
      cases hs
      refine ⟨h1, h2, ?_⟩
      intro t'
      by_cases e : t' = t
      · subst e; have := h3 t'; rw [hp] at this; simpa [upd_apply] using this
      · simpa [upd_apply, e] using h3 t'
    · cases hs
  | swap t v =>
    simp only [AtomicAdd.step] at hs
    split at hs
    · rename_i hp
      cases hs
      refine ⟨?_, ?_, ?_⟩
      · simp [replay_append, replay]
      · simp only [swapsOk_append, h2, SwapsOk, true_and, and_true]; exact h1
      · intro t'
        by_cases e : t' = t
        · subst e; have := h3 t'; rw [hp] at this; simp only [List.filter_append, this]; simp [Event.thread]
        · have e' : ¬ t = t' := fun h => e h.symm
          simpa [upd_apply, e, Event.thread, e'] using h3 t'
    · cases hs
  | run t =>
    simp only [AtomicAdd.step] at hs
    split at hs
    · rename_i v hp
      cases hs
      refine ⟨h1, h2, ?_⟩
      intro t'
      by_cases e : t' = t
      · subst e; have := h3 t'; rw [hp] at this; simpa [upd_apply] using this
      · simpa [upd_apply, e] using h3 t'
    · rename_i v old hp
      split at hs
      · rename_i hc
        cases hs
        refine ⟨?_, ?_, ?_⟩
        · simp [replay_append, replay, ← h1, hc]
        · simp [swapsOk_append, h2, SwapsOk]
        · intro t'
          by_cases e : t' = t
          · subst e; have := h3 t'; rw [hp] at this; simp only [List.filter_append, this]; simp [Event.thread]
          · have e' : ¬ t = t' := fun h => e h.symm
            simpa [upd_apply, e, Event.thread, e'] using h3 t'
      · cases hs
        refine ⟨h1, h2, ?_⟩
        intro t'
        by_cases e : t' = t
        · subst e; have := h3 t'; rw [hp] at this; simpa [upd_apply] using this
        · simpa [upd_apply, e] using h3 t'
    · cases hs

theorem lin_run {x : Bits} {s s' : AtomicAdd.State} {as : List AtomicAdd.Action} (h : Lin fadd x s)
    (hs : AtomicAdd.run fadd s as = some s') : Lin fadd x s' := by
  induction as generalizing s with
  | nil => simp only [AtomicAdd.run, Option.some.injEq] at hs; exact hs ▸ h
  | cons a as ih =>
    simp only [AtomicAdd.run, Option.bind_eq_some_iff] at hs
    obtain ⟨s1, h1, h2⟩ := hs
    exact ih (lin_step h h1) h2

/-- C15. After any interleaving of any number of additions and swaps there is one order of the operations that have
taken effect such that: the cell holds the result of executing them one after the other; every swap returned what it
would return in that execution; a goroutine whose addition (or swap) has returned occurs in the order exactly once, with
its own addend; and a goroutine still in `AddAtomic` does not occur. -/
theorem C15_linearizable (x : Bits) (acts : List AtomicAdd.Action) (s : AtomicAdd.State)
    (h : AtomicAdd.run fadd (AtomicAdd.init x) acts = some s) :
    ∃ order : List Event, s.cell = replay fadd x order ∧ SwapsOk fadd x order ∧
      (∀ t v, s.pc t = .added v → order.filter (fun e => Event.thread e == t) = [.add t v]) ∧
      (∀ t v got, s.pc t = .swapped v got → order.filter (fun e => Event.thread e == t) = [.swap t v got]) ∧
      (∀ t v, (s.pc t = .idle ∨ s.pc t = .load v ∨ ∃ old, s.pc t = .cas v old) →
        order.filter (fun e => Event.thread e == t) = []) := by
  have hl : Lin fadd x (AtomicAdd.init x) := ⟨rfl, trivial, fun t => by simp [AtomicAdd.init]⟩
  have := lin_run hl h
  refine ⟨s.log, this.cell, this.swaps, ?_, ?_, ?_⟩
  · intro t v hp; have := this.mine t; rw [hp] at this; exact this
  · intro t v got hp; have := this.mine t; rw [hp] at this; exact this
  · intro t v hp
    have := this.mine t
    rcases hp with hp | hp | ⟨old, hp⟩ <;> rw [hp] at this <;> exact this

theorem step_log {s s' : AtomicAdd.State} {a : AtomicAdd.Action} (hs : AtomicAdd.step fadd s a = some s') :
    (s'.cell = s.cell ∧ s'.log = s.log) ∨ s.log.length < s'.log.length := by
  cases a with
  | startAdd t v => simp only [AtomicAdd.step] at hs; split at hs <;> cases hs; exact Or.inl ⟨rfl, rfl⟩
  | swap t v => simp only [AtomicAdd.step] at hs; split at hs <;> cases hs; right; simp
  | run t =>
    simp only [AtomicAdd.step] at hs
    split at hs
    · cases hs; exact Or.inl ⟨rfl, rfl⟩
    · split at hs <;> cases hs
      · right; simp
      · exact Or.inl ⟨rfl, rfl⟩
    · cases hs

theorem run_log {acts : List AtomicAdd.Action} {s s' : AtomicAdd.State} (h : AtomicAdd.run fadd s acts = some s') :
    (s'.cell = s.cell ∧ s'.log = s.log) ∨ s.log.length < s'.log.length := by
  induction acts generalizing s with
  | nil => simp only [AtomicAdd.run, Option.some.injEq] at h; subst h; exact Or.inl ⟨rfl, rfl⟩
  | cons a as ih =>
    simp only [AtomicAdd.run, Option.bind_eq_some_iff] at h
    obtain ⟨s1, h1, h2⟩ := h
    rcases step_log h1 with ⟨a1, a2⟩ | a1 <;> rcases ih h2 with ⟨b1, b2⟩ | b1
    · left; exact ⟨b1.trans a1, b2.trans a2⟩
    · right; rw [← a2]; exact b1
    · right; rw [b2]; exact a1
    · right; omega

theorem run_other {t : Nat} {v old : Bits} {acts : List AtomicAdd.Action} {s s' : AtomicAdd.State}
    (h : AtomicAdd.run fadd s acts = some s') (hp : s.pc t = .cas v old) (hn : ∀ a ∈ acts, a ≠ .run t) :
    s'.pc t = .cas v old := by
  induction acts generalizing s with
  | nil => simp only [AtomicAdd.run, Option.some.injEq] at h; subst h; exact hp
  | cons a as ih =>
    simp only [AtomicAdd.run, Option.bind_eq_some_iff] at h
    obtain ⟨s1, h1, h2⟩ := h
    refine ih h2 ?_ (fun b hb => hn b (List.mem_cons_of_mem _ hb))
    have hna := hn a List.mem_cons_self
    cases a with
    | startAdd t' v' =>
      simp only [AtomicAdd.step] at h1
      split at h1 <;> cases h1
      rename_i hi
      have : t ≠ t' := fun e => by subst e; rw [hp] at hi; cases hi
      simpa [upd_apply, this] using hp
    | swap t' v' =>
      simp only [AtomicAdd.step] at h1
      split at h1 <;> cases h1
      rename_i hi
      have : t ≠ t' := fun e => by subst e; rw [hp] at hi; cases hi
      simpa [upd_apply, this] using hp
    | run t' =>
      have : t ≠ t' := fun e => hna (by rw [e])
      simp only [AtomicAdd.step] at h1
      split at h1
      · cases h1; simpa [upd_apply, this] using hp
      · split at h1 <;> cases h1 <;> simpa [upd_apply, this] using hp
      · cases h1

/-- C15 (progress). A goroutine's compare-and-swap fails only if, since its load, the operation of some other goroutine
took effect: `s0` is the state before the load, `acts` what the others do between load and compare-and-swap. -/
theorem C15_retry_means_progress {s0 s1 s2 s3 : AtomicAdd.State} {t : Nat} {v : Bits} (acts : List AtomicAdd.Action)
    (hp : s0.pc t = .load v) (h1 : AtomicAdd.step fadd s0 (.run t) = some s1) (h2 : AtomicAdd.run fadd s1 acts = some s2)
    (hn : ∀ a ∈ acts, a ≠ .run t) (h3 : AtomicAdd.step fadd s2 (.run t) = some s3) :
    (s3.pc t = .added v ∧ s3.cell = fadd s0.cell v) ∨ (s3.pc t = .load v ∧ s1.log.length < s2.log.length) := by
  simp only [AtomicAdd.step, hp, Option.some.injEq] at h1
  have hp1 : s1.pc t = .cas v s0.cell := by subst h1; simp
  have hc1 : s1.cell = s0.cell := by subst h1; rfl
  have hp2 := run_other h2 hp1 hn
  simp only [AtomicAdd.step, hp2] at h3
  split at h3
  · rename_i hc; cases h3; left; simp
  · rename_i hc; cases h3; right
    refine ⟨by simp, ?_⟩
    rcases run_log h2 with h | h
    · exact absurd (h.1.trans hc1) hc
    · exact h

/-- Two additions and a reset interleaved: the first addition loses its compare-and-swap to the second, the reset comes in
between, and the retry adds to the reset cell. (The addition of patterns is just an example function.) -/
example : ∃ s, AtomicAdd.run (fun a b => a + b) (AtomicAdd.init 5)
    [.startAdd 0 1, .startAdd 1 2, .run 0, .run 1, .run 1, .swap 2 0, .run 0, .run 0, .run 0] = some s ∧
    s.cell = 1 ∧ s.log = [.add 1 2, .swap 2 0 7, .add 0 1] ∧ s.pc 0 = .added 1 ∧ s.pc 2 = .swapped 0 7 := by
  exact ⟨_, rfl, by decide⟩

end

/-! ## C16 number encoding -/

/-- C16 (integers). Decoding an encoded `int64` gives it back. -/
theorem C16_int_round_trip (i : Int) (h1 : -(2 ^ 63) ≤ i) (h2 : i < 2 ^ 63) : decodeInt (encodeInt i) = i := by
  simp only [decodeInt, encodeInt, BitVec.toInt_ofInt]
  rw [Int.bmod_eq_of_le (by omega) (by omega)]

/-- C16 (integers). Encoding a decoded pattern gives it back. -/
theorem C16_int_encode_decode (b : Bits) : encodeInt (decodeInt b) = b := by
  simp [decodeInt, encodeInt]

/-- C16 (floats). Coercing a float pattern keeps all 64 bits, NaN payloads included. -/
theorem C16_coerce_float (b : Bits) : coerceToFloat64 b .float64 = b := rfl

theorem encodeInt_toNat {i : Int} (h1 : 0 ≤ i) (h2 : i < 2 ^ 63) : (encodeInt i).toNat = i.toNat := by
  simp only [encodeInt, BitVec.toNat_ofInt]
  omega

/-- C16 (part: non-negative integers). Coercing a non-negative integer gives the float nearest to it, ties to even. Missing:
negative integers, for which the claim is false (see below). -/
theorem C16_coerce_int_partial (i : Int) (h1 : 0 ≤ i) (h2 : i < 2 ^ 63) : RoundsTo i (coerceToFloat64 (encodeInt i) .int64) := by
  simp only [coerceToFloat64, encodeInt_toNat h1 h2]
  have := natToFloat_rounds (n := i.toNat) (by omega)
  rwa [Int.toNat_of_nonneg h1] at this

/-- C16 (exact). Non-negative integers below `2^53` keep their exact value (`scaled` counts units of `2^-1074`). -/
theorem C16_coerce_exact_partial (i : Int) (h1 : 0 ≤ i) (h2 : i < 2 ^ 53) :
    scaled (coerceToFloat64 (encodeInt i) .int64) = i * 2 ^ 1074 := by
  have hn : (encodeInt i).toNat = i.natAbs := by
    simp only [encodeInt, BitVec.toNat_ofInt]
    omega
  have hlt := natToFloat_lt (n := i.natAbs) (by omega)
  have he := natToFloat_exact (n := i.natAbs) (by omega)
  simp only [coerceToFloat64, hn]
  rw [scaled_of_small hlt, he]
  have : ((i.natAbs : Int)) = i := by omega
  rw [Int.natCast_mul, this]
  simp

theorem coerce_negative_pos {i : Int} (h1 : -(2 ^ 63) ≤ i) (h2 : i < 0) : 0 < scaled (coerceToFloat64 (encodeInt i) .int64) := by
  have hlt := natToFloat_lt (n := (encodeInt i).toNat) (encodeInt i).isLt
  simp only [coerceToFloat64]
  rw [scaled_of_small hlt]
  have hn : (encodeInt i).toNat ≠ 0 := by
    simp only [encodeInt, BitVec.toNat_ofInt]
    omega
  have : 0 < magnitude (natToFloat (encodeInt i).toNat).toNat := by
    obtain ⟨_, h⟩ := natToFloat_rounds (n := (encodeInt i).toNat) (encodeInt i).isLt
    apply Classical.byContradiction
    intro h0
    rw [scaled_of_small hlt, show magnitude (natToFloat (encodeInt i).toNat).toNat = 0 by omega] at h
    have hc := h (natToFloat 1) (natToFloat_finite (by decide))
    rw [scaled_of_small (natToFloat_lt (by decide)), natToFloat_exact (by decide)] at hc
    have hp : 0 < 2 ^ 1074 := Nat.pow_pos (by decide)
    have e : ((encodeInt i).toNat : Int) * 2 ^ 1074 = (((encodeInt i).toNat * 2 ^ 1074 : Nat) : Int) := by simp
    rw [e] at hc
    have hm : 1 * 2 ^ 1074 ≤ (encodeInt i).toNat * 2 ^ 1074 := Nat.mul_le_mul_right _ (by omega)
    generalize (encodeInt i).toNat * 2 ^ 1074 = T at *
    generalize 2 ^ 1074 = S at *
    omega
  omega

/-- C16 (fails for every negative integer). The coerced value is positive (it is the conversion of the `uint64`), so it is not the
float nearest to the integer. -/
theorem C16_coerce_negative_fails (i : Int) (h1 : -(2 ^ 63) ≤ i) (h2 : i < 0) :
    0 < scaled (coerceToFloat64 (encodeInt i) .int64) ∧ ¬ RoundsTo i (coerceToFloat64 (encodeInt i) .int64) := by
  have hp := coerce_negative_pos h1 h2
  refine ⟨hp, ?_⟩
  rintro ⟨_, h⟩
  have h0 := h 0 (by decide)
  have e : scaled 0 = 0 := by decide
  rw [e] at h0
  have : i * 2 ^ 1074 < 0 := Int.mul_neg_of_neg_of_pos h2 (Int.pow_pos (by decide))
  generalize i * 2 ^ 1074 = T at *
  omega

/-- -1 is coerced to 1.8446744073709552e19 instead of -1.0; 3 is coerced to 3.0. -/
example : coerceToFloat64 (encodeInt (-1)) .int64 = 0x43f0000000000000 ∧
    coerceToFloat64 (encodeInt 3) .int64 = 0x4008000000000000 := by decide

end Verif.Props
