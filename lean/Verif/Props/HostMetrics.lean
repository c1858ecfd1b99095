import Verif.Model.HostMetrics
import Verif.Props.Numbers
import Verif.Proof.Last

/-!
# Host and process metrics (C70, C71)
-/

namespace Verif.Props
open Verif Verif.Number Verif.Attr Verif.Front Verif.Views Verif.Instruments Verif.HostMetrics

variable {E : Type} (fadd fdiv : Bits → Bits → Bits)

/-! ## C70 -/

/-- A metric by its name, with the state or direction. -/
def series (o : Obs) : Str × List (Str × Str) := (o.inst.name, o.attrs)

/-- **C70** (values). When the operating system answers with one summary each, a collection observes exactly ten values: CPU time by state,
where "other" is the sum of the states not listed otherwise; used and available memory, in bytes and relative to the total; bytes sent and
received. No error is returned. -/
theorem C70_host_values (t : CpuTimes) (m : Memory) (n : NetIO) :
    let r := hostCallback (E := E) fadd fdiv (.ok [t]) (.ok m) (.ok [n])
    r.2 = none ∧ r.1.map (fun o => (o.inst.name, o.attrs, o.value)) =
      [(lit "system.cpu.time", [(lit "state", lit "user")], t.user),
       (lit "system.cpu.time", [(lit "state", lit "system")], t.system),
       (lit "system.cpu.time", [(lit "state", lit "other")],
          [t.iowait, t.irq, t.softirq, t.steal, t.guest, t.guestNice].foldl fadd t.nice),
       (lit "system.cpu.time", [(lit "state", lit "idle")], t.idle),
       (lit "system.memory.usage", [(lit "state", lit "used")], m.used),
       (lit "system.memory.usage", [(lit "state", lit "available")], m.available),
       (lit "system.memory.utilization", [(lit "state", lit "used")], fdiv (natToFloat m.used.toNat) (natToFloat m.total.toNat)),
       (lit "system.memory.utilization", [(lit "state", lit "available")], fdiv (natToFloat m.available.toNat) (natToFloat m.total.toNat)),
       (lit "system.network.io", [(lit "direction", lit "transmit")], n.sent),
       (lit "system.network.io", [(lit "direction", lit "receive")], n.recv)] :=
  ⟨rfl, rfl⟩

/-- **C70** (all or none). A collection observes all ten series, each once, or none; all if and only if every source answers with exactly one summary. -/
theorem C70_host_all_or_none (cpu : Except E (List CpuTimes)) (mem : Except E Memory) (net : Except E (List NetIO)) :
    let r := hostCallback fadd fdiv cpu mem net
    (r.1 = [] ∨ (r.1.length = 10 ∧ (r.1.map series).Nodup)) ∧
    (r.1 ≠ [] ↔ ∃ t m n, cpu = .ok [t] ∧ mem = .ok m ∧ net = .ok [n]) := by
  have full : ∀ t m n, ((hostObs fadd fdiv t m n).map series).Nodup := by
    intro t m n
    have : (hostObs fadd fdiv t m n).map series = (hostObs (fun a _ => a) (fun a _ => a) ⟨0, 0, 0, 0, 0, 0, 0, 0, 0, 0⟩ ⟨0, 0, 0⟩ ⟨0, 0⟩).map series := rfl
    rw [this]
    decide +kernel
  intro r
  unfold r hostCallback
  rcases cpu with e | _ | ⟨t, _ | ⟨t', ts⟩⟩ <;> rcases mem with e | m <;> rcases net with e | _ | ⟨n, _ | ⟨n', ns⟩⟩ <;> simp
  exact ⟨Or.inr ⟨rfl, full t m n⟩, by simp [hostObs]⟩

/-- **C70** (errors, part). If nothing is observed an error is returned, unless the network source answers with no or several summaries. -/
theorem C70_host_error_partial (cpu : Except E (List CpuTimes)) (mem : Except E Memory) (net : Except E (List NetIO))
    (hnet : ∀ l, net = .ok l → l.length = 1) :
    let r := hostCallback fadd fdiv cpu mem net
    r.1 = [] ↔ r.2 ≠ none := by
  intro r
  unfold r hostCallback
  rcases cpu with e | _ | ⟨t, _ | ⟨t', ts⟩⟩ <;> rcases mem with e | m <;> rcases net with e | _ | ⟨n, _ | ⟨n', ns⟩⟩ <;>
    simp_all [hostObs]

/-- **C70** (errors, fails). A host with no network summary: nothing at all is observed, and no error is returned. -/
theorem C70_host_error_fails (t : CpuTimes) (m : Memory) : hostCallback (E := E) fadd fdiv (.ok [t]) (.ok m) (.ok []) = ([], none) := rfl

/-- **C70** (errors, fails). Even the errors that are returned are not reported: the outcome of running a callback is the same as without the
error. -/
theorem C70_callback_error_fails (obs : List Obs) (e : CbError E) : run (obs, some e) = run (E := E) (obs, none) ∧ (run (obs, some e)).2 = [] :=
  ⟨rfl, rfl⟩

/-- **C70** (counts, part). Counts below `2^63` are reported as they are. -/
theorem C70_counts_partial (x : Bits) (h : x.toNat < 2 ^ 63) : x.toInt = x.toNat := by
  rw [BitVec.toInt_eq_toNat_cond]; split <;> omega

/-- **C70** (counts, fails). A greater unsigned count is reported as a negative number: with `GOGC=off` the runtime's `/gc/gogc:percent` is
`2^64 - 1`, reported as -1. (`int64(x)` in host.go:225-234 and builtin.go:189.) -/
theorem C70_counts_fails : ∃ x : Bits, x.toNat = 2 ^ 64 - 1 ∧ x.toInt = -1 := ⟨BitVec.allOnes 64, by decide, by decide⟩

/-- **C70** (registration). Either every instrument is created and the callback registered for all of them, or the error is returned and the callback
is not registered. -/
theorem C70_registration (create : Want → Option E) (regCb : Option E) :
    (let r := hostRegister create regCb
     ((∀ w ∈ hostWants, create w = none) → r = (hostWants.map Ev.create ++ [.callback hostWants], regCb)) ∧
     ((∃ w ∈ hostWants, create w ≠ none) → r.2 ≠ none ∧ ∀ ws, Ev.callback ws ∉ r.1)) ∧
    (let r := processRegister create regCb
     ((∀ w ∈ processWants, create w = none) → r = (processWants.map Ev.create ++ [.callback processWants], regCb)) ∧
     ((∃ w ∈ processWants, create w ≠ none) → r.2 ≠ none ∧ ∀ ws, Ev.callback ws ∉ r.1)) := by
  have gen : ∀ (all ws : List Want),
      ((∀ w ∈ ws, create w = none) → registerLoop create regCb all ws = (ws.map Ev.create ++ [.callback all], regCb)) ∧
      ((∃ w ∈ ws, create w ≠ none) → (registerLoop create regCb all ws).2 ≠ none ∧ ∀ l, Ev.callback l ∉ (registerLoop create regCb all ws).1) := by
    intro all ws
    induction ws with
    | nil => exact ⟨fun _ => rfl, by rintro ⟨w, hw, _⟩; cases hw⟩
    | cons w ws ih =>
      cases hc : create w with
      | some e =>
        refine ⟨fun h => ?_, fun _ => ?_⟩
        · rw [h w (List.mem_cons_self ..)] at hc; cases hc
        · simp [registerLoop, hc]
      | none =>
        refine ⟨fun h => ?_, ?_⟩
        · rw [registerLoop, hc]
          dsimp only
          rw [ih.1 (fun x hx => h x (List.mem_cons_of_mem _ hx))]
          rfl
        · rintro ⟨x, hx, hne⟩
          rcases List.mem_cons.1 hx with rfl | hx
          · exact absurd hc hne
          · have := ih.2 ⟨x, hx, hne⟩
            rw [registerLoop, hc]
            simpa using this
  exact ⟨gen _ _, gen _ _⟩

/-- **C70** (kinds and units). CPU times and network bytes are counters, in seconds and bytes; memory in use and the uptime are up-down counters, in bytes and
seconds; the utilization is a gauge without unit. Bytes are integers, everything else is a float. -/
theorem C70_instruments :
    hostWants.map (fun w => (w.name, w.ctor.kinds.2, w.ctor.kinds.1, w.unit)) =
      [(lit "system.cpu.time", .asyncCounter, .float64, lit "s"), (lit "system.memory.usage", .asyncUpDownCounter, .int64, lit "By"),
       (lit "system.memory.utilization", .asyncGauge, .float64, []), (lit "system.network.io", .asyncCounter, .int64, lit "By")] ∧
    processWants.map (fun w => (w.name, w.ctor.kinds.2, w.ctor.kinds.1, w.unit)) =
      [(lit "process.cpu.time", .asyncCounter, .float64, lit "s"), (lit "process.uptime", .asyncUpDownCounter, .float64, lit "s")] :=
  ⟨rfl, rfl⟩

/-- **C70** (registered instruments). The callbacks observe only instruments they were registered for. -/
theorem C70_own_instruments (cpu : Except E (List CpuTimes)) (mem : Except E Memory) (net : Except E (List NetIO)) (up : Bits) (ru : Except E Rusage) :
    (∀ o ∈ (hostCallback fadd fdiv cpu mem net).1, o.inst ∈ hostWants) ∧ ∀ o ∈ processCallback fadd fdiv up ru, o.inst ∈ processWants := by
  constructor
  · have full : ∀ t m n, ∀ o ∈ hostObs fadd fdiv t m n, o.inst ∈ hostWants := by
      intro t m n o ho
      simp only [hostObs, List.mem_cons, List.not_mem_nil, or_false] at ho
      rcases ho with rfl | rfl | rfl | rfl | rfl | rfl | rfl | rfl | rfl | rfl <;> simp [hostWants]
    unfold hostCallback
    rcases cpu with e | _ | ⟨t, _ | ⟨t', ts⟩⟩ <;> rcases mem with e | m <;> rcases net with e | _ | ⟨n, _ | ⟨n', ns⟩⟩ <;>
      first | (intro o ho; cases ho; done) | exact full _ _ _
  · intro o ho
    simp only [processCallback, List.mem_cons, List.not_mem_nil, or_false] at ho
    rcases ho with rfl | rfl | rfl <;> simp [processWants]

/-- **C70** (process). When the process times cannot be read they are not reported, only the uptime is, and the error is. -/
theorem C70_process_error (up : Bits) (e : E) (hf : Finite (seconds fadd fdiv up)) :
    accepted (processCallback fadd fdiv up (.error e)) = [⟨processUptime, [], seconds fadd fdiv up⟩] ∧
    (getProcessTimes fadd fdiv up (.error e)).2.2.2 = some e := by
  refine ⟨?_, rfl⟩
  have h1 : rangeTest processUptime.ctor.kinds.1 (seconds fadd fdiv up) processUptime.ctor.kinds.2 = true := by
    cases h : rangeTest processUptime.ctor.kinds.1 (seconds fadd fdiv up) processUptime.ctor.kinds.2 with
    | true => rfl
    | false =>
      rw [C09_range_test] at h
      rcases h with h | ⟨h | h, _⟩
      · exact absurd hf h.2
      · cases h
      · cases h
  have h2 : rangeTest processCPUTime.ctor.kinds.1 nan processCPUTime.ctor.kinds.2 = false := by decide
  simp only [accepted, processCallback, getProcessTimes]
  rw [List.filter_cons_of_pos (by exact h1), List.filter_cons_of_neg (by dsimp only; rw [h2]; simp),
    List.filter_cons_of_neg (by dsimp only; rw [h2]; simp), List.filter_nil]

/-- **C70** (provider). The instruments are made by the last provider given, the global one if none is. -/
theorem C70_provider {P : Type} (global : P) (opts : List (Option P)) :
    pickProvider global opts = (lastSet id opts).getD global :=
  foldl_lastSet (fun c : P => c) id _ (fun s a => by cases a <;> rfl) _ _

/-! ## C71 -/

/-- `b` is a float nearest to `p / q` (in the units of `scaled`). -/
def Nearest (p q : Int) (b : Bits) : Prop :=
  Finite b ∧ ∀ c : Bits, Finite c → (q * scaled b - p).natAbs ≤ (q * scaled c - p).natAbs

/-- What IEEE arithmetic guarantees: sums of numbers below `2^64`, and quotients up to one, are rounded to a nearest float. -/
structure Ieee : Prop where
  add : ∀ a b, Finite a → Finite b → 0 ≤ scaled a → 0 ≤ scaled b → scaled a + scaled b ≤ 2 ^ 64 * 2 ^ 1074 →
    Nearest (scaled a + scaled b) 1 (fadd a b)
  div : ∀ a b, Finite a → Finite b → 0 ≤ scaled a → scaled a ≤ scaled b → 0 < scaled b →
    Nearest (scaled a * 2 ^ 1074) (scaled b) (fdiv a b)

theorem nearest_exists (p q : Int) : ∃ b, Nearest p q b := by
  have : ∀ n : Nat, (∃ b : Bits, Finite b ∧ (q * scaled b - p).natAbs ≤ n) → ∃ b, Nearest p q b := by
    intro n
    induction n using Nat.strongRecOn with
    | ind n ih =>
      rintro ⟨b, hf, hb⟩
      by_cases h : ∃ c : Bits, Finite c ∧ (q * scaled c - p).natAbs < (q * scaled b - p).natAbs
      · obtain ⟨c, hc, hlt⟩ := h
        exact ih _ (by omega) ⟨c, hc, Nat.le_refl _⟩
      · exact ⟨b, hf, fun c hc => Nat.not_lt.1 fun hlt => h ⟨c, hc, hlt⟩⟩
  exact this _ ⟨0, by decide, Nat.le_refl _⟩

/-- Such arithmetic exists. -/
theorem ieee_exists : ∃ fadd fdiv, Ieee fadd fdiv :=
  ⟨fun a b => Classical.choose (nearest_exists (scaled a + scaled b) 1), fun a b => Classical.choose (nearest_exists (scaled a * 2 ^ 1074) (scaled b)),
    fun a b _ _ _ _ _ => Classical.choose_spec (nearest_exists (scaled a + scaled b) 1),
    fun a b _ _ _ _ _ => Classical.choose_spec (nearest_exists (scaled a * 2 ^ 1074) (scaled b))⟩

/-- Rounding is monotone. -/
theorem nearest_mono {p p' q : Int} {b b' : Bits} (hq : 0 < q) (h : Nearest p q b) (h' : Nearest p' q b') (hp : p < p') : scaled b ≤ scaled b' := by
  refine Int.not_lt.1 fun hlt => ?_
  have h1 := h.2 b' h'.1
  have h2 := h'.2 b h.1
  have h3 : q * scaled b' < q * scaled b := Int.mul_lt_mul_of_pos_left hlt hq
  generalize q * scaled b = x at *
  generalize q * scaled b' = y at *
  omega

/-- A float above the exact value is above the rounded value. -/
theorem nearest_le {p q : Int} {b c : Bits} (hq : 0 < q) (h : Nearest p q b) (hc : Finite c) (hp : p ≤ q * scaled c) : scaled b ≤ scaled c := by
  refine Int.not_lt.1 fun hlt => ?_
  have h1 := h.2 c hc
  have h3 : q * scaled c < q * scaled b := Int.mul_lt_mul_of_pos_left hlt hq
  generalize q * scaled b = x at *
  generalize q * scaled c = y at *
  omega

theorem le_nearest {p q : Int} {b c : Bits} (hq : 0 < q) (h : Nearest p q b) (hc : Finite c) (hp : q * scaled c ≤ p) : scaled c ≤ scaled b := by
  refine Int.not_lt.1 fun hlt => ?_
  have h1 := h.2 c hc
  have h3 : q * scaled b < q * scaled c := Int.mul_lt_mul_of_pos_left hlt hq
  generalize q * scaled b = x at *
  generalize q * scaled c = y at *
  omega

theorem scaled_nat {n : Nat} (h : n < 2 ^ 53) : scaled (natToFloat n) = (n : Int) * 2 ^ 1074 := by
  rw [scaled_of_small (natToFloat_lt (by omega)), natToFloat_exact h]
  simp

theorem finite_nat {n : Nat} (h : n < 2 ^ 53) : Finite (natToFloat n) := natToFloat_finite (by omega)

theorem eq_of_scaled {a b : Bits} (h : scaled a = scaled b) (h0 : scaled a ≠ 0) : a = b := by
  have hk := (key_eq_iff a b).2 h
  have h1 : key a ≠ 0 := by
    intro e
    apply h0
    have : scaled (0 : Bits) = 0 := by decide
    rw [← this, ← key_eq_iff, e]; decide
  apply BitVec.eq_of_toNat_eq
  have ha := a.isLt
  have hb := b.isLt
  unfold key neg at hk h1
  simp only [decide_eq_true_eq] at hk h1
  split at hk <;> split at hk <;> split at h1 <;> omega

/-- `seconds` on a duration of `s` whole seconds and `n` nanoseconds. -/
def secs (s n : Nat) : Bits := fadd (natToFloat s) (fdiv (natToFloat n) (natToFloat 1000000000))

theorem seconds_eq {d : Bits} (h : d.toNat < 2 ^ 63) : seconds fadd fdiv d = secs fadd fdiv (d.toNat / 1000000000) (d.toNat % 1000000000) := by
  have hm : d.msb = false := by rw [BitVec.msb_eq_false_iff_two_mul_lt]; omega
  have hm' : (1000000000 : Bits).msb = false := by decide
  have e1 : (d.sdiv 1000000000) = BitVec.ofNat 64 (d.toNat / 1000000000) := by
    apply BitVec.eq_of_toNat_eq
    rw [BitVec.sdiv_eq, hm, hm']
    simp
    omega
  have e2 : (d.srem 1000000000) = BitVec.ofNat 64 (d.toNat % 1000000000) := by
    apply BitVec.eq_of_toNat_eq
    rw [BitVec.srem_eq, hm, hm']
    simp
    omega
  have pos : ∀ n : Nat, n < 2 ^ 63 → ofSigned (BitVec.ofNat 64 n) = natToFloat n := by
    intro n hn
    have hn' : (BitVec.ofNat 64 n).toNat = n := by rw [BitVec.toNat_ofNat]; omega
    unfold ofSigned
    rw [if_neg, hn']
    rw [BitVec.toInt_eq_toNat_cond, hn']
    split <;> omega
  have e3 : ofSigned (1000000000 : Bits) = natToFloat 1000000000 := pos 1000000000 (by decide)
  unfold seconds secs
  rw [e1, e2, e3, pos _ (by omega), pos _ (by omega)]

variable {fadd fdiv}

/-- The fraction: between zero and one, and zero only for zero. -/
theorem frac_bounds (hi : Ieee fadd fdiv) {n : Nat} (hn : n < 1000000000) :
    let x := fdiv (natToFloat n) (natToFloat 1000000000)
    Finite x ∧ Nearest ((n : Int) * 2 ^ 1074 * 2 ^ 1074) (1000000000 * 2 ^ 1074) x ∧ 0 ≤ scaled x ∧ scaled x ≤ 2 ^ 1074 ∧ (0 < n → 0 < scaled x) := by
  intro x
  have hU : (0 : Int) < 2 ^ 1074 := Int.pow_pos (by omega)
  have hU' : (2 : Int) ^ 40 ≤ 2 ^ 1074 := by
    have : (2 : Nat) ^ 40 ≤ 2 ^ 1074 := Nat.pow_le_pow_right (by omega) (by omega)
    exact_mod_cast this
  have e1 := scaled_nat (n := n) (by omega)
  have e2 := scaled_nat (n := 1000000000) (by omega)
  have h1 := scaled_nat (n := 1) (by omega)
  have h0 : scaled (0 : Bits) = 0 := by decide
  have hs : scaled (1 : Bits) = 1 := by decide
  have hsf : Finite (1 : Bits) := by decide
  have hzf : Finite (0 : Bits) := by decide
  have hd := hi.div (natToFloat n) (natToFloat 1000000000) (finite_nat (by omega)) (finite_nat (by omega))
  rw [e1, e2] at hd
  have hx : Nearest ((n : Int) * 2 ^ 1074 * 2 ^ 1074) (((1000000000 : Nat) : Int) * 2 ^ 1074) x := by
    apply hd
    · exact Int.mul_nonneg (by omega) (by omega)
    · exact Int.mul_le_mul_of_nonneg_right (by omega) (by omega)
    · exact Int.mul_pos (by omega) hU
  have h1' : scaled (natToFloat 1) = 2 ^ 1074 := by rw [h1]; simp
  have h1f : Finite (natToFloat 1) := finite_nat (by omega)
  clear hd e1 e2 h1
  generalize (2 : Int) ^ 1074 = U at *
  have hq : (0 : Int) < ((1000000000 : Nat) : Int) * U := Int.mul_pos (by omega) hU
  have hnU : 0 ≤ (n : Int) * U := Int.mul_nonneg (by omega) (by omega)
  have nn : 0 ≤ (n : Int) * U * U := Int.mul_nonneg hnU (by omega)
  refine ⟨hx.1, by simpa using hx, ?_, ?_, ?_⟩
  · have := le_nearest hq hx hzf (by rw [h0, Int.mul_zero]; exact nn)
    rw [h0] at this; exact this
  · have := nearest_le hq hx h1f (by
      rw [h1']
      exact Int.mul_le_mul_of_nonneg_right (Int.mul_le_mul_of_nonneg_right (by omega) (by omega)) (by omega))
    rw [h1'] at this; exact this
  · intro hpos
    refine Int.not_le.1 fun hle => ?_
    have h0' := le_nearest hq hx hzf (by rw [h0, Int.mul_zero]; exact nn)
    rw [h0] at h0'
    have hz : scaled x = 0 := by omega
    have hc := hx.2 1 hsf
    rw [hz, hs, Int.mul_zero, Int.mul_one] at hc
    -- the smallest positive float is nearer than zero
    have hbig : ((1000000000 : Nat) : Int) * U < (n : Int) * U * U := by
      have a1 : ((1000000000 : Nat) : Int) * U < U * U := Int.mul_lt_mul_of_pos_right (by omega) hU
      have a2 : U * U ≤ (n : Int) * U * U := by
        apply Int.mul_le_mul_of_nonneg_right _ (by omega)
        have := Int.mul_le_mul_of_nonneg_right (a := 1) (b := (n : Int)) (c := U) (by omega) (by omega)
        omega
      omega
    generalize ((1000000000 : Nat) : Int) * U = A at *
    generalize (n : Int) * U * U = B at *
    omega

theorem secs_bounds (hi : Ieee fadd fdiv) {s n : Nat} (hs : s < 2 ^ 40) (hn : n < 1000000000) :
    Nearest (scaled (natToFloat s) + scaled (fdiv (natToFloat n) (natToFloat 1000000000))) 1 (secs fadd fdiv s n) ∧
    (s : Int) * 2 ^ 1074 ≤ scaled (secs fadd fdiv s n) ∧ scaled (secs fadd fdiv s n) ≤ ((s + 1 : Nat) : Int) * 2 ^ 1074 := by
  obtain ⟨f1, _, f3, f4, _⟩ := frac_bounds hi hn
  have e1 := scaled_nat (n := s) (by omega)
  have e2 := scaled_nat (n := s + 1) (by omega)
  have hU : (0 : Int) < 2 ^ 1074 := Int.pow_pos (by omega)
  have hsU : 0 ≤ (s : Int) * 2 ^ 1074 := Int.mul_nonneg (by omega) (by omega)
  have hs1 : ((s + 1 : Nat) : Int) * 2 ^ 1074 = (s : Int) * 2 ^ 1074 + 2 ^ 1074 := by
    rw [Int.natCast_add, Int.add_mul]; simp
  have hcap : ((s + 1 : Nat) : Int) * 2 ^ 1074 ≤ 2 ^ 64 * 2 ^ 1074 := Int.mul_le_mul_of_nonneg_right (by omega) (by omega)
  have ha := hi.add (natToFloat s) (fdiv (natToFloat n) (natToFloat 1000000000)) (finite_nat (by omega)) f1 (by rw [e1]; exact hsU) f3 (by
    rw [e1]; omega)
  refine ⟨ha, ?_, ?_⟩
  · have := le_nearest (by omega) ha (finite_nat (n := s) (by omega)) (by omega)
    rw [e1] at this; exact this
  · have := nearest_le (by omega) ha (finite_nat (n := s + 1) (by omega)) (by
      rw [e2, e1, hs1]; omega)
    rw [e2] at this; exact this

theorem secs_mono (hi : Ieee fadd fdiv) {s n s' n' : Nat} (hs : s < 2 ^ 40) (hn : n < 1000000000) (hs' : s' < 2 ^ 40) (hn' : n' < 1000000000)
    (h : s < s' ∨ (s = s' ∧ n ≤ n')) : scaled (secs fadd fdiv s n) ≤ scaled (secs fadd fdiv s' n') := by
  obtain ⟨a1, a2, a3⟩ := secs_bounds hi hs hn
  obtain ⟨b1, b2, b3⟩ := secs_bounds hi hs' hn'
  have hU : (0 : Int) < 2 ^ 1074 := Int.pow_pos (by omega)
  rcases h with h | ⟨rfl, h⟩
  · have : ((s + 1 : Nat) : Int) * 2 ^ 1074 ≤ (s' : Int) * 2 ^ 1074 := Int.mul_le_mul_of_nonneg_right (by omega) (by omega)
    omega
  · rcases Nat.lt_or_eq_of_le h with h | rfl
    · obtain ⟨_, c2, c3, _, _⟩ := frac_bounds hi hn
      obtain ⟨_, d2, d3, _, d5⟩ := frac_bounds hi hn'
      have hlt : (n : Int) * 2 ^ 1074 * 2 ^ 1074 < (n' : Int) * 2 ^ 1074 * 2 ^ 1074 :=
        Int.mul_lt_mul_of_pos_right (Int.mul_lt_mul_of_pos_right (by omega) hU) hU
      have hle := nearest_mono (Int.mul_pos (by omega) hU) c2 d2 hlt
      rcases Int.lt_or_eq_of_le hle with hl | he
      · exact nearest_mono (by omega) a1 b1 (by omega)
      · have hne := d5 (by omega)
        have := eq_of_scaled he (by omega)
        unfold secs
        rw [this]
        exact Int.le_refl _
    · exact Int.le_refl _

/-- A time as the operating system gives it: less than a million microseconds, and less than 2^33 seconds (270 years). -/
def Timeval.Ok (t : Timeval) : Prop := t.sec.toNat < 2 ^ 33 ∧ t.usec.toNat < 1000000

/-- Not later. -/
def Timeval.le (a b : Timeval) : Prop := a.sec.toNat < b.sec.toNat ∨ (a.sec.toNat = b.sec.toNat ∧ a.usec.toNat ≤ b.usec.toNat)

theorem duration_nat {t : Timeval} (h : Timeval.Ok t) : (duration t).toNat = t.sec.toNat * 1000000000 + t.usec.toNat * 1000 := by
  unfold duration
  obtain ⟨h1, h2⟩ := h
  have e1 : (t.sec * 1000000000).toNat = t.sec.toNat * 1000000000 := by
    rw [BitVec.toNat_mul, show (1000000000 : Bits).toNat = 1000000000 by decide]; omega
  have e2 : (t.usec * 1000).toNat = t.usec.toNat * 1000 := by
    rw [BitVec.toNat_mul, show (1000 : Bits).toNat = 1000 by decide]; omega
  rw [BitVec.toNat_add, e1, e2]
  omega

theorem seconds_time {t : Timeval} (h : Timeval.Ok t) : seconds fadd fdiv (duration t) = secs fadd fdiv t.sec.toNat (t.usec.toNat * 1000) := by
  have hd := duration_nat h
  obtain ⟨h1, h2⟩ := h
  rw [seconds_eq fadd fdiv (by omega), hd]
  congr 1 <;> omega

/-- **C71** (never backwards). If the process times given by the operating system do not decrease from one collection to a later one, neither do the
values observed for user and system time. -/
theorem C71_monotone (hi : Ieee fadd fdiv) (up up' : Bits) (r r' : Rusage) (hr : Timeval.Ok r.utime ∧ Timeval.Ok r.stime)
    (hr' : Timeval.Ok r'.utime ∧ Timeval.Ok r'.stime) (hu : Timeval.le r.utime r'.utime) (hs : Timeval.le r.stime r'.stime)
    (st : Str) (v v' : Bits) (hv : (⟨processCPUTime, [(lit "state", st)], v⟩ : Obs) ∈ processCallback fadd fdiv up (.ok r : Except E Rusage))
    (hv' : (⟨processCPUTime, [(lit "state", st)], v'⟩ : Obs) ∈ processCallback fadd fdiv up' (.ok r' : Except E Rusage)) : ¬ Less v' v := by
  have mono : ∀ t t' : Timeval, Timeval.Ok t → Timeval.Ok t' → Timeval.le t t' →
      scaled (seconds fadd fdiv (duration t)) ≤ scaled (seconds fadd fdiv (duration t')) := by
    intro t t' h h' hl
    rw [seconds_time h, seconds_time h']
    obtain ⟨h1, h2⟩ := h
    obtain ⟨h3, h4⟩ := h'
    refine secs_mono hi (by omega) (by omega) (by omega) (by omega) ?_
    rcases hl with hl | ⟨h5, h6⟩
    · exact Or.inl hl
    · exact Or.inr ⟨h5, by omega⟩
  have e1 : lit "user" ≠ lit "system" := by decide +kernel
  simp only [processCallback, getProcessTimes, List.mem_cons, List.not_mem_nil, or_false, Obs.mk.injEq] at hv hv'
  have e2 : processCPUTime ≠ processUptime := by decide +kernel
  rintro ⟨_, _, hlt⟩
  rcases hv with ⟨h, _⟩ | ⟨_, h, rfl⟩ | ⟨_, h, rfl⟩
  · exact e2 h
  · rcases hv' with ⟨h', _⟩ | ⟨_, h', rfl⟩ | ⟨_, h', rfl⟩
    · exact e2 h'
    · have := mono _ _ hr.1 hr'.1 hu
      omega
    · simp only [List.cons.injEq, Prod.mk.injEq, true_and, and_true] at h h'
      exact e1 (h.symm.trans h')
  · rcases hv' with ⟨h', _⟩ | ⟨_, h', rfl⟩ | ⟨_, h', rfl⟩
    · exact e2 h'
    · simp only [List.cons.injEq, Prod.mk.injEq, true_and, and_true] at h h'
      exact e1 (h'.symm.trans h)
    · have := mono _ _ hr.2 hr'.2 hs
      omega

/-- **C71** (accuracy). The value observed for a time lies between its whole seconds and the next second, and for whole seconds is exact. -/
theorem C71_accuracy (hi : Ieee fadd fdiv) (t : Timeval) (h : Timeval.Ok t) :
    let v := seconds fadd fdiv (duration t)
    Finite v ∧ (t.sec.toNat : Int) * 2 ^ 1074 ≤ scaled v ∧ scaled v ≤ (t.sec.toNat + 1 : Int) * 2 ^ 1074 ∧
    (t.usec.toNat = 0 → scaled v = (t.sec.toNat : Int) * 2 ^ 1074) := by
  intro v
  have e : v = secs fadd fdiv t.sec.toNat (t.usec.toNat * 1000) := seconds_time h
  obtain ⟨h1, h2⟩ := h
  obtain ⟨a1, a2, a3⟩ := secs_bounds hi (s := t.sec.toNat) (n := t.usec.toNat * 1000) (by omega) (by omega)
  rw [e]
  refine ⟨a1.1, a2, by simpa using a3, ?_⟩
  intro h0
  rw [h0, Nat.zero_mul] at a1 a2 ⊢
  have hz : scaled (fdiv (natToFloat 0) (natToFloat 1000000000)) = 0 := by
    obtain ⟨f1, f2, f3, f4, _⟩ := frac_bounds hi (n := 0) (by omega)
    have hU : (0 : Int) < 2 ^ 1074 := Int.pow_pos (by omega)
    have := nearest_le (c := (0 : Bits)) (Int.mul_pos (by omega) hU) f2 (by decide) (by
      have : scaled (0 : Bits) = 0 := by decide
      rw [this]; simp)
    have h00 : scaled (0 : Bits) = 0 := by decide
    omega
  rw [hz, Int.add_zero] at a1
  have := nearest_le (by omega) a1 (finite_nat (n := t.sec.toNat) (by omega)) (by omega)
  have e1 := scaled_nat (n := t.sec.toNat) (by omega)
  omega

/-- C71: times of 1.999999 s and 2 s. -/
example : Timeval.Ok ⟨1, 999999⟩ ∧ Timeval.Ok ⟨2, 0⟩ ∧ Timeval.le ⟨1, 999999⟩ ⟨2, 0⟩ ∧
    (duration ⟨1, 999999⟩).toNat = 1999999000 := ⟨⟨by decide, by decide⟩, ⟨by decide, by decide⟩, Or.inl (by decide), by decide⟩

/-- C70: a host with a failing memory source, and a working one. -/
example : hostCallback (E := String) fadd fdiv (.ok [⟨1, 2, 3, 4, 5, 6, 7, 8, 9, 10⟩]) (.error "no") (.ok [⟨1, 2⟩]) = ([], some (.source "no")) ∧
    ((hostCallback (E := String) (fun a b => a + b) (fun a _ => a) (.ok [⟨1, 2, 3, 4, 5, 6, 7, 8, 9, 10⟩]) (.ok ⟨1, 2, 3⟩) (.ok [⟨5, 6⟩])).1.map (·.value)) =
      [1, 2, 49, 3, 1, 2, 0x3ff0000000000000, 0x4000000000000000, 5, 6] := ⟨rfl, by decide +kernel⟩

end Verif.Props
