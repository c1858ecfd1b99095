import Verif.Model.RuntimeSnapshot

/-
C82: the runtime metrics one collection reports are the state of the Go runtime at one instant.
-/
namespace Verif.Props
open Verif.RuntimeSnapshot

variable {V : Type}

/-- What a consistent report looks like: every metric, in order, with its value at instant `t`. -/
def snapshotAt (c : Cfg V) (t : Nat) : List (Nat × V) := (List.range c.n).map (fun i => (i, c.world t i))

/-- A report whose `i`-th entry is metric `i` at the `i`-th of the given instants. -/
def reportAt (c : Cfg V) (ts : List Nat) : List (Nat × V) := ts.zipIdx.map (fun p => (p.2, c.world p.1 p.2))

/-- State during one run `r` of the callback that read at instant `t0`; `t` is the instant of the latest read by anybody. -/
structure During (c : Cfg V) (r t0 t : Nat) (s : State V) : Prop where
  lo : t0 ≤ t
  hi : t ≤ s.now
  slots : s.slots = (List.range c.n).map (c.world t)
  out : ∃ ts : List Nat, ts.Pairwise (· ≤ ·) ∧ (∀ x ∈ ts, t0 ≤ x ∧ x ≤ t) ∧ s.out r = reportAt c ts ∧
    ((s.pc r = .loop ts.length ∧ ts.length ≤ c.n) ∨ (s.pc r = .done ∧ ts.length = c.n))

theorem reportAt_snoc (c : Cfg V) (ts : List Nat) (t : Nat) :
    reportAt c (ts ++ [t]) = reportAt c ts ++ [(ts.length, c.world t ts.length)] := by
  unfold reportAt
  rw [List.zipIdx_append]
  simp

theorem During.step {c : Cfg V} {r t0 t : Nat} {s s' : State V} {a : Action} (h : During c r t0 t s)
    (hs : step c s a = some s') : During c r t0 (match a with | .read _ => s.now | _ => t) s' := by
  obtain ⟨lo, hi, hsl, ts, hp, hb, ho, hpc⟩ := h
  cases a with
  | tick =>
    simp only [RuntimeSnapshot.step, Option.some.injEq] at hs
    subst hs
    exact ⟨lo, Nat.le_succ_of_le hi, hsl, ts, hp, hb, ho, hpc⟩
  | read q =>
    simp only [RuntimeSnapshot.step] at hs
    split at hs
    case h_2 => cases hs
    case h_1 hq =>
      simp only [Option.some.injEq] at hs
      subst hs
      have hne : r ≠ q := by
        intro e; subst e
        rcases hpc with ⟨h1, _⟩ | ⟨h1, _⟩ <;> rw [h1] at hq <;> cases hq
      refine ⟨Nat.le_trans lo hi, Nat.le_refl _, rfl, ts, hp, fun x hx => ⟨(hb x hx).1, Nat.le_trans (hb x hx).2 hi⟩, ho, ?_⟩
      simpa [upd, hne] using hpc
  | observe q =>
    simp only [RuntimeSnapshot.step] at hs
    split at hs
    case h_2 => cases hs
    case h_1 i hq =>
      by_cases hrq : r = q
      · subst hrq
        rcases hpc with ⟨h1, h2⟩ | ⟨h1, _⟩
        case inr => rw [h1] at hq; cases hq
        rw [h1] at hq
        have hi' : ts.length = i := by injection hq
        subst hi'
        split at hs
        case h_1 v hv =>
          simp only [Option.some.injEq] at hs
          subst hs
          rw [hsl] at hv
          have hlt : ts.length < c.n := by
            have := (List.getElem?_eq_some_iff.mp hv).1
            simpa using this
          have hval : c.world t ts.length = v := by
            rw [List.getElem?_map, List.getElem?_range hlt] at hv
            simpa using hv
          refine ⟨lo, hi, hsl, ts ++ [t], ?_, ?_, ?_, Or.inl ?_⟩
          · rw [List.pairwise_append]
            refine ⟨hp, List.pairwise_singleton _ _, ?_⟩
            intro a ha b hbm
            rw [List.mem_singleton] at hbm
            subst hbm
            exact (hb a ha).2
          · intro x hx
            rw [List.mem_append, List.mem_singleton] at hx
            rcases hx with hx | hx
            · exact hb x hx
            · subst hx; exact ⟨lo, Nat.le_refl _⟩
          · rw [reportAt_snoc, hval]; simp [upd, ho]
          · simp [upd]; omega
        case h_2 hv =>
          simp only [Option.some.injEq] at hs
          subst hs
          rw [hsl, List.getElem?_eq_none_iff] at hv
          simp only [List.length_map, List.length_range] at hv
          exact ⟨lo, hi, hsl, ts, hp, hb, ho, Or.inr ⟨by simp [upd], by omega⟩⟩
      · split at hs <;>
        · simp only [Option.some.injEq] at hs
          subst hs
          refine ⟨lo, hi, hsl, ts, hp, hb, ?_, ?_⟩
          · simpa [upd, hrq] using ho
          · simpa [upd, hrq] using hpc

theorem During.run {c : Cfg V} {r t0 : Nat} : ∀ {acts : List Action} {t : Nat} {s s' : State V}, During c r t0 t s →
    run c s acts = some s' → ∃ t', During c r t0 t' s' ∧ ((∀ q, Action.read q ∉ acts) → t' = t)
  | [], t, s, s', h, hr => by
    simp only [RuntimeSnapshot.run, Option.some.injEq] at hr
    subst hr
    exact ⟨t, h, fun _ => rfl⟩
  | a :: as, t, s, s', h, hr => by
    simp only [RuntimeSnapshot.run] at hr
    split at hr
    case h_2 => cases hr
    case h_1 s1 hs1 =>
      obtain ⟨t', h', heq⟩ := During.run (h.step hs1) hr
      refine ⟨t', h', fun hn => ?_⟩
      rw [heq (fun q hq => hn q (List.mem_cons_of_mem _ hq))]
      cases a with
      | read q => exact absurd List.mem_cons_self (hn q)
      | tick => rfl
      | observe q => rfl

theorem During.start {c : Cfg V} {r : Nat} {s s1 : State V} (ho : s.out r = []) (h : RuntimeSnapshot.step c s (.read r) = some s1) :
    During c r s.now s.now s1 := by
  simp only [RuntimeSnapshot.step] at h
  split at h
  case h_2 => cases h
  case h_1 =>
    simp only [Option.some.injEq] at h
    subst h
    exact ⟨Nat.le_refl _, Nat.le_refl _, rfl, [], List.Pairwise.nil, by simp, by simpa [reportAt] using ho, Or.inl ⟨by simp [upd], by simp⟩⟩

/-- A run that has not started has observed nothing, in every reachable state. -/
theorem idle_out {c : Cfg V} {e : V} {acts : List Action} {s : State V} (h : run c (init c e) acts = some s) (r : Nat)
    (hi : s.pc r = .idle) : s.out r = [] := by
  suffices H : ∀ (acts : List Action) (s0 s1 : State V), (∀ q, s0.pc q = .idle → s0.out q = []) → run c s0 acts = some s1 →
      ∀ q, s1.pc q = .idle → s1.out q = [] from H acts _ _ (fun _ _ => rfl) h r hi
  clear h hi
  intro acts
  induction acts with
  | nil => intro s0 s1 h0 hr; simp only [RuntimeSnapshot.run, Option.some.injEq] at hr; subst hr; exact h0
  | cons a as ih =>
    intro s0 s1 h0 hr
    simp only [RuntimeSnapshot.run] at hr
    split at hr
    case h_2 => cases hr
    case h_1 s' hs' =>
      refine ih s' s1 ?_ hr
      intro q hq
      cases a with
      | tick => simp only [RuntimeSnapshot.step, Option.some.injEq] at hs'; subst hs'; exact h0 q hq
      | read p =>
        simp only [RuntimeSnapshot.step] at hs'
        split at hs'
        case h_2 => cases hs'
        case h_1 =>
          simp only [Option.some.injEq] at hs'
          subst hs'
          by_cases hqp : q = p
          · subst hqp; simp [upd] at hq
          · simp only [upd, hqp, if_false] at hq; exact h0 q hq
      | observe p =>
        simp only [RuntimeSnapshot.step] at hs'
        split at hs'
        case h_2 => cases hs'
        case h_1 =>
          by_cases hqp : q = p
          · subst hqp
            split at hs' <;> (simp only [Option.some.injEq] at hs'; subst hs'; simp [upd] at hq)
          · split at hs' <;>
              (simp only [Option.some.injEq] at hs'; subst hs'; simp only [upd, hqp, if_false] at hq ⊢; exact h0 q hq)

/-- C82 (alone). Whatever happened before, when no other run of the callback reads between the read of run `r` and its
end, the run reports every metric with its value at one instant: that of its own read.
Missing: the same when collections overlap, which is false (`C82_mixed_fails`). -/
theorem C82_alone_partial {c : Cfg V} {e : V} {before acts : List Action} {s s1 s2 : State V} {r : Nat}
    (h0 : run c (init c e) before = some s) (h1 : step c s (.read r) = some s1) (h2 : run c s1 acts = some s2)
    (hdone : s2.pc r = .done) (hn : ∀ q, Action.read q ∉ acts) : s2.out r = snapshotAt c s.now := by
  have hidle : s.pc r = .idle := by
    simp only [RuntimeSnapshot.step] at h1
    split at h1
    · assumption
    · cases h1
  obtain ⟨t, hd, ht⟩ := (During.start (idle_out h0 r hidle) h1).run h2
  have ht := ht hn
  subst ht
  obtain ⟨ts, hp, hb, ho, hpc⟩ := hd.out
  rcases hpc with ⟨h, _⟩ | ⟨_, hlen⟩
  · rw [h] at hdone; cases hdone
  · have : ts = List.replicate c.n s.now := by
      rw [List.eq_replicate_iff]
      exact ⟨hlen, fun x hx => Nat.le_antisymm (hb x hx).2 (hb x hx).1⟩
    rw [ho, this]
    apply List.ext_getElem?
    intro i
    by_cases hi : i < c.n
    · simp [reportAt, snapshotAt, hi]
    · simp [reportAt, snapshotAt, hi]

/-- C82 (each value). However runs overlap, a run that returns has reported every metric exactly once and in order, and
the value of each metric is the one it had at some instant no earlier than the run's own read and no later than the end of
the run; going down the list these instants never go back.
Missing: that these instants are all the same one. -/
theorem C82_each_partial {c : Cfg V} {e : V} {before acts : List Action} {s s1 s2 : State V} {r : Nat}
    (h0 : run c (init c e) before = some s) (h1 : step c s (.read r) = some s1) (h2 : run c s1 acts = some s2)
    (hdone : s2.pc r = .done) :
    ∃ ts : List Nat, ts.length = c.n ∧ ts.Pairwise (· ≤ ·) ∧ (∀ t ∈ ts, s.now ≤ t ∧ t ≤ s2.now) ∧ s2.out r = reportAt c ts := by
  have hidle : s.pc r = .idle := by
    simp only [RuntimeSnapshot.step] at h1
    split at h1
    · assumption
    · cases h1
  obtain ⟨t, hd, _⟩ := (During.start (idle_out h0 r hidle) h1).run h2
  obtain ⟨ts, hp, hb, ho, hpc⟩ := hd.out
  rcases hpc with ⟨h, _⟩ | ⟨_, hlen⟩
  · rw [h] at hdone; cases hdone
  · exact ⟨ts, hlen, hp, fun x hx => ⟨(hb x hx).1, Nat.le_trans (hb x hx).2 hd.hi⟩, ho⟩

/-- Two parts of a whole of 10 units: the first grows by one each instant and the second shrinks. -/
def parts : Cfg Nat := { n := 2, world := fun t i => if i = 0 then t else 10 - t }

/-- C82 (overlap). The full claim is false: with two readers collecting at once, one of them can report two parts that at
every instant add up to 10 as 0 and 6, a state the program was never in. -/
theorem C82_mixed_fails :
    (∀ t ≤ 10, parts.world t 0 + parts.world t 1 = 10) ∧
    ∃ (acts : List Action) (s : State Nat), run parts (init parts 0) acts = some s ∧ s.now ≤ 10 ∧ s.pc 0 = .done ∧
      s.out 0 = [(0, 0), (1, 6)] ∧ ∀ t ≤ s.now, s.out 0 ≠ snapshotAt parts t := by
  refine ⟨fun t ht => by simp [parts]; omega, [.read 0, .observe 0, .tick, .tick, .tick, .tick, .read 1, .observe 0, .observe 0], _, rfl, ?_, rfl, rfl, ?_⟩
  · decide
  · intro t ht
    have ht' : t ≤ 4 := ht
    intro h
    have h' : [(0, 0), (1, 6)] = snapshotAt parts t := h
    have e1 : (0 : Nat) = t := by
      have := congrArg (fun l => l.head?) h'
      simpa [snapshotAt, parts, List.range_succ] using this
    subst e1
    revert h'
    decide

/-- Non-trivial case for `C82_alone_partial`: after another reader's run, time passes during the run. -/
example : ∃ s s1 s2 : State Nat, run parts (init parts 0) [.tick, .read 0, .observe 0, .tick] = some s ∧
    step parts s (.read 1) = some s1 ∧ run parts s1 [.observe 0, .observe 1, .tick, .observe 1, .observe 1] = some s2 ∧
    s2.pc 1 = .done ∧ s2.out 1 = [(0, 2), (1, 8)] ∧ snapshotAt parts s.now = [(0, 2), (1, 8)] :=
  ⟨_, _, _, rfl, rfl, rfl, rfl, rfl, rfl⟩

end Verif.Props
