import Verif.Model.Doevery

/-!
C53: rate-limited logging.
-/

namespace Verif.Doevery

/-- The times stored for a site, oldest first. -/
def firings (s : State) (site : Site) : List Nat := (s.log.filter (fun p => p.1 == site)).map (·.2)

/-- Number of times a function of this site was run. -/
def runs (s : State) (site : Site) : Nat := s.ran.countP (fun p => p.1 == some site)

/-- Every call at the site in the execution has a period of at least `d`. -/
def PeriodAtLeast (site : Site) (d : Nat) (evs : List Ev) : Prop := ∀ dur d1 d2, Ev.call site dur d1 d2 ∈ evs → d ≤ dur

/-- The stored time is the last firing, not in the future. -/
structure Inv (s : State) : Prop where
  recent : ∀ site, s.recent site = (firings s site).getLast?
  past : ∀ site t, t ∈ firings s site → t ≤ s.clock

theorem firings_snoc (s : State) (site k t : Nat) (s' : State) (h : s'.log = s.log ++ [(k, t)]) :
    firings s' site = if k = site then firings s site ++ [t] else firings s site := by
  unfold firings
  rw [h, List.filter_append]
  by_cases e : k = site <;> simp [e]

theorem inv_init (c : Nat) : Inv (init c) := ⟨fun _ => rfl, fun _ t h => by simp [firings, init] at h⟩

theorem inv_step (s : State) (e : Ev) (h : Inv s) : Inv (step s e) := by
  cases e with
  | tick n => exact ⟨h.recent, fun site t ht => Nat.le_trans (h.past site t ht) (Nat.le_add_right _ _)⟩
  | callUnknown => exact ⟨h.recent, h.past⟩
  | run k =>
    simp only [step]
    split
    · exact h
    · exact ⟨h.recent, h.past⟩
  | call site dur d1 d2 =>
    simp only [step, enter]
    split
    · refine ⟨fun k => ?_, fun k t ht => ?_⟩
      · rw [firings_snoc s k site _ _ rfl]
        dsimp only
        by_cases hk : k = site
        · rw [if_pos hk, if_pos hk.symm, List.getLast?_concat]
        · rw [if_neg hk, if_neg (fun e => hk e.symm)]; exact h.recent k
      · rw [firings_snoc s k site _ _ rfl] at ht
        dsimp only
        by_cases hk : site = k
        · rw [if_pos hk] at ht
          rcases List.mem_append.1 ht with ht | ht
          · have := h.past k t ht; omega
          · rw [List.mem_singleton] at ht; omega
        · rw [if_neg hk] at ht
          have := h.past k t ht; omega
    · exact ⟨h.recent, fun k t ht => Nat.le_trans (h.past k t ht) (Nat.le_add_right _ _)⟩

theorem exec_snoc (s : State) (evs : List Ev) (e : Ev) : exec s (evs ++ [e]) = step (exec s evs) e := by
  unfold exec; rw [List.foldl_append]; rfl

theorem exec_append (s : State) (a b : List Ev) : exec s (a ++ b) = exec (exec s a) b := by
  unfold exec; rw [List.foldl_append]

theorem inv_exec (s : State) (evs : List Ev) (h : Inv s) : Inv (exec s evs) := by
  induction evs generalizing s with
  | nil => exact h
  | cons e rest ih => exact ih _ (inv_step s e h)

/-- Firings of a call: what one call adds. -/
theorem call_firings (s : State) (site dur d1 d2 : Nat) :
    (invoking (s.recent site) (s.clock + d1) dur = true ∧ firings (step s (.call site dur d1 d2)) site = firings s site ++ [s.clock + d1 + d2]) ∨
    (invoking (s.recent site) (s.clock + d1) dur = false ∧ firings (step s (.call site dur d1 d2)) site = firings s site) := by
  simp only [step, enter]
  cases hi : invoking (s.recent site) (s.clock + d1) dur with
  | true => exact Or.inl ⟨rfl, by rw [if_pos rfl, firings_snoc s site site _ _ rfl, if_pos rfl]⟩
  | false => exact Or.inr ⟨rfl, rfl⟩

/-- C53 (part). The decisions to invoke at one call site, at the times recorded by the program, are more than the period apart. (The function runs after
the lock is released, see `C53_run_times_fails`.) -/
theorem C53_apart_partial (c : Nat) (evs : List Ev) (site : Site) (d : Nat) (hd : PeriodAtLeast site d evs) :
    (firings (exec (init c) evs) site).Pairwise (fun a b => b > a + d) := by
  have main : ∀ (evs : List Ev) (s : State), Inv s → PeriodAtLeast site d evs → (firings s site).Pairwise (fun a b => b > a + d) →
      (firings (exec s evs) site).Pairwise (fun a b => b > a + d) := by
    intro evs
    induction evs with
    | nil => intro s _ _ h; exact h
    | cons e rest ih =>
      intro s hinv hp h
      refine ih (step s e) (inv_step s e hinv) (fun dur d1 d2 hm => hp dur d1 d2 (List.mem_cons_of_mem _ hm)) ?_
      cases e with
      | tick n => exact h
      | callUnknown => exact h
      | run k =>
        simp only [step]
        split <;> exact h
      | call k dur d1 d2 =>
        by_cases hk : k = site
        · subst hk
          have hdur := hp dur d1 d2 (by simp)
          rcases call_firings s k dur d1 d2 with ⟨h1, h2⟩ | ⟨-, h2⟩
          · rw [h2, List.pairwise_append]
            refine ⟨h, List.pairwise_singleton _ _, fun a ha b hb => ?_⟩
            rw [List.mem_singleton] at hb
            subst hb
            rw [hinv.recent k] at h1
            -- the last firing is at least `a`
            cases hl : (firings s k).getLast? with
            | none => rw [List.getLast?_eq_none_iff] at hl; rw [hl] at ha; cases ha
            | some p =>
              rw [hl] at h1
              simp only [invoking, decide_eq_true_eq] at h1
              have hle : a ≤ p := by
                obtain ⟨l, hl'⟩ := List.getLast?_eq_some_iff.1 hl
                rw [hl'] at ha h
                rcases List.mem_append.1 ha with ha | ha
                · have := (List.pairwise_append.1 h).2.2 a ha p (by simp)
                  omega
                · rw [List.mem_singleton] at ha; omega
              omega
          · rw [h2]; exact h
        · have : firings (step s (.call k dur d1 d2)) site = firings s site := by
            simp only [step, enter]
            split
            · rw [firings_snoc s site k _ _ rfl, if_neg hk]
            · rfl
          rw [this]; exact h
  exact main evs (init c) (inv_init c) hd List.Pairwise.nil

/-- C53. The first call at a site fires; and a call more than its period after the last firing fires. -/
theorem C53_fires (c : Nat) (evs : List Ev) (site : Site) (dur d1 d2 : Nat) :
    let s := exec (init c) evs
    (∀ t ∈ firings s site, s.clock > t + dur) → firings (exec (init c) (evs ++ [.call site dur d1 d2])) site = firings s site ++ [s.clock + d1 + d2] := by
  intro s h
  have hinv : Inv s := inv_exec _ _ (inv_init c)
  rw [exec_snoc]
  rcases call_firings s site dur d1 d2 with ⟨-, h2⟩ | ⟨h1, -⟩
  · exact h2
  · exfalso
    rw [hinv.recent site] at h1
    cases hl : (firings s site).getLast? with
    | none => rw [hl] at h1; cases h1
    | some p =>
      rw [hl] at h1
      simp only [invoking, decide_eq_false_iff_not] at h1
      have := h p (List.mem_of_getLast? hl)
      omega

/-- C53. A call within the period of the last firing does not fire. -/
theorem C53_limited (c : Nat) (evs : List Ev) (site : Site) (dur d1 d2 t : Nat)
    (ht : t ∈ firings (exec (init c) evs) site) (h : (exec (init c) evs).clock + d1 ≤ t + dur) :
    firings (exec (init c) (evs ++ [.call site dur d1 d2])) site = firings (exec (init c) evs) site := by
  have hinv : Inv (exec (init c) evs) := inv_exec _ _ (inv_init c)
  rw [exec_snoc]
  rcases call_firings (exec (init c) evs) site dur d1 d2 with ⟨h1, -⟩ | ⟨-, h2⟩
  · exfalso
    rw [hinv.recent site] at h1
    have hs := C53_apart_partial c evs site 0 (fun _ _ _ _ => Nat.zero_le _)
    cases hl : (firings (exec (init c) evs) site).getLast? with
    | none => rw [List.getLast?_eq_none_iff] at hl; rw [hl] at ht; cases ht
    | some p =>
      rw [hl] at h1
      simp only [invoking, decide_eq_true_eq] at h1
      obtain ⟨l, hl'⟩ := List.getLast?_eq_some_iff.1 hl
      rw [hl'] at ht hs
      rcases List.mem_append.1 ht with ht | ht
      · have := (List.pairwise_append.1 hs).2.2 t ht p (by simp)
        omega
      · rw [List.mem_singleton] at ht; omega
  · exact h2

/-- The calls at other sites replaced by the time they took. -/
def alone (site : Site) (s : State) : Ev → Ev
  | .call k dur d1 d2 => if k = site then .call k dur d1 d2 else .tick ((enter s k dur d1 d2).clock - s.clock)
  | e => e

/-- An execution with the calls at other sites replaced by the time they took. -/
def aloneAll (site : Site) (s : State) : List Ev → List Ev
  | [] => []
  | e :: rest => alone site s e :: aloneAll site (step s e) rest

/-- C53. Call sites do not affect each other: the firings at a site are the same when the calls at other sites do nothing but take time. -/
theorem C53_independent (c : Nat) (evs : List Ev) (site : Site) :
    firings (exec (init c) (aloneAll site (init c) evs)) site = firings (exec (init c) evs) site := by
  have main : ∀ (evs : List Ev) (s s' : State), s.clock = s'.clock → s.recent site = s'.recent site → firings s site = firings s' site →
      firings (exec s' (aloneAll site s evs)) site = firings (exec s evs) site := by
    intro evs
    induction evs with
    | nil => intro s s' _ _ h; exact h.symm
    | cons e rest ih =>
      intro s s' hc hr hf
      have key : (step s e).clock = (step s' (alone site s e)).clock ∧ (step s e).recent site = (step s' (alone site s e)).recent site ∧
          firings (step s e) site = firings (step s' (alone site s e)) site := by
        cases e with
        | tick n => exact ⟨by simp [step, alone, hc], hr, hf⟩
        | callUnknown => exact ⟨hc, hr, hf⟩
        | run k =>
          have : ∀ x : State, (step x (.run k)).clock = x.clock ∧ (step x (.run k)).recent = x.recent ∧ (step x (.run k)).log = x.log := by
            intro x
            simp only [step]
            split <;> exact ⟨rfl, rfl, rfl⟩
          obtain ⟨a1, a2, a3⟩ := this s
          obtain ⟨b1, b2, b3⟩ := this s'
          refine ⟨a1.trans (hc.trans b1.symm), ?_, ?_⟩
          · rw [show alone site s (.run k) = .run k from rfl, a2, b2]; exact hr
          · rw [show alone site s (.run k) = .run k from rfl]
            unfold firings at hf ⊢
            rw [a3, b3]; exact hf
        | call k dur d1 d2 =>
          by_cases hk : k = site
          · subst hk
            rw [show alone k s (.call k dur d1 d2) = .call k dur d1 d2 from if_pos rfl]
            simp only [step, enter]
            rw [← hr, ← hc]
            cases invoking (s.recent k) (s.clock + d1) dur with
            | true =>
              rw [if_pos rfl, if_pos rfl]
              refine ⟨rfl, by dsimp only; rw [if_pos rfl, if_pos rfl], ?_⟩
              refine (firings_snoc s k k _ _ rfl).trans (Eq.trans ?_ (firings_snoc s' k k (s.clock + d1 + d2) _ rfl).symm)
              rw [if_pos rfl, if_pos rfl, hf]
            | false => exact ⟨rfl, hr, hf⟩
          · rw [show alone site s (.call k dur d1 d2) = .tick ((enter s k dur d1 d2).clock - s.clock) from if_neg hk]
            simp only [step]
            have hle : s.clock ≤ (enter s k dur d1 d2).clock := by
              unfold enter; split <;> dsimp only <;> omega
            refine ⟨by omega, ?_, ?_⟩
            · rw [← hr]
              unfold enter
              split
              · exact if_neg (fun e => hk e.symm)
              · rfl
            · refine Eq.trans ?_ hf
              unfold enter
              split
              · rw [firings_snoc s site k _ _ rfl, if_neg hk]
              · rfl
      exact ih (step s e) (step s' (alone site s e)) key.1 key.2.1 key.2.2
  exact main evs (init c) (init c) rfl rfl rfl

/-- C53. Each firing runs its function at most once, and exactly once when no call is left between deciding and running. -/
theorem C53_runs (c : Nat) (evs : List Ev) (site : Site) :
    runs (exec (init c) evs) site + (exec (init c) evs).pending.count (some site) = (firings (exec (init c) evs) site).length := by
  have main : ∀ (evs : List Ev) (s : State), runs s site + s.pending.count (some site) = (firings s site).length →
      runs (exec s evs) site + (exec s evs).pending.count (some site) = (firings (exec s evs) site).length := by
    intro evs
    induction evs with
    | nil => intro s h; exact h
    | cons e rest ih =>
      intro s h
      refine ih (step s e) ?_
      cases e with
      | tick n => exact h
      | callUnknown =>
        simp only [step]
        rw [List.count_append, show List.count (some site) [none] = 0 from rfl]
        exact h
      | run k =>
        simp only [step]
        split
        · exact h
        · rename_i x hx
          have hk : k < s.pending.length := (List.getElem?_eq_some_iff.1 hx).1
          have hx' : s.pending[k] = x := (List.getElem?_eq_some_iff.1 hx).2
          unfold runs firings at h ⊢
          dsimp only
          have hcount : s.pending.count (some site) = (s.pending.eraseIdx k).count (some site) + if x == some site then 1 else 0 := by
            rw [List.eraseIdx_eq_take_drop_succ]
            conv => lhs; rw [← List.take_append_drop k s.pending, List.drop_eq_getElem_cons hk]
            rw [List.count_append, List.count_append, List.count_cons, hx']
            omega
          rw [List.countP_append, List.countP_singleton, ← h]
          dsimp only
          omega
      | call k dur d1 d2 =>
        simp only [step, enter]
        split
        · rw [firings_snoc s site k _ _ rfl, List.count_append, List.count_singleton]
          unfold runs at h ⊢
          dsimp only
          by_cases hk : k = site
          · rw [if_pos hk, if_pos (by simp [hk]), List.length_append, ← h]; simp; omega
          · rw [if_neg hk, if_neg (by simp [hk])]; exact h
        · exact h
  exact main evs (init c) rfl

/-- C53 fails for the times at which the functions run: two calls of a site decided 11 apart with a period of 10 can run at the same time, because the
first has been delayed between deciding and running. -/
theorem C53_run_times_fails : ∃ evs, PeriodAtLeast 0 10 evs ∧ (exec (init 0) evs).ran = [(some 0, 11), (some 0, 11)] := by
  refine ⟨[.call 0 10 0 0, .tick 11, .call 0 10 0 0, .run 0, .run 0], ?_, by decide +kernel⟩
  intro dur d1 d2 h
  simp at h
  omega

/-- Two sites with calls in between: site 0 fires at 0 and 12, site 1 at 3. -/
example : firings (exec (init 0) [.call 0 10 0 0, .run 0, .tick 3, .call 1 10 0 0, .tick 7, .call 0 10 0 0, .tick 2, .call 0 10 0 0]) 0 = [0, 12] ∧
    firings (exec (init 0) [.call 0 10 0 0, .run 0, .tick 3, .call 1 10 0 0, .tick 7, .call 0 10 0 0, .tick 2, .call 0 10 0 0]) 1 = [3] := by
  decide +kernel

end Verif.Doevery
