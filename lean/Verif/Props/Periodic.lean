import Verif.Model.Periodic

/-!
C38: the periodic reader's exports, for all interleavings.
-/

namespace Verif.Periodic

/-! ### Specification -/

/-- What a thread has done so far. -/
def eventsOf (log : List (Nat × What)) (t : Nat) : List What := (log.filter (fun e => e.1 = t)).map (·.2)
def events (s : State) (t : Nat) : List What := eventsOf s.log t

/-- How often the loop has called the exporter. -/
def tickExports (s : State) : Nat := (events s 0).count (.export .tick)

/-- A call has returned. -/
def Returned (s : State) (t : Nat) (k : Kind) : Prop := s.threads[t]? = some ⟨k, .done⟩

/-- A whole visit to the exporter: collect, hand over, return. -/
def visit (t : Nat) (k : Kind) : List (Nat × What) := [(t, .collect), (t, .export k), (t, .returned)]

/-! ### Invariants -/

/-- The events of the visit in progress. -/
def partialVisit (t : Nat) (k : Kind) : Crit → List (Nat × What)
  | .locked => []
  | .produced => [(t, .collect)]
  | .exporting => [(t, .collect), (t, .export k)]

/-- The events of a call by where it is. -/
def callEvents (k : Kind) : Pos → List What
  | .crit .produced => [.collect]
  | .crit .exporting => [.collect, .export k]
  | .done => [.collect, .export k, .returned]
  | _ => []

/-- Past waiting for the loop. -/
def Pos.late : Pos → Bool
  | .wait | .crit _ | .done => true
  | _ => false

structure Inv (s : State) : Prop where
  /-- Thread 0 is the loop, the others are calls. -/
  loop : ∃ p, s.threads[0]? = some ⟨.tick, p⟩ ∧ p ≠ .start ∧ p ≠ .stopped
  calls : ∀ (t : Nat) (th : Thread), s.threads[t]? = some th → t ≠ 0 → th.kind ≠ .tick ∧ th.pos ≠ .idle
  /-- Who has the lock is inside. -/
  lock : ∀ t, s.lock = some t ↔ ∃ th c, s.threads[t]? = some th ∧ th.pos = .crit c
  /-- A shutdown call past waiting for the loop. -/
  late : ∀ (t : Nat) (th : Thread), s.threads[t]? = some th → th.kind = .shutdown → th.pos.late = true → loopDone s = true
  /-- A shutdown call past the stop, and a loop that ended. -/
  stop : ∀ (t : Nat) (th : Thread), s.threads[t]? = some th → (th.kind = .shutdown ∧ th.pos ≠ .start) ∨ th.pos = .stopped → s.cancelled = true
  quit : loopDone s = true → s.cancelled = true
  /-- The events of calls. -/
  ev : ∀ (t : Nat) (th : Thread), s.threads[t]? = some th → t ≠ 0 → events s t = callEvents th.kind th.pos
  noEv : ∀ t, s.threads.length ≤ t → events s t = []

/-- The events of the visit in progress. -/
def State.tail (s : State) : List (Nat × What) :=
  match s.lock with
  | none => []
  | some t => match s.threads[t]? with
    | some ⟨k, .crit c⟩ => partialVisit t k c
    | _ => []

/-- The whole log: whole visits, then the one in progress. -/
def Serial (s : State) : Prop := ∃ vs : List (Nat × Kind), s.log = vs.flatMap (fun v => visit v.1 v.2) ++ s.tail

/-- Events of a shutdown call come after all of the loop's. -/
def After (s : State) : Prop :=
  ∀ (t : Nat) (p : Pos), s.threads[t]? = some ⟨.shutdown, p⟩ → ∀ (i j : Nat) (w w' : What), s.log[i]? = some (t, w) → s.log[j]? = some (0, w') → j < i

/-- A tick taken by the loop is on the way to the exporter. -/
def Pos.flight : Pos → Nat
  | .wait => 1
  | .crit .locked => 1
  | .crit .produced => 1
  | _ => 0

def inFlight (s : State) : Nat := ((s.threads[0]?).map (fun th => th.pos.flight)).getD 0

def Count (s : State) : Prop := s.ticks = s.dropped + tickExports s + (if s.chan then 1 else 0) + inFlight s

/-! ### Preservation -/

theorem get_set {s : State} {t : Nat} {th th' : Thread} (h : s.threads[t]? = some th) (u : Nat) :
    (s.threads.set t th')[u]? = if u = t then some th' else s.threads[u]? := by
  rw [List.getElem?_set]
  by_cases e : t = u
  · subst e; rw [if_pos rfl, if_pos (List.getElem?_eq_some_iff.1 h).1, if_pos rfl]
  · rw [if_neg e, if_neg (fun e' => e e'.symm)]

theorem events_snoc (l : List (Nat × What)) (u t : Nat) (w : What) :
    eventsOf (l ++ [(t, w)]) u = eventsOf l u ++ if t = u then [w] else [] := by
  unfold eventsOf
  rw [List.filter_append, List.map_append]
  by_cases h : t = u <;> simp [h]

theorem inv_new : Inv new := by
  refine ⟨⟨.idle, rfl, by simp, by simp⟩, ?_, ?_, ?_, ?_, ?_, ?_, ?_⟩
  · intro t th h ht
    cases t with
    | zero => exact absurd rfl ht
    | succ t => cases h
  · intro t
    constructor
    · intro h; cases h
    · rintro ⟨th, c, h, hc⟩
      cases t with
      | zero => cases h; cases hc
      | succ t => cases h
  · intro t th h hk
    cases t with
    | zero => cases h; cases hk
    | succ t => cases h
  · intro t th h hk
    cases t with
    | zero => cases h; simp at hk
    | succ t => cases h
  · intro h; cases h
  · intro t th h ht
    cases t with
    | zero => exact absurd rfl ht
    | succ t => cases h
  · intro t _; rfl

theorem loopDone_iff (s : State) : loopDone s = true ↔ ∃ th, s.threads[0]? = some th ∧ th.pos = .done := by
  unfold loopDone
  cases h : s.threads[0]? with
  | none => simp
  | some th => simp

/-- A thread moves and may log one event; the rest as the new position demands. -/
theorem inv_move {s s' : State} (h : Inv s) {t : Nat} {th : Thread} (ht : s.threads[t]? = some th) (p : Pos)
    (hthreads : s'.threads = s.threads.set t { th with pos := p })
    (hlog : s'.log = s.log ∨ ∃ w, s'.log = s.log ++ [(t, w)])
    (hcan : s.cancelled = true → s'.cancelled = true)
    (hloop : t = 0 → p ≠ .start ∧ p ≠ .stopped)
    (hcall : t ≠ 0 → p ≠ .idle)
    (hlock : ∀ u, s'.lock = some u ↔ if u = t then ∃ c, p = .crit c else s.lock = some u)
    (hdone : t = 0 → th.pos = .done → p = .done)
    (hlate : th.kind = .shutdown → p.late = true → loopDone s' = true)
    (hstop : (th.kind = .shutdown ∧ p ≠ .start) ∨ p = .stopped → s'.cancelled = true)
    (hquit : t = 0 → p = .done → s'.cancelled = true)
    (hev : t ≠ 0 → events s' t = callEvents th.kind p) : Inv s' := by
  have hget : ∀ u, s'.threads[u]? = if u = t then some { th with pos := p } else s.threads[u]? := fun u => by rw [hthreads]; exact get_set ht u
  have hevs : ∀ u, u ≠ t → events s' u = events s u := by
    intro u hu
    unfold events
    rcases hlog with e | ⟨w, e⟩
    · rw [e]
    · rw [e, events_snoc, if_neg (fun e => hu e.symm), List.append_nil]
  have hld : loopDone s = true → loopDone s' = true := by
    rw [loopDone_iff, loopDone_iff]
    rintro ⟨th0, h0, hd⟩
    rw [hget]
    by_cases e : 0 = t
    · subst e
      rw [if_pos rfl]
      rw [ht] at h0; cases h0
      exact ⟨_, rfl, hdone rfl hd⟩
    · rw [if_neg e]; exact ⟨th0, h0, hd⟩
  refine ⟨?_, ?_, ?_, ?_, ?_, ?_, ?_, ?_⟩
  · obtain ⟨p0, h0, h1, h2⟩ := h.loop
    rw [hget]
    by_cases e : 0 = t
    · subst e
      rw [if_pos rfl]
      rw [ht] at h0; cases h0
      exact ⟨p, rfl, (hloop rfl).1, (hloop rfl).2⟩
    · rw [if_neg e]; exact ⟨p0, h0, h1, h2⟩
  · intro u thu hu hu0
    rw [hget] at hu
    by_cases e : u = t
    · subst e
      rw [if_pos rfl] at hu; cases hu
      exact ⟨(h.calls u th ht hu0).1, hcall hu0⟩
    · rw [if_neg e] at hu; exact h.calls u thu hu hu0
  · intro u
    rw [hlock, hget]
    by_cases e : u = t
    · subst e
      rw [if_pos rfl, if_pos rfl]
      constructor
      · rintro ⟨c, hc⟩; exact ⟨_, c, rfl, hc⟩
      · rintro ⟨_, c, hh, hc⟩; cases hh; exact ⟨c, hc⟩
    · rw [if_neg e, if_neg e]; exact h.lock u
  · intro u thu hu hk hl
    rw [hget] at hu
    by_cases e : u = t
    · subst e
      rw [if_pos rfl] at hu; cases hu
      exact hlate hk hl
    · rw [if_neg e] at hu; exact hld (h.late u thu hu hk hl)
  · intro u thu hu hk
    rw [hget] at hu
    by_cases e : u = t
    · subst e
      rw [if_pos rfl] at hu; cases hu
      exact hstop hk
    · rw [if_neg e] at hu; exact hcan (h.stop u thu hu hk)
  · intro hd
    rw [loopDone_iff] at hd
    obtain ⟨th0, h0, hd⟩ := hd
    rw [hget] at h0
    by_cases e : 0 = t
    · subst e
      rw [if_pos rfl] at h0; cases h0
      exact hquit rfl hd
    · rw [if_neg e] at h0; exact hcan (h.quit ((loopDone_iff s).2 ⟨th0, h0, hd⟩))
  · intro u thu hu hu0
    rw [hget] at hu
    by_cases e : u = t
    · subst e
      rw [if_pos rfl] at hu; cases hu
      exact hev hu0
    · rw [if_neg e] at hu; rw [hevs u e]; exact h.ev u thu hu hu0
  · intro u hu
    rw [hthreads, List.length_set] at hu
    have := (List.getElem?_eq_some_iff.1 ht).1
    rw [hevs u (by omega)]
    exact h.noEv u hu

theorem lock_unchanged {s : State} (h : Inv s) {t : Nat} {th : Thread} (ht : s.threads[t]? = some th) (hc : ∀ c, th.pos ≠ .crit c)
    {p : Pos} (hp : ∀ c, p ≠ .crit c) (u : Nat) : s.lock = some u ↔ if u = t then ∃ c, p = .crit c else s.lock = some u := by
  by_cases e : u = t
  · subst e
    rw [if_pos rfl, h.lock u]
    constructor
    · rintro ⟨th', c, h', hc'⟩
      rw [ht] at h'; cases h'
      exact absurd hc' (hc c)
    · rintro ⟨c, hc'⟩; exact absurd hc' (hp c)
  · rw [if_neg e]

/-- Only one thread is inside. -/
theorem lock_inside {s : State} (h : Inv s) {t : Nat} {th : Thread} {c : Crit} (ht : s.threads[t]? = some th) (hc : th.pos = .crit c) :
    s.lock = some t := (h.lock t).2 ⟨th, c, ht, hc⟩

theorem loopDone_keep {s s' : State} (h : Inv s) {t : Nat} {th : Thread} {p : Pos} (ht : s.threads[t]? = some th) (hk : th.kind = .shutdown)
    (hd : loopDone s = true) (hs : s'.threads = s.threads.set t { th with pos := p }) : loopDone s' = true := by
  have h0 : 0 ≠ t := by
    rintro rfl
    obtain ⟨p, h0, -⟩ := h.loop
    rw [ht] at h0; cases h0; cases hk
  rw [loopDone_iff] at hd ⊢
  obtain ⟨th0, h1, h2⟩ := hd
  exact ⟨th0, by rw [hs, get_set ht, if_neg h0]; exact h1, h2⟩

/-- A new call. -/
theorem inv_call {s : State} (h : Inv s) {th : Thread} (hth : th = ⟨.shutdown, .start⟩ ∨ th = ⟨.flush, .wait⟩) :
    Inv { s with threads := s.threads ++ [th] } := by
  obtain ⟨p, hp, hp'⟩ := h.loop
  have hlen : 0 < s.threads.length := (List.getElem?_eq_some_iff.1 hp).1
  have hget : ∀ (u : Nat) (thu : Thread), (s.threads ++ [th])[u]? = some thu → s.threads[u]? = some thu ∨ (u = s.threads.length ∧ thu = th) := by
    intro u thu hu
    rw [List.getElem?_append] at hu
    by_cases hlt : u < s.threads.length
    · rw [if_pos hlt] at hu; exact Or.inl hu
    · rw [if_neg hlt] at hu
      by_cases hz : u - s.threads.length = 0
      · rw [hz] at hu; cases hu; exact Or.inr ⟨by omega, rfl⟩
      · rw [List.getElem?_eq_none (by simp; omega)] at hu; cases hu
  have hold : ∀ (u : Nat) (thu : Thread), s.threads[u]? = some thu → (s.threads ++ [th])[u]? = some thu := by
    intro u thu hu
    rw [List.getElem?_append, if_pos (List.getElem?_eq_some_iff.1 hu).1]; exact hu
  have hld : loopDone { s with threads := s.threads ++ [th] } = loopDone s := by
    unfold loopDone
    simp only [hold 0 _ hp, hp]
  refine ⟨⟨p, hold 0 _ hp, hp'⟩, ?_, ?_, ?_, ?_, ?_, ?_, ?_⟩
  · intro t th' ht h0
    rcases hget t th' ht with ht | ⟨-, rfl⟩
    · exact h.calls t th' ht h0
    · rcases hth with rfl | rfl <;> simp
  · intro t
    show s.lock = some t ↔ _
    rw [h.lock t]
    constructor
    · rintro ⟨th', c, h1, h2⟩; exact ⟨th', c, hold t th' h1, h2⟩
    · rintro ⟨th', c, h1, h2⟩
      rcases hget t th' h1 with h1 | ⟨-, rfl⟩
      · exact ⟨th', c, h1, h2⟩
      · rcases hth with rfl | rfl <;> cases h2
  · intro t th' ht hk hl
    rw [hld]
    rcases hget t th' ht with ht | ⟨-, rfl⟩
    · exact h.late t th' ht hk hl
    · rcases hth with rfl | rfl
      · cases hl
      · cases hk
  · intro t th' ht hk
    rcases hget t th' ht with ht | ⟨-, rfl⟩
    · exact h.stop t th' ht hk
    · rcases hth with rfl | rfl
      · rcases hk with hk | hk
        · exact absurd rfl hk.2
        · cases hk
      · rcases hk with hk | hk
        · cases hk.1
        · cases hk
  · rw [hld]; exact h.quit
  · intro t th' ht h0
    rcases hget t th' ht with ht | ⟨e, rfl⟩
    · exact h.ev t th' ht h0
    · show events s t = _
      rw [h.noEv t (by omega)]
      rcases hth with rfl | rfl <;> rfl
  · intro t ht
    dsimp only at ht
    rw [List.length_append] at ht
    exact h.noEv t (by omega)

theorem step_inv {s : State} (h : Inv s) (a : Act) : Inv (step s a) := by
  cases a with
  | tick => exact ⟨h.loop, h.calls, h.lock, h.late, h.stop, h.quit, h.ev, h.noEv⟩
  | callShutdown => exact inv_call h (Or.inl rfl)
  | callFlush => exact inv_call h (Or.inr rfl)
  | go t quit =>
    simp only [step]
    cases ht : s.threads[t]? with
    | none => exact h
    | some th =>
      dsimp only
      have hkind : t ≠ 0 → th.kind ≠ .tick ∧ th.pos ≠ .idle := fun h0 => h.calls t th ht h0
      have hloop : t = 0 → th.kind = .tick ∧ th.pos ≠ .start ∧ th.pos ≠ .stopped := by
        rintro rfl
        obtain ⟨p, h0, h1, h2⟩ := h.loop
        rw [ht] at h0; cases h0
        exact ⟨rfl, h1, h2⟩
      unfold advance
      cases hp : th.pos with
      | idle =>
        have h0 : t = 0 := by
          by_cases e : t = 0
          · exact e
          · exact absurd hp (hkind e).2
        dsimp only
        unfold select
        have hk := (hloop h0).1
        cases quit with
        | true =>
          rw [if_pos rfl]
          by_cases hcn : s.cancelled = true
          · rw [if_pos hcn]
            exact inv_move h ht .done rfl (Or.inl rfl) id (fun _ => ⟨by simp, by simp⟩) (fun e => absurd h0 e)
              (lock_unchanged h ht (by simp [hp]) (by simp)) (fun _ _ => rfl) (fun e => by rw [hk] at e; cases e) (fun e => by rw [hk] at e; simp at e)
              (fun _ _ => hcn) (fun e => absurd h0 e)
          · rw [if_neg hcn]; exact h
        | false =>
          rw [if_neg (by simp)]
          by_cases hch : s.chan = true
          · rw [if_pos hch]
            exact inv_move h ht .wait rfl (Or.inl rfl) id (fun _ => ⟨by simp, by simp⟩) (fun e => absurd h0 e)
              (lock_unchanged h ht (by simp [hp]) (by simp)) (fun _ e => by rw [hp] at e; cases e) (fun e => by rw [hk] at e; cases e)
              (fun e => by rw [hk] at e; simp at e) (fun _ e => by cases e) (fun e => absurd h0 e)
          · rw [if_neg hch]; exact h
      | start =>
        have h0 : t ≠ 0 := fun e => (hloop e).2.1 hp
        exact inv_move h ht .stopped rfl (Or.inl rfl) (fun _ => rfl) (fun e => absurd e h0) (fun _ => by simp)
          (lock_unchanged h ht (by simp [hp]) (by simp)) (fun e => absurd e h0) (fun _ e => by cases e) (fun _ => rfl) (fun e => absurd e h0)
          (fun _ => by have := h.ev t th ht h0; rw [hp] at this; exact this)
      | stopped =>
        have h0 : t ≠ 0 := fun e => (hloop e).2.2 hp
        dsimp only
        by_cases hd : loopDone s = true
        · rw [if_pos hd]
          refine inv_move h ht .wait rfl (Or.inl rfl) id (fun e => absurd e h0) (fun _ => by simp)
            (lock_unchanged h ht (by simp [hp]) (by simp)) (fun e => absurd e h0) (fun _ _ => ?_) (fun _ => ?_) (fun e => absurd e h0)
            (fun _ => by have := h.ev t th ht h0; rw [hp] at this; exact this)
          · rw [loopDone_iff] at hd ⊢
            obtain ⟨th0, h1, h2⟩ := hd
            exact ⟨th0, by show (s.threads.set t _)[0]? = _; rw [get_set ht, if_neg (fun e => h0 e.symm)]; exact h1, h2⟩
          · exact h.stop t th ht (Or.inr hp)
        · rw [if_neg hd]; exact h
      | wait =>
        dsimp only
        by_cases hl : s.lock = none
        · rw [if_pos hl]
          refine inv_move h ht (.crit .locked) rfl (Or.inl rfl) id (fun _ => by simp) (fun _ => by simp) (fun u => ?_)
            (fun _ e => by rw [hp] at e; cases e) (fun hk _ => ?_) (fun hk => h.stop t th ht (Or.inl ⟨by simpa using hk, by rw [hp]; simp⟩))
            (fun _ e => by cases e) (fun h0 => by have := h.ev t th ht h0; rw [hp] at this; exact this)
          · show some t = some u ↔ _
            by_cases e : u = t
            · subst e; simp
            · rw [if_neg e, hl]; simpa using fun e' : t = u => e e'.symm
          · have hd := h.late t th ht hk (by rw [hp]; rfl)
            exact loopDone_keep h ht hk hd rfl
        · rw [if_neg hl]; exact h
      | crit c =>
        have hl := lock_inside h ht hp
        have hlate : th.kind = .shutdown → loopDone s = true := fun hk => h.late t th ht hk (by rw [hp]; rfl)
        have hstop : th.kind = .shutdown → s.cancelled = true := fun hk => h.stop t th ht (Or.inl ⟨hk, by rw [hp]; simp⟩)
        have hev := fun h0 => h.ev t th ht h0
        rw [hp] at hev
        cases c with
        | locked =>
          refine inv_move h ht (.crit .produced) rfl (Or.inr ⟨_, rfl⟩) id (fun _ => by simp) (fun _ => by simp) (fun u => ?_)
            (fun _ e => by rw [hp] at e; cases e) (fun hk _ => loopDone_keep h ht hk (hlate hk) rfl) (fun hk => hstop (by rcases hk with hk | hk; exact hk.1; exact absurd hk (by first | simp | (by_cases hkt : th.kind = .tick <;> simp [hkt])))) (fun _ e => by cases e) (fun h0 => ?_)
          · show s.lock = some u ↔ _
            rw [hl]
            by_cases e : u = t
            · subst e; simp
            · rw [if_neg e]
          · have := hev h0
            unfold events at this ⊢
            refine (events_snoc s.log t t .collect).trans ?_
            rw [this, if_pos rfl]; rfl
        | produced =>
          refine inv_move h ht (.crit .exporting) rfl (Or.inr ⟨_, rfl⟩) id (fun _ => by simp) (fun _ => by simp) (fun u => ?_)
            (fun _ e => by rw [hp] at e; cases e) (fun hk _ => loopDone_keep h ht hk (hlate hk) rfl) (fun hk => hstop (by rcases hk with hk | hk; exact hk.1; exact absurd hk (by first | simp | (by_cases hkt : th.kind = .tick <;> simp [hkt])))) (fun _ e => by cases e) (fun h0 => ?_)
          · show s.lock = some u ↔ _
            rw [hl]
            by_cases e : u = t
            · subst e; simp
            · rw [if_neg e]
          · have := hev h0
            unfold events at this ⊢
            refine (events_snoc s.log t t (.export th.kind)).trans ?_
            rw [this, if_pos rfl]; rfl
        | exporting =>
          refine inv_move h ht (if th.kind = .tick then .idle else .done) rfl (Or.inr ⟨_, rfl⟩) id (fun e => ?_) (fun h0 => ?_) (fun u => ?_)
            (fun _ e => by rw [hp] at e; cases e) (fun hk _ => loopDone_keep h ht hk (hlate hk) rfl) (fun hk => hstop (by rcases hk with hk | hk; exact hk.1; exact absurd hk (by first | simp | (by_cases hkt : th.kind = .tick <;> simp [hkt])))) (fun e e' => ?_) (fun h0 => ?_)
          · rw [if_pos (hloop e).1]; simp
          · rw [if_neg (hkind h0).1]; simp
          · show none = some u ↔ _
            by_cases e : u = t
            · subst e
              rw [if_pos rfl]
              by_cases hk : th.kind = .tick <;> simp [hk]
            · rw [if_neg e, hl]
              simpa using fun e' : t = u => e e'.symm
          · rw [if_pos (hloop e).1] at e'; cases e'
          · rw [if_neg (hkind h0).1]
            have := hev h0
            unfold events at this ⊢
            refine (events_snoc s.log t t .returned).trans ?_
            rw [this, if_pos rfl]; rfl
      | done => exact h

theorem tail_some {s : State} {t : Nat} {k : Kind} {c : Crit} (hl : s.lock = some t) (ht : s.threads[t]? = some ⟨k, .crit c⟩) :
    s.tail = partialVisit t k c := by unfold State.tail; rw [hl]; dsimp only; rw [ht]

theorem tail_none {s : State} (hl : s.lock = none) : s.tail = [] := by unfold State.tail; rw [hl]

/-- Moving a thread that is outside and stays outside. -/
theorem tail_move {s s' : State} (h : Inv s) {t : Nat} {th : Thread} (ht : s.threads[t]? = some th) (hc : ∀ c, th.pos ≠ .crit c) {th' : Thread}
    (hs : s'.threads = s.threads.set t th') (hl : s'.lock = s.lock) : s'.tail = s.tail := by
  unfold State.tail
  rw [hl]
  cases hlk : s.lock with
  | none => rfl
  | some u =>
    dsimp only
    have hne : u ≠ t := by
      rintro rfl
      obtain ⟨th', c, h1, h2⟩ := (h.lock u).1 hlk
      rw [ht] at h1; cases h1
      exact hc c h2
    rw [hs, get_set ht, if_neg hne]

theorem serial_move {s s' : State} (h : Inv s) {t : Nat} {th : Thread} (ht : s.threads[t]? = some th) (hc : ∀ c, th.pos ≠ .crit c) {th' : Thread}
    (hs : s'.threads = s.threads.set t th') (hl : s'.lock = s.lock) (hlog : s'.log = s.log) (hv : Serial s) : Serial s' := by
  obtain ⟨vs, hv⟩ := hv
  exact ⟨vs, by rw [hlog, tail_move h ht hc hs hl]; exact hv⟩

theorem serial_inside {s s' : State} {t : Nat} {th : Thread} (ht : s.threads[t]? = some th) {k : Kind} {c : Crit} (hl : s'.lock = some t)
    (hs : s'.threads = s.threads.set t ⟨k, .crit c⟩) {vs : List (Nat × Kind)}
    (hlog : s'.log = vs.flatMap (fun v => visit v.1 v.2) ++ partialVisit t k c) : Serial s' :=
  ⟨vs, by rw [tail_some hl (by rw [hs, get_set ht, if_pos rfl]), hlog]⟩

theorem step_serial {s : State} (h : Inv s) (hs : Serial s) (a : Act) : Serial (step s a) := by
  obtain ⟨vs, hv⟩ := hs
  have hcall : ∀ th, State.tail { s with threads := s.threads ++ [th] } = s.tail := by
    intro th
    unfold State.tail
    dsimp only
    cases hlk : s.lock with
    | none => rfl
    | some u =>
      dsimp only
      obtain ⟨th', c, h1, h2⟩ := (h.lock u).1 hlk
      rw [List.getElem?_append, if_pos (List.getElem?_eq_some_iff.1 h1).1]
  cases a with
  | tick => exact ⟨vs, hv⟩
  | callShutdown => exact ⟨vs, by rw [show State.tail (step s .callShutdown) = s.tail from hcall _]; exact hv⟩
  | callFlush => exact ⟨vs, by rw [show State.tail (step s .callFlush) = s.tail from hcall _]; exact hv⟩
  | go t quit =>
    simp only [step]
    cases ht : s.threads[t]? with
    | none => exact ⟨vs, hv⟩
    | some th =>
      dsimp only
      unfold advance
      cases hp : th.pos with
      | idle =>
        dsimp only
        unfold select
        cases quit with
        | true =>
          rw [if_pos rfl]
          by_cases hcn : s.cancelled = true
          · rw [if_pos hcn]; exact serial_move h ht (by simp [hp]) rfl rfl rfl ⟨vs, hv⟩
          · rw [if_neg hcn]; exact ⟨vs, hv⟩
        | false =>
          rw [if_neg (by simp)]
          by_cases hch : s.chan = true
          · rw [if_pos hch]; exact serial_move h ht (by simp [hp]) rfl rfl rfl ⟨vs, hv⟩
          · rw [if_neg hch]; exact ⟨vs, hv⟩
      | start => exact serial_move h ht (by simp [hp]) rfl rfl rfl ⟨vs, hv⟩
      | stopped =>
        dsimp only
        by_cases hd : loopDone s = true
        · rw [if_pos hd]; exact serial_move h ht (by simp [hp]) rfl rfl rfl ⟨vs, hv⟩
        · rw [if_neg hd]; exact ⟨vs, hv⟩
      | wait =>
        dsimp only
        by_cases hl : s.lock = none
        · rw [if_pos hl]
          rw [tail_none hl] at hv
          exact serial_inside ht (k := th.kind) (c := .locked) rfl rfl (vs := vs) hv
        · rw [if_neg hl]; exact ⟨vs, hv⟩
      | crit c =>
        have hl := lock_inside h ht hp
        have hth : th = ⟨th.kind, .crit c⟩ := by rw [← hp]
        rw [tail_some (k := th.kind) (c := c) hl (by rw [ht, ← hth])] at hv
        cases c with
        | locked => exact serial_inside ht (k := th.kind) (c := .produced) hl rfl (vs := vs) (by show s.log ++ _ = _; rw [hv, List.append_assoc]; rfl)
        | produced => exact serial_inside ht (k := th.kind) (c := .exporting) hl rfl (vs := vs) (by show s.log ++ _ = _; rw [hv, List.append_assoc]; rfl)
        | exporting =>
          refine ⟨vs ++ [(t, th.kind)], ?_⟩
          show s.log ++ _ = _ ++ []
          rw [hv, List.append_assoc, List.flatMap_append, List.append_nil]; rfl
      | done => exact ⟨vs, hv⟩

/-- The log only grows, and by events of threads inside. -/
theorem step_log {s : State} (a : Act) :
    (step s a).log = s.log ∨ ∃ t th c w, s.threads[t]? = some th ∧ th.pos = .crit c ∧ (step s a).log = s.log ++ [(t, w)] ∧
      (w = .export th.kind ↔ c = .produced) := by
  cases a with
  | tick => exact Or.inl rfl
  | callShutdown => exact Or.inl rfl
  | callFlush => exact Or.inl rfl
  | go t quit =>
    simp only [step]
    cases ht : s.threads[t]? with
    | none => exact Or.inl rfl
    | some th =>
      dsimp only
      unfold advance
      cases hp : th.pos with
      | idle =>
        dsimp only
        unfold select
        refine Or.inl ?_
        repeat (first | rfl | split)
      | start => exact Or.inl rfl
      | stopped => dsimp only; refine Or.inl ?_; split <;> rfl
      | wait => dsimp only; refine Or.inl ?_; split <;> rfl
      | crit c =>
        refine Or.inr ⟨t, th, c, ?_⟩
        cases c with
        | locked => exact ⟨.collect, ht, hp, rfl, by simp⟩
        | produced => exact ⟨.export th.kind, ht, hp, rfl, by simp⟩
        | exporting => exact ⟨.returned, ht, hp, rfl, by simp⟩
      | done => exact Or.inl rfl

theorem step_threads {s : State} (a : Act) (t : Nat) (th : Thread) (h : (step s a).threads[t]? = some th) :
    (∃ p, s.threads[t]? = some ⟨th.kind, p⟩) ∨ s.threads.length ≤ t := by
  have hcall : ∀ x : Thread, (s.threads ++ [x])[t]? = some th → (∃ p, s.threads[t]? = some ⟨th.kind, p⟩) ∨ s.threads.length ≤ t := by
    intro x hx
    rw [List.getElem?_append] at hx
    by_cases hlt : t < s.threads.length
    · rw [if_pos hlt] at hx; exact Or.inl ⟨th.pos, hx⟩
    · exact Or.inr (by omega)
  have hset : ∀ (u : Nat) (x : Thread) (p : Pos), s.threads[u]? = some x → (s.threads.set u { x with pos := p })[t]? = some th → (∃ p, s.threads[t]? = some ⟨th.kind, p⟩) ∨ s.threads.length ≤ t := by
    intro u x p hx hh
    rw [get_set hx] at hh
    by_cases e : t = u
    · subst e
      rw [if_pos rfl] at hh; cases hh
      exact Or.inl ⟨x.pos, hx⟩
    · rw [if_neg e] at hh; exact Or.inl ⟨th.pos, hh⟩
  cases a with
  | tick => exact Or.inl ⟨th.pos, h⟩
  | callShutdown => exact hcall _ h
  | callFlush => exact hcall _ h
  | go u quit =>
    simp only [step] at h
    cases hu : s.threads[u]? with
    | none => rw [hu] at h; exact Or.inl ⟨th.pos, h⟩
    | some x =>
      rw [hu] at h
      dsimp only at h
      unfold advance at h
      have same : s.threads[t]? = some th → (∃ p, s.threads[t]? = some ⟨th.kind, p⟩) ∨ s.threads.length ≤ t := fun h => Or.inl ⟨th.pos, h⟩
      cases hp : x.pos with
      | idle =>
        rw [hp] at h
        dsimp only at h
        unfold select at h
        split at h
        · split at h
          · exact hset u x _ hu h
          · exact same h
        · split at h
          · exact hset u x _ hu h
          · exact same h
      | start => rw [hp] at h; exact hset u x _ hu h
      | stopped => rw [hp] at h; dsimp only at h; split at h <;> first | exact hset u x _ hu h | exact same h
      | wait => rw [hp] at h; dsimp only at h; split at h <;> first | exact hset u x _ hu h | exact same h
      | crit c =>
        rw [hp] at h
        cases c
        · exact hset u x _ hu h
        · exact hset u x _ hu h
        · exact hset u x _ hu h
      | done => rw [hp] at h; exact same h

theorem mem_events {s : State} {t : Nat} {w : What} (h : (t, w) ∈ s.log) : w ∈ events s t :=
  List.mem_map.2 ⟨(t, w), List.mem_filter.2 ⟨h, by simp⟩, rfl⟩

theorem step_after {s : State} (h : Inv s) (ha : After s) (a : Act) : After (step s a) := by
  intro t p ht i j w w' hi hj
  -- an old shutdown thread, or a new one without events
  rcases step_log a with e | ⟨u, thu, c, w0, hu, hc, e, -⟩
  · rw [e] at hi hj
    rcases step_threads a t _ ht with ⟨p', hp'⟩ | hlen
    · exact ha t p' hp' i j w w' hi hj
    · have := mem_events (List.mem_of_getElem? hi)
      rw [h.noEv t hlen] at this; cases this
  · rw [e] at hi hj
    have hilen := (List.getElem?_eq_some_iff.1 hi).1
    have hjlen := (List.getElem?_eq_some_iff.1 hj).1
    rw [List.length_append, List.length_singleton] at hilen hjlen
    have hlast : ∀ (i : Nat) (e : Nat × What), (s.log ++ [(u, w0)])[i]? = some e → i < s.log.length ∧ s.log[i]? = some e ∨ i = s.log.length ∧ e = (u, w0) := by
      intro i e he
      rw [List.getElem?_append] at he
      by_cases hlt : i < s.log.length
      · rw [if_pos hlt] at he; exact Or.inl ⟨hlt, he⟩
      · rw [if_neg hlt] at he
        have hz : i - s.log.length = 0 := by
          have := (List.getElem?_eq_some_iff.1 he).1
          simp at this; omega
        rw [hz] at he; cases he
        exact Or.inr ⟨by omega, rfl⟩
    rcases hlast i _ hi with ⟨hi1, hi2⟩ | ⟨hi1, hi2⟩
    · rcases step_threads a t _ ht with ⟨p', hp'⟩ | hlen
      · rcases hlast j _ hj with ⟨-, hj2⟩ | ⟨-, hj2⟩
        · exact ha t p' hp' i j w w' hi2 hj2
        · -- the loop logs although a shutdown call has logged
          exfalso
          cases hj2
          have hev := mem_events (List.mem_of_getElem? hi2)
          have ht0 : t ≠ 0 := by
            rintro rfl
            obtain ⟨p0, h0, -⟩ := h.loop
            rw [hp'] at h0; cases h0
          rw [h.ev t _ hp' ht0] at hev
          have hl := h.late t _ hp' rfl (by
            dsimp only
            cases p' with
            | crit c => rfl
            | done => rfl
            | wait => rfl
            | _ => cases hev)
          rw [loopDone_iff] at hl
          obtain ⟨th0, h0, hd⟩ := hl
          rw [hu] at h0; cases h0
          rw [hc] at hd; cases hd
      · have := mem_events (List.mem_of_getElem? hi2)
        rw [h.noEv t hlen] at this; cases this
    · cases hi2
      rcases hlast j _ hj with ⟨hj1, -⟩ | ⟨-, hj2⟩
      · omega
      · exfalso
        cases hj2
        obtain ⟨p0, h0, -⟩ := (step_inv h a).loop
        rw [ht] at h0; cases h0

theorem run_snoc (s : State) (as : List Act) (a : Act) : run s (as ++ [a]) = step (run s as) a := by
  unfold run; rw [List.foldl_append]; rfl

theorem run_append (s : State) (as bs : List Act) : run s (as ++ bs) = run (run s as) bs := by
  unfold run; rw [List.foldl_append]

/-- Thread 0 is as before when another thread goes on. -/
theorem other_step {s : State} (h : Inv s) {t : Nat} (h0 : t ≠ 0) (quit : Bool) :
    (step s (.go t quit)).threads[0]? = s.threads[0]? ∧ (step s (.go t quit)).chan = s.chan ∧ (step s (.go t quit)).ticks = s.ticks ∧
    (step s (.go t quit)).dropped = s.dropped ∧ events (step s (.go t quit)) 0 = events s 0 := by
  have hset : ∀ (x x' : Thread), s.threads[t]? = some x → (s.threads.set t x')[0]? = s.threads[0]? := by
    intro x x' hx; rw [get_set hx, if_neg (fun e => h0 e.symm)]
  have hevs : ∀ w, eventsOf (s.log ++ [(t, w)]) 0 = events s 0 := by
    intro w; rw [events_snoc, if_neg h0, List.append_nil]; rfl
  simp only [step]
  cases ht : s.threads[t]? with
  | none => exact ⟨rfl, rfl, rfl, rfl, rfl⟩
  | some th =>
    dsimp only
    unfold advance
    cases hp : th.pos with
    | idle => exact absurd hp (h.calls t th ht h0).2
    | start => exact ⟨hset th _ ht, rfl, rfl, rfl, rfl⟩
    | stopped => dsimp only; split; exact ⟨hset th _ ht, rfl, rfl, rfl, rfl⟩; exact ⟨rfl, rfl, rfl, rfl, rfl⟩
    | wait => dsimp only; split; exact ⟨hset th _ ht, rfl, rfl, rfl, rfl⟩; exact ⟨rfl, rfl, rfl, rfl, rfl⟩
    | crit c =>
      cases c
      · exact ⟨hset th _ ht, rfl, rfl, rfl, hevs _⟩
      · exact ⟨hset th _ ht, rfl, rfl, rfl, hevs _⟩
      · exact ⟨hset th _ ht, rfl, rfl, rfl, hevs _⟩
    | done => exact ⟨rfl, rfl, rfl, rfl, rfl⟩

theorem step_count {s : State} (h : Inv s) (hc : Count s) (a : Act) : Count (step s a) := by
  obtain ⟨p, hp, hp1, hp2⟩ := h.loop
  have hlen := (List.getElem?_eq_some_iff.1 hp).1
  unfold Count inFlight at hc ⊢
  rw [hp] at hc
  have hcall : ∀ th : Thread, (s.threads ++ [th])[0]? = some ⟨.tick, p⟩ := by
    intro th; rw [List.getElem?_append, if_pos hlen, hp]
  cases a with
  | tick =>
    show s.ticks + 1 = s.dropped + (if s.chan then 1 else 0) + tickExports s + 1 + ((s.threads[0]?).map (fun th => th.pos.flight)).getD 0
    rw [hp]
    omega
  | callShutdown =>
    show s.ticks = s.dropped + tickExports s + (if s.chan then 1 else 0) + (((s.threads ++ [_])[0]?).map (fun th => th.pos.flight)).getD 0
    rw [hcall]; exact hc
  | callFlush =>
    show s.ticks = s.dropped + tickExports s + (if s.chan then 1 else 0) + (((s.threads ++ [_])[0]?).map (fun th => th.pos.flight)).getD 0
    rw [hcall]; exact hc
  | go t quit =>
    by_cases h0 : t = 0
    · subst h0
      have hset : ∀ th' : Thread, (s.threads.set 0 th')[0]? = some th' := by intro th'; rw [get_set hp, if_pos rfl]
      have hevs : ∀ w, (eventsOf (s.log ++ [(0, w)]) 0).count (What.export .tick) =
          tickExports s + if w = .export .tick then 1 else 0 := by
        intro w
        rw [events_snoc, if_pos rfl, List.count_append]
        by_cases e : w = .export .tick
        · subst e; rfl
        · rw [if_neg e, List.count_singleton, if_neg (by simpa using e)]; rfl
      simp only [step, hp, advance]
      cases p with
      | idle =>
        dsimp only
        unfold select
        cases quit with
        | true =>
          rw [if_pos rfl]
          by_cases hcn : s.cancelled = true
          · rw [if_pos hcn]
            show s.ticks = s.dropped + tickExports s + (if s.chan then 1 else 0) + (((s.threads.set 0 _)[0]?).map (fun th => th.pos.flight)).getD 0
            rw [hset]; exact hc
          · rw [if_neg hcn, hp]; exact hc
        | false =>
          rw [if_neg (by simp)]
          by_cases hch : s.chan = true
          · rw [if_pos hch]
            show s.ticks = s.dropped + tickExports s + 0 + (((s.threads.set 0 _)[0]?).map (fun th => th.pos.flight)).getD 0
            rw [hset]
            rw [if_pos hch] at hc
            simpa [Pos.flight] using hc
          · rw [if_neg hch, hp]; exact hc
      | start => exact absurd rfl hp1
      | stopped => exact absurd rfl hp2
      | wait =>
        dsimp only
        by_cases hl : s.lock = none
        · rw [if_pos hl]
          show s.ticks = s.dropped + tickExports s + (if s.chan then 1 else 0) + (((s.threads.set 0 _)[0]?).map (fun th => th.pos.flight)).getD 0
          rw [hset]; exact hc
        · rw [if_neg hl, hp]; exact hc
      | crit c =>
        dsimp only
        cases c with
        | locked =>
          show s.ticks = s.dropped + (eventsOf (s.log ++ [(0, _)]) 0).count (What.export .tick) + (if s.chan then 1 else 0) +
            (((s.threads.set 0 _)[0]?).map (fun th => th.pos.flight)).getD 0
          rw [hset, hevs]; simpa [Pos.flight] using hc
        | produced =>
          show s.ticks = s.dropped + (eventsOf (s.log ++ [(0, _)]) 0).count (What.export .tick) + (if s.chan then 1 else 0) +
            (((s.threads.set 0 _)[0]?).map (fun th => th.pos.flight)).getD 0
          rw [hset, hevs]
          simp [Pos.flight] at hc ⊢
          omega
        | exporting =>
          show s.ticks = s.dropped + (eventsOf (s.log ++ [(0, _)]) 0).count (What.export .tick) + (if s.chan then 1 else 0) +
            (((s.threads.set 0 _)[0]?).map (fun th => th.pos.flight)).getD 0
          rw [hset, hevs]
          simpa [Pos.flight] using hc
      | done => dsimp only; rw [hp]; exact hc
    · obtain ⟨h1, h2, h3, h4, h5⟩ := other_step h h0 quit
      unfold tickExports at hc ⊢
      rw [h1, h2, h3, h4, h5, hp]; exact hc

/-- Everything holds of every execution. -/
theorem run_all (as : List Act) : Inv (run new as) ∧ Serial (run new as) ∧ After (run new as) ∧ Count (run new as) := by
  suffices ∀ n ≤ as.length, Inv (run new (as.take n)) ∧ Serial (run new (as.take n)) ∧ After (run new (as.take n)) ∧ Count (run new (as.take n)) by
    have := this as.length (Nat.le_refl _)
    rwa [List.take_length] at this
  intro n
  induction n with
  | zero =>
    intro _
    refine ⟨inv_new, ⟨[], rfl⟩, ?_, rfl⟩
    intro t p _ i j w w' hi; simp [run, new] at hi
  | succ n ih =>
    intro hn
    obtain ⟨h1, h2, h3, h4⟩ := ih (by omega)
    rw [List.take_add_one, List.getElem?_eq_getElem (by omega), Option.toList_some, run_snoc]
    exact ⟨step_inv h1 _, step_serial h1 h2 _, step_after h1 h3 _, step_count h1 h4 _⟩

theorem loopDone_step {s : State} (h : Inv s) (hd : loopDone s = true) (a : Act) : loopDone (step s a) = true ∧ events (step s a) 0 = events s 0 := by
  have hd' := hd
  rw [loopDone_iff] at hd ⊢
  obtain ⟨th, h0, hp⟩ := hd
  have hlen := (List.getElem?_eq_some_iff.1 h0).1
  cases a with
  | tick => exact ⟨⟨th, h0, hp⟩, rfl⟩
  | callShutdown => exact ⟨⟨th, by show (s.threads ++ [_])[0]? = _; rw [List.getElem?_append, if_pos hlen]; exact h0, hp⟩, rfl⟩
  | callFlush => exact ⟨⟨th, by show (s.threads ++ [_])[0]? = _; rw [List.getElem?_append, if_pos hlen]; exact h0, hp⟩, rfl⟩
  | go t quit =>
    by_cases e : t = 0
    · subst e
      have : step s (.go 0 quit) = s := by simp only [step, h0, advance, hp]
      rw [this]; exact ⟨⟨th, h0, hp⟩, rfl⟩
    · obtain ⟨h1, -, -, -, h5⟩ := other_step h e quit
      rw [h1, h5]; exact ⟨⟨th, h0, hp⟩, rfl⟩

theorem loopDone_run {s : State} (h : Inv s) (hd : loopDone s = true) (bs : List Act) : events (run s bs) 0 = events s 0 := by
  induction bs generalizing s with
  | nil => rfl
  | cons b bs ih =>
    obtain ⟨h1, h2⟩ := loopDone_step h hd b
    exact (ih (step_inv h b) h1).trans h2

theorem returned_done {s : State} (h : Inv s) {t : Nat} (hr : Returned s t .shutdown) : t ≠ 0 ∧ loopDone s = true := by
  refine ⟨?_, h.late t _ hr rfl rfl⟩
  rintro rfl
  obtain ⟨p, h0, -⟩ := h.loop
  unfold Returned at hr
  rw [hr] at h0; cases h0

/-! ### C38 -/

/-- C38. A `Shutdown` that has returned made exactly one collection, handed to the exporter's `ShutdownMetrics`, which returned; and all of it came after every
event of the loop. -/
theorem C38_final (as : List Act) (t : Nat) (h : Returned (run new as) t .shutdown) :
    events (run new as) t = [.collect, .export .shutdown, .returned] ∧
    ∀ (i j : Nat) (w w' : What), (run new as).log[i]? = some (t, w) → (run new as).log[j]? = some (0, w') → j < i := by
  obtain ⟨h1, -, h3, -⟩ := run_all as
  exact ⟨h1.ev t _ h (returned_done h1 h).1, h3 t _ h⟩

/-- C38. After a `Shutdown` has returned, whatever happens then (ticks too), the loop does nothing any more. -/
theorem C38_no_tick_after (as : List Act) (t : Nat) (h : Returned (run new as) t .shutdown) (bs : List Act) :
    events (run new (as ++ bs)) 0 = events (run new as) 0 := by
  rw [run_append]
  exact loopDone_run (run_all as).1 (returned_done (run_all as).1 h).2 bs

/-- C38. A `ForceFlush` that has returned made exactly one collection, handed to the exporter's `ForceFlushMetrics`. -/
theorem C38_flush (as : List Act) (t : Nat) (h : Returned (run new as) t .flush) :
    events (run new as) t = [.collect, .export .flush, .returned] := by
  have h1 := (run_all as).1
  refine h1.ev t _ h ?_
  rintro rfl
  obtain ⟨p, h0, -⟩ := h1.loop
  unfold Returned at h
  rw [h] at h0; cases h0

/-- C38. Collections and exports never overlap: what happens is a sequence of whole visits (collect, export, return), each by one thread, with at most one more in
progress at the end. -/
theorem C38_exclusive (as : List Act) :
    ∃ (vs : List (Nat × Kind)) (t : Nat) (k : Kind) (rest : List (Nat × What)),
      (run new as).log ++ rest = vs.flatMap (fun v => visit v.1 v.2) ++ visit t k ∨ (run new as).log = vs.flatMap (fun v => visit v.1 v.2) := by
  obtain ⟨h1, ⟨vs, hv⟩, -, -⟩ := run_all as
  generalize run new as = s at *
  cases hl : s.lock with
  | none => exact ⟨vs, 0, .tick, [], Or.inr (by rw [hv, tail_none hl, List.append_nil])⟩
  | some t =>
    obtain ⟨⟨k, p⟩, c, h2, h3⟩ := (h1.lock t).1 hl
    dsimp only at h3
    subst h3
    rw [tail_some hl h2] at hv
    cases c with
    | locked => exact ⟨vs, t, k, visit t k, Or.inl (by rw [hv, List.append_assoc]; rfl)⟩
    | produced => exact ⟨vs, t, k, [(t, .export k), (t, .returned)], Or.inl (by rw [hv, List.append_assoc]; rfl)⟩
    | exporting => exact ⟨vs, t, k, [(t, .returned)], Or.inl (by rw [hv, List.append_assoc]; rfl)⟩

/-- C38. The loop exports once for each tick it has received: at most one export per tick; exactly one when the loop is at its select with nothing pending
and no tick was dropped for the one before it still pending. -/
theorem C38_ticks_partial (as : List Act) :
    tickExports (run new as) + (run new as).dropped ≤ (run new as).ticks ∧
    ((run new as).chan = false → (run new as).threads[0]? = some ⟨.tick, .idle⟩ → tickExports (run new as) + (run new as).dropped = (run new as).ticks) := by
  obtain ⟨-, -, -, hc⟩ := run_all as
  unfold Count at hc
  refine ⟨by omega, fun h1 h2 => ?_⟩
  unfold inFlight at hc
  rw [h1, h2] at hc
  simp [Pos.flight] at hc
  omega

/-- C38 fails in that not every tick before a stop is exported: of ticks which come while an export is going on all but one are dropped. -/
theorem C38_every_tick_fails :
    ∃ as, (run new as).ticks = 3 ∧ (run new as).chan = false ∧ (run new as).threads[0]? = some ⟨.tick, .idle⟩ ∧ (run new as).cancelled = false ∧
      tickExports (run new as) = 2 :=
  ⟨[.tick, .go 0 false, .go 0 false, .go 0 false, .go 0 false, .tick, .tick, .go 0 false, .go 0 false, .go 0 false, .go 0 false, .go 0 false, .go 0 false],
    by decide⟩

/-! ### No deadlock -/

/-- Going on, without new calls or ticks. -/
def Going (bs : List Act) : Prop := ∀ b ∈ bs, ∃ t quit, b = .go t quit

/-- A state reached by going on, in which only some threads have moved. -/
def Leads (s s' : State) (moved : Nat → Prop) : Prop :=
  ∃ bs, Going bs ∧ run s bs = s' ∧ s'.cancelled = s.cancelled ∧ ∀ t, ¬ moved t → s'.threads[t]? = s.threads[t]?

theorem Leads.trans {s s' s'' : State} {m m' : Nat → Prop} (h : Leads s s' m) (h' : Leads s' s'' m') : Leads s s'' (fun t => m t ∨ m' t) := by
  obtain ⟨bs, h1, h2, h3, h4⟩ := h
  obtain ⟨bs', h1', h2', h3', h4'⟩ := h'
  refine ⟨bs ++ bs', ?_, by rw [run_append, h2, h2'], h3'.trans h3, fun t ht => ?_⟩
  · intro b hb
    rcases List.mem_append.1 hb with hb | hb
    · exact h1 b hb
    · exact h1' b hb
  · rw [h4' t (fun h => ht (Or.inr h)), h4 t (fun h => ht (Or.inl h))]

theorem Leads.refl (s : State) : Leads s s (fun _ => False) := ⟨[], by simp [Going], rfl, rfl, fun _ _ => rfl⟩

theorem Leads.inv {s s' : State} {m : Nat → Prop} (h : Leads s s' m) (hi : Inv s) : Inv s' := by
  obtain ⟨bs, -, rfl, -, -⟩ := h
  induction bs generalizing s with
  | nil => exact hi
  | cons b bs ih => exact ih (step_inv hi b)

theorem leads_step {s : State} {t : Nat} {th : Thread} (ht : s.threads[t]? = some th) (quit : Bool) {th' : Thread}
    (hs : (step s (.go t quit)).threads = s.threads.set t th') (hc : (step s (.go t quit)).cancelled = s.cancelled) :
    Leads s (step s (.go t quit)) (fun u => u = t) ∧ (step s (.go t quit)).threads[t]? = some th' := by
  refine ⟨⟨[.go t quit], ?_, rfl, hc, fun u hu => ?_⟩, ?_⟩
  · intro b hb; rw [List.mem_singleton] at hb; exact ⟨t, quit, hb⟩
  · rw [hs, get_set ht, if_neg hu]
  · rw [hs, get_set ht, if_pos rfl]

/-- Who is inside can go on and leave. -/
theorem leave {s : State} {t : Nat} {k : Kind} {c : Crit} (ht : s.threads[t]? = some ⟨k, .crit c⟩) :
    ∃ s', Leads s s' (fun u => u = t) ∧ s'.lock = none ∧ s'.threads[t]? = some ⟨k, if k = .tick then .idle else .done⟩ := by
  have exporting : ∀ s : State, s.threads[t]? = some ⟨k, .crit .exporting⟩ →
      ∃ s', Leads s s' (fun u => u = t) ∧ s'.lock = none ∧ s'.threads[t]? = some ⟨k, if k = .tick then .idle else .done⟩ := by
    intro s ht
    have e : step s (.go t false) = inside s t ⟨k, .crit .exporting⟩ .exporting := by simp only [step, ht, advance]
    have := leads_step ht false (by rw [e]; rfl) (by rw [e]; rfl)
    exact ⟨_, this.1, by rw [e]; rfl, this.2⟩
  have produced : ∀ s : State, s.threads[t]? = some ⟨k, .crit .produced⟩ →
      ∃ s', Leads s s' (fun u => u = t) ∧ s'.lock = none ∧ s'.threads[t]? = some ⟨k, if k = .tick then .idle else .done⟩ := by
    intro s ht
    have e : step s (.go t false) = inside s t ⟨k, .crit .produced⟩ .produced := by simp only [step, ht, advance]
    have := leads_step ht false (by rw [e]; rfl) (by rw [e]; rfl)
    obtain ⟨s', h1, h2, h3⟩ := exporting _ this.2
    have h4 := this.1.trans h1
    simp only [or_self] at h4
    exact ⟨s', h4, h2, h3⟩
  cases c with
  | exporting => exact exporting s ht
  | produced => exact produced s ht
  | locked =>
    have e : step s (.go t false) = inside s t ⟨k, .crit .locked⟩ .locked := by simp only [step, ht, advance]
    have := leads_step ht false (by rw [e]; rfl) (by rw [e]; rfl)
    obtain ⟨s', h1, h2, h3⟩ := produced _ this.2
    have h4 := this.1.trans h1
    simp only [or_self] at h4
    exact ⟨s', h4, h2, h3⟩

/-- The lock becomes free; only who was inside moves. -/
theorem free {s : State} (h : Inv s) : ∃ s', Leads s s' (fun u => s.lock = some u) ∧ s'.lock = none := by
  cases hl : s.lock with
  | none => exact ⟨s, ⟨[], by simp [Going], rfl, rfl, fun _ _ => rfl⟩, hl⟩
  | some t =>
    obtain ⟨⟨k, p⟩, c, h1, h2⟩ := (h.lock t).1 hl
    dsimp only at h2
    subst h2
    obtain ⟨s', h3, h4, -⟩ := leave h1
    refine ⟨s', ?_, h4⟩
    obtain ⟨bs, a, b, c, d⟩ := h3
    exact ⟨bs, a, b, c, fun u hu => d u (fun e => hu (by rw [e]))⟩

/-- A thread waiting for the lock gets it, and leaves. -/
theorem visitFrom {s : State} (h : Inv s) {t : Nat} {k : Kind} (ht : s.threads[t]? = some ⟨k, .wait⟩) :
    ∃ s', Leads s s' (fun u => s.lock = some u ∨ u = t) ∧ s'.threads[t]? = some ⟨k, if k = .tick then .idle else .done⟩ := by
  obtain ⟨s1, h1, hl1⟩ := free h
  have hne : s.lock ≠ some t := by
    intro hl
    obtain ⟨th, c, h1, h2⟩ := (h.lock t).1 hl
    rw [ht] at h1; cases h1; cases h2
  have ht1 : s1.threads[t]? = some ⟨k, .wait⟩ := by
    obtain ⟨_, -, -, -, h4⟩ := h1
    rw [h4 t hne]; exact ht
  have e : step s1 (.go t false) = ({ s1 with lock := some t } : State).move t ⟨k, .wait⟩ (.crit .locked) := by
    simp only [step, ht1, advance, hl1, if_true]
  have h2 := leads_step ht1 false (th' := ⟨k, .crit .locked⟩) (by rw [e]; rfl) (by rw [e]; rfl)
  obtain ⟨s', h3, -, h4⟩ := leave h2.2
  obtain ⟨bs, a, b, c, d⟩ := (h1.trans h2.1).trans h3
  exact ⟨s', ⟨bs, a, b, c, fun u hu => d u (fun e => hu (by rcases e with (e | e) | e; exact Or.inl e; exact Or.inr e; exact Or.inr e))⟩, h4⟩

/-- Once stopped, the loop ends. -/
theorem ends {s : State} (h : Inv s) (hc : s.cancelled = true) :
    ∃ s', Leads s s' (fun u => s.lock = some u ∨ u = 0) ∧ loopDone s' = true := by
  obtain ⟨p, h0, hp1, hp2⟩ := h.loop
  have idle : ∀ (s' : State) (m : Nat → Prop), Leads s s' m → (∀ u, m u → s.lock = some u ∨ u = 0) → s'.threads[0]? = some ⟨.tick, .idle⟩ →
      ∃ s', Leads s s' (fun u => s.lock = some u ∨ u = 0) ∧ loopDone s' = true := by
    intro s' m hl hm ht
    have hc' : s'.cancelled = true := by obtain ⟨_, -, -, h3, -⟩ := hl; rw [h3]; exact hc
    have e : step s' (.go 0 true) = s'.move 0 ⟨.tick, .idle⟩ .done := by simp only [step, ht, advance, select, hc', if_true]
    have h2 := leads_step ht true (th' := ⟨.tick, .done⟩) (by rw [e]; rfl) (by rw [e]; rfl)
    obtain ⟨bs, a, b, c, d⟩ := hl.trans h2.1
    exact ⟨_, ⟨bs, a, b, c, fun u hu => d u (fun e => hu (by rcases e with e | e; exact hm u e; exact Or.inr e))⟩, (loopDone_iff _).2 ⟨_, h2.2, rfl⟩⟩
  cases p with
  | idle => exact idle s _ (Leads.refl s) (fun _ e => e.elim) h0
  | start => exact absurd rfl hp1
  | stopped => exact absurd rfl hp2
  | wait =>
    obtain ⟨s', h1, h2⟩ := visitFrom h h0
    exact idle s' _ h1 (fun _ e => e) h2
  | crit c =>
    obtain ⟨s', h1, -, h2⟩ := leave h0
    exact idle s' _ h1 (fun _ e => Or.inr e) h2
  | done => exact ⟨s, ⟨[], by simp [Going], rfl, rfl, fun _ _ => rfl⟩, (loopDone_iff _).2 ⟨_, h0, rfl⟩⟩

/-- C38. No deadlock: in every reachable state every pending `Shutdown` or `ForceFlush` can return without further ticks or calls. -/
theorem C38_no_deadlock (as : List Act) (t : Nat) (th : Thread) (h0 : t ≠ 0) (ht : (run new as).threads[t]? = some th) :
    ∃ bs, Going bs ∧ Returned (run new (as ++ bs)) t th.kind := by
  have h := (run_all as).1
  suffices ∀ s : State, Inv s → s.threads[t]? = some th → ∃ bs, Going bs ∧ Returned (run s bs) t th.kind by
    obtain ⟨bs, h1, h2⟩ := this _ h ht
    exact ⟨bs, h1, by rw [run_append]; exact h2⟩
  clear h ht as
  intro s h ht
  obtain ⟨k, p⟩ := th
  have hk : k ≠ .tick := (h.calls t _ ht h0).1
  have waiting : ∀ s : State, Inv s → s.threads[t]? = some ⟨k, .wait⟩ → ∃ bs, Going bs ∧ Returned (run s bs) t k := by
    intro s h ht
    obtain ⟨s', ⟨bs, h1, h2, -⟩, h4⟩ := visitFrom h ht
    rw [if_neg hk] at h4
    exact ⟨bs, h1, by rw [h2]; exact h4⟩
  have stopped : ∀ s : State, Inv s → s.cancelled = true → s.threads[t]? = some ⟨k, .stopped⟩ → ∃ bs, Going bs ∧ Returned (run s bs) t k := by
    intro s h hc ht
    obtain ⟨s', h1, h2⟩ := ends h hc
    have ht' : s'.threads[t]? = some ⟨k, .stopped⟩ := by
      obtain ⟨bs, -, -, -, d⟩ := h1
      rw [d t (fun e => ?_)]
      · exact ht
      · rcases e with e | e
        · obtain ⟨th, c, h1, h2⟩ := (h.lock t).1 e
          rw [ht] at h1; cases h1; cases h2
        · exact h0 e
    have e : step s' (.go t false) = s'.move t ⟨k, .stopped⟩ .wait := by simp only [step, ht', advance, h2, if_true]
    have h3 := leads_step ht' false (th' := ⟨k, .wait⟩) (by rw [e]; rfl) (by rw [e]; rfl)
    obtain ⟨bs, a, b⟩ := waiting _ (h3.1.inv (h1.inv h)) h3.2
    obtain ⟨bs1, a1, b1, -⟩ := h1.trans h3.1
    refine ⟨bs1 ++ bs, ?_, by rw [run_append, b1]; exact b⟩
    intro x hx
    rcases List.mem_append.1 hx with hx | hx
    · exact a1 x hx
    · exact a x hx
  cases p with
  | idle => exact absurd rfl (h.calls t _ ht h0).2
  | start =>
    have hs := step_inv h (.go t false)
    have e : step s (.go t false) = ({ s with cancelled := true } : State).move t ⟨k, .start⟩ .stopped := by simp only [step, ht, advance]
    obtain ⟨bs, a, b⟩ := stopped (step s (.go t false)) hs (by rw [e]; rfl) (by rw [e]; show (s.threads.set t _)[t]? = _; rw [get_set ht, if_pos rfl])
    refine ⟨.go t false :: bs, ?_, b⟩
    intro x hx
    rcases List.mem_cons.1 hx with rfl | hx
    · exact ⟨t, false, rfl⟩
    · exact a x hx
  | stopped =>
    exact stopped s h (h.stop t _ ht (Or.inr rfl)) ht
  | wait => exact waiting s h ht
  | crit c =>
    obtain ⟨s', ⟨bs, h1, h2, -⟩, -, h4⟩ := leave ht
    rw [if_neg hk] at h4
    exact ⟨bs, h1, by rw [h2]; exact h4⟩
  | done => exact ⟨[], by simp [Going], ht⟩

/-- C38: a run with a tick pending when `Shutdown` stops the loop, which takes the tick before it sees the stop; a flush waits meanwhile. -/
example : let s := run new [.tick, .callShutdown, .go 1 false, .go 0 false, .callFlush, .go 1 false, .go 0 false, .go 2 false, .go 0 false, .go 0 false,
      .go 0 false, .go 2 false, .go 0 true, .go 1 false, .tick, .go 2 false, .go 2 false, .go 2 false, .go 1 false, .go 1 false, .go 1 false, .go 1 false]
    Returned s 1 .shutdown ∧ s.log = visit 0 .tick ++ visit 2 .flush ++ visit 1 .shutdown := by unfold Returned; decide

end Verif.Periodic
