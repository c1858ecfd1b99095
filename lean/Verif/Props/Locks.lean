import Verif.Proof.Locks

/-!
# C86: calls do not wait for one another for ever
-/

namespace Verif.Props
open Verif.Locks

/-- C86 (all but collecting from within callbacks, exporters and processors, and error handlers that use the SDK). Any number of
threads, any calls by each, callbacks, exporters and processors that again make any calls: as long as one call has not
returned, some thread can go on without waiting. -/
theorem C86_progress_partial (H : Lang) (hH : ∀ t, H t → Quiet 0 t) (n : Nat) (threads : List (Option Nat × List Op))
    (hthreads : ∀ t ∈ threads, Program H n t.1 t.2) {s : State} (hs : Reaches (start threads) s)
    (hun : ∃ t ∈ s, t.todo ≠ []) : ∃ t, Ready s t :=
  Sound.progress ((Sound.start (fun t ht => ⟨program_ok hH (hthreads t ht), by
    intro hl
    obtain ⟨⟨r, tr⟩, rfl⟩ : ∃ x : Option Nat × List Op, x = t := ⟨t, rfl⟩
    cases r with
    | none => cases hl
    | some r => exact program_join hH (hthreads _ ht)⟩)).reaches hs) hun

/-- C86 (under the same conditions). No execution goes on for ever, and whatever happened so far, all calls can still return; an
execution that cannot be continued is one where all have. -/
theorem C86_return_partial (H : Lang) (hH : ∀ t, H t → Quiet 0 t) (n : Nat) (threads : List (Option Nat × List Op))
    (hthreads : ∀ t ∈ threads, Program H n t.1 t.2) {s : State} (hs : Reaches (start threads) s) :
    (∃ s', Reaches s s' ∧ ∀ t ∈ s', t.todo = []) ∧
    ((¬ ∃ s', Step s s') → ∀ t ∈ s, t.todo = [] ∧ t.held = []) ∧
    ¬ ∃ f : Nat → State, f 0 = s ∧ ∀ i, Step (f i) (f (i + 1)) := by
  have sound : Sound s := (Sound.start (fun t ht => ⟨program_ok hH (hthreads t ht), by
    intro hl
    obtain ⟨⟨r, tr⟩, rfl⟩ : ∃ x : Option Nat × List Op, x = t := ⟨t, rfl⟩
    cases r with
    | none => cases hl
    | some r => exact program_join hH (hthreads _ ht)⟩)).reaches hs
  refine ⟨sound.finish, ?_, ?_⟩
  · intro hstuck t ht
    have hd : t.todo = [] := by
      apply Classical.byContradiction
      intro hne
      obtain ⟨x, hx⟩ := C86_progress_partial H hH n threads hthreads hs ⟨t, ht, hne⟩
      exact hstuck hx.step
    have := sound.ok t ht
    rw [hd] at this
    exact ⟨hd, List.map_eq_nil_iff.1 this⟩
  · rintro ⟨f, _, hf⟩
    have : ∀ i, left (f i) + i ≤ left (f 0) := by
      intro i
      induction i with
      | zero => exact Nat.le_refl _
      | succ i ih => have := (hf i).left; omega
    have := this (left (f 0) + 1)
    omega

namespace LocksEx

/-! ### Evaluating executions -/

def freeB (s : State) (held : List (Lock × Mode)) : Op → Bool
  | .acq l .write => s.all (fun t => !t.held.contains (l, .read) && !t.held.contains (l, .write))
  | .acq l .read => s.all (fun t => !t.held.contains (l, .write))
  | .rel l => (held.head?.map (·.1)) == some l
  | .join r => s.all (fun t => t.loopOf != some r || t.todo == [])

theorem freeB_iff {s : State} {held : List (Lock × Mode)} {o : Op} : freeB s held o = true ↔ free s held o := by
  cases o with
  | acq l m =>
    cases m with
    | read => simp [freeB, free]
    | write =>
      simp only [freeB, free, List.all_eq_true, Bool.and_eq_true, Bool.not_eq_true', List.contains_eq_mem, decide_eq_false_iff_not]
      constructor
      · intro h t ht m
        cases m with
        | read => exact (h t ht).1
        | write => exact (h t ht).2
      · intro h t ht
        exact ⟨h t ht _, h t ht _⟩
  | rel l =>
    cases held with
    | nil => simp [freeB, free]
    | cons x xs =>
      obtain ⟨a, b⟩ := x
      simp [freeB, free]
  | join r =>
    simp only [freeB, free, List.all_eq_true, Bool.or_eq_true, bne_iff_ne, ne_eq, beq_iff_eq]
    constructor
    · intro h t ht hl
      rcases h t ht with h | h
      · exact absurd hl h
      · exact h
    · intro h t ht
      by_cases hl : t.loopOf = some r
      · exact Or.inr (h t ht hl)
      · exact Or.inl hl

/-- Thread `i` executes its next operation. -/
def exec1 (s : State) (i : Nat) : Option State :=
  match s[i]? with
  | none => none
  | some t => match t.todo with
    | [] => none
    | o :: rest => if freeB s t.held o then some (s.take i ++ ⟨t.loopOf, after t.held o, rest⟩ :: s.drop (i + 1)) else none

def exec (s : State) : List Nat → Option State
  | [] => some s
  | i :: is => match exec1 s i with
    | none => none
    | some s' => exec s' is

theorem exec1_step {s s' : State} {i : Nat} (h : exec1 s i = some s') : Step s s' := by
  unfold exec1 at h
  split at h
  · cases h
  · rename_i t ht
    split at h
    · cases h
    · rename_i o rest e
      split at h
      · rename_i hf
        injection h with h
        subst h
        obtain ⟨hi, hget⟩ := List.getElem?_eq_some_iff.1 ht
        have es : s = s.take i ++ t :: s.drop (i + 1) := by
          rw [← hget, List.getElem_cons_drop, List.take_append_drop]
        have hf := freeB_iff.1 hf
        rw [es] at hf
        have := Step.run e hf
        rwa [← es] at this
      · cases h

theorem exec_reaches {is : List Nat} : ∀ {s s' : State}, exec s is = some s' → Reaches s s' := by
  induction is with
  | nil => intro s s' h; cases h; exact .refl
  | cons i is ih =>
    intro s s' h
    unfold exec at h
    split at h
    · cases h
    · rename_i s1 h1
      exact (Reaches.refl.step (exec1_step h1)).trans (ih h)

/-- No thread can execute anything. -/
def stuckB (s : State) : Bool := s.all (fun t => match t.todo with | [] => true | o :: _ => !freeB s t.held o)

theorem stuckB_step {s : State} (h : stuckB s = true) : ¬ ∃ s', Step s s' := by
  rintro ⟨s', hs⟩
  cases hs with
  | @run pre post t o rest e hf =>
    have := List.all_eq_true.1 h t (by simp)
    rw [e] at this
    simp only [Bool.not_eq_true'] at this
    rw [freeB_iff.2 hf] at this
    cases this

/-- `start ts` has an execution that ends with all threads waiting for one another, calls unfinished. -/
def Deadlocks (ts : List (Option Nat × List Op)) : Prop :=
  ∃ s, Reaches (start ts) s ∧ (∃ t ∈ s, t.todo ≠ []) ∧ ¬ ∃ s', Step s s'

theorem deadlocks_of (ts : List (Option Nat × List Op)) (is : List Nat)
    (h : (match exec (start ts) is with | none => false | some s => stuckB s && s.any (fun t => t.todo != [])) = true) : Deadlocks ts := by
  split at h
  · cases h
  · rename_i s hs
    rw [Bool.and_eq_true] at h
    obtain ⟨t, ht, hne⟩ := List.any_eq_true.1 h.2
    exact ⟨s, exec_reaches hs, ⟨t, ht, by simpa using hne⟩, stuckB_step h.1⟩

/-! ### Building sequences -/

theorem lockedI {l : Lock} {A : Lang} {u : List Op} (h : A u) : locked l A (.acq l .write :: (u ++ [.rel l])) := ⟨u, h, rfl⟩
theorem rlockedI {l : Lock} {A : Lang} {u : List Op} (h : A u) : rlocked l A (.acq l .read :: (u ++ [.rel l])) := ⟨u, h, rfl⟩
theorem seqI {A B : Lang} {u v : List Op} (h : A u) (h' : B v) : seq A B (u ++ v) := ⟨u, v, h, h', rfl⟩
theorem optI {A : Lang} {u : List Op} (h : A u) : opt A u := Or.inr h
theorem optN {A : Lang} : opt A [] := Or.inl rfl
theorem many1 {A : Lang} {u : List Op} (h : A u) : Many A (u ++ []) := .cons h .nil
theorem someI {A : Nat → Lang} (i : Nat) {u : List Op} (h : A i u) : some' A u := ⟨i, h⟩
theorem brief (l : Lock) : locked l skip [.acq l .write, .rel l] := ⟨[], rfl, rfl⟩
theorem anyBrief {f : Nat → Lock} (i : Nat) : some' (fun i => locked (f i) skip) [.acq (f i) .write, .rel (f i)] := ⟨i, brief _⟩

/-- Instruments with nothing plugged in. -/
def bare : Env := plugged skip skip

/-- A collection, with `cb` executed by a callback. -/
def collecting (cb : List Op) : List Op :=
  .acq (.reader 0) .write :: .acq (.provider 0) .write :: .rel (.provider 0) :: .acq (.producer 0) .write :: .rel (.producer 0) ::
  .acq (.meter 0) .write :: .rel (.meter 0) :: (cb ++
  [.acq (.callback 0) .write, .rel (.callback 0),
   .acq (.inst 0) .write, .acq (.once 0) .write, .acq (.view 0) .write, .rel (.view 0), .rel (.once 0),
   .acq (.acc 0) .write, .acq (.storage 0) .write, .rel (.storage 0), .acq (.storage 1) .write, .rel (.storage 1), .rel (.acc 0), .rel (.inst 0),
   .acq (.compiler 0) .write, .rel (.compiler 0), .acq (.view 0) .write, .acq (.storage 1) .write, .rel (.storage 1), .rel (.view 0),
   .rel (.reader 0)])

theorem collecting_mem {e : Env} {cb : List Op} (h : e.callback cb) (hx : e.exporter []) : collect e 0 (collecting cb) := by
  have one := seqI (u := _) (v := _) (A := e.callback) h (anyBrief (f := .callback) 0)
  have snap := someI (A := fun a => locked (.acc a) (seq aggregate aggregate)) 0
    (lockedI (seqI (A := aggregate) (B := aggregate) (optI (anyBrief (f := .storage) 0)) (optI (anyBrief (f := .storage) 1))))
  have fs : findStorage e 0 _ := seqI optN (lockedI (l := .view 0) (A := opt (everyHandle e)) optN)
  have read : readAccumulator e _ := optI (someI (A := fun r => locked (.once r) (newAccumulator e)) 0 (lockedI (many1 (someI 0 fs))))
  have sync : syncSnapshotAll e _ := someI 0 (lockedI (l := .inst 0) (many1 (seqI read (many1 snap))))
  have view : collectView _ := someI 0 (lockedI (l := .view 0) (many1 (A := aggregate) (optI (anyBrief (f := .storage) 1))))
  have cf : collectFor e _ := seqI (anyBrief (f := .meter) 0) (seqI (many1 one) (seqI (many1 sync) (seqI Many.nil
    (seqI (anyBrief (f := .compiler) 0) (many1 view)))))
  have pr : produce e _ := seqI (anyBrief (f := .provider) 0) (seqI (anyBrief (f := .producer) 0) (many1 cf))
  have := lockedI (l := .reader 0) (seqI pr hx)
  simpa [collecting, collect] using this

/-- A callback that takes lock 0 of the application and observes (lightstep/instrumentation/host/host.go:182-232). -/
def observing : List Op :=
  [.acq (.app 0) .write, .acq (.callback 0) .write, .rel (.callback 0), .acq (.state 0) .write, .acq (.view 1) .write, .rel (.view 1),
   .rel (.state 0), .acq (.acc 1) .write, .rel (.acc 1), .rel (.app 0)]

/-- Creating an instrument and registering a callback while holding lock 0 of the application (host.go:139-248). -/
def registering : List Op :=
  [.acq (.app 0) .write, .acq (.meter 0) .write, .acq (.compiler 0) .write, .rel (.compiler 0), .rel (.meter 0),
   .acq (.meter 0) .write, .rel (.meter 0), .rel (.app 0)]

theorem create_mem {e : Env} : some' (createInstrument e)
    [.acq (.meter 0) .write, .acq (.compiler 0) .write, .rel (.compiler 0), .rel (.meter 0)] := by
  have comp : compile e _ := seqI Many.nil (someI 0 (lockedI (l := .compiler 0) Many.nil))
  have := someI (A := createInstrument e) 0 (lockedI (l := .meter 0) (seqI (many1 comp) (optN (A := e.handler))))
  simpa using this

theorem register_mem : registerCallback [.acq (.meter 0) .write, .rel (.meter 0)] := optI (anyBrief (f := .meter) 0)

theorem observe_mem {e : Env} : asyncObserve e [.acq (.callback 0) .write, .rel (.callback 0), .acq (.state 0) .write, .acq (.view 1) .write,
    .rel (.view 1), .rel (.state 0), .acq (.acc 1) .write, .rel (.acc 1)] := by
  have fs : findStorage e 1 _ := seqI optN (lockedI (l := .view 1) (A := opt (everyHandle e)) optN)
  have goc : asyncGetOrCreate e _ := someI 0 (lockedI (l := .state 0) (optI (many1 (someI 1 fs))))
  have upd : asyncUpdate _ := many1 (anyBrief (f := .acc) 1)
  have go := seqI (optN (A := everyHandle e)) (optI (seqI goc upd))
  have := seqI (B := alt (opt e.handler) (seq (rangeTest e) (opt (seq (asyncGetOrCreate e) asyncUpdate)))) (anyBrief (f := .callback) 0) (Or.inr go)
  simpa [asyncObserve] using this

theorem registering_mem (H : Lang) : user H 1 0 registering := by
  have h1 : App (fun g => calls (plugged H (user H 0 g))) 1 _ := .call (Or.inr (Or.inl create_mem)) (.call (Or.inr (Or.inr (Or.inl register_mem))) .nil)
  have := App.lock (g := 0) (k := 0) (m := .write) (Nat.le_refl 0) h1 .nil
  simpa [user, registering] using this

theorem observing_mem (H : Lang) : user H 1 0 observing := by
  have h1 : App (fun g => calls (plugged H (user H 0 g))) 1 _ :=
    .call (Or.inr (Or.inr (Or.inr (Or.inr (Or.inr (Or.inl observe_mem)))))) .nil
  have := App.lock (g := 0) (k := 0) (m := .write) (Nat.le_refl 0) h1 .nil
  simpa [user, observing] using this

/-- One thread starts host metrics and then shuts down, another flushes, the third is the export loop of the reader. -/
def threads : List (Option Nat × List Op) :=
  [(none, registering ++ ([.acq (.provider 0) .write, .rel (.provider 0)] ++ .join 0 :: collecting observing)),
   (none, collecting observing), (some 0, collecting observing ++ collecting observing)]

theorem threads_mem (H : Lang) : ∀ t ∈ threads, Program H 1 t.1 t.2 := by
  have hc : collect (plugged H (user H 1 0)) 0 (collecting observing) := collecting_mem (observing_mem H) App.nil
  intro t ht
  simp only [threads, List.mem_cons, List.not_mem_nil, or_false] at ht
  rcases ht with rfl | rfl | rfl
  · have hs : shutdown (plugged H (user H 1 0)) _ := seqI (anyBrief (f := .provider) 0) (many1 (someI 0 (seqI (B := collect _ 0) rfl hc)))
    have := Program.main (H := H) (n := 1) (.cons (Or.inl (registering_mem H)) (.cons (Or.inr (Or.inr hs)) .nil))
    simpa using this
  · have := Program.main (H := H) (n := 1) (.cons (Or.inr (Or.inl (many1 (someI 0 hc)))) .nil)
    simpa using this
  · have h1 := seqI hc (optN (A := H))
    have := Program.loop (H := H) (n := 1) (r := 0) (.cons h1 (.cons h1 .nil))
    simpa using this

/-- The conditions are met, also when the error handler takes a lock of its own, and in the middle of an execution threads do
wait: the shutdown for the loop, the flush for the loop's collection. -/
example : (∀ t ∈ threads, Program (Quiet 0) 1 t.1 t.2) ∧ ∃ s, Reaches (start threads) s ∧ (∃ t ∈ s, t.todo ≠ []) ∧
    (s.map (fun t => t.held.length)) = [0, 0, 1] ∧ ∀ t ∈ s, t.loopOf = none → ∀ o rest, t.todo = o :: rest → ¬ free s t.held o := by
  refine ⟨threads_mem _, ?_⟩
  have h : (exec (start threads) (List.replicate 10 0 ++ [2])).isSome = true := by decide +kernel
  obtain ⟨s, hs⟩ := Option.isSome_iff_exists.1 h
  have h2 : ((exec (start threads) (List.replicate 10 0 ++ [2])).map (fun s => s.any (fun t => t.todo != []) &&
      (s.map (fun t => t.held.length) == [0, 0, 1]) && s.all (fun t => t.loopOf != none || match t.todo with | [] => true | o :: _ => !freeB s t.held o))) = some true := by
    decide +kernel
  rw [hs] at h2
  simp only [Option.map_some, Option.some.injEq, Bool.and_eq_true, List.any_eq_true, List.all_eq_true, beq_iff_eq, bne_iff_ne,
    ne_eq, Bool.or_eq_true] at h2
  refine ⟨s, exec_reaches hs, h2.1.1, h2.1.2, ?_⟩
  intro t ht hl o rest e hf
  rcases h2.2 t ht with h3 | h3
  · exact h3 hl
  · rw [e] at h3
    dsimp only at h3
    rw [freeB_iff.2 hf] at h3
    cases h3

end LocksEx

/-- C86 (fails when a callback collects). A callback that flushes through the periodic reader that is running it waits for ever
for the reader's lock; one that shuts the provider down waits for ever for the loop it is part of. -/
theorem C86_collect_in_callback_fails :
    (∃ t, forceFlush { LocksEx.bare with callback := forceFlush LocksEx.bare } t ∧ LocksEx.Deadlocks [(none, t)]) ∧
    (∃ t, loop { LocksEx.bare with callback := shutdown LocksEx.bare } 0 t ∧ LocksEx.Deadlocks [(some 0, t)]) := by
  have hc : collect LocksEx.bare 0 (LocksEx.collecting []) := LocksEx.collecting_mem rfl rfl
  constructor
  · refine ⟨_, LocksEx.many1 (LocksEx.someI 0 (LocksEx.collecting_mem (LocksEx.many1 (LocksEx.someI 0 hc)) rfl)), ?_⟩
    exact LocksEx.deadlocks_of _ (List.replicate 7 0) (by decide +kernel)
  · have hs : shutdown LocksEx.bare _ := LocksEx.seqI (LocksEx.anyBrief (f := .provider) 0)
      (LocksEx.many1 (LocksEx.someI 0 (LocksEx.seqI (B := collect _ 0) rfl hc)))
    refine ⟨_, LocksEx.many1 (LocksEx.seqI (LocksEx.collecting_mem hs rfl) LocksEx.optN), ?_⟩
    exact LocksEx.deadlocks_of _ (List.replicate 9 0) (by decide +kernel)

/-- C86 (fails when the error handler uses the SDK). Conflicts are reported while the lock of the meter is held: a handler that
creates an instrument with the same meter never returns. Empty attribute keys are reported while a record is being
initialised: a handler that counts errors with the same instrument, in one thread, and a collection, in another, wait for each
other. -/
theorem C86_error_handler_fails :
    (∃ t, some' (createInstrument { LocksEx.bare with handler := some' (createInstrument LocksEx.bare) }) t ∧ LocksEx.Deadlocks [(none, t)]) ∧
    (∃ t u, syncObserve { LocksEx.bare with handler := syncObserve LocksEx.bare } t ∧ produce LocksEx.bare u ∧
      LocksEx.Deadlocks [(none, t), (none, u)]) := by
  constructor
  · let e : Env := { LocksEx.bare with handler := some' (createInstrument LocksEx.bare) }
    have hc : compile e _ := LocksEx.seqI Many.nil (LocksEx.someI 0 (LocksEx.lockedI (l := .compiler 0) Many.nil))
    refine ⟨_, LocksEx.someI 0 (LocksEx.lockedI (l := .meter 0) (LocksEx.seqI (LocksEx.many1 hc) (LocksEx.optI LocksEx.create_mem))), ?_⟩
    exact LocksEx.deadlocks_of _ (List.replicate 3 0) (by decide +kernel)
  · let e : Env := { LocksEx.bare with handler := syncObserve LocksEx.bare }
    have add : syncObserve LocksEx.bare _ := LocksEx.seqI (LocksEx.optN (A := everyHandle LocksEx.bare)) (LocksEx.optI (LocksEx.seqI (LocksEx.optN (A := skip))
      (LocksEx.someI 0 (LocksEx.seqI (LocksEx.rlockedI (l := .inst 0) (A := skip) rfl) (LocksEx.seqI Many.nil
        (LocksEx.seqI LocksEx.optN Many.nil))))))
    have fs : findStorage e 0 _ := LocksEx.seqI (LocksEx.optI (LocksEx.seqI (LocksEx.brief .every) (LocksEx.optI add)))
      (LocksEx.lockedI (l := .view 0) (A := opt (everyHandle e)) LocksEx.optN)
    have read : readAccumulator e _ := LocksEx.optI (LocksEx.someI (A := fun r => locked (.once r) (newAccumulator e)) 0
      (LocksEx.lockedI (LocksEx.many1 (LocksEx.someI 0 fs))))
    have obs : syncObserve e _ := LocksEx.seqI (LocksEx.optN (A := everyHandle e)) (LocksEx.optI (LocksEx.seqI (LocksEx.optN (A := skip))
      (LocksEx.someI 0 (LocksEx.seqI (LocksEx.rlockedI (l := .inst 0) (A := skip) rfl) (LocksEx.seqI (LocksEx.many1 (LocksEx.brief (.inst 0)))
        (LocksEx.seqI read Many.nil))))))
    have fs0 : findStorage LocksEx.bare 0 _ := LocksEx.seqI LocksEx.optN (LocksEx.lockedI (l := .view 0) (A := opt (everyHandle LocksEx.bare)) LocksEx.optN)
    have read0 : readAccumulator LocksEx.bare _ := LocksEx.optI (LocksEx.someI (A := fun r => locked (.once r) (newAccumulator LocksEx.bare)) 0
      (LocksEx.lockedI (LocksEx.many1 (LocksEx.someI 0 fs0))))
    have sync : syncSnapshotAll LocksEx.bare _ := LocksEx.someI 0 (LocksEx.lockedI (l := .inst 0) (LocksEx.many1 (LocksEx.seqI read0 Many.nil)))
    have cf : collectFor LocksEx.bare _ := LocksEx.seqI (LocksEx.anyBrief (f := .meter) 0) (LocksEx.seqI Many.nil (LocksEx.seqI (LocksEx.many1 sync)
      (LocksEx.seqI Many.nil (LocksEx.seqI (LocksEx.anyBrief (f := .compiler) 0) Many.nil))))
    have pr : produce LocksEx.bare _ := LocksEx.seqI (LocksEx.anyBrief (f := .provider) 0) (LocksEx.seqI (LocksEx.anyBrief (f := .producer) 0) (LocksEx.many1 cf))
    exact ⟨_, _, obs, pr, LocksEx.deadlocks_of _ (List.replicate 7 0 ++ List.replicate 7 1) (by decide +kernel)⟩

/-- C86 (fails when a lock that a callback takes is held while flushing). The order in which applications have to take their
locks has the lock of the reader first. -/
theorem C86_lock_around_flush_fails :
    let e : Env := { LocksEx.bare with callback := locked (.app 0) skip }
    ∃ t u, forceFlush e t ∧ loop e 0 u ∧ LocksEx.Deadlocks [(none, .acq (.app 0) .write :: (t ++ [.rel (.app 0)])), (some 0, u)] := by
  intro e
  have hc : collect e 0 _ := LocksEx.collecting_mem (LocksEx.brief (.app 0)) rfl
  exact ⟨_, _, LocksEx.many1 (LocksEx.someI 0 hc), LocksEx.many1 (LocksEx.seqI hc (LocksEx.optN (A := e.handler))),
    LocksEx.deadlocks_of _ (0 :: List.replicate 7 1) (by decide +kernel)⟩

end Verif.Props
