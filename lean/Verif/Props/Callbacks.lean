import Verif.Proof.Callbacks

/-!
Property C25: registered callbacks run exactly once per collection.
-/

namespace Verif.Callbacks
open Verif

namespace CbEx

/-- Whether a step is a `Serial` one. -/
def ok (s : State) : Action → Bool
  | .register _ => (List.range s.next).all (fun r => decide (s.upc r = .idle))
  | .start => (List.range s.next).all (fun r => decide (s.upc r = .idle))
  | .unreg q => (List.range s.next).all (fun r => r = q || decide (s.upc r = .idle))
  | .run _ => true

/-- Executing a schedule one `Serial` step at a time. -/
def serialRun (s : State) : List Action → Option State
  | [] => some s
  | a :: as => if ok s a then (step s a).bind (fun s' => serialRun s' as) else none

theorem upc_idle {s : State} (h : Reach s) : ∀ r, s.next ≤ r → s.upc r = .idle := by
  induction h with
  | init => intro r _; rfl
  | @step s s' a _ hs ih =>
    intro r hr
    cases a with
    | register e =>
      simp only [Callbacks.step, Option.some.injEq] at hs
      subst hs
      have hu : (append s s.next e).upc = s.upc := by unfold append; split <;> rfl
      dsimp only at hr ⊢
      rw [hu]; exact ih r (by omega)
    | start => simp only [Callbacks.step, Option.some.injEq] at hs; subst hs; exact ih r hr
    | run k =>
      simp only [Callbacks.step] at hs
      split at hs
      · cases hs
      · split at hs
        · cases hs
        · split at hs <;> (simp only [Option.some.injEq] at hs; subst hs; exact ih r hr)
    | unreg q =>
      simp only [Callbacks.step] at hs
      split at hs
      · rename_i hq
        simp only [Option.some.injEq] at hs
        subst hs
        have hn : (unregStep s q).next = s.next := by
          unfold unregStep; dsimp only; (repeat' split) <;> rfl
        rw [hn] at hr
        have hne : r ≠ q := by omega
        have : (unregStep s q).upc r = s.upc r := by
          unfold unregStep
          dsimp only
          (repeat' split) <;> first | rfl | exact upd_ne _ _ hne
        rw [this]; exact ih r hr
      · cases hs

theorem serial_reach {s : State} (h : Serial s) : Reach s := by
  induction h with
  | init => exact .init
  | register _ _ hs ih => exact ih.step hs
  | start _ _ hs ih => exact ih.step hs
  | unreg _ _ hs ih => exact ih.step hs
  | run _ hs ih => exact ih.step hs

theorem serial_of_run {s s' : State} {as : List Action} (h : Serial s) (hr : serialRun s as = some s') : Serial s' := by
  induction as generalizing s with
  | nil => cases hr; exact h
  | cons a as ih =>
    simp only [serialRun] at hr
    split at hr
    · rename_i hok
      cases hs : step s a with
      | none => rw [hs] at hr; cases hr
      | some t =>
        rw [hs] at hr
        refine ih ?_ hr
        have hi := upc_idle (serial_reach h)
        cases a with
        | register e =>
          refine h.register (fun r => ?_) hs
          by_cases hlt : r < s.next
          · simp only [ok, List.all_eq_true, List.mem_range, decide_eq_true_eq] at hok; exact hok r hlt
          · exact hi r (by omega)
        | start =>
          refine h.start (fun r => ?_) hs
          by_cases hlt : r < s.next
          · simp only [ok, List.all_eq_true, List.mem_range, decide_eq_true_eq] at hok; exact hok r hlt
          · exact hi r (by omega)
        | unreg q =>
          refine h.unreg (fun r hne => ?_) hs
          by_cases hlt : r < s.next
          · simp only [ok, List.all_eq_true, List.mem_range, Bool.or_eq_true, decide_eq_true_eq] at hok
            exact (hok r hlt).resolve_left hne
          · exact hi r (by omega)
        | run k => exact h.run hs
    · cases hr

theorem serial_eval {as : List Action} {p : State → Bool} (h : ((serialRun init as).map p) = some true) :
    ∃ s, Serial s ∧ p s = true := by
  cases hr : serialRun init as with
  | none => rw [hr] at h; cases h
  | some s => rw [hr] at h; exact ⟨s, serial_of_run .init hr, by simpa using h⟩

theorem reach_eval {as : List Action} {p : State → Bool} (h : ((run init as).map p) = some true) :
    ∃ s, Reach s ∧ p s = true := by
  cases hr : run init as with
  | none => rw [hr] at h; cases h
  | some s => rw [hr] at h; exact ⟨s, Reach.init.run hr, by simpa using h⟩

/-- A whole call of `Unregister`. -/
def unregister (r : Nat) : List Action := [.unreg r, .unreg r, .unreg r, .unreg r, .unreg r]

/-- A whole uninterrupted collection of `n` callbacks, the `k`-th one. -/
def collect (k n : Nat) : List Action := .start :: List.replicate (n + 1) (.run k)

end CbEx

/-- A completed collection ran every callback registered before it began and not unregistered until then exactly once, in
every execution where `Unregister` calls overlap neither this collection nor registrations nor each other. Missing for
the full statement: overlaps, where it is false (see below). -/
theorem C25_exactly_once_partial {s : State} (hs : Serial s) {c : Coll} (hc : c ∈ s.colls) (hend : c.ended = true)
    (hcalm : c.disturbed = false) {x : Nat} (hreg : x < c.before) (hun : x ∉ c.dead) : c.ran.count x = 1 := by
  have k := (serial_inv hs).colls c hc
  have h1 : c.ran = c.snap := by
    rw [k.calmRan hcalm, k.fin hend, ← k.len, List.take_length]
  rw [h1, k.nodup.count]
  exact if_pos ((k.mem x).2 ⟨hreg, hun⟩)

/-- A callback registered later does not run in a collection that had begun, nor one that was unregistered. -/
theorem C25_nothing_else_partial {s : State} (hs : Serial s) {c : Coll} (hc : c ∈ s.colls) (hcalm : c.disturbed = false)
    {x : Nat} (hx : x ∈ c.ran) : x < c.before ∧ x ∉ c.dead := by
  have k := (serial_inv hs).colls c hc
  rw [k.calmRan hcalm] at hx
  exact (k.mem x).1 (List.mem_of_mem_take hx)

/-- A callback whose `Unregister` completed before a collection began never runs in it, even if further `Unregister` calls
overlap the collection. -/
theorem C25_unregistered_partial {s : State} (hs : Serial s) {c : Coll} (hc : c ∈ s.colls) {x : Nat} (hx : x ∈ c.dead) :
    x ∉ c.ran :=
  fun h => ((serial_inv hs).colls c hc).ranDead x h hx

/-- In every execution: unregistering again reports an error and leaves the list, all other registrations and all running
collections as they are. -/
theorem C25_unregister_twice {s : State} (hs : Reach s) {r : Nat} (hr : r ∈ s.gone) :
    ∃ s', step s (.unreg r) = some s' ∧ s' = { s with errors := s.errors ++ [r] } := by
  obtain ⟨h1, h2, h3⟩ := gone_inactive hs r hr
  refine ⟨_, ?_, rfl⟩
  simp only [step, if_pos h1, unregStep, h3, h2]
  rfl

open CbEx in
/-- Three callbacks, the first is unregistered between two collections; in both every registered one runs once, though one
more is registered during the second. -/
example : ∃ s, Serial s ∧ (s.colls.map (·.ran) = [[0, 1, 2], [2, 1]] ∧ s.colls.map (·.before) = [3, 3] ∧
    s.colls.map (·.dead) = [[], [0]] ∧ (∀ c ∈ s.colls, c.ended = true ∧ c.disturbed = false) ∧ s.gone = [0]) :=
  let ⟨s, hs, hp⟩ := serial_eval (as := [.register 1, .register 1, .register 1] ++ collect 0 3 ++ unregister 0 ++
      [.start, .run 1, .register 0, .run 1, .run 1])
    (p := fun s => decide (s.colls.map (·.ran) = [[0, 1, 2], [2, 1]] ∧ s.colls.map (·.before) = [3, 3] ∧
      s.colls.map (·.dead) = [[], [0]] ∧ (∀ c ∈ s.colls, c.ended = true ∧ c.disturbed = false) ∧ s.gone = [0])) (by decide +kernel)
  ⟨s, hs, of_decide_eq_true hp⟩

open CbEx in
/-- Unregistering a callback that the collection has not reached yet puts the last
callback in its place, while it stays in its own: the collection runs it twice. -/
theorem C25_twice_fails : ∃ s, Serial s ∧ ∃ c ∈ s.colls, c.ended = true ∧ c.before = 3 ∧ c.dead = [] ∧ s.gone = [1] ∧ c.ran = [0, 2, 2] := by
  obtain ⟨s, hs, hp⟩ := serial_eval (as := [.register 1, .register 1, .register 1, .start, .run 0] ++ unregister 1 ++ [.run 0, .run 0, .run 0])
    (p := fun s => decide (∃ c ∈ s.colls, c.ended = true ∧ c.before = 3 ∧ c.dead = [] ∧ s.gone = [1] ∧ c.ran = [0, 2, 2])) (by decide +kernel)
  exact ⟨s, hs, of_decide_eq_true hp⟩

open CbEx in
/-- Unregistering a callback that the collection has already run moves the last one there; a registration then overwrites the
last place before the collection gets there: the moved callback, registered all the time, does not run (and a callback
registered after the collection began does). -/
theorem C25_skip_fails : ∃ s, Serial s ∧ ∃ c ∈ s.colls, c.ended = true ∧ c.before = 3 ∧ c.dead = [] ∧ s.gone = [0] ∧ c.ran = [0, 1, 3] := by
  obtain ⟨s, hs, hp⟩ := serial_eval (as := [.register 1, .register 1, .register 1, .start, .run 0] ++ unregister 0 ++
      [.register 0, .run 0, .run 0, .run 0])
    (p := fun s => decide (∃ c ∈ s.colls, c.ended = true ∧ c.before = 3 ∧ c.dead = [] ∧ s.gone = [0] ∧ c.ran = [0, 1, 3])) (by decide +kernel)
  exact ⟨s, hs, of_decide_eq_true hp⟩

open CbEx in
/-- A registration that completes during an `Unregister` call can be lost: callback 2 is registered, never unregistered, and
a collection that begins later does not run it. -/
theorem C25_lost_fails : ∃ s, Reach s ∧ ∃ c ∈ s.colls, c.ended = true ∧ c.disturbed = false ∧ c.before = 3 ∧ s.gone = [0] ∧ c.ran = [1] := by
  obtain ⟨s, hs, hp⟩ := reach_eval (as := [.register 3, .register 0, .unreg 0, .unreg 0, .register 0, .unreg 0, .unreg 0, .unreg 0] ++ collect 0 1)
    (p := fun s => decide (∃ c ∈ s.colls, c.ended = true ∧ c.disturbed = false ∧ c.before = 3 ∧ s.gone = [0] ∧ c.ran = [1])) (by decide +kernel)
  exact ⟨s, hs, of_decide_eq_true hp⟩

open CbEx in
/-- When two `Unregister` calls overlap, a callback whose call returned before a collection began can still run in it. -/
theorem C25_unregistered_fails : ∃ s, Reach s ∧ ∃ c ∈ s.colls, c.ended = true ∧ c.dead = [0, 1] ∧ c.ran = [1] := by
  obtain ⟨s, hs, hp⟩ := reach_eval (as := [.register 1, .register 1, .unreg 0, .unreg 0] ++ unregister 1 ++ [.unreg 0, .unreg 0, .unreg 0] ++ collect 0 1)
    (p := fun s => decide (∃ c ∈ s.colls, c.ended = true ∧ c.dead = [0, 1] ∧ c.ran = [1])) (by decide +kernel)
  exact ⟨s, hs, of_decide_eq_true hp⟩

end Verif.Callbacks
