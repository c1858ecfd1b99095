import Verif.Model.Aggregators
import Verif.Spec.Sync

/-!
A small concrete configuration and concrete schedules, used to show that the hypotheses of the theorems about the
synchronous pipeline are met by non-trivial cases.

Instrument 0 (a counter) feeds view 0 (delta sum, all attributes kept) and view 1 (cumulative sum, all attributes
removed). Instrument 1 (a gauge) feeds view 2 (delta gauge). Instrument 2 (a histogram) feeds view 3 (delta
MinMaxSumCount). Attribute lists are numbers; fingerprints deliberately collide (`a % 4`).
-/

namespace Verif.Examples
open Verif.Sync Verif.Number Verif.Aggr

/-- The external histogram is irrelevant here: count only. -/
def hOps : HistOps Bits Nat := { empty := 0, update := fun h _ => h + 1, mergeFrom := (· + ·), count := id }

abbrev C := Cfg Nat Nat Bits (Cell Bits Nat)
abbrev St := State Nat Nat Bits (Cell Bits Nat)
abbrev Act := Action Nat Bits

def cfg : C where
  fp := fun a => UInt64.ofNat (a % 4)
  eqv := fun a b => a == b
  ignoreColl := false
  overflowAL := 99
  overflowKS := 99
  newSet := id
  limit := 4
  periods := 2
  W := 4294967296
  leavesOf := fun o => if o = 0 then [0, 1] else if o = 1 then [2] else [3]
  filt := fun l k => if l = 1 then 0 else k
  lim := fun _ => 10
  delta := fun l => l != 1
  agg := fun l => if l = 2 then gaugeAgg intOps hOps else if l = 3 then mmscAgg intOps hOps else sumAgg intOps hOps

/-- A whole call, run without interruption: `rd`, `wr` if needed, initialisation, updates, count, unref. -/
def call (i n : Nat) : List Act := List.replicate n (.op i)

/-- `n` steps of a task, always taking the first choice. -/
def steps (t n : Nat) : List Act := List.replicate n (.task t 0)

def init0 : St := initial cfg 0

/-- Three calls on the counter: two interleaved on colliding attribute lists 1 and 5, with a snapshot running between
the update and the count of the first; then a complete collection of both views. -/
def sched0 : List Act :=
  [.observe 0 1 5, .observe 0 5 7] ++
  -- call 0: rd, wr, ini, ini, ini-done, fetch, upd (first view only)
  call 0 7 ++
  -- call 1 completely: rd wr ini ini ini-done fetch upd fetch upd fetchEnd cnt unref
  call 1 12 ++
  [.snapshot 0] ++
  -- lockw, scan(record 1: changed), ini-done, mv mg rl mv mg rl, mv(finish), scan(record 0: unchanged), scanEnd
  steps 0 12 ++
  -- call 0 continues: fetch upd fetchEnd cnt unref
  call 0 5

def s0 : Option St := run cfg init0 sched0

/-- After `sched0`: snapshot instrument 0, collect view 0 and view 1. -/
def sched1 : List Act :=
  [.snapshot 0] ++ steps 1 12 ++ [.collect 0] ++ steps 2 6 ++ [.collect 1] ++ steps 3 3

def s1 : Option St := s0.bind (fun s => run cfg s sched1)

/-- Existence of a final state with given decidable facts, from evaluating the schedule. -/
theorem exists_of_eval {α : Type} {x : Option α} {P : α → Prop} [DecidablePred P]
    (h : x.map (fun s => decide (P s)) = some true) : ∃ s, x = some s ∧ P s := by
  cases x with
  | none => cases h
  | some s => exact ⟨s, rfl, by simpa using h⟩

/-- Evaluate a condition in every state of a schedule. -/
def alongB (P : St → Bool) : St → List Act → Bool
  | s, [] => P s
  | s, a :: as => P s && (match step cfg s a with | none => true | some s' => alongB P s' as)

theorem along_of_eval {P : St → Prop} [DecidablePred P] {acts : List Act} {s : St}
    (h : alongB (fun s => decide (P s)) s acts = true) : Along cfg P s acts := by
  induction acts generalizing s with
  | nil => simpa [alongB, Along] using h
  | cons a as ih =>
    simp only [alongB, Bool.and_eq_true, decide_eq_true_eq] at h
    refine ⟨h.1, ?_⟩
    intro s' hs'
    rw [hs'] at h
    exact ih h.2

instance (o : Nat) : DecidablePred (NoWrap cfg o) := fun s => by unfold NoWrap; infer_instance

/-- Evaluate the non-overlap condition along a schedule. -/
def seqB (c : C) (G : Nat → Bool) : St → List Act → Bool
  | _, [] => true
  | s, a :: as =>
    (match a with
      | .observe o _ _ => !G o || (List.range s.nextOp).all (fun i => !G (s.op i).obs || decide ((s.op i).pc = .done))
      | _ => true) &&
    (match step c s a with | none => true | some s' => seqB c G s' as)

theorem seq_of_eval {c : C} {G : Nat → Bool} {n0 : Bits} {acts : List Act} {s s' : St} (h0 : SeqReachable c (fun o => G o = true) n0 s)
    (h : seqB c G s acts = true) (hr : run c s acts = some s') : SeqReachable c (fun o => G o = true) n0 s' := by
  induction acts generalizing s with
  | nil => simp only [run, Option.some.injEq] at hr; subst hr; exact h0
  | cons a as ih =>
    simp only [run, Option.bind_eq_some_iff] at hr
    obtain ⟨s1, h1, h2⟩ := hr
    simp only [seqB, h1, Bool.and_eq_true] at h
    refine ih (.step a h0 h1 ?_) h.2 h2
    rintro o x n rfl hG i hi hGi
    have h3 := h.1
    simp only [Bool.or_eq_true, Bool.not_eq_true', List.all_eq_true, List.mem_range, decide_eq_true_eq] at h3
    rcases h3 with h3 | h3
    · rw [h3] at hG; cases hG
    · rcases h3 i hi with h4 | h4
      · rw [h4] at hGi; cases hGi
      · exact h4

end Verif.Examples
