import Verif.Proof.Live
import Verif.Examples.WholeProgram

/-!
The counter and the observable counter of `Verif.Examples.Wh`, where the observable counter is asked for after the first collection.
-/

namespace Verif.Examples.Lv
open Verif Verif.Attr Verif.Number Verif.Aggr Verif.Export Verif.Assembly Verif.Instruments Verif.Examples
open Verif.Examples.Asm (scA ka kb by')
open Verif.Examples.AsmV (kab)
open Verif.Views (Views Tempo lit)
open Verif.Examples.Wh (v cs p fsub P R n ops tasks sees e)

/-- Up to the first collection. -/
def first (t : Tempo) : List Whole.Act :=
  [.call n ka 7] ++ ops 0 9 ++ [.call n kb 5] ++ ops 1 9 ++ [.sched (.snapshot 0)] ++ tasks 0 14 ++ [.sched (.collect 0)] ++ tasks 1 (by' t 6 4) ++ [.collect [] ⟨1, 1, 2⟩]
def second : List Whole.Act := [.call n ka 2] ++ ops 2 7

def acts (t : Tempo) : List (Live.Act Nat) :=
  [.make (.meter scA), .make (.instrument 0 (Ctor.int64Counter.desc (lit "n") [] (lit "s")))] ++ (first t).map .run ++
  [.make (.instrument 0 (Ctor.int64ObservableCounter.desc (lit "m") [] (lit "s")))] ++ second.map .run

def mid1 : List Whole.Act := sees 0 0 kab 10 ka 5
def mid2 : List Whole.Act := tasks 2 9
def mid : List Whole.Act := mid1 ++ .sched (.snapshot 0) :: mid2
def fin (t : Tempo) : List Whole.Act := tasks 3 (by' t 6 4)
def order : List (Async.Entry (List KV) Bits) := [e ka [(4, ka)] 5, e kab [(4, ka)] 10]
def q : Times.Seq := ⟨1, 2, 3⟩
def coll (t : Tempo) : List Whole.Act := mid ++ .sched (.collect 0) :: fin t ++ [.collect order q]

def initial (t : Tempo) : Live.Sys Nat (List Bits) Nat := Live.initial (fun _ => 0) Asm.w fsub (p t) [v t] 0

/-- The states between: before and after the last snapshot, before the last export, and at the end. -/
structure Stages where
  x : Live.Sys Nat (List Bits) Nat
  a : Whole.Sys (List Bits)
  y : Whole.Sys (List Bits)
  z : Whole.Sys (List Bits)
  x' : Whole.Sys (List Bits)

def Stages.last (s : Stages) : Live.Sys Nat (List Bits) Nat := { s.x with s := s.x' }

def stages (t : Tempo) : Option Stages :=
  (Live.run (fun _ => 0) Asm.w fsub Props.ViewEx.x 0 (initial t) (acts t)).bind fun x => (Whole.run (P t) (R t) x.s mid1).bind fun a =>
    (Whole.run (P t) (R t) a (.sched (.snapshot 0) :: mid2)).bind fun y => (Whole.run (P t) (R t) y (.sched (.collect 0) :: fin t)).bind fun z =>
    (Whole.step (P t) (R t) z (.collect order q)).bind fun x' => some ⟨x, a, y, z, x'⟩

/-- All calls have returned, the last snapshot and collection are finished in time. -/
def Good (s : Stages) : Prop :=
  (∀ i, i < s.x.s.sync.nextOp → (s.x.s.sync.op i).pc = .done) ∧ s.y.sync.task s.a.sync.nextTask = .done ∧ s.z.sync.task s.y.sync.nextTask = .done

instance : DecidablePred Good := fun s => by unfold Good; infer_instance

/-- Evaluates `Orderly`. -/
def orderlyB : Live.Sys Nat (List Bits) Nat → List (Live.Act Nat) → Bool
  | _, [] => true
  | x, b :: as =>
    (match b with
      | .run (.collect _ _) => (List.range x.s.async.nextOp).all (fun i => decide ((x.s.async.op i).pc ≠ .create) && decide ((x.s.async.op i).pc ≠ .update))
      | _ => true) &&
    match Live.step (fun _ => 0) Asm.w fsub Props.ViewEx.x 0 x b with | none => true | some y => orderlyB y as

theorem orderlyB_spec {x : Live.Sys Nat (List Bits) Nat} {acts : List (Live.Act Nat)} (h : orderlyB x acts = true) :
    ∀ before order q after y, acts = before ++ .run (.collect order q) :: after → Live.run (fun _ => 0) Asm.w fsub Props.ViewEx.x 0 x before = some y →
      ¬ Async.InFlight y.s.async := by
  induction acts generalizing x with
  | nil => intro before order q after y h1 _; simp at h1
  | cons b acts ih =>
    intro before order q after y h1 h2
    unfold orderlyB at h
    rw [Bool.and_eq_true] at h
    cases before with
    | nil =>
      simp only [List.nil_append, List.cons.injEq] at h1
      rw [h1.1] at h
      have h3 := h.1
      simp only [Live.run, Option.some.injEq] at h2
      subst h2
      rintro ⟨i, hi, hpc⟩
      have h4 := List.all_eq_true.1 h3 i (List.mem_range.2 hi)
      simp only [Bool.and_eq_true, decide_eq_true_eq] at h4
      rcases hpc with hpc | hpc
      · exact h4.1 hpc
      · exact h4.2 hpc
    | cons b' before =>
      simp only [List.cons_append, List.cons.injEq] at h1
      rw [← h1.1] at h2
      simp only [Live.run, Option.bind_eq_some_iff] at h2
      obtain ⟨z, h3, h4⟩ := h2
      have h5 := h.2
      rw [h3] at h5
      exact ih h5 before order q after y h1.2 h4

def called : List (Front.Inst × List KV × Bits) := [(n, ka, 7), (n, kb, 5), (n, ka, 2)]

theorem makes_acts (t : Tempo) : Live.makes (acts t) = cs := by
  unfold acts first by'
  split <;> rfl
theorem calls_acts (t : Tempo) : Whole.calls (Live.rest (acts t)) = called := by
  unfold acts first by'
  split <;> rfl
theorem calls_coll (t : Tempo) : Whole.calls (coll t) = [] := by
  unfold coll fin by'
  split <;> rfl

theorem ending {t : Tempo} {s : Stages} (hs : stages t = some s) (hg : Good s) (hk : Wh.known t = true) (hpos : (coll t).all (Live.possible Asm.w (p t)) = true)
    (ho : orderlyB (initial t) (acts t ++ (coll t).map .run) = true) :
    s.last.p = p t ∧ Live.Ending (fun _ => 0) Asm.w fsub Props.ViewEx.x [v t] 0 (acts t) (coll t) s.x s.last := by
  unfold stages at hs
  simp only [Option.bind_eq_some_iff, Option.some.injEq] at hs
  obtain ⟨x, h1, a, h2, y, h3, z, h4, x', h5, rfl⟩ := hs
  obtain ⟨g1, g2, g3⟩ := hg
  simp only [Wh.known, Bool.and_eq_true, decide_eq_true_eq] at hk
  obtain ⟨⟨⟨k1, k2⟩, k3⟩, k4⟩ := hk
  have hx : x.p = p t := by
    have := Live.run_prov h1
    rw [makes_acts] at this
    rw [this]
    unfold p
    rfl
  have hmid : Whole.run (P t) (R t) x.s mid = some y := by
    unfold mid
    rw [Whole.run_append, h2, Option.bind_some, h3]
  have hcoll : Whole.run (P t) (R t) x.s (coll t) = some x' := by
    unfold coll
    rw [Whole.run_append, Whole.run_append, hmid, Option.bind_some, h4, Option.bind_some]
    simp only [Whole.run, h5, Option.bind_some]
  refine ⟨hx, ?_⟩
  have hfill : Live.initial (fun _ => 0) Asm.w fsub (Stages.last ⟨x, a, y, z, x'⟩).p [v t] 0 = initial t := by
    show Live.initial (fun _ => 0) Asm.w fsub x.p [v t] 0 = _
    rw [hx]
    rfl
  refine ⟨⟨by unfold Exportable; decide, ?_, ?_, ?_, ?_⟩, by rw [calls_acts]; decide, ?_, g1, ?_, calls_coll t⟩
  · intro e he
    have : Whole.calls (Live.rest (acts t ++ (coll t).map .run)) = called := by
      rw [Live.rest_append, Live.rest_run]
      unfold Whole.calls
      rw [List.filterMap_append]
      exact (congr (congrArg (· ++ ·) (calls_acts t)) (calls_coll t)).trans (List.append_nil _)
    rw [this] at he
    have hd : ∀ e ∈ called, (e.1.attrs e.2.1).all (fun kv => decide (kv.val ≠ .invalid)) = true := by decide
    exact fun kv hkv => of_decide_eq_true (List.all_eq_true.1 (hd e he) kv hkv)
  · intro cb o as v hm
    have hd : (acts t ++ (coll t).map Live.Act.run).all (fun b : Live.Act Nat => match b with
        | .run (.cb (.observe _ _ as _)) => as.all (fun kv : KV => decide (kv.val ≠ Val.invalid))
        | _ => true) = true := by
      unfold acts first coll fin by'
      split <;> decide
    have := List.all_eq_true.1 hd _ hm
    exact fun kv hkv => of_decide_eq_true (List.all_eq_true.1 this kv hkv)
  · unfold Live.Orderly
    rw [hfill]
    exact orderlyB_spec ho
  · rw [hfill, Live.run_append, h1, Option.bind_some]
    refine Live.run_fixed ?_ ?_
    · rw [hx]
      exact List.all_eq_true.1 hpos
    · rw [hx]
      exact hcoll
  · rw [hfill]
    exact h1
  · intro sc hsc o hout hsy
    dsimp only at hsc hsy ⊢
    rw [hx] at hsc hsy ⊢
    have hl := List.all_eq_true.1 k4 o (List.mem_flatMap.2 ⟨sc, hsc, hout⟩)
    rw [hsy] at hl
    have hl : o.leaf = 0 := of_decide_eq_true (by simpa using hl)
    rw [hl]
    refine ⟨⟨mid, fin t, y, z, order, q, rfl, hmid, h4, h5, g3, fun i hi => ?_⟩⟩
    have hi : 0 ∈ leavesOf (p t) i := hi
    rw [Wh.leaves k2 k3 hi]
    exact ⟨mid1, mid2, a, rfl, h2, g2⟩

/-- What is to be evaluated for a program. -/
def evaluated (t : Tempo) : Bool :=
  Wh.known t && (coll t).all (Live.possible Asm.w (p t)) && orderlyB (initial t) (acts t ++ (coll t).map .run) &&
    match stages t with | none => false | some s => decide (Good s)

theorem of_evaluated {t : Tempo} (h : evaluated t = true) :
    ∃ s, stages t = some s ∧ s.last.p = p t ∧ Live.Ending (fun _ => 0) Asm.w fsub Props.ViewEx.x [v t] 0 (acts t) (coll t) s.x s.last := by
  simp only [evaluated, Bool.and_eq_true] at h
  cases hs : stages t with
  | none => rw [hs] at h; exact absurd h.2 (by simp)
  | some s =>
    rw [hs] at h
    obtain ⟨e1, e2⟩ := ending hs (of_decide_eq_true h.2) h.1.1.1 h.1.1.2 h.1.2
    exact ⟨s, rfl, e1, e2⟩

theorem viewed {t : Tempo} {n : Str} {L : Look Nat} {z : Live.Sys Nat (List Bits) Nat} (hz : z.p = p t) (h : AsmV.viewedB (p t) 0 (v t) scA n (requests 0 cs) L = true) :
    Viewed Props.ViewEx.x [v t] (Live.makes (acts t)) z.p 0 0 (v t) scA n L := by
  rw [hz, makes_acts]
  exact Wh.viewed h

/-- What counted. -/
def seen : List Seen := [(1, 2, kab, 10), (1, 2, ka, 5)]

end Verif.Examples.Lv
