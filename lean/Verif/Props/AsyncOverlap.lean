import Verif.Proof.AsyncDelta
import Verif.Props.Async

/-!
# C77: collections by one reader may overlap

`Produce may be called concurrently` (reader.go:57). The machine is `Verif.Model.AsyncOverlap`, the specification
`Verif.Spec.AsyncOverlap`: `Reports c l O pts` says that the points `pts` of view `l` are exactly the observations `O`.
-/

namespace Verif.Props
open Verif Verif.Overlap Verif.Number

variable {K N S : Type} [DecidableEq K] [DecidableEq N]

/-- C77 (holds without overlap). Whatever collections took place before, overlapping or not: a collection that begins when no
other is in progress, and during which none begins, reports for every cumulative asynchronous view exactly what its own
callbacks observed. Missing: the same for collections that overlap, which is false (`C77_overlapping_fails`), and for delta
views after an overlap (`C77_delta_fails`). -/
theorem C77_alone_partial (c : Overlap.Cfg K N S) (hnd : ∀ o, (c.leavesOf o).Nodup) (before during : List (Overlap.Action K N))
    {s0 s : Overlap.State K N S} (h0 : Overlap.run c (Overlap.initial c) before = some s0)
    (hended : ∀ n, n < s0.count → s0.phase n = .collect [])
    (hone : .start ∉ during) (h : Overlap.run c s0 (.start :: during) = some s) (hend : s.phase s0.count = .collect [])
    (l : Nat) (hl : l ∈ c.views) (hlim : 1 ≤ c.lim l) (hcum : c.delta l = false) :
    Reports c l (observations c s0.count during) (s.out s0.count l) := by
  obtain ⟨own, hi⟩ := (Inv.initial c).run h0
  simp only [Overlap.run] at h
  cases hs : Overlap.step c s0 .start with
  | none => rw [hs] at h; cases h
  | some s1 =>
    rw [hs] at h
    obtain ⟨own1, i1⟩ := hi.step hs
    have a1 := Alone.start (Q := fun O s => Reports c l O (s.out s0.count l)) hended (empty_of_ended hi hended hcum) hlim hs
    have a2 := (a1.run hnd hcum hl during i1 hone h).phase
    rw [hend] at a2
    exact a2

/-- C77 (holds without overlap, delta views). Whatever collections took place before, overlapping or not: of two collections
in a row, each by itself, the second reports for every asynchronous view with delta temporality (integer sum) the difference
between what its callbacks observed and what those of the first observed. `now` and `prior` are the values observed
(`Reports`). Missing: overlapping collections and the first one after them (`C77_delta_fails`), and views that overflow
(C23). -/
theorem C77_delta_partial (c : Overlap.Cfg K Bits Bits) (hnd : ∀ o, (c.leavesOf o).Nodup) (before first second : List (Overlap.Action K Bits))
    {s0 s1 s2 : Overlap.State K Bits Bits} (h0 : Overlap.run c (Overlap.initial c) before = some s0)
    (hended : ∀ n, n < s0.count → s0.phase n = .collect [])
    (hone1 : .start ∉ first) (h1 : Overlap.run c s0 (.start :: first) = some s1) (hend1 : s1.phase s0.count = .collect [])
    (hone2 : .start ∉ second) (h2 : Overlap.run c s1 (.start :: second) = some s2) (hend2 : s2.phase s1.count = .collect [])
    (l : Nat) (hl : l ∈ c.views) (hdelta : c.delta l = true) (hsum : c.agg l = intSum)
    (F : List K) (hfew : FewSets c l F (before ++ (.start :: first) ++ (.start :: second))) :
    ∃ prior now, Reports c l (observations c s0.count first) prior ∧ Reports c l (observations c s1.count second) now ∧
      ((s2.out s1.count l).map (·.1)).Nodup ∧
      ∀ k d, (k, d) ∈ s2.out s1.count l ↔ ∃ v, (k, v) ∈ now ∧
        ((k ∉ prior.map (·.1) ∧ d = v) ∨ ∃ p, (k, p) ∈ prior ∧ d = v - p ∧ v ≠ p) := by
  obtain ⟨g01, g2⟩ := hfew.tail
  obtain ⟨g0, g1⟩ := g01.tail
  obtain ⟨own, hi⟩ := (Inv.initial c).run h0
  have hr := (Room.initial c l F).run hdelta (Inv.initial c) g0 h0
  obtain ⟨⟨own1, i1⟩, r1, _, e1, prior, p1, _, _, p4⟩ := Done.alone hnd hdelta hl hi hr g1 hended hone1 h1 hend1
  obtain ⟨_, _, _, _, now, q1, q2, _, _⟩ := Done.alone hnd hdelta hl i1 r1 g2 e1 hone2 h2 hend2
  rw [p4] at q2
  refine ⟨prior, now, p1, q1, q2.nodup, ?_⟩
  intro k d
  rw [q2.point, hsum]
  have hne : ∀ v p : Bits, (v - p != 0) = true ↔ v ≠ p := by
    intro v p
    rw [bne_iff_ne]
    constructor
    · intro h e; exact h (by rw [e]; exact BitVec.sub_self p)
    · intro h e
      have h' := BitVec.sub_add_cancel v p
      rw [show v - p = 0#64 from e, BitVec.zero_add] at h'
      exact h h'.symm
  constructor
  · rintro ⟨v, hv, h | ⟨p, h1, h2, h3⟩⟩
    · exact ⟨v, hv, .inl h⟩
    · subst h2; exact ⟨v, hv, .inr ⟨p, h1, rfl, (hne v p).1 h3⟩⟩
  · rintro ⟨v, hv, h | ⟨p, h1, h2, h3⟩⟩
    · exact ⟨v, hv, .inl h⟩
    · subst h2; exact ⟨v, hv, .inr ⟨p, h1, rfl, (hne v p).2 h3⟩⟩

namespace OverlapEx
/-- Instrument 0 has the cumulative sum 0, instrument 1 the delta sum 1. -/
def cfg : Overlap.Cfg Nat Bits Bits where
  leavesOf := fun o => if o = 0 then [0] else if o = 1 then [1] else []
  filt := fun _ k => k
  lim := fun _ => 3
  ovf := 99
  agg := fun _ => intSum
  delta := fun l => l == 1
  inRange := fun _ _ => true
  canon := fun _ k => k
  zero := 0
  views := [0, 1]
  views_nodup := by decide
  views_all := by
    intro o l h
    by_cases h0 : o = 0
    · simp [h0] at h; simp [h]
    · by_cases h1 : o = 1
      · simp [h1] at h; simp [h]
      · simp [h0, h1] at h

abbrev OAct := Overlap.Action Nat Bits

/-- A collection by itself, observing the given sets of instrument `o`, accumulators taken in order. -/
def solo (n o : Nat) (obs : List (Nat × Bits)) : List OAct :=
  .start :: obs.map (fun p => .observe n o p.1 p.2) ++ [.returned n] ++ obs.map (fun _ => .snap n 0) ++ [.collect n, .collect n]

/-- Two collections, both observing 5 for set 7 of instrument `o`, both adding it before either collects. -/
def both (o : Nat) : List OAct :=
  [.start, .start, .observe 0 o 7 5, .observe 1 o 7 5, .returned 0, .returned 1, .snap 0 0, .snap 1 0,
   .collect 0, .collect 0, .collect 1, .collect 1]

/-- The same, but the second collection adds its observation after the first has collected. -/
def late (o : Nat) : List OAct :=
  [.start, .start, .observe 0 o 7 5, .observe 1 o 7 5, .returned 0, .returned 1, .snap 0 0, .collect 0, .collect 0,
   .snap 1 0, .collect 1, .collect 1]

/-- C77: after two overlapping collections, one by itself observes three sets (one of them twice) and reports them. -/
example : ∃ s0, Overlap.run cfg (Overlap.initial cfg) (both 0) = some s0 ∧
    (s0.count = 2 ∧ s0.phase 0 = .collect [] ∧ s0.phase 1 = .collect [] ∧
     (Overlap.run cfg s0 (.start :: [.observe 2 0 7 6, .observe 2 0 8 1, .observe 2 0 7 9, .returned 2, .snap 2 1, .snap 2 0, .collect 2, .collect 2])).map
       (fun s => decide (s.phase 2 = .collect [] ∧ s.out 2 0 = [(8, 1), (7, 9)])) = some true) :=
  AsyncEx.exists_of_eval (by decide +kernel)

/-- The same with room for five series. -/
def wide : Overlap.Cfg Nat Bits Bits := { cfg with lim := fun _ => 5 }

/-- C77: after two overlapping collections of the counter with delta temporality, two in a row: 20 and 4 were observed for the
sets 7 and 8, then 23, 4 and 1 for 7, 8 and 6. Reported in the second: 3 for 7, 1 for 6. -/
example : (Overlap.run wide (Overlap.initial wide) (both 1 ++ solo 2 1 [(7, 20), (8, 4)] ++ solo 3 1 [(7, 23), (8, 4), (6, 1)])).map
    (fun s => decide (s.phase 3 = .collect [] ∧ s.out 3 1 = [(6, 1), (7, 3)])) = some true := by decide +kernel

example : FewSets wide 1 [6, 7, 8] (both 1 ++ solo 2 1 [(7, 20), (8, 4)] ++ solo 3 1 [(7, 23), (8, 4), (6, 1)]) := by
  refine ⟨by decide, by decide, ?_⟩
  intro n o set v hm _
  show set ∈ [6, 7, 8]
  simp only [both, solo, List.map_cons, List.map_nil, List.cons_append, List.nil_append, List.mem_cons, List.not_mem_nil, or_false,
    reduceCtorEq, false_or, Action.observe.injEq] at hm
  rcases hm with h | h | h | h | h | h | h <;> simp [h]

end OverlapEx

/-- C77 (fails for overlapping collections). Two collections by one reader overlap; the callbacks of both observe 5 for the
same set. In one execution the first reports 10 and the second nothing; in another the first reports 5 and the second
nothing. -/
theorem C77_overlapping_fails :
    (∀ n, n < 2 → observations OverlapEx.cfg n (OverlapEx.both 0) = [(0, 7, 5)] ∧
      observations OverlapEx.cfg n (OverlapEx.late 0) = [(0, 7, 5)]) ∧
    (∃ s, Overlap.run OverlapEx.cfg (Overlap.initial OverlapEx.cfg) (OverlapEx.both 0) = some s ∧
      (∀ n, n < 2 → s.phase n = .collect []) ∧ s.out 0 0 = [(7, 10)] ∧ s.out 1 0 = [] ∧
      ¬ Reports OverlapEx.cfg 0 [(0, 7, 5)] (s.out 0 0) ∧ ¬ Reports OverlapEx.cfg 0 [(0, 7, 5)] (s.out 1 0)) ∧
    (∃ s, Overlap.run OverlapEx.cfg (Overlap.initial OverlapEx.cfg) (OverlapEx.late 0) = some s ∧
      (∀ n, n < 2 → s.phase n = .collect []) ∧ s.out 0 0 = [(7, 5)] ∧ s.out 1 0 = []) := by
  have empty : ¬ Reports OverlapEx.cfg 0 [(0, 7, 5)] [] := by
    intro h
    rcases h.all 0 7 5 (by decide) (by decide) with h | h
    · cases h
    · cases h.1
  have ten : ¬ Reports OverlapEx.cfg 0 [(0, 7, 5)] [(7, 10)] := by
    intro h
    obtain ⟨ps, h1, h2, h3, h4⟩ := h.value 7 10 List.mem_cons_self
    have hall : ∀ p ∈ ps, p = (0, 7, 5) := by
      rintro ⟨o, set, x⟩ hp
      have := (h3 o set x).1 hp
      by_cases e : o = 0 ∧ set = 7
      · obtain ⟨rfl, rfl⟩ := e
        have h5 := this.2.2
        have : lastVal [(0, 7, (5 : Bits))] 0 7 = some 5 := by decide
        rw [this] at h5
        cases h5; rfl
      · have h5 := this.2.2
        exfalso
        have : (0 == o && 7 == set) = false := by
          rw [Bool.and_eq_false_iff]
          by_cases e1 : o = 0
          · right; simp; exact fun e2 => e ⟨e1, e2.symm⟩
          · left; simp; exact fun e2 => e1 e2.symm
        simp [lastVal, this] at h5
    match ps, h1, h2, hall, h4 with
    | [], _, h2, _, _ => exact h2 rfl
    | [p], _, _, hall, h4 =>
      rw [hall p List.mem_cons_self] at h4
      revert h4; decide
    | p :: q :: ps, h1, _, hall, _ =>
      rw [hall p List.mem_cons_self, hall q (List.mem_cons_of_mem _ List.mem_cons_self)] at h1
      simp at h1
  refine ⟨?_, ?_, ?_⟩
  · intro n hn
    have : n = 0 ∨ n = 1 := by omega
    rcases this with rfl | rfl <;> decide
  · have : ∃ s, Overlap.run OverlapEx.cfg (Overlap.initial OverlapEx.cfg) (OverlapEx.both 0) = some s ∧
      (s.phase 0 = .collect [] ∧ s.phase 1 = .collect [] ∧ s.out 0 0 = [(7, 10)] ∧ s.out 1 0 = []) :=
      AsyncEx.exists_of_eval (by decide +kernel)
    obtain ⟨s, h, p0, p1, h0, h1⟩ := this
    refine ⟨s, h, ?_, h0, h1, by rw [h0]; exact ten, by rw [h1]; exact empty⟩
    intro n hn
    have : n = 0 ∨ n = 1 := by omega
    rcases this with rfl | rfl
    · exact p0
    · exact p1
  · have : ∃ s, Overlap.run OverlapEx.cfg (Overlap.initial OverlapEx.cfg) (OverlapEx.late 0) = some s ∧
      (s.phase 0 = .collect [] ∧ s.phase 1 = .collect [] ∧ s.out 0 0 = [(7, 5)] ∧ s.out 1 0 = []) :=
      AsyncEx.exists_of_eval (by decide +kernel)
    obtain ⟨s, h, p0, p1, h0, h1⟩ := this
    refine ⟨s, h, ?_, h0, h1⟩
    intro n hn
    have : n = 0 ∨ n = 1 := by omega
    rcases this with rfl | rfl
    · exact p0
    · exact p1

/-- C77 (fails for delta views, for good). A counter is observed with the constant value 5 by two overlapping collections and
by one after them. The deltas reported add up to 10 (`late`), or to 15 (`both`), and stay that much too high. -/
theorem C77_delta_fails :
    (∃ s, Overlap.run OverlapEx.cfg (Overlap.initial OverlapEx.cfg) (OverlapEx.late 1 ++ OverlapEx.solo 2 1 [(7, 5)] ++ OverlapEx.solo 3 1 [(7, 5)]) = some s ∧
      (s.out 0 1 = [(7, 5)] ∧ s.out 1 1 = [] ∧ s.out 2 1 = [(7, 5)] ∧ s.out 3 1 = [])) ∧
    (∃ s, Overlap.run OverlapEx.cfg (Overlap.initial OverlapEx.cfg) (OverlapEx.both 1 ++ OverlapEx.solo 2 1 [(7, 5)] ++ OverlapEx.solo 3 1 [(7, 5)]) = some s ∧
      (s.out 0 1 = [(7, 10)] ∧ s.out 1 1 = [] ∧ s.out 2 1 = [(7, 5)] ∧ s.out 3 1 = [])) :=
  ⟨AsyncEx.exists_of_eval (by decide +kernel), AsyncEx.exists_of_eval (by decide +kernel)⟩

end Verif.Props
