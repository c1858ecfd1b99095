import Verif.Model.Times

/-!
C35: the intervals reported tile the timeline.
-/

namespace Verif.Times
open Verif.Views

/-- The intervals (start, end) of the points which an output metric of one reader reports, collection after collection. -/
def intervals (start : Int) (es : List (Nat × Int)) (reader : Nat) (c : Collector) : List (Tempo × Int × Int) :=
  ((history (new start) es).filter (fun e => e.1 = reader)).map (fun e => pointTimes c e.2)

/-- When one reader's collections happened. -/
def times (es : List (Nat × Int)) (reader : Nat) : List Int := (es.filter (fun e => e.1 = reader)).map (·.2)

/-- Every interval begins where the one before ended, the first one at `t`; they end at the times of the collections. -/
inductive Chained : Int → List Int → List (Int × Int) → Prop
  | nil (t : Int) : Chained t [] []
  | cons (t now : Int) (ts : List Int) (is : List (Int × Int)) : Chained now ts is → Chained t (now :: ts) ((t, now) :: is)

theorem history_chained (s : State) (es : List (Nat × Int)) (reader : Nat) :
    Chained (s.last reader) (times es reader) (((history s es).filter (fun e => e.1 = reader)).map (fun e => (e.2.last, e.2.now))) := by
  induction es generalizing s with
  | nil => exact .nil _
  | cons e es ih =>
    have hi := ih (produce s e.1 e.2).1
    unfold times history
    by_cases h : e.1 = reader
    · rw [List.filter_cons, if_pos (by simpa using h), List.filter_cons, if_pos (by simpa using h)]
      subst h
      refine .cons _ _ _ _ ?_
      have : (produce s e.1 e.2).1.last e.1 = e.2 := by simp [produce]
      rw [this] at hi
      exact hi
    · rw [List.filter_cons, if_neg (by simpa using h), List.filter_cons, if_neg (by simpa using h)]
      have : (produce s e.1 e.2).1.last reader = s.last reader := by
        simp only [produce]; rw [if_neg (fun h' => h h'.symm)]
      rw [this] at hi
      exact hi

theorem history_start (s : State) (es : List (Nat × Int)) (reader : Nat) :
    ((history s es).filter (fun e => e.1 = reader)).map (fun e => (e.2.start, e.2.now)) = (times es reader).map (fun t => (s.start, t)) := by
  induction es generalizing s with
  | nil => rfl
  | cons e es ih =>
    have hi := ih (produce s e.1 e.2).1
    unfold times history
    by_cases h : e.1 = reader
    · rw [List.filter_cons, if_pos (by simpa using h), List.filter_cons, if_pos (by simpa using h)]
      rw [List.map_cons, List.map_cons, List.map_cons, hi]; rfl
    · rw [List.filter_cons, if_neg (by simpa using h), List.filter_cons, if_neg (by simpa using h)]
      exact hi

/-- C35. Whatever the other readers do, the delta points of a reader's output metric, synchronous or asynchronous, have intervals each beginning exactly
where the one of the collection before ended, the first one at the provider's start, and ending at the time of the collection. -/
theorem C35_delta (start : Int) (es : List (Nat × Int)) (reader : Nat) (synchronous : Bool) :
    ∃ is, intervals start es reader (collectorFor synchronous true false) = is.map (fun i => (.delta, i)) ∧ Chained start (times es reader) is := by
  refine ⟨_, ?_, history_chained (new start) es reader⟩
  unfold intervals
  rw [List.map_map]
  cases synchronous <;> rfl

/-- C35. Cumulative points, and those of asynchronous gauges, always begin at the provider's start and end at the time of the collection. -/
theorem C35_cumulative (start : Int) (es : List (Nat × Int)) (reader : Nat) (synchronous delta gauge : Bool) (h : delta = false ∨ (gauge = true ∧ synchronous = false)) :
    intervals start es reader (collectorFor synchronous delta gauge) = (times es reader).map (fun t => (.cumulative, start, t)) := by
  have hs := congrArg (List.map (fun i : Int × Int => (Tempo.cumulative, i))) (history_start (new start) es reader)
  unfold intervals
  rw [List.map_map, List.map_map] at hs
  refine Eq.trans ?_ hs
  rcases h with rfl | ⟨rfl, rfl⟩
  · cases synchronous <;> cases gauge <;> rfl
  · cases delta <;> rfl

theorem chained_ordered {t : Int} {ts : List Int} {is : List (Int × Int)} (h : Chained t ts is) (ho : (t :: ts).Pairwise (· ≤ ·)) :
    ∀ i ∈ is, t ≤ i.1 ∧ i.1 ≤ i.2 := by
  induction h with
  | nil => intro i hi; cases hi
  | cons t now ts is _ ih =>
    rw [List.pairwise_cons] at ho
    have hn := ho.1 now List.mem_cons_self
    intro i hi
    rcases List.mem_cons.1 hi with rfl | hi
    · exact ⟨Int.le_refl _, hn⟩
    · have := ih ho.2 i hi
      exact ⟨Int.le_trans hn this.1, this.2⟩

theorem clock_times {start : Int} {es : List (Nat × Int)} (hc : (start :: es.map (·.2)).Pairwise (· ≤ ·)) (reader : Nat) :
    (start :: times es reader).Pairwise (· ≤ ·) := by
  refine hc.sublist ?_
  exact List.Sublist.cons_cons _ (List.Sublist.map _ List.filter_sublist)

/-- C35. Under a clock which does not go back, no interval is reversed. -/
theorem C35_ordered (start : Int) (es : List (Nat × Int)) (hc : (start :: es.map (·.2)).Pairwise (· ≤ ·)) (reader : Nat) (synchronous delta gauge : Bool) :
    ∀ p ∈ intervals start es reader (collectorFor synchronous delta gauge), start ≤ p.2.1 ∧ p.2.1 ≤ p.2.2 := by
  have ho := clock_times hc reader
  by_cases h : delta = false ∨ (gauge = true ∧ synchronous = false)
  · rw [C35_cumulative start es reader synchronous delta gauge h]
    intro p hp
    obtain ⟨t, ht, rfl⟩ := List.mem_map.1 hp
    rw [List.pairwise_cons] at ho
    exact ⟨Int.le_refl _, ho.1 t ht⟩
  · have hd : delta = true := by cases delta <;> simp_all
    have : collectorFor synchronous delta gauge = collectorFor synchronous true false := by
      subst hd
      cases synchronous <;> cases gauge <;> simp_all [collectorFor]
    rw [this]
    obtain ⟨is, h1, h2⟩ := C35_delta start es reader synchronous
    rw [h1]
    intro p hp
    obtain ⟨i, hi, rfl⟩ := List.mem_map.1 hp
    exact chained_ordered h2 ho i hi

/-- C35. So the delta intervals of a reader tile the time from the provider's start to the last collection: under such a clock, every instant after the start
and not after the last collection falls in exactly one of them. -/
theorem C35_tile (start : Int) (es : List (Nat × Int)) (hc : (start :: es.map (·.2)).Pairwise (· ≤ ·)) (reader : Nat) (synchronous : Bool)
    (last t : Int) (hl : (times es reader).getLast? = some last) (h1 : start < t) (h2 : t ≤ last) :
    ∃ i : Nat, (∃ p : Tempo × Int × Int, (intervals start es reader (collectorFor synchronous true false))[i]? = some p ∧ p.2.1 < t ∧ t ≤ p.2.2) ∧
      ∀ (j : Nat) (p : Tempo × Int × Int), (intervals start es reader (collectorFor synchronous true false))[j]? = some p → p.2.1 < t → t ≤ p.2.2 → j = i := by
  obtain ⟨is, e, hch⟩ := C35_delta start es reader synchronous
  rw [e]
  have ho := clock_times hc reader
  generalize times es reader = ts at hl hch ho
  suffices ∃ i : Nat, (∃ p, is[i]? = some p ∧ p.1 < t ∧ t ≤ p.2) ∧ ∀ (j : Nat) p, is[j]? = some p → p.1 < t → t ≤ p.2 → j = i by
    obtain ⟨i, ⟨p, hp, hp'⟩, hu⟩ := this
    refine ⟨i, ⟨(.delta, p), by rw [List.getElem?_map, hp]; rfl, hp'⟩, fun j q hq h1 h2 => ?_⟩
    rw [List.getElem?_map] at hq
    obtain ⟨q', hq', rfl⟩ := Option.map_eq_some_iff.1 hq
    exact hu j q' hq' h1 h2
  clear e hc
  induction hch with
  | nil => cases hl
  | cons s now ts is hch ih =>
    have ho' := (List.pairwise_cons.1 ho).2
    by_cases htn : t ≤ now
    · refine ⟨0, ⟨(s, now), rfl, h1, htn⟩, fun j p hj hp1 hp2 => ?_⟩
      cases j with
      | zero => rfl
      | succ j =>
        have hm : p ∈ is := List.mem_of_getElem? hj
        have := (chained_ordered hch ho' p hm).1
        exact absurd hp1 (by omega)
    · have hne : ts ≠ [] := by
        rintro rfl
        simp at hl
        omega
      have hl' : ts.getLast? = some last := by
        cases ts with
        | nil => exact absurd rfl hne
        | cons a as => rw [List.getLast?_cons_cons] at hl; exact hl
      obtain ⟨i, ⟨p, hp, hp'⟩, hu⟩ := ih (by omega) hl' ho'
      refine ⟨i + 1, ⟨p, hp, hp'⟩, fun j q hj hq1 hq2 => ?_⟩
      cases j with
      | zero => cases hj; exact absurd hq2 htn
      | succ j => rw [hu j q hj hq1 hq2]

/-- C35: two readers collecting in turn. -/
example : intervals 10 [(0, 12), (1, 15), (0, 20), (0, 20), (1, 21)] 0 .lowmemorySync = [(.delta, 10, 12), (.delta, 12, 20), (.delta, 20, 20)] ∧
    intervals 10 [(0, 12), (1, 15), (0, 20), (0, 20), (1, 21)] 1 .statefulAsync = [(.delta, 10, 15), (.delta, 15, 21)] ∧
    intervals 10 [(0, 12), (1, 15), (0, 20), (0, 20), (1, 21)] 1 .statefulSync = [(.cumulative, 10, 15), (.cumulative, 10, 21)] ∧
    ((10 :: [(0, 12), (1, 15), (0, 20), (0, 20), (1, 21)].map (·.2) : List Int).Pairwise (· ≤ ·)) := by decide

end Verif.Times
