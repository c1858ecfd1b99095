import Verif.Proof.SyncRoom
import Verif.Props.Attributes
import Verif.Props.SyncLimits
import Verif.Spec.Pipeline
import Verif.Examples.PipelineCfg

/-!
C73: attribute sets stay apart while there is room.
-/

namespace Verif.Props
open Verif Verif.Attr Verif.Number Verif.Pipeline
variable {S : Type} {farm : Str → UInt64} {u : Front.Setup S} {l : Nat} {n0 : Bits} {s : Sync.State (List KV) (List KV) Bits S}

theorem filtered_eq_iff (f : Option (List Str)) (a b : List KV) :
    applyKeysFilter f (newSet a) = applyKeysFilter f (newSet b) ↔ SameSeries f a b := by
  refine ⟨?_, C19_equal_after_filter f a b⟩
  intro h k hk hl
  have h1 := C19_filtered_attributes f a k
  have h2 := C19_filtered_attributes f b k
  rw [h, h2, if_pos ⟨hk, hl⟩, if_pos ⟨hk, hl⟩] at h1
  exact h1.symm

/-- Room for the machine. -/
theorem fitsNow_room (hf : FitsNow u l s) : ∃ A B, Sync.Room (Front.realCfg farm u) l A B ∧ Sync.UsesOnly (Front.realCfg farm u) l A s ∧
    ∀ k ∈ B, ∃ i, i < s.nextOp ∧ l ∈ u.leavesOf (s.op i).obs ∧ k = applyKeysFilter (u.keys l) (newSet (s.op i).attrs) := by
  classical
  obtain ⟨A, B, h1, h2, h3, h4⟩ := hf
  refine ⟨fun o => (A o).filter (fun a => decide (∃ i, i < s.nextOp ∧ (s.op i).obs = o ∧ (s.op i).attrs = a)),
    (B.filter (fun b => decide (∃ i, i < s.nextOp ∧ l ∈ u.leavesOf (s.op i).obs ∧ SameSeries (u.keys l) (s.op i).attrs b))).map
      (fun b => applyKeysFilter (u.keys l) (newSet b)), ⟨?_, ?_, ?_, ?_⟩, ?_, ?_⟩
  · intro o ho
    exact Nat.lt_of_le_of_lt (List.length_filter_le _ _) (h1 o ho)
  · rw [List.length_map]
    exact Nat.lt_of_le_of_lt (List.length_filter_le _ _) h2
  · intro o a ho ha
    rw [List.mem_filter] at ha
    obtain ⟨b, hb, hs⟩ := (h4 o ho a ha.1).2
    obtain ⟨i, hi, e1, e2⟩ := of_decide_eq_true ha.2
    exact List.mem_map.2 ⟨b, List.mem_filter.2 ⟨hb, decide_eq_true ⟨i, hi, by rw [e1]; exact ho, by rw [e2]; exact hs⟩⟩,
      ((filtered_eq_iff _ _ _).2 hs).symm⟩
  · intro o a ho ha
    exact attributesEqual_refl (h4 o ho a (List.mem_filter.1 ha).1).1
  · intro i hi hl
    exact List.mem_filter.2 ⟨h3 i hi hl, decide_eq_true ⟨i, hi, rfl, rfl⟩⟩
  · intro k hk
    obtain ⟨b, hb, e⟩ := List.mem_map.1 hk
    obtain ⟨i, hi, hl, hs⟩ := of_decide_eq_true (List.mem_filter.1 hb).2
    exact ⟨i, hi, hl, by rw [← e]; exact ((filtered_eq_iff _ _ _).2 hs).symm⟩

/-- C73 (apart). At any moment, while the calls so far stay within the limits: a measurement `i` reported in a point `e` and a measurement `j` reported in
a point `e'` of the same output metric are in points with the same attributes exactly when the view sees no difference between the attributes of the two
calls. -/
theorem C73_apart (hr : Sync.Reachable (Front.realCfg farm u) n0 s) (hic : u.ignoreColl = false) (hf : FitsNow u l s)
    {e e' : Sync.Emit (List KV) S} (he : e ∈ s.emits) (he' : e' ∈ s.emits) (hl : e.leaf = l) (hl' : e'.leaf = l)
    {i j sq sq' : Nat} (hi : (i, sq) ∈ e.ops) (hj : (j, sq') ∈ e'.ops) :
    e.key = e'.key ↔ SameSeries (u.keys l) (s.op i).attrs (s.op j).attrs := by
  obtain ⟨A, B, hroom, huse, _⟩ := fitsNow_room (farm := farm) hf
  have hm := Sync.reachable_more hr
  have h1 := Sync.emit_applied hm he hi
  have h2 := Sync.emit_applied hm he' hj
  rw [hl] at h1
  rw [hl'] at h2
  have k1 := Sync.room_key hroom hr huse hic (fun a b => C17_equal_same_set a b) h1
  have k2 := Sync.room_key hroom hr huse hic (fun a b => C17_equal_same_set a b) h2
  rw [k1, k2]
  exact filtered_eq_iff _ _ _

/-- C73 (its own attributes). The point reporting a measurement has, for every non-empty key the view lists, the last value the call gave for the key, and
nothing else. -/
theorem C73_own_attributes (hr : Sync.Reachable (Front.realCfg farm u) n0 s) (hic : u.ignoreColl = false) (hf : FitsNow u l s)
    {e : Sync.Emit (List KV) S} (he : e ∈ s.emits) (hl : e.leaf = l) {i sq : Nat} (hi : (i, sq) ∈ e.ops) (k : Str) :
    Attr.get k e.key = if k ≠ [] ∧ (∀ ks, u.keys l = some ks → k ∈ ks) then (lastValue k (s.op i).attrs).map canonVal else none := by
  obtain ⟨A, B, hroom, huse, _⟩ := fitsNow_room (farm := farm) hf
  have h1 := Sync.emit_applied (Sync.reachable_more hr) he hi
  rw [hl] at h1
  have k1 := Sync.room_key hroom hr huse hic (fun a b => C17_equal_same_set a b) h1
  rw [k1]
  exact C19_filtered_attributes _ _ _

/-- C73 (no overflow series). Every point reported has the attributes of some call, also the points without measurements (of cumulative metrics);
whatever collides. -/
theorem C73_no_other (hr : Sync.Reachable (Front.realCfg farm u) n0 s) (hf : FitsNow u l s)
    {e : Sync.Emit (List KV) S} (he : e ∈ s.emits) (hl : e.leaf = l) :
    ∃ i, i < s.nextOp ∧ l ∈ u.leavesOf (s.op i).obs ∧
      ∀ k, Attr.get k e.key = if k ≠ [] ∧ (∀ ks, u.keys l = some ks → k ∈ ks) then (lastValue k (s.op i).attrs).map canonVal else none := by
  obtain ⟨A, B, hroom, huse, hB⟩ := fitsNow_room (farm := farm) hf
  obtain ⟨i, hi, hli, hk⟩ := hB _ ((Sync.reachable_room hroom hr huse).emit e he hl)
  refine ⟨i, hi, hli, ?_⟩
  intro k
  rw [hk]
  exact C19_filtered_attributes _ _ _

section Example
open Verif.Examples Verif.Examples.Pipe

def roomSched : List (Sync.Action (List KV) Bits) :=
  [.observe 0 [kvb 97 true] 7, .observe 0 [kvb 98 false, kvb 97 true] 5] ++ List.replicate 12 (.op 0) ++ List.replicate 12 (.op 1) ++
  [.snapshot 0] ++ List.replicate 20 (.task 0 0) ++ [.collect 0] ++ List.replicate 6 (.task 1 0)

/-- Two calls with different attributes; all fingerprints collide (the hash is constant). Limits are 4. -/
example : ∃ s, Sync.run sc (Sync.initial sc 0) roomSched = some s ∧ Sync.Reachable (Front.realCfg (fun _ => 0) su) 0 s ∧ su.ignoreColl = false ∧
    FitsNow su 0 s ∧ s.emits.map (fun e => (e.leaf, e.key, e.ops.map (·.1))) =
      [(0, [kvb 97 true], [0]), (0, [kvb 97 true, kvb 98 false], [1])] ∧
    ¬ SameSeries (su.keys 0) (s.op 0).attrs (s.op 1).attrs := by
  obtain ⟨s, h, h1, h2, h3, h4⟩ := exists_of_eval (x := Sync.run sc (Sync.initial sc 0) roomSched)
    (P := fun s => (∀ i, i < s.nextOp → (s.op i).obs = 0 ∧ (s.op i).attrs ∈ [[kvb 97 true], [kvb 98 false, kvb 97 true]]) ∧
      s.emits.map (fun e => (e.leaf, e.key, e.ops.map (·.1))) = [(0, [kvb 97 true], [0]), (0, [kvb 97 true, kvb 98 false], [1])] ∧
      (s.op 0).attrs = [kvb 97 true] ∧ (s.op 1).attrs = [kvb 98 false, kvb 97 true]) (by decide +kernel)
  refine ⟨s, h, ⟨_, h⟩, rfl, ?_, h2, ?_⟩
  · refine ⟨fun _ => [[kvb 97 true], [kvb 98 false, kvb 97 true]], [[kvb 97 true], [kvb 98 false, kvb 97 true]], fun _ _ => (by decide : 2 < 4),
      (by decide : 2 < 4), fun i hi _ => (h1 i hi).2, ?_⟩
    intro o _ a ha
    refine ⟨?_, a, ha, fun _ _ _ => rfl⟩
    rintro ⟨kv, hkv, xs, hv, _⟩
    simp only [List.mem_cons, List.not_mem_nil, or_false] at ha
    rcases ha with rfl | rfl <;> simp only [List.mem_cons, List.not_mem_nil, or_false] at hkv
    · rw [hkv] at hv; cases hv
    · rcases hkv with hkv | hkv <;> rw [hkv] at hv <;> cases hv
  · rw [h3, h4]
    intro hs
    have := hs [98] (by decide) (by intro ks h; cases h)
    revert this
    decide

/-- The limit is the smallest possible: with a limit of 2 records the second call is already counted in the overflow series. -/
example : ∃ s, Sync.run { sc with limit := 2 } (Sync.initial { sc with limit := 2 } 0) roomSched = some s ∧
    s.emits.map (fun e => (e.leaf, e.key, e.ops.map (·.1))) = [(0, [kvb 97 true], [0]), (0, overflowSet, [1])] :=
  exists_of_eval (by decide +kernel)

end Example

end Verif.Props
