import Verif.Proof.AsyncPipeline
import Verif.Proof.PipelineValues

/-!
Helper file: the values of series of asynchronous instruments with the real attribute functions.
-/

namespace Verif.AsyncPipeline
open Verif Verif.Attr Verif.Number Verif.Export Verif.Async Verif.Pipeline
variable {u : Setup} {s : Async.State (List KV) Bits Bits}

theorem has_iff {t : Storage.Table (List KV) Bits} {k : List KV} : Storage.has t k = true ↔ k ∈ t.map (·.1) := by
  unfold Storage.has
  rw [List.any_eq_true, List.mem_map]
  simp only [beq_iff_eq]

theorem fits_limit {log : Log} {l n : Nat} (hf : FitsIn u log l n) : 1 ≤ u.lim l := by
  obtain ⟨B, hB, -⟩ := hf
  omega

/-- Within the limit, every accumulator has the series of its own set. -/
theorem own_key (hi : Async.Inv (cfg u) s) {n l : Nat} (hn : n < s.coll) (hf : FitsIn u s.log l n)
    (hb : ∀ k, Storage.has (baseAt (cfg u) s n l) k = false) {e : Async.Entry (List KV) Bits} (he : e ∈ s.store n) {k : List KV}
    (hm : (l, k) ∈ e.keys) : k = applyKeysFilter (u.keys l) e.set := by
  have hl := fits_limit hf
  obtain ⟨B, hB, hin⟩ := hf
  have ht := hi.past n l hn
  refine Classical.byContradiction fun hne => ?_
  obtain ⟨h1, h2⟩ := ht.routed hl e he k hm hne
  have hmemB : ∀ e' ∈ s.store n, ∀ k', (l, k') ∈ e'.keys → applyKeysFilter (u.keys l) e'.set ∈ B := by
    intro e' he' k' hm'
    obtain ⟨v, hv, e1, e2, e3⟩ := entry_logged hi hn he'
    rw [← e3]
    refine hin v hv e1 ?_
    rw [e2]
    have hlv := (hi.storeOk n).leaves e' he'
    show l ∈ (cfg u).leavesOf e'.obs
    rw [← hlv]
    exact List.mem_map_of_mem (f := (·.1)) hm'
  have hsub : ∀ k' ∈ (s.seen n l).map (·.1), k' ∈ overflowSet :: B.erase (applyKeysFilter (u.keys l) e.set) := by
    intro k' hk'
    rcases ht.from_ k' (has_iff.2 hk') with h | ⟨e', he', hm'⟩
    · rw [hb k'] at h; cases h
    · rcases ht.own e' he' k' hm' with h | h
      · refine List.mem_cons_of_mem _ ?_
        refine (List.mem_erase_of_ne ?_).2 (by rw [h]; exact hmemB e' he' k' hm')
        intro e1
        rw [e1] at hk'
        have := has_iff.2 hk'
        have h2' : Storage.has (s.seen n l) (applyKeysFilter (u.keys l) e.set) = false := h2
        rw [h2'] at this
        cases this
      · rw [h.1]; exact List.mem_cons_self
  have hlen := ht.nodup.length_le_of_subset hsub
  rw [List.length_map, List.length_cons, List.length_erase_of_mem (hmemB e he k hm), h1] at hlen
  have hpos : 0 < B.length := List.length_pos_of_mem (hmemB e he k hm)
  have : (cfg u).lim l = u.lim l := rfl
  omega

theorem seen_iff (hi : Async.Inv (cfg u) s) {n l : Nat} (hn : n < s.coll) (hf : FitsIn u s.log l n)
    (hb : ∀ k, Storage.has (baseAt (cfg u) s n l) k = false) (k : List KV) :
    Storage.has (s.seen n l) k = true ↔ Observed u s.log l n k := by
  have ht := hi.past n l hn
  constructor
  · intro hk
    rcases ht.from_ k hk with h | ⟨e, he, hm⟩
    · rw [hb k] at h; cases h
    · obtain ⟨v, hv, e1, e2, e3⟩ := entry_logged hi hn he
      refine ⟨v, hv, e1, ?_, ?_⟩
      · rw [e2]
        have hlv := (hi.storeOk n).leaves e he
        show l ∈ (cfg u).leavesOf e.obs
        rw [← hlv]
        exact List.mem_map_of_mem (f := (·.1)) hm
      · rw [e3]; exact (own_key hi hn hf hb he hm).symm
  · rintro ⟨v, hv, e1, e2, e3⟩
    obtain ⟨e, he, hm1, hm2⟩ := (hi.storeOk n).logged v hv e1
    have hlv := (hi.storeOk n).leaves e he
    have : l ∈ e.keys.map (·.1) := by rw [hlv, hm1]; exact e2
    obtain ⟨⟨l', k'⟩, hm, e4⟩ := List.mem_map.1 this
    have e4 : l' = l := e4
    subst e4
    have hk := own_key hi hn hf hb he hm
    rw [hm2, e3] at hk
    rw [← hk]
    exact ht.hasKey e he k' hm

theorem foldl_total (vals : List Bits) (a : Bits) : vals.foldl (fun x n => x + n) a = a + Verif.Spec.total64 vals := by
  induction vals generalizing a with
  | nil => exact (BitVec.add_zero a).symm
  | cons x xs ih => rw [List.foldl_cons, ih]; unfold Verif.Spec.total64 Verif.Spec.total; rw [List.foldr_cons, BitVec.add_assoc]

theorem foldl_last (vals : List Bits) (a : Bits) : vals.foldl (fun _ n => n) a = a ∧ vals = [] ∨ vals.foldl (fun _ n => n) a ∈ vals := by
  induction vals generalizing a with
  | nil => exact .inl ⟨rfl, rfl⟩
  | cons x xs ih =>
    rw [List.foldl_cons]
    rcases ih x with ⟨h, _⟩ | h
    · rw [h]; exact .inr List.mem_cons_self
    · exact .inr (List.mem_cons_of_mem _ h)

theorem combines {l : Nat} {vals : List Bits} (hne : vals ≠ []) : Combines u l vals (vals.foldl ((cfg u).agg l).upd ((cfg u).agg l).init) := by
  unfold Combines
  have hagg : (cfg u).agg l = if u.gauge l then gaugeAgg else sumAgg u.fadd u.fsub (u.num l) := rfl
  rw [hagg]
  cases hg : u.gauge l with
  | true =>
    dsimp only
    rw [if_pos rfl]
    rcases foldl_last vals 0 with ⟨_, h⟩ | h
    · exact absurd h hne
    · exact h
  | false =>
    rw [if_neg (by simp)]
    cases hk : u.num l with
    | int64 =>
      dsimp only
      exact (foldl_total vals 0).trans (BitVec.zero_add _)
    | float64 => exact ⟨vals, List.Perm.refl _, rfl⟩

/-- The cumulative value of every series is made of the last observations. -/
theorem seen_value (hi : Async.Inv (cfg u) s) {n l : Nat} (hs : FedOnce u l) (hn : n < s.coll) (hf : FitsIn u s.log l n)
    (hb : ∀ k, Storage.has (baseAt (cfg u) s n l) k = false) {k : List KV} {v : Bits} (hv : Storage.find (s.seen n l) k = some v) :
    CumAt u s.log l n k v := by
  have hk : Storage.has (s.seen n l) k = true := by rw [has_eq, hv]; rfl
  obtain ⟨ps, h1, h2⟩ := Props.values (c := cfg u) hi hs (fits_limit hf) hn (k := k) (v := v) hv
  have hstart : startVal (cfg u) s n l k = ((cfg u).agg l).init := by
    unfold startVal
    have := hb k
    rw [has_eq] at this
    cases hfi : Storage.find (baseAt (cfg u) s n l) k with
    | none => rfl
    | some w => rw [hfi] at this; cases this
  have hval : Values u s.log n l k ps := by
    refine ⟨h1.1, ?_⟩
    intro o set x
    rw [h1.2 o set x]
    constructor
    · rintro ⟨a, b, c⟩
      refine ⟨a, ?_, c⟩
      rcases b with b | ⟨_, b⟩
      · exact b
      · exfalso
        obtain ⟨ev, hev, e1, e2, e3⟩ := Props.lastObs_some c
        have := (seen_iff hi hn hf hb (applyKeysFilter (u.keys l) set)).2 ⟨ev, hev, e1, by rw [e2]; exact a, by rw [e3]⟩
        rw [has_eq] at this
        have b' : Storage.find (s.seen n l) (applyKeysFilter (u.keys l) set) = none := b
        rw [b'] at this
        cases this
    · rintro ⟨a, b, c⟩
      exact ⟨a, .inl b, c⟩
  have hne : ps ≠ [] := by
    obtain ⟨ev, hev, e1, e2, e3⟩ := (seen_iff hi hn hf hb k).1 hk
    have hlo : lastObs s.log n ev.obs ev.set ≠ none := by
      unfold lastObs
      rw [ne_eq, Option.map_eq_none_iff, List.find?_eq_none]
      intro h
      exact h ev (List.mem_reverse.2 hev) (by simp [e1])
    cases hl : lastObs s.log n ev.obs ev.set with
    | none => exact absurd hl hlo
    | some x =>
      intro hnil
      have := (hval.2 ev.obs ev.set x).2 ⟨e2, e3, hl⟩
      rw [hnil] at this
      cases this
  refine ⟨ps, hne, hval, ?_⟩
  rw [h2, hstart]
  exact combines (by simpa using hne)

/-- Two lists of the same values are the same up to order. -/
theorem values_perm {log : Log} {n l : Nat} {k : List KV} {ps ps' : List (Nat × List KV × Bits)} (h : Values u log n l k ps)
    (h' : Values u log n l k ps') : ps.Perm ps' := by
  have hnd : ∀ {qs : List (Nat × List KV × Bits)}, (qs.map (fun p => (p.1, p.2.1))).Nodup → qs.Nodup := by
    intro qs hq
    exact List.Pairwise.imp (fun hab e => hab (by rw [e])) (List.pairwise_map.1 hq)
  rw [List.perm_ext_iff_of_nodup (hnd h.1) (hnd h'.1)]
  rintro ⟨o, set, x⟩
  rw [h.2 o set x, h'.2 o set x]

/-- The cumulative value of an integer sum is determined by the observations. -/
theorem cumAt_unique {log : Log} {n l : Nat} {k : List KV} {v w : Bits} (hg : u.gauge l = false) (hk : u.num l = .int64) (h : CumAt u log l n k v)
    (h' : CumAt u log l n k w) : v = w := by
  obtain ⟨ps, _, h1, h2⟩ := h
  obtain ⟨ps', _, h1', h2'⟩ := h'
  unfold Combines at h2 h2'
  rw [hg, hk] at h2 h2'
  dsimp only at h2 h2'
  rw [h2, h2']
  exact Aggr.total64_perm ((values_perm h1 h1').map _)

/-- No series of a delta view collects what does not fit. -/
theorem delta_base (hi : Async.Inv (cfg u) s) {l : Nat} (hf : ∀ n, n < s.coll → FitsIn u s.log l n)
    (ho : ∀ v ∈ s.log, l ∈ u.leavesOf v.obs → applyKeysFilter (u.keys l) v.set ≠ overflowSet) {n : Nat} (hn : n < s.coll) (k : List KV) :
    Storage.has (baseAt (cfg u) s n l) k = false := by
  induction n generalizing k with
  | zero =>
    cases h : Storage.has (baseAt (cfg u) s 0 l) k with
    | false => rfl
    | true => have := (base_ovf h).2.2; cases this
  | succ n ih =>
    cases h : Storage.has (baseAt (cfg u) s (n + 1) l) k with
    | false => rfl
    | true =>
      have h1 : Storage.has (s.seen n l) overflowSet = true := (base_ovf h).2.2
      obtain ⟨v, hv, _, e2, e3⟩ := (seen_iff hi (by omega) (hf n (by omega)) (fun k => ih (by omega) k) _).1 h1
      exact absurd e3 (ho v hv e2)

end Verif.AsyncPipeline
