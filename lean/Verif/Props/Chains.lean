import Verif.Proof.Chains
import Verif.Proof.SyncMore

/-!
# C60: attribute sets with colliding hashes

The table of an instrument keeps records with equal hashes in linked lists, which a collection rebuilds in place. Whatever
the history of insertions and collections, the table behaves as a plain list of records.
-/

namespace Verif.Props
open Verif Verif.Chains

/-- The pointers stand for the flat list. -/
structure Stands (s : Chains.State) (t : Flat) : Prop where
  repr : Repr s t.chain
  count : s.alloc = t.count
  nodup : (t.items.map (·.2)).Nodup
  lt : ∀ e, e ∈ t.items → e.2 < t.count

theorem mem_chain {t : Flat} {f : UInt64} {r : Nat} : r ∈ t.chain f ↔ (f, r) ∈ t.items := by
  simp only [Flat.chain, List.mem_map, List.mem_filter, beq_iff_eq, Prod.exists]
  constructor
  · rintro ⟨a, b, ⟨h1, h2⟩, h3⟩; subst h2; subst h3; exact h1
  · intro h; exact ⟨f, r, ⟨h, rfl⟩, rfl⟩

theorem Stands.keys {s : Chains.State} {t : Flat} (h : Stands s t) (f : UInt64) :
    f ∈ s.cur.map (·.1) ↔ f ∈ t.items.map (·.1) := by
  have h1 : f ∈ s.cur.map (·.1) ↔ t.chain f ≠ [] := by
    have hp := h.repr.path f
    have hg := @get_none s.cur f
    cases hc : t.chain f with
    | nil =>
      rw [hc] at hp
      have := hg.1 hp
      simp only [ne_eq, not_true, iff_false]; exact this
    | cons a l =>
      rw [hc] at hp
      have : ¬ get s.cur f = none := by rw [hp.1]; simp
      rw [hg, Decidable.not_not] at this
      simp only [ne_eq, reduceCtorEq, not_false_eq_true, iff_true]; exact this
  rw [h1]
  constructor
  · intro hne
    obtain ⟨r, hr⟩ := List.exists_mem_of_ne_nil _ hne
    exact List.mem_map.2 ⟨_, mem_chain.1 hr, rfl⟩
  · intro hm
    obtain ⟨e, he, rfl⟩ := List.mem_map.1 hm
    have : e.2 ∈ t.chain e.1 := mem_chain.2 he
    intro h0
    rw [h0] at this
    cases this

theorem Stands.iterates {s : Chains.State} {t : Flat} (h : Stands s t) (order : List UInt64) :
    iterates order (s.cur.map (·.1)) = iterates order (t.items.map (·.1)) := by
  simp only [Chains.iterates, h.keys]

theorem chain_filter (t : Flat) (keep : Nat → Bool) (f : UInt64) :
    ({ t with items := t.items.filter (fun e => keep e.2) } : Flat).chain f = (t.chain f).filter keep := by
  simp only [Flat.chain, List.filter_map, List.filter_filter]
  congr 1
  apply List.filter_congr
  intro e _
  simp [Bool.and_comm]

theorem swept_chain {t : Flat} {order : List UInt64} (keep : Nat → Bool)
    (ho : iterates order (t.items.map (·.1)) = true) :
    swept t.chain keep order = ({ t with items := t.items.filter (fun e => keep e.2) } : Flat).chain := by
  simp only [Chains.iterates, decide_eq_true_eq] at ho
  funext f
  rw [chain_filter]
  simp only [swept]
  split
  · rfl
  · rename_i hf
    have : t.chain f = [] := by
      cases hc : t.chain f with
      | nil => rfl
      | cons a l =>
        have : (f, a) ∈ t.items := mem_chain.1 (by rw [hc]; simp)
        exact absurd (ho.2.2 f (List.mem_map.2 ⟨_, this, rfl⟩)) hf
    rw [this]; rfl

theorem Stands.step {s : Chains.State} {t : Flat} (h : Stands s t) (op : Op) :
    ∃ s', Chains.step s op = some s' ∧ Stands s' (t.step op) := by
  cases op with
  | insert f =>
    refine ⟨_, rfl, ?_⟩
    have hr := insert_spec h.repr f
    refine ⟨?_, ?_, ?_, ?_⟩
    · have : (t.step (.insert f)).chain = upd t.chain f (s.alloc :: t.chain f) := by
        funext g
        simp only [Flat.step, Flat.chain, List.filter_cons, upd_apply, h.count]
        by_cases e : g = f
        · subst e; simp
        · have : (f == g) = false := by simpa using Ne.symm e
          simp [this, e]
      rw [this]; exact hr
    · simp [Chains.insert, Flat.step, h.count]
    · simp only [Flat.step, List.map_cons, List.nodup_cons]
      refine ⟨?_, h.nodup⟩
      intro hm
      obtain ⟨e, he, h2⟩ := List.mem_map.1 hm
      have := h.lt e he
      omega
    · intro e he
      simp only [Flat.step, List.mem_cons] at he ⊢
      rcases he with rfl | he
      · simp
      · have := h.lt e he; omega
  | sweep order keep =>
    simp only [Chains.step, Flat.step, h.iterates]
    split
    · rename_i ho
      have hnd : order.Nodup := by simp only [Chains.iterates, decide_eq_true_eq] at ho; exact ho.1
      obtain ⟨s', h1, h2, h3⟩ := sweep_spec (keep := keep) order s _ h.repr hnd
      refine ⟨s', by rw [h1]; rfl, ?_⟩
      rw [swept_chain keep ho] at h2
      refine ⟨h2, by rw [h3, h.count], ?_, ?_⟩
      · exact List.Sublist.nodup (List.Sublist.map _ List.filter_sublist) h.nodup
      · intro e he; exact h.lt e (List.mem_filter.1 he).1
    · exact ⟨s, rfl, h⟩

theorem Stands.initial : Stands Chains.initial { items := [], count := 0 } := by
  refine ⟨⟨?_, ?_, ?_, ?_, ?_⟩, rfl, ?_, ?_⟩ <;> simp [Flat.chain, Path, Chains.initial, Chains.get]

theorem stands_run (ops : List Op) : ∃ s, Chains.run Chains.initial ops = some s ∧ Stands s (Flat.run ops) := by
  have gen : ∀ (ops : List Op) (s : Chains.State) (t : Flat), Stands s t →
      ∃ s', Chains.run s ops = some s' ∧ Stands s' (ops.foldl Flat.step t) := by
    intro ops
    induction ops with
    | nil => intro s t h; exact ⟨s, rfl, h⟩
    | cons op ops ih =>
      intro s t h
      obtain ⟨s1, h1, h2⟩ := h.step op
      obtain ⟨s2, h3, h4⟩ := ih s1 _ h2
      exact ⟨s2, by simp [Chains.run, h1, h3], h4⟩
  exact gen ops _ _ Stands.initial

/-- **C60.** After any sequence of insertions and collections no loop has run forever and no nil pointer was followed; a
search for a record under a fingerprint has the same result as in the plain list: the newest record with this fingerprint
that matches. -/
theorem C60_table (ops : List Op) : ∃ s, Chains.run Chains.initial ops = some s ∧
    ∀ f p, lookup s f p = some (((Flat.run ops).chain f).find? p) := by
  obtain ⟨s, h1, h2⟩ := stands_run ops
  exact ⟨s, h1, fun f p => lookup_spec h2.repr f p⟩

/-- **C60.** The size of the map, which the cardinality limit is compared with, is the number of different fingerprints. -/
theorem C60_size (ops : List Op) : ∃ s, Chains.run Chains.initial ops = some s ∧
    s.cur.length = ((Flat.run ops).items.map (·.1)).eraseDups.length := by
  obtain ⟨s, h1, h2⟩ := stands_run ops
  refine ⟨s, h1, ?_⟩
  have hn := Sync.nodup_eraseDups _ ((Flat.run ops).items.map (·.1)) (Nat.le_refl _)
  have hmem : ∀ f, f ∈ ((Flat.run ops).items.map (·.1)).eraseDups ↔ f ∈ s.cur.map (·.1) := by
    intro f; rw [List.mem_eraseDups, h2.keys]
  rw [← List.length_map (as := s.cur) (·.1)]
  apply Nat.le_antisymm
  · exact List.Nodup.length_le_of_subset h2.repr.keys (fun f hf => (hmem f).2 hf)
  · exact List.Nodup.length_le_of_subset hn (fun f hf => (hmem f).1 hf)

/-- **C60.** A collection calls `collect` exactly once on every record of the table, whatever the hashes and the order of
the map iteration, and on nothing else. -/
theorem C60_collected_once (ops : List Op) (order : List UInt64) (keep : Nat → Bool) :
    ∃ s, Chains.run Chains.initial ops = some s ∧ (iterates order (s.cur.map (·.1)) = true →
      ∃ s' seen, sweep keep s order = some (s', seen) ∧ seen.Nodup ∧ ∀ r, r ∈ seen ↔ r ∈ (Flat.run ops).items.map (·.2)) := by
  obtain ⟨s, h1, h2⟩ := stands_run ops
  refine ⟨s, h1, ?_⟩
  intro ho
  rw [h2.iterates] at ho
  simp only [Chains.iterates, decide_eq_true_eq] at ho
  obtain ⟨s', h3, -, -⟩ := sweep_spec (keep := keep) order s _ h2.repr ho.1
  refine ⟨s', _, h3, ?_, ?_⟩
  · have : ∀ (l : List UInt64), l.Nodup → (l.flatMap (Flat.run ops).chain).Nodup := by
      intro l
      induction l with
      | nil => intro _; simp
      | cons f fs ih =>
        intro hn
        rw [List.nodup_cons] at hn
        rw [List.flatMap_cons, List.nodup_append]
        refine ⟨h2.repr.nodup f, ih hn.2, ?_⟩
        rintro a ha b hb rfl
        obtain ⟨g, hg, hg'⟩ := List.mem_flatMap.1 hb
        have := h2.repr.disj f g a ha hg'
        subst this
        exact hn.1 hg
    exact this order ho.1
  · intro r
    simp only [List.mem_flatMap, List.mem_map]
    constructor
    · rintro ⟨f, _, hr⟩
      exact ⟨_, mem_chain.1 hr, rfl⟩
    · rintro ⟨e, he, rfl⟩
      exact ⟨e.1, ho.2.2 _ (List.mem_map.2 ⟨e, he, rfl⟩), mem_chain.2 he⟩

/-- **C60.** After a collection, a record can be found under its fingerprint exactly when it was in the table and was kept:
removing a record never affects the others with the same hash. -/
theorem C60_survivors (ops : List Op) (order : List UInt64) (keep : Nat → Bool) (f : UInt64) (r : Nat)
    (ho : iterates order ((Flat.run ops).items.map (·.1)) = true) :
    ∃ s, Chains.run Chains.initial (ops ++ [.sweep order keep]) = some s ∧
      (lookup s f (· == r) = some (some r) ↔ (f, r) ∈ (Flat.run ops).items ∧ keep r = true) := by
  obtain ⟨s, h1, h2⟩ := stands_run (ops ++ [.sweep order keep])
  refine ⟨s, h1, ?_⟩
  rw [lookup_spec h2.repr]
  have hrun : Flat.run (ops ++ [.sweep order keep]) =
      { Flat.run ops with items := (Flat.run ops).items.filter (fun e => keep e.2) } := by
    simp only [Flat.run, List.foldl_append, List.foldl_cons, List.foldl_nil]
    rw [Flat.step]
    exact if_pos ho
  rw [hrun, chain_filter]
  simp only [Option.some.injEq]
  constructor
  · intro h
    have := List.mem_of_find?_eq_some h
    rw [List.mem_filter] at this
    exact ⟨mem_chain.1 this.1, this.2⟩
  · intro h
    have hm : r ∈ ((Flat.run ops).chain f).filter keep := List.mem_filter.2 ⟨mem_chain.2 h.1, h.2⟩
    cases hc : (((Flat.run ops).chain f).filter keep).find? (· == r) with
    | none => rw [List.find?_eq_none] at hc; exact absurd (by simp) (hc r hm)
    | some x => have := List.find?_some hc; simp only [beq_iff_eq] at this; rw [this]

/-! A concrete case: five records, four of them with the same hash; a collection drops the head, a middle one and the only
record of the other hash; then another insertion. -/

def chainOps : List Op :=
  [.insert 7, .insert 7, .insert 9, .insert 7, .insert 7, .sweep [9, 7] (fun r => r == 0 || r == 3), .insert 7]

example : (Flat.run chainOps).chain 7 = [5, 3, 0] ∧ (Flat.run chainOps).chain 9 = [] := by decide +kernel
example : (Chains.run Chains.initial chainOps).map (fun s =>
    (s.cur, s.next 5, s.next 3, s.next 0, lookup s 7 (· == 0))) = some ([(7, 5)], some 3, some 0, none, some (some 0)) := by
  decide +kernel
example : iterates [9, 7] ((Flat.run (chainOps.take 5)).items.map (·.1)) = true := by decide +kernel
example : ((Chains.run Chains.initial (chainOps.take 5)).bind (fun s => sweep (fun r => r == 0 || r == 3) s [9, 7])).map (·.2) =
    some [2, 4, 3, 1, 0] := by decide +kernel

end Verif.Props
