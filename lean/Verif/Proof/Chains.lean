import Verif.Spec.Chains

/-!
Helper file: the pointer-level table represents the flat list.
-/

namespace Verif.Chains
open Verif

/-- Following `next` from `p` visits exactly `l` and ends at nil. -/
def Path (next : Nat → Option Nat) : Option Nat → List Nat → Prop
  | p, [] => p = none
  | p, r :: l => p = some r ∧ Path next (next r) l

/-- Consecutive elements are linked. -/
def Link (next : Nat → Option Nat) : List Nat → Prop
  | [] => True
  | [_] => True
  | a :: b :: l => next a = some b ∧ Link next (b :: l)

theorem path_frame {n n' : Nat → Option Nat} {l : List Nat} {p : Option Nat} (h : ∀ r, r ∈ l → n' r = n r)
    (hp : Path n p l) : Path n' p l := by
  induction l generalizing p with
  | nil => exact hp
  | cons r l ih =>
    refine ⟨hp.1, ?_⟩
    rw [h r (by simp)]
    exact ih (fun x hx => h x (by simp [hx])) hp.2

theorem link_frame {n n' : Nat → Option Nat} {l : List Nat} (h : ∀ r, r ∈ l → n' r = n r) (hp : Link n l) : Link n' l := by
  induction l with
  | nil => trivial
  | cons a l ih =>
    cases l with
    | nil => trivial
    | cons b l =>
      refine ⟨?_, ih (fun x hx => h x (by simp at hx ⊢; right; exact hx)) hp.2⟩
      rw [h a (by simp)]; exact hp.1

theorem link_snoc {n : Nat → Option Nat} {l : List Nat} {t r : Nat} (hl : Link n l) (hn : l.Nodup)
    (ht : l.getLast? = some t) : Link (upd n t (some r)) (l ++ [r]) := by
  induction l with
  | nil => cases ht
  | cons a l ih =>
    cases l with
    | nil =>
      simp only [List.getLast?_singleton, Option.some.injEq] at ht
      subst ht
      exact ⟨by simp, trivial⟩
    | cons b l =>
      rw [List.nodup_cons] at hn
      have ht' : (b :: l).getLast? = some t := by simpa using ht
      have hmem : t ∈ b :: l := List.mem_of_getLast? ht'
      refine ⟨?_, ih hl.2 hn.2 ht'⟩
      have : a ≠ t := by intro e; subst e; exact hn.1 hmem
      rw [upd_ne _ _ this]
      exact hl.1

theorem path_of_link {n : Nat → Option Nat} {l : List Nat} {t : Nat} (hl : Link n l) (hn : l.Nodup)
    (ht : l.getLast? = some t) : Path (upd n t none) l.head? l := by
  induction l with
  | nil => cases ht
  | cons a l ih =>
    cases l with
    | nil =>
      simp only [List.getLast?_singleton, Option.some.injEq] at ht
      subst ht
      exact ⟨rfl, by simp [Path]⟩
    | cons b l =>
      rw [List.nodup_cons] at hn
      have ht' : (b :: l).getLast? = some t := by simpa using ht
      have hmem : t ∈ b :: l := List.mem_of_getLast? ht'
      refine ⟨rfl, ?_⟩
      have : a ≠ t := by intro e; subst e; exact hn.1 hmem
      rw [upd_ne _ _ this, hl.1]
      exact ih hl.2 hn.2 ht'

theorem walk_spec {next : Nat → Option Nat} {p : Nat → Bool} {l : List Nat} {n : Nat} {q : Option Nat}
    (hp : Path next q l) (hn : l.length < n) : walk next p n q = some (l.find? p) := by
  induction l generalizing n q with
  | nil =>
    cases n with
    | zero => omega
    | succ n => rw [show q = none from hp]; rfl
  | cons r l ih =>
    cases n with
    | zero => omega
    | succ n =>
      rw [hp.1, walk]
      by_cases h : p r
      · simp [h]
      · simp only [h, Bool.false_eq_true, if_false]
        rw [ih hp.2 (by simp at hn; omega)]
        simp [h]

theorem scan_spec {keep : Nat → Bool} (rest : List Nat) : ∀ (n : Nat) (next : Nat → Option Nat) (q : Option Nat)
    (kept seen : List Nat), rest.length < n → Path next q rest → Link next kept → (kept ++ rest).Nodup →
    ∃ nx, scan keep n next q kept.head? kept.getLast? seen =
        some (nx, (kept ++ rest.filter keep).head?, (kept ++ rest.filter keep).getLast?, seen ++ rest) ∧
      Link nx (kept ++ rest.filter keep) ∧ ∀ y, ¬ y ∈ kept → ¬ y ∈ rest → nx y = next y := by
  induction rest with
  | nil =>
    intro n next q kept seen hn hp hl hd
    cases n with
    | zero => omega
    | succ n =>
      rw [show q = none from hp]
      exact ⟨next, by simp [scan], by simpa using hl, fun _ _ _ => rfl⟩
  | cons r rest ih =>
    intro n next q kept seen hn hp hl hd
    cases n with
    | zero => omega
    | succ n =>
      have hlen : rest.length < n := by simp at hn; omega
      rw [hp.1, scan]
      have hrk : ¬ r ∈ kept := by
        intro h
        have := (List.nodup_append.1 hd).2.2 r h r (by simp)
        exact this rfl
      have hrr : ¬ r ∈ rest := by
        have := (List.nodup_append.1 hd).2.1
        rw [List.nodup_cons] at this
        exact this.1
      by_cases h : keep r
      · simp only [h, if_true]
        have hd' : (kept ++ [r] ++ rest).Nodup := by simpa using hd
        cases hk : kept with
        | nil =>
          subst hk
          simp only [List.head?_nil, Option.isNone_none, if_true]
          obtain ⟨nx, h1, h2, h3⟩ := ih n next (next r) [r] (seen ++ [r]) hlen hp.2 trivial (by simpa using hd)
          refine ⟨nx, ?_, ?_, ?_⟩
          · simpa [h] using h1
          · simpa [h] using h2
          · intro y hy hy'
            simp only [List.mem_cons, not_or] at hy'
            exact h3 y (by simp; exact hy'.1) hy'.2
        | cons k ks =>
          have hne : kept ≠ [] := by rw [hk]; simp
          obtain ⟨t, ht⟩ : ∃ t, kept.getLast? = some t := ⟨_, List.getLast?_eq_some_getLast hne⟩
          have htm : t ∈ kept := List.mem_of_getLast? ht
          have htr : r ≠ t := by intro e; subst e; exact hrk htm
          have htrest : ∀ x, x ∈ rest → x ≠ t := by
            intro x hx e
            subst e
            exact (List.nodup_append.1 hd).2.2 x htm x (by simp [hx]) rfl
          have hp' : Path (upd next t (some r)) (next r) rest :=
            path_frame (fun x hx => upd_ne _ _ (htrest x hx)) hp.2
          obtain ⟨nx, h1, h2, h3⟩ := ih n (upd next t (some r)) (next r) (kept ++ [r]) (seen ++ [r]) hlen hp'
            (link_snoc hl (List.nodup_append.1 hd).1 ht) hd'
          rw [← hk]
          have hh : kept.head? = some k := by rw [hk]; rfl
          refine ⟨nx, ?_, ?_, ?_⟩
          · simp only [hh, Option.isNone_some, Bool.false_eq_true, if_false, ht, setNext, Option.map_some, Option.bind_some]
            rw [upd_ne _ _ htr]
            have e1 : (kept ++ [r]).head? = some k := by simp [List.head?_append, hh]
            have e2 : (kept ++ [r]).getLast? = some r := by simp
            rw [e1, e2] at h1
            rw [h1]
            simp [h]
          · simpa [h] using h2
          · intro y hy hy'
            simp only [List.mem_cons, not_or] at hy'
            rw [h3 y (by simp only [List.mem_append, List.mem_singleton, not_or]; exact ⟨hy, hy'.1⟩) hy'.2]
            have : y ≠ t := by intro e; subst e; exact hy htm
            rw [upd_ne _ _ this]
      · simp only [h, Bool.false_eq_true, if_false]
        have hd' : (kept ++ rest).Nodup := by
          refine List.Sublist.nodup ?_ hd
          exact List.Sublist.append_left (List.sublist_cons_self _ _) _
        obtain ⟨nx, h1, h2, h3⟩ := ih n next (next r) kept (seen ++ [r]) hlen hp.2 hl hd'
        refine ⟨nx, ?_, ?_, ?_⟩
        · rw [h1]; simp [h]
        · simpa [h] using h2
        · intro y hy hy'
          simp only [List.mem_cons, not_or] at hy'
          exact h3 y hy hy'.2

/-! ### The map -/

theorem get_del {m : List (UInt64 × Nat)} {k k' : UInt64} : get (del m k) k' = if k' = k then none else get m k' := by
  unfold get del
  induction m with
  | nil => simp
  | cons e m ih =>
    simp only [List.filter_cons]
    by_cases h : e.1 = k
    · simp only [h, beq_self_eq_true, Bool.not_true, Bool.false_eq_true, if_false, ih, List.find?_cons]
      by_cases h' : k' = k
      · simp [h']
      · have : (k == k') = false := by simpa using Ne.symm h'
        simp [h', this]
    · by_cases h' : e.1 = k'
      · subst h'; simp [h]
      · have h1 : (e.1 == k) = false := by simpa using h
        have h2 : (e.1 == k') = false := by simpa using h'
        simp only [h1, Bool.not_false, if_true, List.find?_cons, h2, ih]

theorem get_set {m : List (UInt64 × Nat)} {k k' : UInt64} {v : Nat} : get (set m k v) k' = if k' = k then some v else get m k' := by
  by_cases h : k' = k
  · subst h; simp [get, set]
  · have : (k == k') = false := by simpa using Ne.symm h
    rw [if_neg h]
    have hd := @get_del m k k'
    rw [if_neg h] at hd
    rw [← hd]
    simp [get, set, List.find?_cons, this]

theorem get_none {m : List (UInt64 × Nat)} {k : UInt64} : get m k = none ↔ ¬ k ∈ m.map (·.1) := by
  unfold get
  simp only [Option.map_eq_none_iff, List.find?_eq_none, beq_iff_eq, List.mem_map, Prod.exists, exists_and_right, exists_eq_right]
  constructor
  · rintro h ⟨v, hv⟩; exact h (k, v) hv rfl
  · rintro h ⟨k', v⟩ hm rfl; exact h ⟨v, hm⟩

/-! ### Representation -/

/-- The table of pointers stands for the chains `T`: for each fingerprint, following `next` from the map entry gives the
chain. -/
structure Repr (s : State) (T : UInt64 → List Nat) : Prop where
  path : ∀ f, Path s.next (get s.cur f) (T f)
  nodup : ∀ f, (T f).Nodup
  disj : ∀ f g r, r ∈ T f → r ∈ T g → f = g
  lt : ∀ f r, r ∈ T f → r < s.alloc
  keys : (s.cur.map (·.1)).Nodup

theorem nodup_length {l : List Nat} {n : Nat} (h : l.Nodup) (hl : ∀ r, r ∈ l → r < n) : l.length ≤ n := by
  induction n generalizing l with
  | zero =>
    cases l with
    | nil => simp
    | cons a l => exact absurd (hl a (by simp)) (by omega)
  | succ n ih =>
    have h1 := ih (l := l.erase n) (h.erase n) (by
      intro r hr
      have := (List.Nodup.mem_erase_iff h).1 hr
      have := hl r this.2
      omega)
    rw [List.length_erase] at h1
    split at h1 <;> omega

theorem lookup_spec {s : State} {T : UInt64 → List Nat} (h : Repr s T) (f : UInt64) (p : Nat → Bool) :
    lookup s f p = some ((T f).find? p) :=
  walk_spec (h.path f) (by have := nodup_length (h.nodup f) (h.lt f); omega)

theorem keys_del {m : List (UInt64 × Nat)} {k : UInt64} (h : (m.map (·.1)).Nodup) : ((del m k).map (·.1)).Nodup := by
  refine List.Sublist.nodup ?_ h
  exact List.Sublist.map _ List.filter_sublist

theorem keys_set {m : List (UInt64 × Nat)} {k : UInt64} {v : Nat} (h : (m.map (·.1)).Nodup) : ((set m k v).map (·.1)).Nodup := by
  simp only [set, List.map_cons, List.nodup_cons]
  refine ⟨?_, keys_del h⟩
  rw [← get_none, get_del]; simp

theorem insert_spec {s : State} {T : UInt64 → List Nat} (h : Repr s T) (f : UInt64) :
    Repr (insert s f) (upd T f (s.alloc :: T f)) := by
  have hfresh : ∀ g, ¬ s.alloc ∈ T g := fun g hg => Nat.lt_irrefl _ (h.lt g _ hg)
  constructor
  · intro g
    simp only [insert, get_set]
    by_cases e : g = f
    · subst e
      simp only [if_true, upd_same]
      refine ⟨rfl, ?_⟩
      rw [upd_same]
      exact path_frame (fun r hr => upd_ne _ _ (fun e => hfresh g (e ▸ hr))) (h.path g)
    · rw [if_neg e, upd_ne _ _ e]
      exact path_frame (fun r hr => upd_ne _ _ (fun e => hfresh g (e ▸ hr))) (h.path g)
  · intro g
    simp only [upd_apply]
    split
    · exact List.nodup_cons.2 ⟨hfresh f, h.nodup f⟩
    · exact h.nodup g
  · intro g g' r hg hg'
    simp only [upd_apply] at hg hg'
    have h1 := fun a b => h.disj a b r
    have h2 := hfresh
    split at hg <;> split at hg' <;> grind
  · intro g r hg
    simp only [upd_apply] at hg
    have := h.lt g r
    have := h.lt f r
    simp only [insert]
    split at hg <;> grind
  · exact keys_set h.keys

theorem sweepOne_spec {keep : Nat → Bool} {s : State} {T : UInt64 → List Nat} (h : Repr s T) (f : UInt64) :
    ∃ s', sweepOne keep s f = some (s', T f) ∧ Repr s' (upd T f ((T f).filter keep)) ∧ s'.alloc = s.alloc := by
  unfold sweepOne
  cases hg : get s.cur f with
  | none =>
    have hp := h.path f
    rw [hg] at hp
    have : T f = [] := by
      cases hT : T f with
      | nil => rfl
      | cons a l => rw [hT] at hp; cases hp.1
    refine ⟨s, by rw [this], ?_, rfl⟩
    have : upd T f ((T f).filter keep) = T := by
      funext g; simp only [upd_apply]; split
      · rename_i e; subst e; rw [this]; rfl
      · rfl
    rw [this]; exact h
  | some first =>
    have hp := h.path f
    rw [hg] at hp
    obtain ⟨l, hT⟩ : ∃ l, T f = first :: l := by
      cases hT : T f with
      | nil => rw [hT] at hp; cases hp
      | cons a l => rw [hT] at hp; have := hp.1; simp only [Option.some.injEq] at this; subst this; exact ⟨l, rfl⟩
    obtain ⟨nx, h1, h2, h3⟩ := scan_spec (keep := keep) (T f) (s.alloc + 1) s.next (some first) [] []
      (by have := nodup_length (h.nodup f) (h.lt f); omega) hp trivial (by simpa using h.nodup f)
    simp only [List.nil_append, List.head?_nil, List.getLast?_nil, List.not_mem_nil, not_false_eq_true, true_implies] at h1 h2 h3
    simp only [h1, Option.bind_some]
    have hnd : ((T f).filter keep).Nodup := List.Sublist.nodup List.filter_sublist (h.nodup f)
    have hsub : ∀ g r, r ∈ upd T f ((T f).filter keep) g → r ∈ T g := by
      intro g r hr
      simp only [upd_apply] at hr
      split at hr
      · rename_i e; subst e; exact (List.mem_filter.1 hr).1
      · exact hr
    have common : ∀ s', s'.alloc = s.alloc → (∀ g, Path s'.next (get s'.cur g) (upd T f ((T f).filter keep) g)) →
        (s'.cur.map (·.1)).Nodup → Repr s' (upd T f ((T f).filter keep)) := by
      intro s' ha hpath hk
      refine ⟨hpath, ?_, ?_, ?_, hk⟩
      · intro g; simp only [upd_apply]; split
        · exact hnd
        · exact h.nodup g
      · intro g g' r hr hr'; exact h.disj g g' r (hsub g r hr) (hsub g' r hr')
      · intro g r hr; rw [ha]; exact h.lt g r (hsub g r hr)
    have hothers : ∀ g, g ≠ f → ∀ r, r ∈ T g → nx r = s.next r := by
      intro g hne r hr
      exact h3 r (fun hr' => hne (h.disj g f r hr hr'))
    cases hk : (T f).filter keep with
    | nil =>
      refine ⟨{ s with next := nx, cur := del s.cur f }, by simp [finish], ?_, rfl⟩
      rw [← hk]
      refine common _ rfl ?_ (keys_del h.keys)
      intro g
      simp only [get_del, upd_apply]
      by_cases e : g = f
      · rw [if_pos e, if_pos e, hk]; rfl
      · rw [if_neg e, if_neg e]
        exact path_frame (hothers g e) (h.path g)
    | cons k ks =>
      obtain ⟨t, ht⟩ : ∃ t, ((T f).filter keep).getLast? = some t := ⟨_, List.getLast?_eq_some_getLast (by rw [hk]; simp)⟩
      have htm : t ∈ T f := (List.mem_filter.1 (List.mem_of_getLast? ht)).1
      refine ⟨{ s with next := upd nx t none, cur := if k = first then s.cur else set s.cur f k }, ?_, ?_, rfl⟩
      · rw [← hk]
        rw [show ((T f).filter keep).head? = some k by rw [hk]; rfl, ht]
        simp [finish, setNext]
      · rw [← hk]
        refine common _ rfl ?_ ?_
        · intro g
          simp only [upd_apply]
          by_cases e : g = f
          · subst e
            simp only [if_true]
            have hpl := path_of_link h2 hnd ht
            have hget : get (if k = first then s.cur else set s.cur g k) g = ((T g).filter keep).head? := by
              rw [hk]
              split
              · rename_i e; subst e; rw [hg]; rfl
              · rw [get_set]; simp
            rw [hget]
            exact hpl
          · rw [if_neg e]
            have hget : get (if k = first then s.cur else set s.cur f k) g = get s.cur g := by
              split
              · rfl
              · rw [get_set, if_neg e]
            rw [hget]
            refine path_frame ?_ (h.path g)
            intro r hr
            have : r ≠ t := by intro e'; subst e'; exact e (h.disj g f r hr htm)
            simp only [upd_ne _ _ this]
            exact hothers g e r hr
        · split
          · exact h.keys
          · exact keys_set h.keys

theorem flatMap_congr {α β : Type} {l : List α} {f g : α → List β} (h : ∀ a, a ∈ l → f a = g a) : l.flatMap f = l.flatMap g := by
  induction l with
  | nil => rfl
  | cons a l ih =>
    simp only [List.flatMap_cons]
    rw [h a (by simp), ih (fun x hx => h x (by simp [hx]))]

/-- The chains after visiting some fingerprints. -/
def swept (T : UInt64 → List Nat) (keep : Nat → Bool) (order : List UInt64) : UInt64 → List Nat :=
  fun f => if f ∈ order then (T f).filter keep else T f

theorem sweep_spec {keep : Nat → Bool} (order : List UInt64) : ∀ (s : State) (T : UInt64 → List Nat), Repr s T → order.Nodup →
    ∃ s', sweep keep s order = some (s', order.flatMap T) ∧ Repr s' (swept T keep order) ∧ s'.alloc = s.alloc := by
  induction order with
  | nil =>
    intro s T h _
    refine ⟨s, rfl, ?_, rfl⟩
    have : swept T keep [] = T := by funext g; simp [swept]
    rw [this]; exact h
  | cons f fs ih =>
    intro s T h hn
    rw [List.nodup_cons] at hn
    obtain ⟨s1, h1, h2, h3⟩ := sweepOne_spec (keep := keep) h f
    obtain ⟨s2, g1, g2, g3⟩ := ih s1 _ h2 hn.2
    have hT : ∀ g, g ∈ fs → upd T f ((T f).filter keep) g = T g := by
      intro g hg
      have : g ≠ f := by intro e; subst e; exact hn.1 hg
      rw [upd_ne _ _ this]
    refine ⟨s2, ?_, ?_, by rw [g3, h3]⟩
    · simp only [sweep, h1, Option.bind_some, g1, Option.map_some, List.flatMap_cons, Option.some.injEq, Prod.mk.injEq, true_and,
        List.append_cancel_left_eq]
      exact flatMap_congr hT
    · have : swept T keep (f :: fs) = swept (upd T f ((T f).filter keep)) keep fs := by
        funext g
        simp only [swept, List.mem_cons]
        by_cases e : g = f
        · subst e; simp [hn.1]
        · simp only [e, false_or, upd_ne _ _ e]
      rw [this]; exact g2

end Verif.Chains
