import Verif.Proof.AsyncAlone

/-! Helper file: delta views in collections during which no other collection is in progress. -/

namespace Verif.Overlap
open Verif Verif.Async

variable {K N S : Type} [DecidableEq K] [DecidableEq N]
set_option linter.unusedSectionVars false

/-- With room left, every set has its own entry. -/
theorem resolve_room {F : List K} {lim : Nat} {ovf k : K} {t : Storage.Table K Nat} (hF : F.length < lim) (hn : (t.map (·.1)).Nodup)
    (hs : ∀ x ∈ t.map (·.1), x ∈ F) (hk : k ∈ F) : Storage.resolveKey lim ovf t k = k := by
  unfold Storage.resolveKey
  rw [has_eq]
  by_cases h : (Storage.find t k).isSome = true
  · rw [if_pos h]
  · rw [if_neg h]
    have h' : Storage.find t k = none := by simpa using h
    have hl := List.Nodup.length_le_of_subset (l₂ := F) (List.nodup_cons.2 ⟨notin_of_find h', hn⟩)
      (fun x hx => by
        rcases List.mem_cons.1 hx with e | hx
        · rw [e]; exact hk
        · exact hs x hx)
    rw [List.length_cons, List.length_map] at hl
    rw [if_neg (by omega), if_neg (by omega)]

/-- The invariant of a view with few sets: its keys, nothing left when no collection is in progress, and the table `prior`. -/
structure Room (c : Cfg K N S) (l : Nat) (F : List K) (s : State K N S) : Prop where
  keys : ∀ k h, (k, h) ∈ (s.view l).data → k ∈ F
  quiet : (s.view l).data ≠ [] → ∃ n, n < s.count ∧ Active c (s.phase n) l
  pnodup : ((s.view l).prior.map (·.1)).Nodup
  puniq : ∀ k k' h, (k, h) ∈ (s.view l).prior → (k', h) ∈ (s.view l).prior → k = k'

theorem Room.initial (c : Cfg K N S) (l : Nat) (F : List K) : Room c l F (initial c) :=
  ⟨fun k h hm => (by cases hm), fun h => absurd rfl h, List.nodup_nil, fun k k' h hm => (by cases hm)⟩

theorem Room.mono {c : Cfg K N S} {l : Nat} {F : List K} {s s' : State K N S} (hr : Room c l F s) (hv : s'.view l = s.view l)
    (ha : ∀ n, n < s.count → Active c (s.phase n) l → n < s'.count ∧ Active c (s'.phase n) l) : Room c l F s' := by
  refine ⟨?_, ?_, ?_, ?_⟩
  · rw [hv]; exact hr.keys
  · rw [hv]
    intro h
    obtain ⟨n, hn, h'⟩ := hr.quiet h
    exact ⟨n, ha n hn h'⟩
  · rw [hv]; exact hr.pnodup
  · rw [hv]; exact hr.puniq

theorem newAcc_view (c : Cfg K N S) {own : Nat → Nat} {s : State K N S} (hi : Inv c own s) (l0 l : Nat) (set : K) :
    ((newAcc c s l0 set).2.view l).prior = (s.view l).prior ∧
    (∀ k h, (k, h) ∈ ((newAcc c s l0 set).2.view l).data → (k, h) ∈ (s.view l).data ∨
      (l = l0 ∧ s.next ≤ h ∧ k = Storage.resolveKey (c.lim l) c.ovf (s.view l).data (c.filt l set))) := by
  by_cases e : l = l0
  · subst e
    have hg := goc_same (c.lim l) c.ovf (c.filt l set) (s.view l).data s.next
    have hk : (Storage.getOrCreate (c.lim l) c.ovf (s.view l).data (c.filt l set) s.next).1 =
        Storage.resolveKey (c.lim l) c.ovf (s.view l).data (c.filt l set) := by
      unfold Storage.getOrCreate
      simp only
      split <;> rfl
    simp only at hg
    rw [← hk]
    unfold newAcc
    generalize Storage.getOrCreate (c.lim l) c.ovf (s.view l).data (c.filt l set) s.next = g at hg ⊢
    rcases hg with ⟨h1, h2⟩ | ⟨h1, h2, h3⟩
    · have hlt := hi.data l _ _ h2
      have hne : g.2.1 ≠ s.next := by omega
      simp only [hne, if_false]
      exact ⟨trivial, fun k h hm => .inl hm⟩
    · simp only [h2, if_true, upd_same, h1]
      refine ⟨trivial, ?_⟩
      intro k h hm
      rcases List.mem_cons.1 hm with e | hm
      · cases e; exact .inr ⟨trivial, Nat.le_refl _, rfl⟩
      · exact .inl hm
  · have := (newAcc_frame c s l0 set).2.2.2.2.2.2 l e
    rw [this]
    exact ⟨rfl, fun k h hm => .inl hm⟩

theorem newAccs_view {c : Cfg K N S} {n : Nat} (set : K) (l : Nat) (ls : List Nat) {own : Nat → Nat} {s : State K N S} (hi : Inv c own s)
    (hn : n < s.count) (ha : ∀ l ∈ ls, Active c (s.phase n) l) :
    ((newAccs c set ls s).2.view l).prior = (s.view l).prior ∧
    (∀ k h, (k, h) ∈ ((newAccs c set ls s).2.view l).data → (k, h) ∈ (s.view l).data ∨ s.next ≤ h) := by
  induction ls generalizing s own with
  | nil => exact ⟨rfl, fun k h hm => .inl hm⟩
  | cons l0 ls ih =>
    obtain ⟨own1, i1, _⟩ := newAcc_inv hi l0 set ⟨n, hn, ha l0 List.mem_cons_self⟩
    obtain ⟨a1, a2, a3, a4, a5, a6, a7⟩ := newAcc_frame c s l0 set
    obtain ⟨p1, p2⟩ := newAcc_view c hi l0 l set
    obtain ⟨q1, q2⟩ := ih i1 (by rw [a3]; exact hn) (fun l' h' => by rw [a2]; exact ha l' (List.mem_cons_of_mem _ h'))
    refine ⟨q1.trans p1, ?_⟩
    intro k h hm
    rcases q2 k h hm with hm | hm
    · rcases p2 k h hm with hm | hm
      · exact .inl hm
      · exact .inr hm.2.1
    · exact .inr (Nat.le_trans a5 hm)

theorem Room.newAccs {c : Cfg K N S} {n l : Nat} {F : List K} (hF : F.length < c.lim l) (set : K) (ls : List Nat) {own : Nat → Nat}
    {s : State K N S} (hi : Inv c own s) (hr : Room c l F s) (hn : n < s.count) (ha : ∀ l ∈ ls, Active c (s.phase n) l)
    (hs : l ∈ ls → c.filt l set ∈ F) : Room c l F (newAccs c set ls s).2 := by
  induction ls generalizing s own with
  | nil => exact hr
  | cons l0 ls ih =>
    obtain ⟨own1, i1, _⟩ := newAcc_inv hi l0 set ⟨n, hn, ha l0 List.mem_cons_self⟩
    obtain ⟨a1, a2, a3, a4, a5, a6, a7⟩ := newAcc_frame c s l0 set
    refine ih i1 ?_ (by rw [a3]; exact hn) (fun l' h' => by rw [a2]; exact ha l' (List.mem_cons_of_mem _ h')) (fun h => hs (List.mem_cons_of_mem _ h))
    by_cases e : l = l0
    · obtain ⟨p1, p2⟩ := newAcc_view c hi l0 l set
      refine ⟨?_, ?_, by rw [p1]; exact hr.pnodup, by rw [p1]; exact hr.puniq⟩
      · intro k h hm
        rcases p2 k h hm with hm | ⟨_, _, hk⟩
        · exact hr.keys k h hm
        · rw [hk]
          have hin := hs (by rw [e]; exact List.mem_cons_self)
          rw [resolve_room hF (hi.nodup l) (fun x hx => by
            obtain ⟨⟨k', h'⟩, hm', e'⟩ := List.mem_map.1 hx
            have e' : k' = x := e'
            rw [← e']; exact hr.keys k' h' hm') hin]
          exact hin
      · intro _
        exact ⟨n, by rw [a3]; exact hn, by rw [a2, e]; exact ha l0 List.mem_cons_self⟩
    · exact hr.mono (a7 l e) (fun m hm h => by rw [a3, a2]; exact ⟨hm, h⟩)

theorem Room.noOvf {c : Cfg K N S} {l : Nat} {F : List K} {s : State K N S} (hr : Room c l F s) (ho : c.ovf ∉ F) :
    Storage.find (s.view l).data c.ovf = none := by
  apply find_none_of_notin
  intro h
  obtain ⟨⟨k, h'⟩, hm, e⟩ := List.mem_map.1 h
  have e : k = c.ovf := e
  exact ho (by rw [← e]; exact hr.keys k h' hm)

/-- `Collect` of a delta view without overflow. -/
theorem collectView_delta {c : Cfg K N S} {s : State K N S} {n l : Nat} (hd : c.delta l = true)
    (hf : Storage.find (s.view l).data c.ovf = none) :
    (collectView c s n l).view l = { data := [], prior := (s.view l).data } ∧
    (collectView c s n l).out n l = (deltaLoop (c.agg l) (s.view l).prior (s.view l).data s.heap).1 ∧
    (collectView c s n l).heap = (deltaLoop (c.agg l) (s.view l).prior (s.view l).data s.heap).2 := by
  unfold collectView
  simp only [hd, if_true]
  split
  · exact ⟨upd_same _ _ _, by simp only [upd_same], rfl⟩
  · rename_i h; rw [hf] at h; cases h

theorem Room.step {c : Cfg K N S} {own : Nat → Nat} {l : Nat} {F : List K} (hd : c.delta l = true) {s s' : State K N S} (hi : Inv c own s)
    (hr : Room c l F s) {a : Action K N} (hf : FewSets c l F [a]) (h : Overlap.step c s a = some s') : Room c l F s' := by
  cases a with
  | start =>
    simp only [Overlap.step, Option.some.injEq] at h
    subst h
    refine hr.mono rfl ?_
    intro n hn ha
    refine ⟨Nat.lt_succ_of_lt hn, ?_⟩
    show Active c (upd s.phase s.count .callbacks n) l
    rw [upd_ne _ _ (by omega)]; exact ha
  | observe n obs set val =>
    simp only [Overlap.step] at h
    split at h
    · rename_i hc
      cases h
      unfold Overlap.observe
      simp only
      split
      · exact hr.mono rfl (fun m hm ha => ⟨hm, ha⟩)
      · have := hr.newAccs hf.1 (c.canon obs set) (c.leavesOf obs) hi hc.1
          (fun l' hl' => by rw [hc.2.1]; exact c.views_all obs l' hl')
          (fun hl => hf.2.2 n obs set val List.mem_cons_self hl)
        exact this.mono rfl (fun m hm ha => ⟨hm, ha⟩)
    · cases h
  | returned n =>
    simp only [Overlap.step] at h
    split at h
    · rename_i hc
      cases h
      refine hr.mono rfl ?_
      intro m hm ha
      refine ⟨hm, ?_⟩
      show Active c (upd s.phase n _ m) l
      by_cases e : m = n
      · subst e; rw [upd_same]; rw [hc.2] at ha; exact ha
      · rw [upd_ne _ _ e]; exact ha
    · cases h
  | snap n i =>
    simp only [Overlap.step] at h
    split at h
    · split at h
      · rename_i rest hp
        split at h
        · cases h
          refine hr.mono rfl ?_
          intro m hm ha
          refine ⟨hm, ?_⟩
          show Active c (upd s.phase n _ m) l
          by_cases e : m = n
          · subst e
            rw [upd_same]
            rw [hp] at ha
            split <;> exact ha
          · rw [upd_ne _ _ e]; exact ha
        · split at h
          · cases h
            refine hr.mono rfl ?_
            intro m hm ha
            refine ⟨hm, ?_⟩
            show Active c (upd s.phase n _ m) l
            by_cases e : m = n
            · subst e
              rw [upd_same]
              rw [hp] at ha
              exact ha
            · rw [upd_ne _ _ e]; exact ha
          · cases h
      · cases h
    · cases h
  | collect n =>
    simp only [Overlap.step] at h
    split at h
    · split at h
      · rename_i l0 todo hp
        cases h
        obtain ⟨f1, f2, f3, f4, f5, f6⟩ := collectView_frame c s n l0
        by_cases e : l = l0
        · subst e
          obtain ⟨v1, _, _⟩ := collectView_delta (n := n) hd (hr.noOvf hf.2.1)
          refine ⟨?_, ?_, ?_, ?_⟩
          · intro k h hm
            have hm : (k, h) ∈ ((collectView c s n l).view l).data := hm
            rw [v1] at hm; cases hm
          · intro hne
            have hne : ((collectView c s n l).view l).data ≠ [] := hne
            rw [v1] at hne; exact absurd rfl hne
          · show (((collectView c s n l).view l).prior.map (·.1)).Nodup
            rw [v1]; exact hi.nodup l
          · intro k k' h hm hm'
            have hm : (k, h) ∈ ((collectView c s n l).view l).prior := hm
            have hm' : (k', h) ∈ ((collectView c s n l).view l).prior := hm'
            rw [v1] at hm hm'
            exact hi.uniq l k k' h hm hm'
        · refine hr.mono (f5 l e) ?_
          intro m hm ha
          refine ⟨by show m < (collectView c s n l0).count; rw [f3]; exact hm, ?_⟩
          show Active c (upd s.phase n _ m) l
          by_cases em : m = n
          · subst em
            rw [upd_same]
            rw [hp] at ha
            exact (List.mem_cons.1 ha).resolve_left e
          · rw [upd_ne _ _ em]; exact ha
      · cases h
    · cases h

theorem FewSets.tail {c : Cfg K N S} {l : Nat} {F : List K} {a b : List (Action K N)} (h : FewSets c l F (a ++ b)) :
    FewSets c l F a ∧ FewSets c l F b :=
  ⟨⟨h.1, h.2.1, fun n o set v hm => h.2.2 n o set v (List.mem_append_left _ hm)⟩,
   ⟨h.1, h.2.1, fun n o set v hm => h.2.2 n o set v (List.mem_append_right _ hm)⟩⟩

theorem Room.run {c : Cfg K N S} {own : Nat → Nat} {l : Nat} {F : List K} (hd : c.delta l = true) {s s' : State K N S} (hi : Inv c own s)
    (hr : Room c l F s) {acts : List (Action K N)} (hf : FewSets c l F acts) (h : Overlap.run c s acts = some s') : Room c l F s' := by
  induction acts generalizing own s with
  | nil => cases h; exact hr
  | cons a as ih =>
    simp only [Overlap.run] at h
    cases hs : Overlap.step c s a with
    | none => rw [hs] at h; cases h
    | some s1 =>
      rw [hs] at h
      obtain ⟨own1, i1⟩ := hi.step hs
      obtain ⟨f1, f2⟩ := FewSets.tail (a := [a]) hf
      exact ih i1 (hr.step hd hi f1 hs) f2 h

/-- While the view was not collected yet: `prior` reads `P` and shares no holder with `data`. -/
structure Kept (l : Nat) (P : List (K × S)) (s : State K N S) : Prop where
  disj : ∀ k k' h, (k, h) ∈ (s.view l).data → (k', h) ∉ (s.view l).prior
  reads : (s.view l).prior.map (fun e => (e.1, s.heap e.2)) = P

theorem Kept.mono {l : Nat} {P : List (K × S)} {s s' : State K N S} (hk : Kept l P s) (hv : s'.view l = s.view l)
    (hh : ∀ k h, (k, h) ∈ (s.view l).prior → s'.heap h = s.heap h) : Kept l P s' := by
  refine ⟨?_, ?_⟩
  · rw [hv]; exact hk.disj
  · rw [hv, ← hk.reads]
    apply List.map_congr_left
    rintro ⟨k, h⟩ hm
    rw [hh k h hm]

/-- Everything known of a delta view during a collection by itself. -/
def Done (c : Cfg K N S) (l n : Nat) (P : List (K × S)) (O : List (Nat × K × N)) (s : State K N S) : Prop :=
  ∃ cur, Reports c l O cur ∧ Differences (c.agg l) P cur (s.out n l) ∧ (s.view l).data = [] ∧
    (s.view l).prior.map (fun e => (e.1, s.heap e.2)) = cur

theorem Kept.step {c : Cfg K N S} {own : Nat → Nat} {s s' : State K N S} (hi : Inv c own s) {l n : Nat} {P : List (K × S)}
    {Q : List (Nat × K × N) → State K N S → Prop} {O : List (Nat × K × N)} (ha : Alone c l n Q O s)
    (hk : Active c (s.phase n) l → Kept l P s) {a : Action K N} (hns : a ≠ .start) (h : Overlap.step c s a = some s') :
    Active c (s'.phase n) l → Kept l P s' := by
  have hm : ∀ m, m < s.count → m ≠ n → s.phase m = .collect [] := by
    intro m hm hne
    rw [ha.count] at hm
    exact ha.others m (by omega)
  cases a with
  | start => exact absurd rfl hns
  | observe m obs set val =>
    simp only [Overlap.step] at h
    split at h
    · rename_i hc
      cases h
      by_cases e : m = n
      · subst e
        have hlt : m < s.count := hc.1
        unfold Overlap.observe
        simp only
        split
        · exact fun h => (hk h).mono rfl (fun _ _ _ => rfl)
        · obtain ⟨b1, b2, b3, b4, b5, b6, b7, b8⟩ := newAccs_frame c (c.canon obs set) (c.leavesOf obs) s
          obtain ⟨p1, p2⟩ := newAccs_view (n := m) (c.canon obs set) l (c.leavesOf obs) hi hlt
            (fun l' hl' => by rw [hc.2.1]; exact c.views_all obs l' hl')
          intro hact
          have hact : Active c ((newAccs c (c.canon obs set) (c.leavesOf obs) s).2.phase m) l := hact
          rw [b2] at hact
          have hk := hk hact
          refine ⟨?_, ?_⟩
          · intro k k' h hd hp
            have hd : (k, h) ∈ ((newAccs c (c.canon obs set) (c.leavesOf obs) s).2.view l).data := hd
            have hp : (k', h) ∈ ((newAccs c (c.canon obs set) (c.leavesOf obs) s).2.view l).prior := hp
            rw [p1] at hp
            rcases p2 k h hd with hd | hd
            · exact hk.disj k k' h hd hp
            · have := (hi.prior l k' h hp).1; omega
          · show ((newAccs c (c.canon obs set) (c.leavesOf obs) s).2.view l).prior.map
              (fun e => (e.1, (newAccs c (c.canon obs set) (c.leavesOf obs) s).2.heap e.2)) = P
            rw [p1, ← hk.reads]
            apply List.map_congr_left
            rintro ⟨k, h⟩ hm
            rw [b6 h (hi.prior l k h hm).1]
      · rw [hm m hc.1 e] at hc; cases hc.2.1
    · cases h
  | returned m =>
    simp only [Overlap.step] at h
    split at h
    · rename_i hc
      cases h
      by_cases e : m = n
      · subst e
        intro hact
        have hact : Active c (upd s.phase m _ m) l := hact
        rw [upd_same] at hact
        exact (hk (by rw [hc.2]; exact hact)).mono rfl (fun _ _ _ => rfl)
      · rw [hm m hc.1 e] at hc; cases hc.2
    · cases h
  | snap m i =>
    simp only [Overlap.step] at h
    split at h
    · rename_i hc
      by_cases e : m = n
      · subst e
        split at h
        · rename_i rest hr
          split at h
          · rename_i x hx
            cases h
            intro hact
            have hact : Active c (upd s.phase m _ m) l := hact
            rw [upd_same] at hact
            have hv : l ∈ c.views := by
              revert hact
              split <;> exact id
            have hk := hk (by rw [hr]; exact hv)
            refine hk.mono rfl ?_
            intro k h hp
            show upd s.heap x.2.1 _ h = _
            apply upd_ne
            intro e
            have hmem : x ∈ rest := List.mem_of_getElem? hx
            have hown := hi.rest m rest hr x hmem
            have hpo := hi.prior l k h hp
            have hxl : x.1 = l := by rw [← hown.2, ← e]; exact hpo.2
            have hph := ha.phase
            rw [hr] at hph
            obtain ⟨htab, dn, hperm, _⟩ := hph
            have hpend : x ∈ pending (s.store m) := hperm.mem_iff.1 (List.mem_append_right _ hmem)
            obtain ⟨ac, hac, hptr, _⟩ := mem_pending.1 hpend
            rw [hxl] at hptr
            obtain ⟨k', hk', _⟩ := htab.place ac hac _ hptr
            exact hk.disj k' k h (by rw [e]; exact hk') hp
          · split at h
            · cases h
              intro hact
              have hact : Active c (upd s.phase m _ m) l := hact
              rw [upd_same] at hact
              exact (hk (by rw [hr]; exact hact)).mono rfl (fun _ _ _ => rfl)
            · cases h
        · cases h
      · rw [hm m hc e] at h; cases h
    · cases h
  | collect m =>
    simp only [Overlap.step] at h
    split at h
    · rename_i hc
      by_cases e : m = n
      · subst e
        split at h
        · rename_i l0 todo hp
          cases h
          intro hact
          have hact : Active c (upd s.phase m _ m) l := hact
          rw [upd_same] at hact
          have hact : l ∈ todo := hact
          have hph := ha.phase
          rw [hp] at hph
          have hph : if l ∈ l0 :: todo then _ else _ := hph
          rw [if_pos (List.mem_cons_of_mem _ hact)] at hph
          have hne : l ≠ l0 := fun e => (List.nodup_cons.1 hph.1).1 (e ▸ hact)
          have hk := hk (by rw [hp]; exact List.mem_cons_of_mem _ hact)
          exact hk.mono ((collectView_frame c s m l0).2.2.2.2.1 l hne) (fun k h hm => collectView_heap hi m hne (hi.prior l k h hm))
        · cases h
      · rw [hm m hc e] at h; cases h
    · cases h

/-- The points made by `deltaLoop`. -/
theorem deltaLoop_points (a : AAgg N S) (prior t : Storage.Table K Nat) (h : Nat → S) (hn : (t.map (·.1)).Nodup)
    (hd : ∀ e ∈ t, ∀ k, (k, e.2) ∉ prior) (hu : ∀ k k' x, (k, x) ∈ prior → (k', x) ∈ prior → k = k') :
    (deltaLoop a prior t h).1 = t.filterMap (fun e => match Storage.find prior e.1 with
      | none => some (e.1, h e.2)
      | some p => if a.hasChange (a.sub (h p) (h e.2)) then some (e.1, a.sub (h p) (h e.2)) else none) := by
  induction t generalizing h with
  | nil => rfl
  | cons e t ih =>
    rw [List.map_cons, List.nodup_cons] at hn
    have hd' : ∀ e ∈ t, ∀ k, (k, e.2) ∉ prior := fun e' he' => hd e' (List.mem_cons_of_mem _ he')
    rw [List.filterMap_cons]
    unfold deltaLoop
    cases hf : Storage.find prior e.1 with
    | none =>
      simp only
      rw [ih h hn.2 hd']
    | some p =>
      simp only
      have hp := mem_of_find hf
      rw [ih _ hn.2 hd']
      have hcong : t.filterMap (fun e' => match Storage.find prior e'.1 with
          | none => some (e'.1, upd h p (a.sub (h p) (h e.2)) e'.2)
          | some q => if a.hasChange (a.sub (upd h p (a.sub (h p) (h e.2)) q) (upd h p (a.sub (h p) (h e.2)) e'.2)) then
              some (e'.1, a.sub (upd h p (a.sub (h p) (h e.2)) q) (upd h p (a.sub (h p) (h e.2)) e'.2)) else none) =
          t.filterMap (fun e' => match Storage.find prior e'.1 with
          | none => some (e'.1, h e'.2)
          | some q => if a.hasChange (a.sub (h q) (h e'.2)) then some (e'.1, a.sub (h q) (h e'.2)) else none) := by
        have hcg : ∀ {α β : Type} (f g : α → Option β) (l : List α), (∀ x ∈ l, f x = g x) → l.filterMap f = l.filterMap g := by
          intro α β f g l hfg
          induction l with
          | nil => rfl
          | cons x l ihl =>
            rw [List.filterMap_cons, List.filterMap_cons, hfg x List.mem_cons_self, ihl (fun y hy => hfg y (List.mem_cons_of_mem _ hy))]
        apply hcg
        intro e' he'
        have h1 : upd h p (a.sub (h p) (h e.2)) e'.2 = h e'.2 := upd_ne _ _ (fun x => hd' e' he' e.1 (by rw [x]; exact hp))
        rw [h1]
        cases hq : Storage.find prior e'.1 with
        | none => rfl
        | some q =>
          have h2 : upd h p (a.sub (h p) (h e.2)) q = h q := by
            apply upd_ne
            intro x
            have := hu e'.1 e.1 p (by rw [← x]; exact mem_of_find hq) hp
            exact hn.1 (by rw [← this]; exact List.mem_map_of_mem he')
          simp only [h2]
      rw [hcong]
      by_cases hc : a.hasChange (a.sub (h p) (h e.2)) = true
      · rw [if_pos hc, if_pos hc]
      · rw [if_neg hc, if_neg hc]

theorem differences (a : AAgg N S) (prior t : Storage.Table K Nat) (h : Nat → S) (hn : (t.map (·.1)).Nodup)
    (hpn : (prior.map (·.1)).Nodup)
    (hd : ∀ e ∈ t, ∀ k, (k, e.2) ∉ prior) (hu : ∀ k k' x, (k, x) ∈ prior → (k', x) ∈ prior → k = k') :
    Differences a (prior.map (fun e => (e.1, h e.2))) (t.map (fun e => (e.1, h e.2))) (deltaLoop a prior t h).1 := by
  rw [deltaLoop_points a prior t h hn hd hu]
  have hkeys : (prior.map (fun e => (e.1, h e.2))).map (·.1) = prior.map (·.1) := by rw [List.map_map]; rfl
  refine ⟨?_, ?_⟩
  · refine List.Sublist.nodup (l₂ := t.map (·.1)) ?_ hn
    rw [List.map_filterMap]
    clear hn hd
    induction t with
    | nil => exact List.Sublist.refl _
    | cons e t ih =>
      rw [List.filterMap_cons, List.map_cons]
      cases hf : Storage.find prior e.1 with
      | none => simp only [Option.map_some]; exact ih.cons_cons _
      | some p =>
        simp only
        split
        · rename_i h1
          split at h1
          · exact ih.cons _
          · exact ih.cons _
        · rename_i h1
          split at h1
          · simp only [Option.map_some, Option.some.injEq] at h1; subst h1; exact ih.cons_cons _
          · cases h1
  · intro k d
    rw [List.mem_filterMap, hkeys]
    constructor
    · rintro ⟨⟨k', x⟩, hm, he⟩
      cases hf : Storage.find prior k' with
      | none =>
        simp only [hf, Option.some.injEq, Prod.mk.injEq] at he
        obtain ⟨rfl, rfl⟩ := he
        exact ⟨_, List.mem_map.2 ⟨_, hm, rfl⟩, .inl ⟨notin_of_find hf, rfl⟩⟩
      | some p =>
        simp only [hf] at he
        split at he
        · rename_i hc
          simp only [Option.some.injEq, Prod.mk.injEq] at he
          obtain ⟨rfl, rfl⟩ := he
          exact ⟨_, List.mem_map.2 ⟨_, hm, rfl⟩, .inr ⟨_, List.mem_map.2 ⟨_, mem_of_find hf, rfl⟩, rfl, hc⟩⟩
        · cases he
    · rintro ⟨v, hv, hc⟩
      obtain ⟨⟨k', x⟩, hm, he⟩ := List.mem_map.1 hv
      simp only [Prod.mk.injEq] at he
      obtain ⟨rfl, rfl⟩ := he
      refine ⟨(k', x), hm, ?_⟩
      rcases hc with ⟨h1, h2⟩ | ⟨p, h1, h2, h3⟩
      · rw [find_none_of_notin h1, h2]
      · obtain ⟨⟨k2, y⟩, hm2, he2⟩ := List.mem_map.1 h1
        simp only [Prod.mk.injEq] at he2
        obtain ⟨rfl, rfl⟩ := he2
        simp only [find_of_mem hpn hm2]
        rw [← h2, if_pos h3]

theorem Done.run {c : Cfg K N S} (hnd : ∀ o, (c.leavesOf o).Nodup) {l n : Nat} (hd : c.delta l = true) (hlv : l ∈ c.views)
    {P : List (K × S)} {F : List K}
    (acts : List (Action K N)) {own : Nat → Nat} {s s' : State K N S} (hi : Inv c own s) (hr : Room c l F s) {O : List (Nat × K × N)}
    (hf : FewSets c l F acts)
    (ha : Alone c l n (Done c l n P) O s) (hk : Active c (s.phase n) l → Kept l P s)
    (hns : .start ∉ acts) (h : Overlap.run c s acts = some s') : Alone c l n (Done c l n P) (O ++ observations c n acts) s' := by
  induction acts generalizing own s O with
  | nil =>
    cases h
    have : observations c n ([] : List (Action K N)) = [] := rfl
    rw [this, List.append_nil]; exact ha
  | cons a as ih =>
    simp only [Overlap.run] at h
    cases hs : Overlap.step c s a with
    | none => rw [hs] at h; cases h
    | some s1 =>
      rw [hs] at h
      rw [List.mem_cons, not_or] at hns
      obtain ⟨g1, g2⟩ := FewSets.tail (a := [a]) hf
      have a1 := ha.step hnd hi hlv (by
        intro l0 todo hp
        obtain ⟨f1, f2, f3, f4, f5, f6⟩ := collectView_frame c s n l0
        refine ⟨?_, ?_⟩
        · intro e htab dn hperm hh
          subst e
          obtain ⟨v1, v2, v3⟩ := collectView_delta (n := n) hd (hr.noOvf hf.2.1)
          have hk := hk (by rw [hp]; exact List.mem_cons_self)
          refine ⟨_, reports hnd hi ha.store htab hperm hh, ?_, ?_, ?_⟩
          · show Differences _ _ _ ((collectView c s n l).out n l)
            rw [v2, ← hk.reads]
            exact differences _ _ _ _ (hi.nodup l) hr.pnodup (fun e he k => hk.disj e.1 k e.2 he) hr.puniq
          · show ((collectView c s n l).view l).data = []
            rw [v1]
          · show ((collectView c s n l).view l).prior.map (fun e => (e.1, (collectView c s n l).heap e.2)) = _
            rw [v1, v3]
            apply List.map_congr_left
            rintro ⟨k, x⟩ hm
            rw [deltaLoop_heap _ _ _ _ _ (fun k' => hk.disj k k' x hm)]
        · rintro e _ ⟨cur, q1, q2, q3, q4⟩
          refine ⟨cur, q1, ?_, ?_, ?_⟩
          · show Differences _ _ _ ((collectView c s n l0).out n l)
            rw [f6 l e]; exact q2
          · show ((collectView c s n l0).view l).data = []
            rw [f5 l e]; exact q3
          · show ((collectView c s n l0).view l).prior.map (fun e => (e.1, (collectView c s n l0).heap e.2)) = _
            rw [f5 l e, ← q4]
            apply List.map_congr_left
            rintro ⟨k, x⟩ hm
            rw [collectView_heap hi n e (hi.prior l k x hm)]) (fun e => hns.1 e.symm) hs
      have k1 := Kept.step hi ha hk (fun e => hns.1 e.symm) hs
      obtain ⟨own1, i1⟩ := hi.step hs
      rw [observations_cons, ← List.append_assoc]
      exact ih i1 (hr.step hd hi g1 hs) g2 a1 k1 hns.2 h

/-- A collection by itself, from a state in which none is in progress. -/
theorem Done.alone {c : Cfg K N S} (hnd : ∀ o, (c.leavesOf o).Nodup) {l : Nat} (hd : c.delta l = true) (hlv : l ∈ c.views)
    {F : List K} {own : Nat → Nat} {s0 s : State K N S} (hi : Inv c own s0) (hr : Room c l F s0) {during : List (Action K N)}
    (hf : FewSets c l F (.start :: during)) (hended : ∀ n, n < s0.count → s0.phase n = .collect [])
    (hone : .start ∉ during) (h : Overlap.run c s0 (.start :: during) = some s) (hend : s.phase s0.count = .collect []) :
    (∃ own', Inv c own' s) ∧ Room c l F s ∧ s.count = s0.count + 1 ∧ (∀ n, n < s.count → s.phase n = .collect []) ∧
      Done c l s0.count ((s0.view l).prior.map (fun e => (e.1, s0.heap e.2))) (observations c s0.count during) s := by
  have hi' := hi.run h
  have hr' := hr.run hd hi hf h
  have hdata : (s0.view l).data = [] := by
    cases hdd : (s0.view l).data with
    | nil => rfl
    | cons e t =>
      obtain ⟨n, hn, ha⟩ := hr.quiet (by rw [hdd]; exact List.cons_ne_nil _ _)
      rw [hended n hn] at ha
      cases ha
  simp only [Overlap.run] at h
  cases hs : Overlap.step c s0 .start with
  | none => rw [hs] at h; cases h
  | some s1 =>
    rw [hs] at h
    obtain ⟨own1, i1⟩ := hi.step hs
    obtain ⟨g1, g2⟩ := FewSets.tail (a := [.start]) hf
    have a1 := Alone.start (Q := Done c l s0.count ((s0.view l).prior.map (fun e => (e.1, s0.heap e.2)))) hended hdata
      (Nat.lt_of_le_of_lt (Nat.zero_le _) hf.1) hs
    have k1 : Active c (s1.phase s0.count) l → Kept l ((s0.view l).prior.map (fun e => (e.1, s0.heap e.2))) s1 := by
      intro _
      simp only [Overlap.step, Option.some.injEq] at hs
      subst hs
      refine ⟨?_, rfl⟩
      intro k k' x hm
      have hm : (k, x) ∈ (s0.view l).data := hm
      rw [hdata] at hm; cases hm
    have a2 := Done.run hnd hd hlv during i1 (hr.step hd hi g1 hs) g2 a1 k1 hone h
    have hph := a2.phase
    rw [hend] at hph
    refine ⟨hi', hr', a2.count, ?_, hph⟩
    intro n hn
    rw [a2.count] at hn
    by_cases e : n = s0.count
    · rw [e]; exact hend
    · exact a2.others n (by omega)

end Verif.Overlap
