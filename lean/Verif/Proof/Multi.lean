import Verif.Spec.Multi
import Verif.Proof.DeliveryEnds
import Verif.Proof.DeliveryNext
import Verif.Proof.DeliveryNil

/-!
Lemmas about programs with several readers: to each reader the program looks like one of `Model/Delivery.lean`.
-/

namespace Verif.Multi
open Verif.Attr Verif.Number Verif.Assembly
variable {C G ν : Type} [DecidableEq C] {farm : Str → UInt64} {w : World C G} {fsub : Bits → Bits → Bits} {x : Views.Ext C}

/-- What another reader starts at this step. -/
def foreignOf (j : Nat) (s : Delivery.Sys C G ν) : Option (Sync.Action (List KV) Bits) :=
  match s.pos with
  | .insts _ k (some i :: _) none _ => some (.snapshot (instAddr k i))
  | .outputs _ k (l :: _) none _ => if syncLeaf s.z.p (leafAddr k j l) then some (.collect (leafAddr k j l)) else none
  | _ => none

/-- What happens at this step for reader `i`. -/
def seenBy (i : Nat) (y : Sys C G ν) : Act ν → Option (Delivery.Act ν)
  | .make c => some (.make c)
  | .call o attrs num => some (.call o attrs num)
  | .op o => some (.op o)
  | .task t choice => some (.task t choice)
  | .cb j a => if j = i then some (.cb a) else none
  | .produce j now => if j = i then some (.produce now) else (foreignOf j (view y j)).map .other
  | .reader j a order => if j = i then some (.reader a order) else none
  | .flush => none
  | .shutdown => some (.make .shutdown)
  | .go t => match y.calls[t]? with
    | some (.loop kind r none) => if r = i ∧ r < y.p.views.length then some (.reader (request kind) []) else none
    | _ => none

omit [DecidableEq C] in
theorem view_put (y : Sys C G ν) (i : Nat) (s : Delivery.Sys C G ν) : view (put y i s) i = s := by
  simp [view, put, one]

omit [DecidableEq C] in
theorem view_put_other (y : Sys C G ν) {i j : Nat} (s : Delivery.Sys C G ν) (h : i ≠ j) :
    view (put y j s) i = { view y i with z := { p := s.z.p, s := { (view y i).z.s with sync := s.z.s.sync } } } := by
  simp [view, put, h]

theorem shared_view {y y' : Sys C G ν} {a : Delivery.Act ν} (ha : (∃ c, a = .make c) ∨ (∃ o as n, a = .call o as n) ∨ (∃ o, a = .op o) ∨ ∃ t c, a = .task t c)
    (h : shared farm w fsub x y a = some y') (i : Nat) : Delivery.step farm w fsub x i (view y i) a = some (view y' i) := by
  unfold shared at h
  rcases ha with ⟨c, rfl⟩ | ⟨o, as, n, rfl⟩ | ⟨o, rfl⟩ | ⟨t, c, rfl⟩
  · simp only [Delivery.step, Live.step, Option.map_some, Option.some.injEq] at h ⊢
    subst h
    rfl
  · simp only [Delivery.step, Live.step] at h ⊢
    split at h
    · rename_i hp
      rw [if_pos (show Live.possible w (view y i).z.p _ = true from hp)]
      simp only [Whole.step, Option.map_some, Option.some.injEq] at h ⊢
      subst h
      rfl
    · cases h
  · simp only [Delivery.step, Live.step] at h ⊢
    split at h
    · rename_i hp
      rw [if_pos (show Live.possible w (view y i).z.p _ = true from hp)]
      simp only [Whole.step] at h ⊢
      split at h
      · cases h
      · rename_i hq
        rw [if_neg hq]
        simp only [Option.map_eq_some_iff] at h ⊢
        obtain ⟨_, ⟨_, ⟨_, ⟨s, h1, rfl⟩, rfl⟩, rfl⟩, rfl⟩ := h
        exact ⟨_, ⟨_, ⟨s, h1, rfl⟩, rfl⟩, rfl⟩
    · cases h
  · simp only [Delivery.step, Live.step] at h ⊢
    split at h
    · rename_i hp
      rw [if_pos (show Live.possible w (view y i).z.p _ = true from hp)]
      simp only [Whole.step] at h ⊢
      split at h
      · cases h
      · rename_i hq
        rw [if_neg hq]
        simp only [Option.map_eq_some_iff] at h ⊢
        obtain ⟨_, ⟨_, ⟨_, ⟨s, h1, rfl⟩, rfl⟩, rfl⟩, rfl⟩ := h
        exact ⟨_, ⟨_, ⟨s, h1, rfl⟩, rfl⟩, rfl⟩
    · cases h

theorem run_one {s s' : Delivery.Sys C G ν} {i : Nat} {a : Delivery.Act ν} (h : Delivery.step farm w fsub x i s a = some s') :
    Delivery.run farm w fsub x i s [a] = some s' := by
  simp only [Delivery.run, h, Option.bind_some]

omit [DecidableEq C] in
/-- A step of a reader which leaves what is shared as it is. -/
theorem other_same {y : Sys C G ν} {i j : Nat} {s : Delivery.Sys C G ν} (hij : i ≠ j) (hp : s.z.p = y.p) (hs : s.z.s.sync = y.sync) : view (put y j s) i = view y i := by
  rw [view_put_other y s hij, hp, hs]
  rfl

/-- A scheduler's step of `Live` changes the state of the synchronous instruments only, whichever the reader. -/
theorem sched_any {z z' : Live.Sys C G ν} {j : Nat} {a : Sync.Action (List KV) Bits} (h : Live.step farm w fsub x j z (.run (.sched a)) = some z') (i : Nat) (z2 : Live.Sys C G ν)
    (hp : z2.p = z.p) (hs : z2.s.sync = z.s.sync) :
    z'.p = z.p ∧ Live.step farm w fsub x i z2 (.run (.sched a)) = some { p := z'.p, s := { z2.s with sync := z'.s.sync } } := by
  obtain ⟨p2, s2⟩ := z2
  obtain ⟨p, s⟩ := z
  dsimp only at hp hs
  subst hp
  simp only [Live.step] at h ⊢
  split at h
  · rename_i hq
    rw [if_pos hq]
    simp only [Whole.step] at h ⊢
    split at h
    · cases h
    · rename_i hr
      rw [if_neg hr]
      simp only [Option.map_eq_some_iff] at h
      obtain ⟨_, ⟨u, h1, rfl⟩, rfl⟩ := h
      refine ⟨rfl, ?_⟩
      rw [hs]
      have h2 : Sync.step (Whole.parts farm w fsub p2 i).c s.sync a = some u := h1
      rw [h2]
      rfl
  · cases h

theorem foreign_step {y : Sys C G ν} {i j : Nat} {a : Sync.Action (List KV) Bits} {z : Live.Sys C G ν} {s : Delivery.Sys C G ν} (hij : i ≠ j) (ha : Delivery.foreign i a = true)
    (h : Live.step farm w fsub x j (view y j).z (.run (.sched a)) = some z) (hs : s.z = z) :
    Delivery.step farm w fsub x i (view y i) (.other a) = some (view (put y j s) i) := by
  obtain ⟨h1, h2⟩ := sched_any h i (view y i).z rfl rfl
  simp only [Delivery.step]
  rw [if_pos ha, h2, view_put_other y s hij, hs]
  rfl

theorem produce_other {y : Sys C G ν} {i j : Nat} {now : Int} {s : Delivery.Sys C G ν} (hij : i ≠ j) (h : Delivery.produce farm w fsub x j now (view y j) = some s) :
    Delivery.run farm w fsub x i (view y i) ((foreignOf j (view y j)).map Delivery.Act.other).toList = some (view (put y j s) i) := by
  have hnone : foreignOf j (view y j) = none → s.z = (view y j).z →
      Delivery.run farm w fsub x i (view y i) ((foreignOf j (view y j)).map Delivery.Act.other).toList = some (view (put y j s) i) := by
    intro h1 h2
    rw [h1, other_same hij (by rw [h2]; rfl) (by rw [h2]; rfl)]
    rfl
  have hpos : (view y j).pos = (y.readers j).pos := rfl
  unfold Delivery.produce at h
  cases hp : (view y j).pos with
  | out =>
    rw [hp] at h
    dsimp only at h
    split at h
    · cases h; exact hnone (by simp [foreignOf, hp]) rfl
    · cases h
  | meters q ks =>
    rw [hp] at h
    cases ks with
    | nil => cases h
    | cons k ks =>
      dsimp only at h
      split at h
      · cases h
      · cases h; exact hnone (by simp [foreignOf, hp]) rfl
  | callbacks q k insts ks =>
    rw [hp] at h
    dsimp only at h
    split at h
    · cases h; exact hnone (by simp [foreignOf, hp]) rfl
    · cases h
  | insts q k todo wait ks =>
    rw [hp] at h
    cases wait with
    | some t =>
      dsimp only at h
      split at h
      · cases h; exact hnone (by simp [foreignOf, hp]) rfl
      · cases h
    | none =>
      cases todo with
      | nil =>
        dsimp only at h
        split at h
        · cases h
        · cases h; exact hnone (by simp [foreignOf, hp]) rfl
      | cons o todo =>
        cases o with
        | none => cases h
        | some o =>
          dsimp only at h
          simp only [Option.map_eq_some_iff] at h
          obtain ⟨z, h1, rfl⟩ := h
          have hf : foreignOf j (view y j) = some (.snapshot (instAddr k o)) := by simp [foreignOf, hp]
          rw [hf]
          exact run_one (foreign_step hij rfl h1 rfl)
  | outputs q k todo wait ks =>
    rw [hp] at h
    cases wait with
    | some t =>
      dsimp only at h
      split at h
      · cases h; exact hnone (by simp [foreignOf, hp]) rfl
      · cases h
    | none =>
      cases todo with
      | nil => cases h; exact hnone (by simp [foreignOf, hp]) rfl
      | cons l todo =>
        dsimp only at h
        split at h
        · rename_i hl
          simp only [Option.map_eq_some_iff] at h
          obtain ⟨z, h1, rfl⟩ := h
          have hf : foreignOf j (view y j) = some (.collect (leafAddr k j l)) := by simp [foreignOf, hp, hl]
          rw [hf]
          refine run_one (foreign_step hij ?_ h1 rfl)
          simp [Delivery.foreign, leafAddr, unpair_pair, Ne.symm hij]
        · rename_i hl
          cases h
          exact hnone (by simp [foreignOf, hp, hl]) rfl

theorem at_other {y : Sys C G ν} {i j : Nat} {a : Delivery.Act ν} {s : Delivery.Sys C G ν} (hij : i ≠ j) (ha : (∃ b, a = .cb b) ∨ ∃ b o, a = .reader b o)
    (h : Delivery.step farm w fsub x j (view y j) a = some s) : view (put y j s) i = view y i := by
  rcases ha with ⟨b, rfl⟩ | ⟨b, o, rfl⟩
  · simp only [Delivery.step, Live.step] at h
    split at h
    · split at h
      · simp only [Whole.step] at h
        split at h
        · cases h
        · simp only [Option.map_eq_some_iff] at h
          obtain ⟨_, ⟨_, ⟨u, h1, rfl⟩, rfl⟩, rfl⟩ := h
          exact other_same hij rfl rfl
      · cases h
    · cases h
  · simp only [Delivery.step, Live.step] at h
    split at h
    · split at h
      · split at h
        · simp only [Whole.step, Option.map_eq_some_iff] at h
          obtain ⟨_, ⟨_, ⟨u, h1, rfl⟩, rfl⟩, rfl⟩ := h
          exact other_same hij rfl rfl
        · cases h
      · cases h
    · cases h
      exact other_same hij rfl rfl

theorem step_view {y y' : Sys C G ν} {a : Act ν} (h : step farm w fsub x y a = some y') (i : Nat) :
    Delivery.run farm w fsub x i (view y i) (seenBy i y a).toList = some (view y' i) := by
  have hat : ∀ (j : Nat) (b : Delivery.Act ν), at' farm w fsub x y j b = some y' → ((∃ c, b = .cb c) ∨ ∃ c o, b = .reader c o) →
      Delivery.run farm w fsub x i (view y i) (if j = i then some b else none : Option (Delivery.Act ν)).toList = some (view y' i) := by
    intro j b hb hk
    unfold at' at hb
    split at hb
    · simp only [Option.map_eq_some_iff] at hb
      obtain ⟨s, h1, rfl⟩ := hb
      by_cases hji : j = i
      · subst hji
        rw [if_pos rfl, view_put]
        exact run_one h1
      · rw [if_neg hji, at_other (Ne.symm hji) hk h1]
        rfl
    · cases hb
  cases a with
  | make c => exact run_one (shared_view (.inl ⟨c, rfl⟩) h i)
  | call o as n => exact run_one (shared_view (.inr (.inl ⟨o, as, n, rfl⟩)) h i)
  | op o => exact run_one (shared_view (.inr (.inr (.inl ⟨o, rfl⟩))) h i)
  | task t c => exact run_one (shared_view (.inr (.inr (.inr ⟨t, c, rfl⟩))) h i)
  | cb j b => exact hat j (.cb b) h (.inl ⟨b, rfl⟩)
  | reader j b o => exact hat j (.reader b o) h (.inr ⟨b, o, rfl⟩)
  | produce j now =>
    simp only [step, at'] at h
    split at h
    · simp only [Option.map_eq_some_iff] at h
      obtain ⟨s, h1, rfl⟩ := h
      by_cases hji : j = i
      · subst hji
        simp only [seenBy, if_true]
        rw [view_put]
        exact run_one h1
      · simp only [seenBy, if_neg hji]
        exact produce_other (Ne.symm hji) h1
    · cases h
  | flush => cases h; rfl
  | shutdown =>
    simp only [step, Option.map_eq_some_iff] at h
    obtain ⟨y1, h1, rfl⟩ := h
    exact run_one (shared_view (.inl ⟨_, rfl⟩) h1 i)
  | go t =>
    simp only [step] at h
    cases hc : y.calls[t]? with
    | none => rw [hc] at h; cases h
    | some pc =>
      rw [hc] at h
      cases pc with
      | done b => cases h
      | loop kind r wait =>
        cases wait with
        | some u =>
          simp only [advance] at h
          simp only [seenBy, hc]
          split at h
          · cases h
          · split at h
            · cases h; rfl
            · cases h
        | none =>
          simp only [advance] at h
          simp only [seenBy, hc]
          split at h
          · rename_i hr
            simp only [at', if_pos hr, Option.map_eq_some_iff] at h
            obtain ⟨_, ⟨s, h1, rfl⟩, rfl⟩ := h
            by_cases hri : r = i
            · subst hri
              rw [if_pos ⟨rfl, hr⟩]
              refine (run_one h1).trans ?_
              exact congrArg some (view_put y r s).symm
            · rw [if_neg (fun h => hri h.1)]
              exact congrArg some (at_other (Ne.symm hri) (.inr ⟨_, _, rfl⟩) h1).symm
          · rename_i hr
            cases h
            rw [if_neg (fun h => hr h.2)]
            rfl

/-- What happens for reader `i`. -/
def seen (farm : Str → UInt64) (w : World C G) (fsub : Bits → Bits → Bits) (x : Views.Ext C) (i : Nat) : Sys C G ν → List (Act ν) → List (Delivery.Act ν)
  | _, [] => []
  | y, a :: as => (seenBy i y a).toList ++ (match step farm w fsub x y a with | none => [] | some y' => seen farm w fsub x i y' as)

theorem seen_cons {y y' : Sys C G ν} {a : Act ν} (h : step farm w fsub x y a = some y') (i : Nat) (as : List (Act ν)) :
    seen farm w fsub x i y (a :: as) = (seenBy i y a).toList ++ seen farm w fsub x i y' as := by
  simp only [seen, h]

theorem run_view {y y' : Sys C G ν} {acts : List (Act ν)} (h : run farm w fsub x y acts = some y') (i : Nat) :
    Delivery.run farm w fsub x i (view y i) (seen farm w fsub x i y acts) = some (view y' i) := by
  induction acts generalizing y with
  | nil => cases h; rfl
  | cons a as ih =>
    simp only [run, Option.bind_eq_some_iff] at h
    obtain ⟨t, h1, h2⟩ := h
    rw [seen_cons h1, Delivery.run_append, step_view h1 i, Option.bind_some]
    exact ih h2

omit [DecidableEq C] in
theorem seenBy_makes (i : Nat) (y : Sys C G ν) (a : Act ν) : Delivery.makes (seenBy i y a).toList = makes [a] := by
  cases a with
  | make c => rfl
  | call o as n => rfl
  | op o => rfl
  | task t c => rfl
  | cb j b => simp only [seenBy]; split <;> rfl
  | reader j b o => simp only [seenBy]; split <;> rfl
  | produce j now =>
    simp only [seenBy]
    split
    · rfl
    · cases foreignOf j (view y j) <;> rfl
  | flush => rfl
  | shutdown => rfl
  | go t =>
    simp only [seenBy]
    split
    · split <;> rfl
    · rfl

omit [DecidableEq C] in
theorem seenBy_measured (i : Nat) (y : Sys C G ν) (a : Act ν) : Delivery.measured (seenBy i y a).toList = measured [a] := by
  cases a with
  | make c => rfl
  | call o as n => rfl
  | op o => rfl
  | task t c => rfl
  | cb j b => simp only [seenBy]; split <;> rfl
  | reader j b o => simp only [seenBy]; split <;> rfl
  | produce j now =>
    simp only [seenBy]
    split
    · rfl
    · cases foreignOf j (view y j) <;> rfl
  | flush => rfl
  | shutdown => rfl
  | go t =>
    simp only [seenBy]
    split
    · split <;> rfl
    · rfl

omit [DecidableEq C] in
theorem seenBy_cb {i : Nat} {y : Sys C G ν} {a : Act ν} {b : Async.Action (List KV) Bits} (h : .cb b ∈ (seenBy i y a).toList) : a = .cb i b := by
  cases a with
  | make c => simp [seenBy] at h
  | call o as n => simp [seenBy] at h
  | op o => simp [seenBy] at h
  | task t c => simp [seenBy] at h
  | cb j b' =>
    simp only [seenBy] at h
    split at h
    · rename_i hj
      simp at h
      rw [hj, h]
    · simp at h
  | reader j b' o => simp only [seenBy] at h; split at h <;> simp at h
  | produce j now =>
    simp only [seenBy] at h
    split at h
    · simp at h
    · cases hf : foreignOf j (view y j) <;> rw [hf] at h <;> simp at h
  | flush => simp [seenBy] at h
  | shutdown => simp [seenBy] at h
  | go t =>
    simp only [seenBy] at h
    split at h
    · split at h <;> simp at h
    · simp at h

theorem seen_makes {y y' : Sys C G ν} {acts : List (Act ν)} (h : run farm w fsub x y acts = some y') (i : Nat) :
    Delivery.makes (seen farm w fsub x i y acts) = makes acts := by
  induction acts generalizing y with
  | nil => rfl
  | cons a as ih =>
    simp only [run, Option.bind_eq_some_iff] at h
    obtain ⟨t, h1, h2⟩ := h
    rw [seen_cons h1, show makes (a :: as) = makes [a] ++ makes as from List.filterMap_append (l := [a]), ← ih h2, ← seenBy_makes i y a]
    exact List.filterMap_append

theorem seen_measured {y y' : Sys C G ν} {acts : List (Act ν)} (h : run farm w fsub x y acts = some y') (i : Nat) :
    Delivery.measured (seen farm w fsub x i y acts) = measured acts := by
  induction acts generalizing y with
  | nil => rfl
  | cons a as ih =>
    simp only [run, Option.bind_eq_some_iff] at h
    obtain ⟨t, h1, h2⟩ := h
    rw [seen_cons h1, show measured (a :: as) = measured [a] ++ measured as from List.filterMap_append (l := [a]), ← ih h2, ← seenBy_measured i y a]
    exact List.filterMap_append

theorem seen_cb {y y' : Sys C G ν} {acts : List (Act ν)} (h : run farm w fsub x y acts = some y') {i : Nat} {b : Async.Action (List KV) Bits}
    (hb : .cb b ∈ seen farm w fsub x i y acts) : .cb i b ∈ acts := by
  induction acts generalizing y with
  | nil => simp [seen] at hb
  | cons a as ih =>
    simp only [run, Option.bind_eq_some_iff] at h
    obtain ⟨t, h1, h2⟩ := h
    rw [seen_cons h1] at hb
    rcases List.mem_append.1 hb with hb | hb
    · rw [seenBy_cb hb]; exact List.mem_cons_self
    · exact List.mem_cons_of_mem _ (ih h2 hb)

theorem seen_append {y y' : Sys C G ν} {as bs : List (Act ν)} (h : run farm w fsub x y as = some y') (i : Nat) :
    seen farm w fsub x i y (as ++ bs) = seen farm w fsub x i y as ++ seen farm w fsub x i y' bs := by
  induction as generalizing y with
  | nil => cases h; rfl
  | cons a as ih =>
    simp only [run, Option.bind_eq_some_iff] at h
    obtain ⟨t, h1, h2⟩ := h
    rw [List.cons_append, seen_cons h1, seen_cons h1, ih h2, List.append_assoc]

theorem run_append (y : Sys C G ν) (as bs : List (Act ν)) : run farm w fsub x y (as ++ bs) = (run farm w fsub x y as).bind (fun y' => run farm w fsub x y' bs) := by
  induction as generalizing y with
  | nil => rfl
  | cons a as ih =>
    simp only [List.cons_append, run]
    cases step farm w fsub x y a with
    | none => rfl
    | some t => exact ih t

/-- Orderliness of what comes after. -/
theorem Orderly.tail {y t : Sys C G ν} {a : Act ν} {as : List (Act ν)} (h : Orderly farm w fsub x y (a :: as)) (h1 : step farm w fsub x y a = some t) : Orderly farm w fsub x t as := by
  intro before i b order after y' e hr hret
  refine h (a :: before) i b order after y' (by rw [e]; rfl) ?_ hret
  simp only [run, h1, Option.bind_some]
  exact hr

theorem delivery_cons {s s' : Delivery.Sys C G ν} {i : Nat} {a : Delivery.Act ν} {as : List (Delivery.Act ν)} (h1 : Delivery.step farm w fsub x i s a = some s')
    (ha : ∀ b o, a = .reader b o → Delivery.returns s.r b = true → ¬ Async.InFlight s.z.s.async) (h : Delivery.Orderly farm w fsub x i s' as) :
    Delivery.Orderly farm w fsub x i s (a :: as) := by
  intro before b order after y e hr hret
  cases before with
  | nil =>
    cases hr
    injection e with e1 e2
    exact ha b order e1 hret
  | cons c before =>
    injection e with e1 e2
    subst e1
    simp only [Delivery.run, h1, Option.bind_some] at hr
    exact h before b order after y e2 hr hret

theorem seen_orderly {y y' : Sys C G ν} {acts : List (Act ν)} (h : run farm w fsub x y acts = some y') (ho : Orderly farm w fsub x y acts) (i : Nat) :
    Delivery.Orderly farm w fsub x i (view y i) (seen farm w fsub x i y acts) := by
  induction acts generalizing y with
  | nil =>
    intro before b order after s e
    cases before <;> cases e
  | cons a as ih =>
    simp only [run, Option.bind_eq_some_iff] at h
    obtain ⟨t, h1, h2⟩ := h
    have h3 := ih h2 (ho.tail h1)
    have h4 := step_view h1 i
    rw [seen_cons h1]
    cases hb : seenBy i y a with
    | none =>
      rw [hb] at h4
      injection h4 with h4
      rw [h4]
      exact h3
    | some b =>
      rw [hb] at h4
      simp only [Option.toList_some, Delivery.run, Option.bind_eq_some_iff] at h4
      obtain ⟨s, h5, h6⟩ := h4
      cases h6
      refine delivery_cons h5 ?_ h3
      rintro c o rfl hret
      cases a with
      | reader j b' o' =>
        simp only [seenBy] at hb
        split at hb
        · rename_i hj
          subst hj
          cases hb
          exact ho [] j c o as y rfl rfl hret
        · cases hb
      | go u =>
        simp only [seenBy] at hb
        split at hb
        · split at hb
          · injection hb with hb
            injection hb with hb hb'
            subst hb
            rename_i kind _ _ _
            cases kind <;> cases hret
          · cases hb
        · cases hb
      | make c => cases hb
      | call o as n => cases hb
      | op o => cases hb
      | task t c => cases hb
      | cb j b' => simp only [seenBy] at hb; split at hb <;> cases hb
      | produce j now =>
        simp only [seenBy] at hb
        split at hb
        · cases hb
        · cases hf : foreignOf j (view y j) <;> rw [hf] at hb <;> cases hb
      | flush => cases hb
      | shutdown => cases hb

omit [DecidableEq C] in
theorem view_initial (fill : Provider.Provider C ν) (views : List (Views.Views C)) (start : Int) (i : Nat) :
    view (initial farm w fsub fill views start) i = Delivery.initial farm w fsub fill views i start := rfl

/-- To each reader the program is one with this reader. -/
theorem Running.of {views : List (Views.Views C)} {start : Int} {acts : List (Act ν)} {y : Sys C G ν} (h : Running farm w fsub x views start acts y) (i : Nat) :
    Delivery.Running farm w fsub x views i start (seen farm w fsub x i (initial farm w fsub y.p views start) acts) (view y i) where
  resource := h.resource
  typed := by rw [seen_measured h.runs]; exact h.typed
  observed cb o as v hm := h.observed i cb o as v (seen_cb h.runs hm)
  orderly := seen_orderly h.runs h.orderly i
  runs := run_view h.runs i

/-- The readers' goroutines stay, and those which have returned remain so. -/
structure Grown (r r' : Periodic.State) : Prop where
  length : r.threads.length ≤ r'.threads.length
  done : ∀ (u : Nat) (k : Periodic.Kind), r.threads[u]? = some ⟨k, .done⟩ → r'.threads[u]? = some ⟨k, .done⟩
  kind : ∀ (u : Nat) (k : Periodic.Kind) (p : Periodic.Pos), r.threads[u]? = some ⟨k, p⟩ → ∃ p', r'.threads[u]? = some ⟨k, p'⟩

theorem Grown.refl (r : Periodic.State) : Grown r r := ⟨Nat.le_refl _, fun _ _ h => h, fun _ _ p h => ⟨p, h⟩⟩

theorem Grown.trans {r1 r2 r3 : Periodic.State} (h : Grown r1 r2) (h' : Grown r2 r3) : Grown r1 r3 :=
  ⟨Nat.le_trans h.length h'.length, fun u k hu => h'.done u k (h.done u k hu), fun u k p hu => by obtain ⟨p', h1⟩ := h.kind u k p hu; exact h'.kind u k p' h1⟩

theorem grown_step (r : Periodic.State) (a : Periodic.Act) : Grown r (Periodic.step r a) := by
  refine ⟨Periodic.threads_step r a, fun u k hu => ?_, fun u k p hu => ?_⟩ <;> by_cases hb : ∀ q, a ≠ .go u q
  · exact Periodic.thread_other hu hb
  · have : ∃ q, a = .go u q := Classical.byContradiction (fun h => hb (fun q hq => h ⟨q, hq⟩))
    obtain ⟨q, rfl⟩ := this
    simp only [Periodic.step, hu, Periodic.advance]
  · exact ⟨p, Periodic.thread_other hu hb⟩
  · have : ∃ q, a = .go u q := Classical.byContradiction (fun h => hb (fun q hq => h ⟨q, hq⟩))
    obtain ⟨q, rfl⟩ := this
    by_cases hne : Periodic.step r (.go u q) = r
    · exact ⟨p, by rw [hne]; exact hu⟩
    · obtain ⟨p', h1, -⟩ := Periodic.thread_own hu q hne
      exact ⟨p', h1⟩

theorem delivery_grown {s s' : Delivery.Sys C G ν} {i : Nat} {a : Delivery.Act ν} (h : Delivery.step farm w fsub x i s a = some s') : Grown s.r s'.r := by
  have h1 := Delivery.step_reader h
  rw [h1]
  cases a <;> first | exact Grown.refl _ | exact grown_step _ _

theorem delivery_grown_run {s s' : Delivery.Sys C G ν} {i : Nat} {acts : List (Delivery.Act ν)} (h : Delivery.run farm w fsub x i s acts = some s') : Grown s.r s'.r := by
  induction acts generalizing s with
  | nil => cases h; exact Grown.refl _
  | cons a as ih =>
    simp only [Delivery.run, Option.bind_eq_some_iff] at h
    obtain ⟨t, h1, h2⟩ := h
    exact (delivery_grown h1).trans (ih h2)

theorem step_grown {y y' : Sys C G ν} {a : Act ν} (h : step farm w fsub x y a = some y') (i : Nat) : Grown (y.readers i).r (y'.readers i).r :=
  delivery_grown_run (step_view h i)

theorem run_grown {y y' : Sys C G ν} {acts : List (Act ν)} (h : run farm w fsub x y acts = some y') (i : Nat) : Grown (y.readers i).r (y'.readers i).r :=
  delivery_grown_run (run_view h i)

theorem _root_.Verif.Provider.step_views (p : Provider.Provider C ν) (c : Provider.Call ν) : (Provider.step x p c).1.views = p.views := by
  cases c with
  | meter sc =>
    simp only [Provider.step, Provider.meter]
    split
    · rfl
    · split <;> rfl
  | instrument k d => simp only [Provider.step]; split <;> rfl
  | record k o v => simp only [Provider.step]; split <;> rfl
  | shutdown => rfl

theorem _root_.Verif.Provider.step_down {p : Provider.Provider C ν} (c : Provider.Call ν) (h : p.map = none) : (Provider.step x p c).1.map = none := by
  cases c with
  | meter sc => simp only [Provider.step, Provider.meter, h]
  | instrument k d => simp only [Provider.step]; split <;> exact h
  | record k o v => simp only [Provider.step]; split <;> exact h
  | shutdown => rfl

theorem _root_.Verif.Provider.run_views (p : Provider.Provider C ν) (cs : List (Provider.Call ν)) : (Provider.run x p cs).views = p.views := by
  induction cs generalizing p with
  | nil => rfl
  | cons c cs ih => rw [Provider.run_cons, ih, Provider.step_views]

theorem _root_.Verif.Provider.run_down {p : Provider.Provider C ν} (cs : List (Provider.Call ν)) (h : p.map = none) : (Provider.run x p cs).map = none := by
  induction cs generalizing p with
  | nil => exact h
  | cons c cs ih => rw [Provider.run_cons]; exact ih (Provider.step_down c h)

theorem run_prov {y y' : Sys C G ν} {acts : List (Act ν)} (h : run farm w fsub x y acts = some y') : y'.p = Provider.run x y.p (makes acts) := by
  have h1 := Delivery.prov_run (run_view h 0)
  rw [seen_makes h] at h1
  exact h1

theorem step_run {y y' : Sys C G ν} {a : Act ν} (h : step farm w fsub x y a = some y') : run farm w fsub x y [a] = some y' := by
  simp only [run, h, Option.bind_some]

theorem run_views {y y' : Sys C G ν} {acts : List (Act ν)} (h : run farm w fsub x y acts = some y') : y'.p.views = y.p.views := by
  rw [run_prov h, Provider.run_views]

theorem step_views {y y' : Sys C G ν} {a : Act ν} (h : step farm w fsub x y a = some y') : y'.p.views = y.p.views := run_views (step_run h)

/-! ### The calls on the provider -/

/-- A call of this kind, made on reader `i` after `y0`, has returned. -/
def Served (y0 : Sys C G ν) (P : Periodic.Kind → Prop) (y : Sys C G ν) (i : Nat) : Prop :=
  ∃ (u : Nat) (k : Periodic.Kind), P k ∧ (y0.readers i).r.threads.length ≤ u ∧ (y.readers i).r.threads[u]? = some ⟨k, .done⟩

/-- How far a call on the provider, of this kind and after `y0`, has come. -/
def Ok (y0 : Sys C G ν) (P : Periodic.Kind → Prop) (y : Sys C G ν) : Option Pc → Prop
  | none => P .flush ∧ P .shutdown
  | some (.loop k r wait) => P k ∧ (k ≠ .tick ∧ (k = .shutdown → y.p.map = none)) ∧ (∀ i, i < r → Served y0 P y i) ∧
      ∀ u, wait = some u → (y0.readers r).r.threads.length ≤ u ∧ ∃ p, (y.readers r).r.threads[u]? = some ⟨k, p⟩
  | some (.done false) => ∀ i, i < y.p.views.length → Served y0 P y i
  | some (.done true) => True

omit [DecidableEq C] in
theorem Ok.next {y0 y y' : Sys C G ν} {P : Periodic.Kind → Prop} {o : Option Pc} (hg : ∀ i, Grown (y.readers i).r (y'.readers i).r) (hv : y'.p.views = y.p.views)
    (hd : y.p.map = none → y'.p.map = none) (h : Ok y0 P y o) : Ok y0 P y' o := by
  have hs : ∀ i, Served y0 P y i → Served y0 P y' i := fun i ⟨u, k, h1, h2, h3⟩ => ⟨u, k, h1, h2, (hg i).done u k h3⟩
  cases o with
  | none => exact h
  | some pc =>
    cases pc with
    | loop k r wait =>
      obtain ⟨h1, h1', h2, h3⟩ := h
      refine ⟨h1, ⟨h1'.1, fun e => hd (h1'.2 e)⟩, fun i hi => hs i (h2 i hi), fun u hu => ?_⟩
      obtain ⟨h4, p, h5⟩ := h3 u hu
      exact ⟨h4, (hg r).kind u k p h5⟩
    | done b =>
      cases b with
      | true => trivial
      | false =>
        intro i hi
        rw [hv] at hi
        exact hs i (h i hi)

theorem at_calls {y y' : Sys C G ν} {i : Nat} {a : Delivery.Act ν} (h : at' farm w fsub x y i a = some y') : y'.calls = y.calls := by
  unfold at' at h
  split at h
  · simp only [Option.map_eq_some_iff] at h
    obtain ⟨s, -, rfl⟩ := h
    rfl
  · cases h

theorem shared_calls {y y' : Sys C G ν} {a : Delivery.Act ν} (h : shared farm w fsub x y a = some y') : y'.calls = y.calls := by
  unfold shared at h
  simp only [Option.map_eq_some_iff] at h
  obtain ⟨s, -, rfl⟩ := h
  rfl

omit [DecidableEq C] in
theorem append_ok {y0 y : Sys C G ν} {P : Periodic.Kind → Prop} {t : Nat} {l : List Pc} {pc : Pc} (h : Ok y0 P y l[t]?) (hpc : t = l.length → Ok y0 P y none → Ok y0 P y (some pc)) :
    Ok y0 P y (l ++ [pc])[t]? := by
  rcases Nat.lt_trichotomy t l.length with hl | hl | hl
  · rw [List.getElem?_append_left hl]; exact h
  · subst hl
    rw [List.getElem?_eq_none (Nat.le_refl _)] at h
    rw [List.getElem?_append_right (Nat.le_refl _), Nat.sub_self]
    exact hpc rfl h
  · rw [List.getElem?_eq_none (by simp; omega)]
    rw [List.getElem?_eq_none (by omega)] at h
    exact h

theorem advance_calls {y y' : Sys C G ν} {t : Nat} {pc : Pc} (h : advance farm w fsub x y t pc = some y') : ∃ pc', y'.calls = y.calls.set t pc' := by
  cases pc with
  | done b => cases h
  | loop kind r wait =>
    cases wait with
    | none =>
      simp only [advance] at h
      split at h
      · simp only [Option.map_eq_some_iff] at h
        obtain ⟨y1, -, rfl⟩ := h
        exact ⟨_, rfl⟩
      · cases h; exact ⟨_, rfl⟩
    | some u =>
      simp only [advance] at h
      split at h
      · cases h
      · split at h
        · cases h; exact ⟨_, rfl⟩
        · cases h

theorem step_ok {y0 y y' : Sys C G ν} {P : Periodic.Kind → Prop} {a : Act ν} {t : Nat} (h : step farm w fsub x y a = some y')
    (h0 : ∀ i, (y0.readers i).r.threads.length ≤ (y.readers i).r.threads.length) (hok : Ok y0 P y y.calls[t]?) : Ok y0 P y' y'.calls[t]? := by
  have hg := step_grown h
  have hv := step_views h
  have hd : y.p.map = none → y'.p.map = none := fun e => by rw [run_prov (step_run h)]; exact Provider.run_down _ e
  have same : y'.calls = y.calls → Ok y0 P y' y'.calls[t]? := fun hc => by rw [hc]; exact hok.next hg hv hd
  cases a with
  | make c => exact same (shared_calls h)
  | call o as n => exact same (shared_calls h)
  | op o => exact same (shared_calls h)
  | task t c => exact same (shared_calls h)
  | cb j b => exact same (at_calls h)
  | reader j b o => exact same (at_calls h)
  | produce j now => exact same (at_calls h)
  | flush =>
    cases h
    exact append_ok (hok.next hg hv hd) (fun _ hn => ⟨hn.1, ⟨by simp, fun e => by cases e⟩, fun i hi => absurd hi (Nat.not_lt_zero i), fun u hu => by cases hu⟩)
  | shutdown =>
    simp only [step, Option.map_eq_some_iff] at h
    obtain ⟨y1, h1, rfl⟩ := h
    have hdown : y1.p.map = none := by
      unfold shared at h1
      simp only [Delivery.step, Live.step, Option.map_some, Option.some.injEq] at h1
      subst h1
      rfl
    refine append_ok (hok.next hg hv hd) (fun _ hn => ?_)
    split
    · exact ⟨hn.2, ⟨by simp, fun _ => hdown⟩, fun i hi => absurd hi (Nat.not_lt_zero i), fun u hu => by cases hu⟩
    · trivial
  | go u =>
    simp only [step] at h
    cases hc : y.calls[u]? with
    | none => rw [hc] at h; cases h
    | some pc =>
      rw [hc] at h
      dsimp only at h
      by_cases hut : u = t
      · subst hut
        have hlt := (List.getElem?_eq_some_iff.1 hc).1
        have hset : ∀ pc', (y.calls.set u pc')[u]? = some pc' := fun pc' => by rw [List.getElem?_set, if_pos rfl, if_pos hlt]
        rw [hc] at hok
        cases pc with
        | done b => cases h
        | loop kind r wait =>
          obtain ⟨hP, hk, hr, hw⟩ := hok.next hg hv hd
          cases wait with
          | none =>
            simp only [advance] at h
            split at h
            · rename_i hlt'
              simp only [Option.map_eq_some_iff] at h
              obtain ⟨y1, h1, rfl⟩ := h
              show Ok y0 P _ (y.calls.set u _)[u]?
              rw [hset]
              refine ⟨hP, hk, hr, fun v hv' => ?_⟩
              cases hv'
              refine ⟨h0 r, ?_⟩
              simp only [at', if_pos hlt', Option.map_eq_some_iff] at h1
              obtain ⟨s, h2, rfl⟩ := h1
              have h3 := Delivery.step_reader h2
              show ∃ p, ((put y r s).readers r).r.threads[_]? = _
              have h4 : ((put y r s).readers r).r = s.r := by simp [put, one]
              rw [h4, h3]
              have h5 : (view y r).r = (y.readers r).r := rfl
              rw [h5]
              cases kind with
              | tick => exact absurd rfl hk.1
              | flush => exact ⟨.wait, by simp [request, Delivery.readerActs, Periodic.run, Periodic.step]⟩
              | shutdown => exact ⟨.start, by simp [request, Delivery.readerActs, Periodic.run, Periodic.step]⟩
            · rename_i hlt'
              cases h
              show Ok y0 P _ (y.calls.set u _)[u]?
              rw [hset]
              intro i hi
              exact hr i (Nat.lt_of_lt_of_le hi (Nat.le_of_not_lt hlt'))
          | some v =>
            simp only [advance] at h
            split at h
            · cases h
            · rename_i th hth
              split at h
              · rename_i hd
                cases h
                show Ok y0 P _ (y.calls.set u _)[u]?
                rw [hset]
                refine ⟨hP, hk, fun i hi => ?_, fun v hv' => by cases hv'⟩
                by_cases hir : i = r
                · subst hir
                  obtain ⟨h1, p, h2⟩ := hw v rfl
                  have h2' : (y.readers i).r.threads[v]? = some ⟨kind, p⟩ := h2
                  rw [hth] at h2'
                  cases h2'
                  cases hd
                  exact ⟨v, kind, hP, h1, hth⟩
                · exact hr i (by omega)
              · cases h
      · obtain ⟨pc', h1⟩ := advance_calls h
        have hne : y'.calls[t]? = y.calls[t]? := by rw [h1, List.getElem?_set, if_neg hut]
        rw [hne]
        exact hok.next hg hv hd

theorem run_ok {y0 y y' : Sys C G ν} {P : Periodic.Kind → Prop} {acts : List (Act ν)} {t : Nat} (h : run farm w fsub x y acts = some y')
    (h0 : ∀ i, (y0.readers i).r.threads.length ≤ (y.readers i).r.threads.length) (hok : Ok y0 P y y.calls[t]?) : Ok y0 P y' y'.calls[t]? := by
  induction acts generalizing y with
  | nil => cases h; exact hok
  | cons a as ih =>
    simp only [run, Option.bind_eq_some_iff] at h
    obtain ⟨u, h1, h2⟩ := h
    exact ih h2 (fun i => Nat.le_trans (h0 i) (step_grown h1 i).length) (step_ok h1 h0 hok)

/-- When `ForceFlush` or `Shutdown` of the provider has returned, the same call on each of the readers has been made since and has returned. -/
theorem served {y y' : Sys C G ν} {acts : List (Act ν)} {t : Nat} {kind : Periodic.Kind} (h : run farm w fsub x y acts = some y') (hk : kind ≠ .tick ∧ (kind = .shutdown → y.p.map = none))
    (h1 : y.calls[t]? = some (Pc.loop kind 0 none)) (h2 : y'.calls[t]? = some (Pc.done false)) {i : Nat} (hi : i < y.p.views.length) : Served y (fun k => k = kind) y' i := by
  have h3 := run_ok (P := fun k => k = kind) (y0 := y) (t := t) h (fun i => Nat.le_refl _)
    (by rw [h1]; exact ⟨rfl, hk, fun i hi => absurd hi (Nat.not_lt_zero i), fun u hu => by cases hu⟩)
  rw [h2] at h3
  exact h3 i (by rw [run_views h]; exact hi)

/-- Calls on the provider are of `ForceFlush` or `Shutdown`, and this has shut it down. -/
theorem no_tick {y y' : Sys C G ν} {acts : List (Act ν)} (h : run farm w fsub x y acts = some y') (h0 : y.calls = []) {t : Nat} {kind : Periodic.Kind} {r : Nat} {wait : Option Nat}
    (ht : y'.calls[t]? = some (Pc.loop kind r wait)) : kind ≠ .tick ∧ (kind = .shutdown → y'.p.map = none) := by
  have h3 := run_ok (P := fun _ => True) (y0 := y) (t := t) h (fun i => Nat.le_refl _) (by rw [h0]; exact ⟨trivial, trivial⟩)
  rw [ht] at h3
  exact h3.2.1

/-- What comes before is such a program too. -/
theorem Running.before {views : List (Views.Views C)} {start : Int} {acts after : List (Act ν)} {y y' : Sys C G ν} (h : Running farm w fsub x views start (acts ++ after) y')
    (hb : run farm w fsub x (initial farm w fsub y'.p views start) acts = some y) : run farm w fsub x y after = some y' := by
  have h1 := h.runs
  rw [run_append, hb, Option.bind_some] at h1
  exact h1

/-- To each reader, the program closes with a call of this reader. -/
theorem Closing.seen {views : List (Views.Views C)} {start : Int} {acts after : List (Act ν)} {y y' : Sys C G ν} (h : Closing farm w fsub x views start acts after y y') {i : Nat}
    (hi : i < views.length) :
    ∃ dafter, Delivery.Closing farm w fsub x views i start (Multi.seen farm w fsub x i (initial farm w fsub y'.p views start) acts) dafter (view y i) (view y' i) := by
  have h1 := h.running.before h.before
  have h2 := seen_append (bs := after) h.before i
  have h3 := h.running.of i
  rw [h2] at h3
  refine ⟨_, h3, ?_, ?_, h.returned, ?_, ?_⟩
  · rw [seen_measured h.before]; exact h.few
  · exact run_view h.before i
  · rw [seen_makes h1, seen_measured h1]; exact h.quiet
  · obtain ⟨t, h4, h5⟩ := h.call
    have hv : y.p.views.length = views.length := by rw [run_views h.before]; rfl
    have h6 := run_ok (P := fun _ => True) (y0 := y) (t := t) h1 (fun i => Nat.le_refl _) (by
      rcases h4 with h4 | ⟨kind, h4⟩
      · rw [h4]; exact ⟨trivial, trivial⟩
      · rw [h4]; exact ⟨trivial, no_tick h.before rfl h4, fun i hi => absurd hi (Nat.not_lt_zero i), fun u hu => by cases hu⟩)
    rw [h5] at h6
    obtain ⟨u, k, -, h7, h8⟩ := h6 i (by rw [run_views h1, hv]; exact hi)
    exact ⟨u, k, h7, h8⟩

theorem Closing.of {views : List (Views.Views C)} {start : Int} {acts after : List (Act ν)} {y y' : Sys C G ν} (h : Closing farm w fsub x views start acts after y y') {i : Nat}
    (hi : i < views.length) :
    ∃ dacts dafter, Delivery.Closing farm w fsub x views i start dacts dafter (view y i) (view y' i) ∧ Delivery.makes dacts = makes acts ∧ Delivery.measured dacts = measured acts := by
  obtain ⟨dafter, h1⟩ := h.seen hi
  exact ⟨_, dafter, h1, seen_makes h.before i, seen_measured h.before i⟩

/-! ### Calls on synchronous instruments -/

/-- Where a reader's program has a call, the program has it. -/
theorem seen_call {i : Nat} {y : Sys C G ν} {acts : List (Act ν)} {b c : List (Delivery.Act ν)} {o : Front.Inst} {kvs : List KV} {n : Bits} {s : Delivery.Sys C G ν}
    (h : seen farm w fsub x i y acts = b ++ .call o kvs n :: c) (hb : Delivery.run farm w fsub x i (view y i) b = some s) :
    ∃ before after t, acts = before ++ .call o kvs n :: after ∧ run farm w fsub x y before = some t ∧ view t i = s := by
  induction acts generalizing y b with
  | nil => rw [seen] at h; simp at h
  | cons a acts ih =>
    rw [seen] at h
    cases hl : seenBy i y a with
    | none =>
      rw [hl, Option.toList_none, List.nil_append] at h
      split at h
      · simp at h
      · rename_i t ht
        have hz := step_view ht i
        rw [hl] at hz
        have hz : view y i = view t i := Option.some.inj hz
        obtain ⟨before, after, v, h1, h2, h4⟩ := ih h (by rw [← hz]; exact hb)
        exact ⟨a :: before, after, v, by rw [h1]; rfl, by rw [run, ht]; exact h2, h4⟩
    | some la =>
      rw [hl, Option.toList_some, List.singleton_append] at h
      cases b with
      | nil =>
        obtain ⟨rfl, -⟩ := List.cons.inj h
        have hb : view y i = s := Option.some.inj hb
        refine ⟨[], acts, y, ?_, rfl, hb⟩
        cases a with
        | call i' kvs' n' =>
          simp only [seenBy, Option.some.injEq, Delivery.Act.call.injEq] at hl
          obtain ⟨rfl, rfl, rfl⟩ := hl
          rfl
        | make c => cases hl
        | op c => cases hl
        | task t c => cases hl
        | cb j c => simp only [seenBy] at hl; split at hl <;> cases hl
        | produce j now =>
          simp only [seenBy] at hl
          split at hl
          · cases hl
          · cases hf : foreignOf j (view y j) <;> rw [hf] at hl <;> cases hl
        | reader j c o => simp only [seenBy] at hl; split at hl <;> cases hl
        | flush => cases hl
        | shutdown => cases hl
        | go t =>
          simp only [seenBy] at hl
          split at hl
          · split at hl <;> cases hl
          · cases hl
      | cons b0 b =>
        obtain ⟨rfl, h'⟩ := List.cons.inj h
        clear h
        split at h'
        · simp at h'
        · rename_i t ht
          have hz := step_view ht i
          rw [hl] at hz
          have hz : Delivery.run farm w fsub x i (view y i) [la] = some (view t i) := hz
          have hb' : Delivery.run farm w fsub x i (view y i) ([la] ++ b) = some s := hb
          rw [Delivery.run_append, hz, Option.bind_some] at hb'
          obtain ⟨before, after, v, h1, h2, h4⟩ := ih h' hb'
          exact ⟨a :: before, after, v, by rw [h1]; rfl, by rw [run, ht]; exact h2, h4⟩

/-- Calls which do not overlap do not overlap to a reader. -/
theorem OneByOne.live {views : List (Views.Views C)} {start : Int} {p : Provider.Provider C ν} {k i : Nat} {v : Views.Views C} {sc : Views.Scope} {n : Str} {acts : List (Act ν)}
    {lacts : List (Live.Act ν)} {ls : List Whole.Act} (h : OneByOne farm w fsub x views start p k v sc n acts)
    (h1 : lacts = Delivery.lives farm w fsub x i (Delivery.initial farm w fsub p views i start) (seen farm w fsub x i (initial farm w fsub p views start) acts) ++ ls.map .run)
    (h2 : Whole.calls ls = []) : Live.OneByOne farm w fsub x views p i k v sc n lacts := by
  intro before o kvs b af y e1 e2 hc j hj ho
  have hno : Live.Act.run (.call o kvs b) ∉ ls.map (Live.Act.run : Whole.Act → Live.Act ν) := by
    intro hmem
    obtain ⟨a, ha, h3⟩ := List.mem_map.1 hmem
    cases h3
    have : (o, kvs, b) ∈ Whole.calls ls := List.mem_filterMap.2 ⟨_, ha, rfl⟩
    rw [h2] at this
    cases this
  rw [h1] at e1
  rcases List.append_eq_append_iff.1 e1 with ⟨l, g1, g2⟩ | ⟨l, g1, g2⟩
  · exact absurd (by rw [g2]; simp) hno
  · cases l with
    | nil =>
      rw [List.nil_append] at g2
      exact absurd (by rw [← g2]; simp) hno
    | cons a l =>
      obtain ⟨rfl, -⟩ := List.cons.inj g2
      obtain ⟨before', af', y', g3, g4, rfl⟩ := Delivery.lives_call g1 e2
      obtain ⟨before2, af2, t, g5, g6, rfl⟩ := seen_call g3 g4
      exact h before2 o kvs b af2 t g5 g6 hc j hj ho

/-! ### After `Shutdown` -/

/-- No call on the provider is running, and a further one of `Shutdown` does nothing. -/
structure Over (y : Sys C G ν) : Prop where
  down : y.p.map = none
  calls : ∀ pc ∈ y.calls, ∃ b, pc = Pc.done b

theorem Over.step {y y' : Sys C G ν} {a : Act ν} (h : Over y) (hs : step farm w fsub x y a = some y') (ha : a ≠ .flush) :
    Over y' ∧ ∀ i b, b ∈ Delivery.readerActs (seenBy i y a).toList → ∃ o, a = .reader i b o := by
  have hd : y'.p.map = none := by rw [run_prov (step_run hs)]; exact Provider.run_down _ h.down
  have same : y'.calls = y.calls → Over y' := fun hc => ⟨hd, by rw [hc]; exact h.calls⟩
  cases a with
  | make c => exact ⟨same (shared_calls hs), fun i b hb => by cases hb⟩
  | call o as n => exact ⟨same (shared_calls hs), fun i b hb => by cases hb⟩
  | op o => exact ⟨same (shared_calls hs), fun i b hb => by cases hb⟩
  | task t c => exact ⟨same (shared_calls hs), fun i b hb => by cases hb⟩
  | cb j c => exact ⟨same (at_calls hs), fun i b hb => by simp only [seenBy] at hb; split at hb <;> cases hb⟩
  | reader j c o =>
    refine ⟨same (at_calls hs), fun i b hb => ?_⟩
    simp only [seenBy] at hb
    split at hb
    · rename_i hj
      subst hj
      simp [Delivery.readerActs] at hb
      exact ⟨o, by rw [hb]⟩
    · cases hb
  | produce j now =>
    refine ⟨same (at_calls hs), fun i b hb => ?_⟩
    simp only [seenBy] at hb
    split at hb
    · cases hb
    · cases hf : foreignOf j (view y j) <;> rw [hf] at hb <;> cases hb
  | flush => exact absurd rfl ha
  | shutdown =>
    refine ⟨⟨hd, ?_⟩, fun i b hb => by cases hb⟩
    simp only [Multi.step, Option.map_eq_some_iff] at hs
    obtain ⟨y1, h1, rfl⟩ := hs
    intro pc hpc
    rcases List.mem_append.1 hpc with hpc | hpc
    · exact h.calls pc hpc
    · rw [h.down] at hpc
      simp at hpc
      exact ⟨true, hpc⟩
  | go t =>
    simp only [Multi.step] at hs
    cases hc : y.calls[t]? with
    | none => rw [hc] at hs; cases hs
    | some pc =>
      rw [hc] at hs
      obtain ⟨b, rfl⟩ := h.calls pc (List.mem_of_getElem? hc)
      cases hs

theorem Over.requests {y y' : Sys C G ν} {acts : List (Act ν)} (h : Over y) (hs : run farm w fsub x y acts = some y') (ha : ∀ a ∈ acts, a ≠ .flush) {i : Nat} {b : Periodic.Act}
    (hb : b ∈ Delivery.readerActs (seen farm w fsub x i y acts)) : ∃ o, .reader i b o ∈ acts := by
  induction acts generalizing y with
  | nil => cases hb
  | cons a as ih =>
    simp only [run, Option.bind_eq_some_iff] at hs
    obtain ⟨t, h1, h2⟩ := hs
    obtain ⟨h3, h4⟩ := h.step h1 (ha a List.mem_cons_self)
    rw [seen_cons h1] at hb
    simp only [Delivery.readerActs, List.filterMap_append] at hb
    rcases List.mem_append.1 hb with hb | hb
    · obtain ⟨o, rfl⟩ := h4 i b hb
      exact ⟨o, List.mem_cons_self⟩
    · obtain ⟨o, h5⟩ := ih h3 h2 (fun a ha' => ha a (List.mem_cons_of_mem _ ha')) hb
      exact ⟨o, List.mem_cons_of_mem _ h5⟩

end Verif.Multi
