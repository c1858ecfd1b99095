import Verif.Spec.Reuse

namespace Verif.Reuse
open Verif.Times (Seq Collector pointTimes)
open Verif.Views (Tempo)
variable {H K D : Type}

/-! ### States -/

theorem copy_same {L : Lib H} {size : H → Nat} (hL : L.Sound size) {c : Nat} {a b : Stor H} (ht : b.ty = a.ty) (ha : Sized size c a) (hb : Sized size c b) :
    copy L a b = a := by
  cases a <;> cases b <;> simp_all [Stor.ty, copy]
  exact hL.copyInto _ _ ((ha _ _ rfl).trans (hb _ _ rfl).symm)

theorem move_same {L : Lib H} {size : H → Nat} (hL : L.Sound size) {c : Nat} {a b : Stor H} (ht : b.ty = a.ty) (ha : Sized size c a) (hb : Sized size c b) :
    move L a b = (emptied L c a, a) := by
  cases a <;> cases b <;> simp_all [Stor.ty, move, emptied]
  have e1 := ha _ _ rfl
  have e2 := hb _ _ rfl
  rw [hL.clear, e2, hL.swap _ _ (e1.trans (hL.init c).symm)]
  exact ⟨rfl, rfl⟩

theorem fresh_ty (L : Lib H) (c : Nat) (t : Ty) : (fresh L c t).ty = t := by cases t <;> rfl

theorem fresh_sized {L : Lib H} {size : H → Nat} (hL : L.Sound size) (c : Nat) (t : Ty) : Sized size c (fresh L c t) := by
  intro f h e
  cases t <;> simp only [fresh, reduceCtorEq, Stor.hist.injEq] at e
  rw [← e.2, hL.init]

theorem emptied_ty (L : Lib H) (c : Nat) (s : Stor H) : (emptied L c s).ty = s.ty := by cases s <;> rfl

theorem emptied_sized {L : Lib H} {size : H → Nat} (hL : L.Sound size) (c : Nat) (s : Stor H) : Sized size c (emptied L c s) := by
  intro f h e
  cases s <;> simp only [emptied, reduceCtorEq, Stor.hist.injEq] at e
  rw [← e.2, hL.init]

theorem subtract_ty (L : Lib H) (a b : Stor H) : (subtract L a b).ty = a.ty := by cases a <;> cases b <;> rfl

theorem subtract_sized {L : Lib H} {size : H → Nat} {c : Nat} {a b : Stor H} (h : Sized size c a) : Sized size c (subtract L a b) := by
  intro f g e
  cases a <;> cases b <;> simp only [subtract, reduceCtorEq] at e
  all_goals exact h f g e

/-! ### Memory changes -/

/-- The part `B` of the memory was used, and became `B'`; nothing else was touched. -/
def Upd (h h' : Heap H) (B B' : List Nat) : Prop :=
  h.next ≤ h'.next ∧ B'.Nodup ∧ (∀ b ∈ B', (b ∈ B ∨ h.next ≤ b) ∧ b < h'.next) ∧ ∀ a, a < h.next → a ∉ B → h'.cell a = h.cell a

theorem Upd.refl {h : Heap H} {B : List Nat} (o : Own h B) : Upd h h B B := ⟨Nat.le_refl _, o.1, fun b hb => ⟨Or.inl hb, o.2 b hb⟩, fun _ _ _ => rfl⟩

theorem Upd.own {h h' : Heap H} {B B' : List Nat} (u : Upd h h' B B') : Own h' B' := ⟨u.2.1, fun a ha => (u.2.2.1 a ha).2⟩

theorem Upd.trans {h h1 h2 : Heap H} {B B1 B2 : List Nat} (u : Upd h h1 B B1) (w : Upd h1 h2 B1 B2) : Upd h h2 B B2 := by
  refine ⟨Nat.le_trans u.1 w.1, w.2.1, fun b hb => ?_, fun a ha hB => ?_⟩
  · obtain ⟨h1', h2'⟩ := w.2.2.1 b hb
    refine ⟨?_, h2'⟩
    rcases h1' with h | h
    · exact (u.2.2.1 b h).1
    · exact Or.inr (Nat.le_trans u.1 h)
  · rw [w.2.2.2 a (Nat.lt_of_lt_of_le ha u.1), u.2.2.2 a ha hB]
    intro hb
    rcases (u.2.2.1 a hb).1 with h | h
    · exact hB h
    · omega

theorem nodup_app {A B : List Nat} : (A ++ B).Nodup ↔ A.Nodup ∧ B.Nodup ∧ ∀ a ∈ A, a ∉ B := by
  rw [List.nodup_append]
  refine ⟨fun ⟨a, b, c⟩ => ⟨a, b, fun x hx hb => c x hx x hb rfl⟩, fun ⟨a, b, c⟩ => ⟨a, b, fun x hx y hy e => c x hx (e ▸ hy)⟩⟩

theorem Upd.left {h h' : Heap H} {A B B' : List Nat} (u : Upd h h' B B') (o : Own h (A ++ B)) : Upd h h' (A ++ B) (A ++ B') := by
  obtain ⟨o1, o2⟩ := o
  obtain ⟨n1, n2, n3⟩ := nodup_app.1 o1
  refine ⟨u.1, nodup_app.2 ⟨n1, u.2.1, fun a ha hb => ?_⟩, fun b hb => ?_, fun a ha hB => u.2.2.2 a ha (fun hb => hB (List.mem_append_right _ hb))⟩
  · rcases (u.2.2.1 a hb).1 with h | h
    · exact n3 a ha h
    · have := o2 a (List.mem_append_left _ ha); omega
  · rcases List.mem_append.1 hb with hb | hb
    · exact ⟨Or.inl (List.mem_append_left _ hb), Nat.lt_of_lt_of_le (o2 b (List.mem_append_left _ hb)) u.1⟩
    · obtain ⟨h1, h2⟩ := u.2.2.1 b hb
      exact ⟨h1.imp (List.mem_append_right _) id, h2⟩

theorem Upd.right {h h' : Heap H} {B B' C : List Nat} (u : Upd h h' B B') (o : Own h (B ++ C)) : Upd h h' (B ++ C) (B' ++ C) := by
  obtain ⟨o1, o2⟩ := o
  obtain ⟨n1, n2, n3⟩ := nodup_app.1 o1
  refine ⟨u.1, nodup_app.2 ⟨u.2.1, n2, fun a ha hb => ?_⟩, fun b hb => ?_, fun a ha hB => u.2.2.2 a ha (fun hb => hB (List.mem_append_left _ hb))⟩
  · rcases (u.2.2.1 a ha).1 with h | h
    · exact n3 a h hb
    · have := o2 a (List.mem_append_right _ hb); omega
  · rcases List.mem_append.1 hb with hb | hb
    · obtain ⟨h1, h2⟩ := u.2.2.1 b hb
      exact ⟨h1.imp (List.mem_append_left _) id, h2⟩
    · exact ⟨Or.inl (List.mem_append_right _ hb), Nat.lt_of_lt_of_le (o2 b (List.mem_append_right _ hb)) u.1⟩

theorem Own.left {h : Heap H} {A B : List Nat} (o : Own h (A ++ B)) : Own h A := ⟨(nodup_app.1 o.1).1, fun a ha => o.2 a (List.mem_append_left _ ha)⟩
theorem Own.right {h : Heap H} {A B : List Nat} (o : Own h (A ++ B)) : Own h B := ⟨(nodup_app.1 o.1).2.1, fun a ha => o.2 a (List.mem_append_right _ ha)⟩

/-- What is not touched stays. -/
theorem Upd.keepL {h h' : Heap H} {A B B' : List Nat} (u : Upd h h' B B') (o : Own h (A ++ B)) : ∀ a ∈ A, h'.cell a = h.cell a := fun a ha =>
  u.2.2.2 a (o.2 a (List.mem_append_left _ ha)) ((nodup_app.1 o.1).2.2 a ha)

theorem Upd.keepR {h h' : Heap H} {C B B' : List Nat} (u : Upd h h' B B') (o : Own h (B ++ C)) : ∀ a ∈ C, h'.cell a = h.cell a := fun a ha =>
  u.2.2.2 a (o.2 a (List.mem_append_right _ ha)) (fun hb => (nodup_app.1 o.1).2.2 a hb ha)

/-! ### Slices -/

theorem flatMap_free {α : Type} {f : α → List Nat} {l : List α} (h : ∀ e ∈ l, f e = []) : l.flatMap f = [] := by
  induction l with
  | nil => rfl
  | cons a l ih => rw [List.flatMap_cons, h a List.mem_cons_self, ih (fun e he => h e (List.mem_cons_of_mem _ he))]; rfl

theorem realloc_ptrs {α : Type} (f : α → List Nat) (zero : α) (hz : f zero = []) (grow : Nat → Nat) (s : Slice α) :
    s.hid.flatMap f = f (s.realloc zero grow).1 ++ (s.realloc zero grow).2.flatMap f := by
  unfold Slice.realloc
  cases s.hid with
  | nil =>
    show [] = _
    rw [hz, flatMap_free]; rfl
    intro e he; rw [List.eq_of_mem_replicate he, hz]
  | cons e r => exact List.flatMap_cons

theorem slicePtrs_eq {α : Type} (f : α → List Nat) (s : Slice α) : slicePtrs f s = s.vis.flatMap f ++ s.hid.flatMap f := List.flatMap_append

/-! ### Points -/

/-- Pointers of the right type have the right configuration. -/
def Fits (size : H → Nat) (v : View K D H) (s : Stor H) : Prop := s.ty = v.ty → Sized size v.cfg s

def FitI (size : H → Nat) (v : View K D H) (h : Heap H) (l : List Nat) : Prop := ∀ a ∈ l, Fits size v (h.cell a)

theorem FitI.cong {size : H → Nat} {v : View K D H} {h h' : Heap H} {l : List Nat} (f : FitI size v h l) (e : ∀ a ∈ l, h'.cell a = h.cell a) : FitI size v h' l :=
  fun a ha => by rw [e a ha]; exact f a ha

theorem target_spec {L : Lib H} {size : H → Nat} (hL : L.Sound size) (v : View K D H) (h : Heap H) (p : Point K) (o : Own h (pointPtrs p))
    (hf : FitI size v h (pointPtrs p)) :
    let t := target L v.ty v.cfg h p
    (t.2.cell t.1).ty = v.ty ∧ Sized size v.cfg (t.2.cell t.1) ∧ ∀ s, Upd h (t.2.set t.1 s) (pointPtrs p) [t.1] := by
  have hnew : ((⟨h.next + 1, upd h.cell h.next (fresh L v.cfg v.ty)⟩ : Heap H).cell h.next).ty = v.ty ∧
      Sized size v.cfg ((⟨h.next + 1, upd h.cell h.next (fresh L v.cfg v.ty)⟩ : Heap H).cell h.next) ∧
      ∀ s, Upd h ((⟨h.next + 1, upd h.cell h.next (fresh L v.cfg v.ty)⟩ : Heap H).set h.next s) (pointPtrs p) [h.next] := by
    refine ⟨?_, ?_, fun s => ⟨by simp [Heap.set], by simp, fun b hb => ?_, fun a ha _ => ?_⟩⟩
    · show (upd h.cell h.next _ h.next).ty = _
      rw [upd_same]; exact fresh_ty L _ _
    · show Sized size v.cfg (upd h.cell h.next _ h.next)
      rw [upd_same]; exact fresh_sized hL _ _
    · rw [List.mem_singleton] at hb; subst hb
      exact ⟨Or.inr (Nat.le_refl _), Nat.lt_succ_self _⟩
    · have : a ≠ h.next := by omega
      show upd (upd _ _ _) _ _ a = _
      rw [upd_ne _ _ this, upd_ne _ _ this]
  unfold target
  cases ha : p.aggr with
  | none => exact hnew
  | some a =>
    have hp : pointPtrs p = [a] := by unfold pointPtrs; rw [ha]; rfl
    dsimp only
    by_cases ht : (h.cell a).ty = v.ty
    · rw [if_pos ht]
      refine ⟨ht, hf a (by rw [hp]; exact List.mem_singleton_self a) ht, fun s => ?_⟩
      rw [hp] at o ⊢
      refine ⟨Nat.le_refl _, by simp, fun b hb => ⟨Or.inl hb, o.2 b hb⟩, fun b _ hb => ?_⟩
      exact upd_ne _ _ (fun e => hb (by rw [e]; exact List.mem_singleton_self a))
    · rw [if_neg ht]; exact hnew

theorem seenPoint_cong {h h' : Heap H} {p : Point K} (e : ∀ a ∈ pointPtrs p, h'.cell a = h.cell a) : seenPoint h' p = seenPoint h p := by
  unfold seenPoint
  cases hp : p.aggr with
  | none => rfl
  | some a => rw [Option.map_some, Option.map_some, e a (by unfold pointPtrs; rw [hp]; exact List.mem_singleton_self a)]

theorem seenPoints_cong {h h' : Heap H} {ps : List (Point K)} (e : ∀ a ∈ ps.flatMap pointPtrs, h'.cell a = h.cell a) : ps.map (seenPoint h') = ps.map (seenPoint h) :=
  List.map_congr_left (fun p hp => seenPoint_cong (fun a ha => e a (List.mem_flatMap.2 ⟨p, hp, ha⟩)))

/-- The state of an instrument's points during a collection: valid memory, right configuration, and what is seen so far. -/
structure PInv (size : H → Nat) (v : View K D H) (h0 : Heap H) (B : List Nat) (h : Heap H) (ps : Slice (Point K)) (out : List (SeenPoint K H)) : Prop where
  upd : Upd h0 h B (slicePtrs pointPtrs ps)
  fit : FitI size v h (slicePtrs pointPtrs ps)
  seen : ps.vis.map (seenPoint h) = out

theorem appendPoint_spec [DecidableEq K] {L : Lib H} {size : H → Nat} (hL : L.Sound size) (E : Env K D) (v : View K D H) (q : Seq) (reset : Bool) {h0 : Heap H} {B : List Nat}
    {h : Heap H} {ps : Slice (Point K)} {out : List (SeenPoint K H)} (i : PInv size v h0 B h ps out) (key : K) {s : Stor H} (hs : s.ty = v.ty) (hz : Sized size v.cfg s) :
    let r := appendPoint L E v q reset h ps key s
    PInv size v h0 B r.1 r.2.1 (out ++ [pointOf v q key s]) ∧ r.2.2 = (if reset then emptied L v.cfg s else s) ∧ lastChanged L r.1 r.2.1 = hasChange L s := by
  have ho := i.upd.own
  have hfit := i.fit
  have hup := i.upd
  rw [slicePtrs_eq, realloc_ptrs pointPtrs E.point rfl E.grow ps] at ho hfit hup
  unfold appendPoint
  dsimp only
  generalize ps.realloc E.point E.grow = r at *
  obtain ⟨p, rest⟩ := r
  dsimp only at ho hfit hup ⊢
  obtain ⟨t1, t2, t3⟩ := target_spec hL v h p ho.right.left (fun a ha => hfit a (List.mem_append_right _ (List.mem_append_left _ ha)))
  have hres : (if reset then move L s ((target L v.ty v.cfg h p).2.cell (target L v.ty v.cfg h p).1)
      else (s, copy L s ((target L v.ty v.cfg h p).2.cell (target L v.ty v.cfg h p).1))) = (if reset then emptied L v.cfg s else s, s) := by
    cases reset with
    | true => exact move_same hL (t1.trans hs.symm) hz t2
    | false => exact congrArg (Prod.mk s) (copy_same hL (t1.trans hs.symm) hz t2)
  rw [hres]
  dsimp only
  have hu := t3 s
  generalize target L v.ty v.cfg h p = t at *
  obtain ⟨a, h1⟩ := t
  dsimp only at hu t1 t2 ⊢
  have hcell : (h1.set a s).cell a = s := upd_same _ _ _
  have e0 : slicePtrs pointPtrs (⟨ps.vis ++ [⟨key, (pointTimes v.kind q).1, some a, (pointTimes v.kind q).2.1, (pointTimes v.kind q).2.2⟩], rest⟩ : Slice (Point K)) =
      ps.vis.flatMap pointPtrs ++ ([a] ++ rest.flatMap pointPtrs) := by
    rw [slicePtrs_eq]
    simp only [List.flatMap_append, List.flatMap_cons, List.flatMap_nil, List.append_nil, pointPtrs, Option.toList_some, List.append_assoc]
  have hur := hu.right ho.right
  have hall := hur.left ho
  have hkeepL := hur.keepL ho
  refine ⟨⟨?_, ?_, ?_⟩, rfl, ?_⟩
  · rw [e0]
    exact hup.trans hall
  · rw [e0]
    intro b hb
    rcases List.mem_append.1 hb with hb | hb
    · rw [hkeepL b hb]; exact hfit b (List.mem_append_left _ hb)
    · rcases List.mem_append.1 hb with hb' | hb'
      · rw [List.mem_singleton.1 hb', hcell]; exact fun _ => hz
      · rw [hu.keepR ho.right b hb']; exact hfit b (List.mem_append_right _ (List.mem_append_right _ hb'))
  · rw [List.map_append, seenPoints_cong hkeepL, i.seen]
    simp only [List.map_cons, List.map_nil, seenPoint, Option.map_some, hcell]
    rfl
  · unfold lastChanged
    simp only [List.getLast?_append, List.getLast?_singleton, Option.some_or, hcell]

theorem copyLoop_spec [DecidableEq K] {L : Lib H} {size : H → Nat} (hL : L.Sound size) (E : Env K D) (v : View K D H) (q : Seq) {h0 : Heap H} {B : List Nat} (es : List (Entry K H))
    (hes : ∀ e ∈ es, e.stor.ty = v.ty ∧ Sized size v.cfg e.stor) {h : Heap H} {ps : Slice (Point K)} {out : List (SeenPoint K H)} (i : PInv size v h0 B h ps out) :
    PInv size v h0 B (copyLoop L E v q es h ps).1 (copyLoop L E v q es h ps).2 (out ++ es.map (fun e => pointOf v q e.key e.stor)) := by
  induction es generalizing h ps out with
  | nil => rw [List.map_nil, List.append_nil]; exact i
  | cons e es ih =>
    have he := hes e List.mem_cons_self
    obtain ⟨h1, -, -⟩ := appendPoint_spec hL E v q false i e.key he.1 he.2
    have := ih (fun e he => hes e (List.mem_cons_of_mem _ he)) h1
    rw [List.append_assoc] at this
    exact this

theorem dropPoint_ptrs (ps : Slice (Point K)) : slicePtrs pointPtrs (dropPoint ps) = slicePtrs pointPtrs ps := by
  unfold slicePtrs dropPoint
  dsimp only
  rw [← List.append_assoc]
  congr 2
  cases hv : ps.vis.getLast? with
  | none => rw [List.getLast?_eq_none_iff.1 hv]; rfl
  | some p =>
    obtain ⟨l, hl⟩ := List.getLast?_eq_some_iff.1 hv
    rw [hl, List.dropLast_concat]; rfl

theorem dropPoint_spec {size : H → Nat} {v : View K D H} {h0 : Heap H} {B : List Nat} {h : Heap H} {ps : Slice (Point K)} {out : List (SeenPoint K H)} {x : SeenPoint K H}
    (i : PInv size v h0 B h ps (out ++ [x])) : PInv size v h0 B h (dropPoint ps) out := by
  refine ⟨by rw [dropPoint_ptrs]; exact i.upd, by rw [dropPoint_ptrs]; exact i.fit, ?_⟩
  show ps.vis.dropLast.map _ = _
  rw [List.map_dropLast, i.seen, List.dropLast_concat]

theorem moveLoop_spec [DecidableEq K] {L : Lib H} {size : H → Nat} (hL : L.Sound size) (E : Env K D) (v : View K D H) (q : Seq) {h0 : Heap H} {B : List Nat} (es : List (Entry K H))
    (hes : ∀ e ∈ es, e.stor.ty = v.ty ∧ Sized size v.cfg e.stor) {h : Heap H} {ps : Slice (Point K)} {out : List (SeenPoint K H)} (i : PInv size v h0 B h ps out) :
    PInv size v h0 B (moveLoop L E v q es h ps).2.1 (moveLoop L E v q es h ps).2.2
      (out ++ (es.filter (fun e => hasChange L e.stor)).map (fun e => pointOf v q e.key e.stor)) ∧
    (moveLoop L E v q es h ps).1 = (es.filter (fun e => hasChange L e.stor || e.refs != 0)).map (fun e => { e with stor := emptied L v.cfg e.stor }) := by
  induction es generalizing h ps out with
  | nil => rw [List.filter_nil, List.map_nil, List.append_nil]; exact ⟨i, rfl⟩
  | cons e es ih =>
    have he := hes e List.mem_cons_self
    have hes' := fun e he => hes e (List.mem_cons_of_mem _ he)
    obtain ⟨h1, h2, h3⟩ := appendPoint_spec hL E v q true i e.key he.1 he.2
    unfold moveLoop
    dsimp only
    rw [h3, h2]
    by_cases hc : hasChange L e.stor = true
    · have hc2 : (hasChange L e.stor || e.refs != 0) = true := by rw [hc]; rfl
      rw [if_pos hc, List.filter_cons, if_pos hc, List.filter_cons, if_pos hc2]
      obtain ⟨k1, k2⟩ := ih hes' h1
      rw [List.append_assoc] at k1
      exact ⟨k1, by rw [k2]; rfl⟩
    · rw [if_neg hc, List.filter_cons, if_neg hc]
      obtain ⟨k1, k2⟩ := ih hes' (dropPoint_spec h1)
      refine ⟨k1, ?_⟩
      have hc' : hasChange L e.stor = false := by simpa using hc
      by_cases hr : e.refs = 0
      · rw [if_pos hr, List.filter_cons, if_neg (by rw [hc']; simp [hr]), k2]
      · have hr2 : (hasChange L e.stor || e.refs != 0) = true := by simp [hr]
        rw [if_neg hr, List.filter_cons, if_pos hr2, k2]; rfl

theorem subLoop_spec [DecidableEq K] {L : Lib H} {size : H → Nat} (hL : L.Sound size) (E : Env K D) (v : View K D H) (q : Seq) {h0 : Heap H} {B : List Nat} (es : List (Entry K H))
    (hes : ∀ e ∈ es, e.stor.ty = v.ty ∧ Sized size v.cfg e.stor) (hpr : ∀ e ∈ v.prior, e.stor.ty = v.ty ∧ Sized size v.cfg e.stor)
    {h : Heap H} {ps : Slice (Point K)} {out : List (SeenPoint K H)} (i : PInv size v h0 B h ps out) :
    PInv size v h0 B (subLoop L E v q es h ps).1 (subLoop L E v q es h ps).2 (out ++ es.filterMap (fun e => (difference L v.prior e).map (pointOf v q e.key))) := by
  induction es generalizing h ps out with
  | nil => rw [List.filterMap_nil, List.append_nil]; exact i
  | cons e es ih =>
    have he := hes e List.mem_cons_self
    have hes' := fun e he => hes e (List.mem_cons_of_mem _ he)
    unfold subLoop
    rw [List.filterMap_cons]
    have hd : ∀ s, difference L v.prior e = some s → s.ty = v.ty ∧ Sized size v.cfg s := by
      intro s hs
      unfold difference at hs
      cases hf : v.prior.find? (fun p => p.key = e.key) with
      | none => rw [hf] at hs; cases hs; exact he
      | some p =>
        rw [hf] at hs
        dsimp only at hs
        have hp := hpr p (List.mem_of_find?_eq_some hf)
        by_cases hc : hasChange L (subtract L p.stor e.stor) = true
        · rw [if_pos hc] at hs; cases hs
          exact ⟨(subtract_ty L _ _).trans hp.1, subtract_sized hp.2⟩
        · rw [if_neg hc] at hs; cases hs
    cases hd' : difference L v.prior e with
    | none => exact ih hes' i
    | some s =>
      obtain ⟨h1, -, -⟩ := appendPoint_spec hL E v q false i e.key (hd s hd').1 (hd s hd').2
      have := ih hes' h1
      rw [List.append_assoc] at this
      exact this

/-! ### Instruments -/

theorem collectView_spec [DecidableEq K] {L : Lib H} {size : H → Nat} (hL : L.Sound size) (E : Env K D) (ovf : K) (q : Seq) (v : View K D H) (hv : ViewOk size v) (h : Heap H)
    (i : Inst K D) (hc : i.points.vis = []) (ho : Own h (instPtrs i)) (hf : FitI size v h (instPtrs i)) :
    let r := collectView L E ovf q v h i
    r.1 = viewAfter L ovf v ∧ Upd h r.2.1 (instPtrs i) (instPtrs r.2.2) ∧ FitI size v r.2.1 (instPtrs r.2.2) ∧ seenInst r.2.1 r.2.2 = (v.desc, viewPoints L q v) := by
  have h0 : PInv size v h (instPtrs i) h i.points [] := ⟨Upd.refl ho, hf, by rw [hc]; rfl⟩
  have hd : ∀ e ∈ v.data, e.stor.ty = v.ty ∧ Sized size v.cfg e.stor := fun e he => hv e (List.mem_append_left _ he)
  have hp : ∀ e ∈ v.prior, e.stor.ty = v.ty ∧ Sized size v.cfg e.stor := fun e he => hv e (List.mem_append_right _ he)
  unfold collectView viewAfter viewPoints seenInst
  cases hk : v.kind with
  | statefulSync =>
    have := copyLoop_spec hL E v q v.data hd h0
    exact ⟨rfl, this.upd, this.fit, congrArg (Prod.mk v.desc) this.seen⟩
  | lowmemorySync =>
    have := moveLoop_spec hL E v q v.data hd h0
    exact ⟨by dsimp only; rw [this.2], this.1.upd, this.1.fit, congrArg (Prod.mk v.desc) this.1.seen⟩
  | lowmemoryAsync =>
    have := copyLoop_spec hL E v q v.data hd h0
    exact ⟨rfl, this.upd, this.fit, congrArg (Prod.mk v.desc) this.seen⟩
  | statefulAsync =>
    have := subLoop_spec hL E v q v.data hd hp h0
    exact ⟨rfl, this.upd, this.fit, congrArg (Prod.mk v.desc) this.seen⟩

/-! ### Extending a slice -/

/-- What it takes for `f` to be used with `extend`. -/
structure Level {X α β : Type} (f : X → Heap H → α → X × Heap H × α) (zero : α) (ptrs : α → List Nat) (seen : Heap H → α → β) (fit : X → Heap H → α → Prop)
    (clean tidy : α → Prop) (ok : X → Prop) (after : X → X) (want : X → β) : Prop where
  one : ∀ x h e, ok x → clean e → Own h (ptrs e) → fit x h e →
    (f x h e).1 = after x ∧ Upd h (f x h e).2.1 (ptrs e) (ptrs (f x h e).2.2) ∧ fit x (f x h e).2.1 (f x h e).2.2 ∧ seen (f x h e).2.1 (f x h e).2.2 = want x ∧
      tidy (f x h e).2.2
  seen_cong : ∀ h h' e, (∀ a ∈ ptrs e, h'.cell a = h.cell a) → seen h' e = seen h e
  fit_cong : ∀ x h h' e, (∀ a ∈ ptrs e, h'.cell a = h.cell a) → fit x h e → fit x h' e
  zero_ptrs : ptrs zero = []
  zero_clean : clean zero
  zero_fit : ∀ x h, fit x h zero

theorem extend_spec {X α β : Type} {f : X → Heap H → α → X × Heap H × α} {zero : α} {ptrs : α → List Nat} {seen : Heap H → α → β} {fit : X → Heap H → α → Prop}
    {clean tidy : α → Prop} {ok : X → Prop} {after : X → X} {want : X → β} (l : Level f zero ptrs seen fit clean tidy ok after want) (grow : Nat → Nat) (xs : List X)
    (hok : ∀ x ∈ xs, ok x) (h : Heap H) (s : Slice α) (hc : ∀ e ∈ s.hid, clean e) (ho : Own h (s.hid.flatMap ptrs))
    (hf : ∀ (i : Nat) e x, s.hid[i]? = some e → xs[i]? = some x → fit x h e) :
    (extend zero grow f xs h s).1 = xs.map after ∧
    ∃ es hid', (extend zero grow f xs h s).2.2 = ⟨s.vis ++ es, hid'⟩ ∧
      Upd h (extend zero grow f xs h s).2.1 (s.hid.flatMap ptrs) ((es ++ hid').flatMap ptrs) ∧
      es.map (seen (extend zero grow f xs h s).2.1) = xs.map want ∧
      (∀ (i : Nat) e x, es[i]? = some e → xs[i]? = some x → fit x (extend zero grow f xs h s).2.1 e) ∧
      (∀ e ∈ es, tidy e) ∧ (∀ e ∈ hid', clean e) ∧
      ((∀ e ∈ s.hid.drop xs.length, ptrs e = []) → ∀ e ∈ hid', ptrs e = []) := by
  induction xs generalizing h s with
  | nil =>
    refine ⟨rfl, [], s.hid, by rw [List.append_nil]; rfl, by rw [List.nil_append]; exact Upd.refl ho, rfl, by simp, by simp, hc, fun h => h⟩
  | cons x xs ih =>
    unfold extend
    dsimp only
    have hptrs := realloc_ptrs ptrs zero l.zero_ptrs grow s
    have hclean : clean (s.realloc zero grow).1 ∧ ∀ e ∈ (s.realloc zero grow).2, clean e := by
      unfold Slice.realloc
      cases hh : s.hid with
      | nil => exact ⟨l.zero_clean, fun e he => by rw [List.eq_of_mem_replicate he]; exact l.zero_clean⟩
      | cons e r =>
        rw [hh] at hc
        exact ⟨hc e List.mem_cons_self, fun e' he' => hc e' (List.mem_cons_of_mem _ he')⟩
    have hfit : fit x h (s.realloc zero grow).1 ∧ ∀ (i : Nat) e y, (s.realloc zero grow).2[i]? = some e → xs[i]? = some y → fit y h e := by
      unfold Slice.realloc
      cases hh : s.hid with
      | nil => exact ⟨l.zero_fit x h, fun i e y he _ => by rw [List.eq_of_mem_replicate (List.mem_of_getElem? he)]; exact l.zero_fit y h⟩
      | cons e r =>
        rw [hh] at hf
        exact ⟨hf 0 e x rfl rfl, fun i e' y h1 h2 => hf (i + 1) e' y h1 h2⟩
    have hfree : (∀ e ∈ s.hid.drop (xs.length + 1), ptrs e = []) → ∀ e ∈ (s.realloc zero grow).2.drop xs.length, ptrs e = [] := by
      unfold Slice.realloc
      cases hh : s.hid with
      | nil => intro _ e he; rw [List.eq_of_mem_replicate (List.mem_of_mem_drop he)]; exact l.zero_ptrs
      | cons e r => exact fun h => h
    rw [hptrs] at ho ⊢
    generalize s.realloc zero grow = r at *
    obtain ⟨e, rest⟩ := r
    dsimp only at *
    obtain ⟨o1, o2, o3, o4, o5⟩ := l.one x h e (hok x List.mem_cons_self) hclean.1 ho.left hfit.1
    generalize f x h e = c at *
    obtain ⟨x', h1, e'⟩ := c
    dsimp only at *
    have hu1 := o2.right ho
    have ho1 := hu1.own
    obtain ⟨k1, es, hid', k2, k3, k4, k5, k6, k7, k8⟩ := ih (fun y hy => hok y (List.mem_cons_of_mem _ hy)) h1 ⟨s.vis ++ [e'], rest⟩ hclean.2 ho1.right
      (fun i e'' y g1 g2 => l.fit_cong y h h1 e'' (fun a ha => o2.keepR ho a (List.mem_flatMap.2 ⟨e'', List.mem_of_getElem? g1, ha⟩)) (hfit.2 i e'' y g1 g2))
    refine ⟨by rw [o1, k1]; rfl, e' :: es, hid', by rw [k2, List.append_assoc]; rfl, ?_, ?_, ?_, ?_, k7, fun hh => k8 (hfree hh)⟩
    · exact hu1.trans (k3.left ho1)
    · rw [List.map_cons, List.map_cons, k4]
      exact congrArg (· :: _) ((l.seen_cong h1 _ e' (k3.keepL ho1)).trans o4)
    · intro i e'' y g1 g2
      cases i with
      | zero =>
        cases g1; cases g2
        exact l.fit_cong x h1 _ e' (k3.keepL ho1) o3
      | succ i => exact k5 i e'' y g1 g2
    · intro e'' he''
      rcases List.mem_cons.1 he'' with rfl | h'
      · exact o5
      · exact k6 e'' h'

/-! ### Scopes -/

/-- The memory of a scope's instrument slots fits the meter's views; when `strict`, slots without a view have no memory. -/
def FitScope (strict : Bool) (size : H → Nat) (m : Meter K D H) (h : Heap H) (s : Scope K D) : Prop :=
  (∀ (i : Nat) e v, (s.insts.vis ++ s.insts.hid)[i]? = some e → m.views[i]? = some v → FitI size v h (instPtrs e)) ∧
  (strict = true → ∀ (i : Nat) e, (s.insts.vis ++ s.insts.hid)[i]? = some e → m.views.length ≤ i → instPtrs e = [])

def CleanScope (s : Scope K D) : Prop := s.insts.vis = [] ∧ ∀ e ∈ s.insts.hid, e.points.vis = []
def TidyScope (s : Scope K D) : Prop := ∀ e ∈ s.insts.hid, e.points.vis = []

theorem seenInst_cong {h h' : Heap H} {i : Inst K D} (e : ∀ a ∈ instPtrs i, h'.cell a = h.cell a) : seenInst h' i = seenInst h i := by
  unfold seenInst
  rw [seenPoints_cong (fun a ha => e a _)]
  unfold instPtrs
  rw [slicePtrs_eq]
  exact fun _ ha => List.mem_append_left _ ha

theorem viewLevel [DecidableEq K] {L : Lib H} {size : H → Nat} (hL : L.Sound size) (E : Env K D) (ovf : K) (q : Seq) :
    Level (collectView L E ovf q) E.inst instPtrs seenInst (fun v h i => FitI size v h (instPtrs i)) (fun i => i.points.vis = []) (fun _ => True) (ViewOk size)
      (viewAfter L ovf) (fun v => (v.desc, viewPoints L q v)) where
  one := fun v h i hv hc ho hf => by
    obtain ⟨a, b, c, d⟩ := collectView_spec hL E ovf q v hv h i hc ho hf
    exact ⟨a, b, c, d, trivial⟩
  seen_cong := fun _ _ _ e => seenInst_cong e
  fit_cong := fun _ _ _ _ e f => f.cong e
  zero_ptrs := rfl
  zero_clean := rfl
  zero_fit := fun _ _ _ h => by cases h

def meterAfter [DecidableEq K] (L : Lib H) (ovf : K) (m : Meter K D H) : Meter K D H := { m with views := m.views.map (viewAfter L ovf) }

theorem get_append_left {α : Type} {a b : List α} {i : Nat} {e : α} (h : a[i]? = some e) : (a ++ b)[i]? = some e := by
  rw [List.getElem?_append, if_pos (List.getElem?_eq_some_iff.1 h).1]; exact h

theorem seenScope_cong {h h' : Heap H} {s : Scope K D} (e : ∀ a ∈ scopePtrs s, h'.cell a = h.cell a) : seenScope h' s = seenScope h s := by
  unfold seenScope
  congr 1
  refine List.map_congr_left (fun i hi => seenInst_cong (fun a ha => e a ?_))
  unfold scopePtrs
  rw [slicePtrs_eq]
  exact List.mem_append_left _ (List.mem_flatMap.2 ⟨i, hi, ha⟩)

/-- The index facts about a slice filled from the start. -/
theorem filled {α X : Type} {fit : X → α → Prop} {xs : List X} {es hid : List α} (hlen : es.length = xs.length)
    (hf : ∀ (i : Nat) e x, es[i]? = some e → xs[i]? = some x → fit x e) : ∀ (i : Nat) e x, (es ++ hid)[i]? = some e → xs[i]? = some x → fit x e := by
  intro i e x he hx
  have hlt : i < es.length := by rw [hlen]; exact (List.getElem?_eq_some_iff.1 hx).1
  rw [List.getElem?_append, if_pos hlt] at he
  exact hf i e x he hx

theorem filled_free {α : Type} {ptrs : α → List Nat} {n : Nat} {es hid : List α} (hlen : es.length = n) (hf : ∀ e ∈ hid, ptrs e = []) :
    ∀ (i : Nat) e, (es ++ hid)[i]? = some e → n ≤ i → ptrs e = [] := by
  intro i e he hi
  rw [List.getElem?_append, if_neg (by omega)] at he
  exact hf e (List.mem_of_getElem? he)

theorem free_drop {α : Type} {ptrs : α → List Nat} {n : Nat} {l : List α} (h : ∀ (i : Nat) e, l[i]? = some e → n ≤ i → ptrs e = []) : ∀ e ∈ l.drop n, ptrs e = [] := by
  intro e he
  obtain ⟨i, hi⟩ := List.mem_iff_getElem?.1 he
  rw [List.getElem?_drop] at hi
  exact h (n + i) e hi (by omega)

theorem meterLevel [DecidableEq K] (strict : Bool) {L : Lib H} {size : H → Nat} (hL : L.Sound size) (E : Env K D) (ovf : K) (q : Seq) :
    Level (collectMeter L E ovf q) E.scope scopePtrs seenScope (FitScope strict size) CleanScope TidyScope (fun m => ∀ v ∈ m.views, ViewOk size v)
      (meterAfter L ovf) (fun m => (m.library, m.views.map (fun v => (v.desc, viewPoints L q v)))) where
  one := fun m h s hv hc ho hf => by
    have e1 : s.insts.vis ++ s.insts.hid = s.insts.hid := by rw [hc.1]; rfl
    have hp : scopePtrs s = s.insts.hid.flatMap instPtrs := by unfold scopePtrs slicePtrs; rw [e1]
    unfold FitScope at hf
    rw [e1] at hf
    rw [hp] at ho ⊢
    obtain ⟨k1, es, hid', k2, k3, k4, k5, k6, k7, k8⟩ := extend_spec (viewLevel hL E ovf q) E.grow m.views hv h s.insts hc.2 ho hf.1
    unfold collectMeter
    dsimp only
    rw [hc.1, List.nil_append] at k2
    have hlen : es.length = m.views.length := by
      have := congrArg List.length k4
      rwa [List.length_map, List.length_map] at this
    refine ⟨by rw [k1]; rfl, ?_, ⟨?_, ?_⟩, ?_, ?_⟩
    · rw [k2]; exact k3
    · rw [k2]
      exact filled (fit := fun v e => FitI size v _ (instPtrs e)) hlen k5
    · intro hs
      rw [k2]
      exact filled_free hlen (k8 (free_drop (hf.2 hs)))
    · unfold seenScope; rw [k2]; exact congrArg _ k4
    · unfold TidyScope; rw [k2]; exact k7
  seen_cong := fun _ _ _ e => seenScope_cong e
  fit_cong := fun m h h' s e f => ⟨fun i x v hx hv => (f.1 i x v hx hv).cong (fun a ha => e a (by
    unfold scopePtrs slicePtrs
    exact List.mem_flatMap.2 ⟨x, List.mem_of_getElem? hx, ha⟩)), f.2⟩
  zero_ptrs := rfl
  zero_clean := ⟨rfl, by intro e he; cases he⟩
  zero_fit := fun m h => ⟨(by intro i e v he; cases i <;> cases he), (by intro _ i e he; cases i <;> cases he)⟩

/-! ### Whole collections -/

def FitMetrics (strict : Bool) (size : H → Nat) (ms : List (Meter K D H)) (h : Heap H) (o : Metrics K D) : Prop :=
  (∀ (i : Nat) e m, (o.scopes.vis ++ o.scopes.hid)[i]? = some e → ms[i]? = some m → FitScope strict size m h e) ∧
  (strict = true → ∀ (i : Nat) e, (o.scopes.vis ++ o.scopes.hid)[i]? = some e → ms.length ≤ i → scopePtrs e = [])

def TidyMetrics (o : Metrics K D) : Prop := (∀ s ∈ o.scopes.hid, CleanScope s) ∧ ∀ s ∈ o.scopes.vis, TidyScope s

theorem instPtrs_reset (i : Inst K D) : instPtrs i.reset = instPtrs i := by
  unfold instPtrs slicePtrs Inst.reset Slice.reset
  rw [List.nil_append, List.map_id]

theorem flatMap_map_cong {α : Type} {f : α → List Nat} {g : α → α} (h : ∀ a, f (g a) = f a) (l : List α) : (l.map g).flatMap f = l.flatMap f := by
  induction l with
  | nil => rfl
  | cons a l ih => rw [List.map_cons, List.flatMap_cons, List.flatMap_cons, ih, h]

theorem scopePtrs_reset (s : Scope K D) : scopePtrs s.reset = scopePtrs s := by
  unfold scopePtrs slicePtrs Scope.reset Slice.reset
  rw [List.nil_append, List.flatMap_append, List.flatMap_append, flatMap_map_cong instPtrs_reset]

theorem ptrs_reset (o : Metrics K D) : o.reset.scopes.hid.flatMap scopePtrs = ptrs o := by
  unfold ptrs slicePtrs Metrics.reset Slice.reset
  dsimp only
  rw [List.flatMap_append, List.flatMap_append, flatMap_map_cong scopePtrs_reset]

theorem clean_reset {s : Scope K D} (h : TidyScope s) : CleanScope s.reset := by
  refine ⟨rfl, fun e he => ?_⟩
  rcases List.mem_append.1 he with he | he
  · obtain ⟨i, -, rfl⟩ := List.mem_map.1 he; rfl
  · exact h e he

/-- An element of a slice whose visible elements were changed comes from one of the slice. -/
theorem get_reset {α : Type} {g : α → α} {vis hid : List α} {i : Nat} {e : α} (h : (vis.map g ++ hid)[i]? = some e) :
    ∃ e', (vis ++ hid)[i]? = some e' ∧ (e = g e' ∨ e = e') := by
  rw [List.getElem?_append] at h ⊢
  rw [List.length_map] at h
  by_cases hi : i < vis.length
  · rw [if_pos hi] at h ⊢
    rw [List.getElem?_map] at h
    cases hv : vis[i]? with
    | none => rw [hv] at h; cases h
    | some e' => rw [hv] at h; cases h; exact ⟨e', rfl, Or.inl rfl⟩
  · rw [if_neg hi] at h ⊢
    exact ⟨e, h, Or.inr rfl⟩

theorem fit_reset {strict : Bool} {size : H → Nat} {m : Meter K D H} {h : Heap H} {s : Scope K D} (f : FitScope strict size m h s) : FitScope strict size m h s.reset := by
  refine ⟨fun i e v he hv => ?_, fun hs i e he hi => ?_⟩
  · obtain ⟨e', h1, h2⟩ := get_reset he
    have := f.1 i e' v h1 hv
    rcases h2 with rfl | rfl
    · rw [instPtrs_reset]; exact this
    · exact this
  · obtain ⟨e', h1, h2⟩ := get_reset he
    have := f.2 hs i e' h1 hi
    rcases h2 with rfl | rfl
    · rw [instPtrs_reset]; exact this
    · exact this

/-- A `Metrics` object that can be collected into. -/
structure Usable (strict : Bool) (size : H → Nat) (ms : List (Meter K D H)) (h : Heap H) (o : Metrics K D) : Prop where
  own : Own h (ptrs o)
  fit : FitMetrics strict size ms h o
  tidy : TidyMetrics o

theorem usable_new (strict : Bool) (size : H → Nat) (ms : List (Meter K D H)) (h : Heap H) (E : Env K D) : Usable strict size ms h E.metrics :=
  ⟨⟨List.nodup_nil, by intro a ha; cases ha⟩, ⟨(by intro i e m he; cases i <;> cases he), (by intro _ i e he; cases i <;> cases he)⟩,
    ⟨(by intro s hs; cases hs), (by intro s hs; cases hs)⟩⟩

theorem produce_spec [DecidableEq K] (strict : Bool) {L : Lib H} {size : H → Nat} (hL : L.Sound size) (E : Env K D) (ovf : K) (res : D) (q : Seq) (ms : List (Meter K D H))
    (hms : MetersOk size ms) (h : Heap H) (inout : Option (Metrics K D)) (hin : ∀ o, inout = some o → Usable strict size ms h o) :
    let r := produce L E ovf res q ms h inout
    r.1 = metersAfter L ovf ms ∧ seen r.2.1 r.2.2 = report L res q ms ∧ Usable strict size ms r.2.1 r.2.2 ∧
      Upd h r.2.1 ((inout.map ptrs).getD []) (ptrs r.2.2) := by
  have key : ∀ out : Metrics K D, out.scopes.vis = [] → (∀ s ∈ out.scopes.hid, CleanScope s) → Own h (out.scopes.hid.flatMap scopePtrs) →
      (∀ (i : Nat) e m, out.scopes.hid[i]? = some e → ms[i]? = some m → FitScope strict size m h e) →
      (strict = true → ∀ (i : Nat) e, out.scopes.hid[i]? = some e → ms.length ≤ i → scopePtrs e = []) →
      let r := extend E.scope E.grow (collectMeter L E ovf q) ms h out.scopes
      r.1 = metersAfter L ovf ms ∧ seen r.2.1 ⟨res, r.2.2⟩ = report L res q ms ∧ Usable strict size ms r.2.1 ⟨res, r.2.2⟩ ∧
        Upd h r.2.1 (out.scopes.hid.flatMap scopePtrs) (ptrs (⟨res, r.2.2⟩ : Metrics K D)) := by
    intro out hvis hc ho hf hfree
    obtain ⟨k1, es, hid', k2, k3, k4, k5, k6, k7, k8⟩ := extend_spec (meterLevel strict hL E ovf q) E.grow ms hms h out.scopes hc ho hf
    dsimp only
    rw [hvis, List.nil_append] at k2
    have hlen : es.length = ms.length := by
      have := congrArg List.length k4
      rwa [List.length_map, List.length_map] at this
    refine ⟨k1, ?_, ⟨?_, ⟨?_, ?_⟩, ?_, ?_⟩, ?_⟩
    · unfold seen; rw [k2]; exact congrArg (Prod.mk res) k4
    · unfold ptrs; rw [k2]; exact k3.own
    · rw [k2]; exact filled (fit := fun m e => FitScope strict size m _ e) hlen k5
    · intro hs
      rw [k2]
      exact filled_free hlen (k8 (free_drop (hfree hs)))
    · rw [k2]; exact k7
    · rw [k2]; exact k6
    · unfold ptrs; rw [k2]; exact k3
  unfold produce
  cases inout with
  | none =>
    exact key E.metrics rfl (by intro s hs; cases hs) ⟨List.nodup_nil, by intro a ha; cases ha⟩ (by intro i e m he; cases i <;> cases he)
      (by intro _ i e he; cases i <;> cases he)
  | some o =>
    have hu := hin o rfl
    have := key o.reset rfl (fun s hs => by
        rcases List.mem_append.1 hs with hs | hs
        · obtain ⟨s', hs', rfl⟩ := List.mem_map.1 hs
          exact clean_reset (hu.tidy.2 s' hs')
        · exact hu.tidy.1 s hs)
      (by rw [ptrs_reset]; exact hu.own)
      (fun i e m he hm => by
        obtain ⟨e', h1, h2⟩ := get_reset he
        have := hu.fit.1 i e' m h1 hm
        rcases h2 with rfl | rfl
        · exact fit_reset this
        · exact this)
      (fun hs i e he hi => by
        obtain ⟨e', h1, h2⟩ := get_reset he
        have := hu.fit.2 hs i e' h1 hi
        rcases h2 with rfl | rfl
        · rw [scopePtrs_reset]; exact this
        · exact this)
    rw [ptrs_reset] at this
    exact this

end Verif.Reuse
