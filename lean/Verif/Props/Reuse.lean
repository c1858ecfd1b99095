import Verif.Proof.Reuse

/-!
C39: collecting into a reused `Metrics` object.
-/

namespace Verif.Reuse
open Verif.Times (Seq Collector pointTimes)
open Verif.Views (Tempo)
variable {H K D : Type}

instance [DecidableEq K] [DecidableEq H] : DecidableEq (List (SeenPoint K H)) := inferInstance
instance [DecidableEq K] [DecidableEq D] [DecidableEq H] : DecidableEq (List (D × List (SeenPoint K H))) := inferInstance
instance [DecidableEq K] [DecidableEq D] [DecidableEq H] : DecidableEq (List (D × List (D × List (SeenPoint K H)))) := inferInstance
instance [DecidableEq K] [DecidableEq D] [DecidableEq H] : DecidableEq (D × List (D × List (D × List (SeenPoint K H)))) := inferInstance
instance [DecidableEq K] [DecidableEq D] [DecidableEq H] : DecidableEq (List (D × List (D × List (D × List (SeenPoint K H))))) := inferInstance

/-! ### Histories -/

/-- One collection: by a reader, into one of the objects, after anything (`change`) has happened to the meters the reader collects from. -/
structure Step (K D H : Type) where
  reader : Nat
  obj : Nat
  q : Seq
  change : List (Meter K D H) → List (Meter K D H)

/-- The memory, the meters as each reader has them, and the `Metrics` objects which were results so far. -/
structure Sys (K D H : Type) where
  heap : Heap H
  meters : Nat → List (Meter K D H)
  objs : Nat → Option (Metrics K D)

abbrev Seen (K D H : Type) := D × List (D × List (D × List (SeenPoint K H)))

/-- A collection, and what is seen in its result. `reuse` tells whether the object is given to `Produce`, or nothing. -/
def Sys.step [DecidableEq K] (L : Lib H) (E : Env K D) (ovf : K) (res : D) (reuse : Bool) (s : Sys K D H) (st : Step K D H) : Sys K D H × Seen K D H :=
  let r := produce L E ovf res st.q (st.change (s.meters st.reader)) s.heap (if reuse then s.objs st.obj else none)
  (⟨r.2.1, upd s.meters st.reader r.1, upd s.objs st.obj (some r.2.2)⟩, seen r.2.1 r.2.2)

def Sys.run [DecidableEq K] (L : Lib H) (E : Env K D) (ovf : K) (res : D) (reuse : Bool) : Sys K D H → List (Step K D H) → Sys K D H × List (Seen K D H)
  | s, [] => (s, [])
  | s, st :: sts => ((Sys.run L E ovf res reuse (s.step L E ovf res reuse st).1 sts).1, (s.step L E ovf res reuse st).2 :: (Sys.run L E ovf res reuse (s.step L E ovf res reuse st).1 sts).2)

/-- What should be seen, without memory. -/
def wanted [DecidableEq K] (L : Lib H) (ovf : K) (res : D) : (Nat → List (Meter K D H)) → List (Step K D H) → List (Seen K D H)
  | _, [] => []
  | ms, st :: sts => report L res st.q (st.change (ms st.reader)) :: wanted L ovf res (upd ms st.reader (metersAfter L ovf (st.change (ms st.reader)))) sts

/-- Nothing yet collected. -/
def start (h : Heap H) (ms : Nat → List (Meter K D H)) : Sys K D H := ⟨h, ms, fun _ => none⟩

/-- Meters and views stay where they are and keep their type and configuration; new ones come after. -/
def Grows (ms ms' : List (Meter K D H)) : Prop :=
  ms.length ≤ ms'.length ∧ ∀ (j : Nat) m m', ms[j]? = some m → ms'[j]? = some m' →
    m.views.length ≤ m'.views.length ∧ ∀ (i : Nat) v v', m.views[i]? = some v → m'.views[i]? = some v' → v'.ty = v.ty ∧ v'.cfg = v.cfg

/-- What may happen to the meters: series come and go and change as they like, meters and views are added. -/
def Allowed (size : H → Nat) (st : Step K D H) : Prop := ∀ ms, MetersOk size ms → MetersOk size (st.change ms) ∧ Grows ms (st.change ms)

def NoHist (ms : List (Meter K D H)) : Prop := ∀ m ∈ ms, ∀ v ∈ m.views, ∀ f, v.ty ≠ .hist f

/-! ### Invariant -/

/-- `own` is set when objects are used by one reader each. -/
structure Inv (own : Bool) (owner : Nat → Nat) (size : H → Nat) (s : Sys K D H) : Prop where
  ok : ∀ r, MetersOk size (s.meters r)
  mem : ∀ o m, s.objs o = some m → Own s.heap (ptrs m) ∧ TidyMetrics m
  fit : ∀ o m, s.objs o = some m → own = true → FitMetrics true size (s.meters (owner o)) s.heap m
  apart : ∀ o o' m m', o ≠ o' → s.objs o = some m → s.objs o' = some m' → ∀ a ∈ ptrs m, a ∉ ptrs m'

theorem fits_same {size : H → Nat} {v v' : View K D H} (h1 : v'.ty = v.ty) (h2 : v'.cfg = v.cfg) {h : Heap H} {l : List Nat} (f : FitI size v h l) : FitI size v' h l := by
  intro a ha
  have := f a ha
  unfold Fits at *
  rw [h1, h2]; exact this

theorem get_some {α : Type} {l : List α} {i : Nat} (h : i < l.length) : ∃ x, l[i]? = some x := ⟨l[i], List.getElem?_eq_getElem h⟩

theorem fit_grows {size : H → Nat} {ms ms' : List (Meter K D H)} (g : Grows ms ms') {h : Heap H} {o : Metrics K D} (f : FitMetrics true size ms h o) :
    FitMetrics true size ms' h o := by
  refine ⟨fun j e m' he hm' => ?_, fun _ j e he hj => f.2 rfl j e he (Nat.le_trans g.1 hj)⟩
  by_cases hj : j < ms.length
  · obtain ⟨m, hm⟩ := get_some hj
    obtain ⟨g1, g2⟩ := g.2 j m m' hm hm'
    have fm := f.1 j e m he hm
    refine ⟨fun i x v' hx hv' => ?_, fun _ i x hx hi => fm.2 rfl i x hx (Nat.le_trans g1 hi)⟩
    by_cases hi : i < m.views.length
    · obtain ⟨v, hv⟩ := get_some hi
      obtain ⟨k1, k2⟩ := g2 i v v' hv hv'
      exact fits_same k1 k2 (fm.1 i x v hx hv)
    · rw [fm.2 rfl i x hx (by omega)]
      intro a ha; cases ha
  · have hfree := f.2 rfl j e he (by omega)
    have hmem : ∀ x ∈ e.insts.vis ++ e.insts.hid, instPtrs x = [] := by
      intro x hx
      cases hp : instPtrs x with
      | nil => rfl
      | cons a l =>
        have : a ∈ scopePtrs e := List.mem_flatMap.2 ⟨x, hx, by rw [hp]; exact List.mem_cons_self⟩
        rw [hfree] at this; cases this
    refine ⟨fun i x v' hx _ => ?_, fun _ i x hx _ => hmem x (List.mem_of_getElem? hx)⟩
    rw [hmem x (List.mem_of_getElem? hx)]
    intro a ha; cases ha

theorem fit_cong {strict : Bool} {size : H → Nat} {ms : List (Meter K D H)} {h h' : Heap H} {o : Metrics K D} (e : ∀ a ∈ ptrs o, h'.cell a = h.cell a)
    (f : FitMetrics strict size ms h o) : FitMetrics strict size ms h' o := by
  refine ⟨fun j s m hs hm => ⟨fun i x v hx hv => ?_, (f.1 j s m hs hm).2⟩, f.2⟩
  refine ((f.1 j s m hs hm).1 i x v hx hv).cong (fun a ha => e a ?_)
  exact List.mem_flatMap.2 ⟨s, List.mem_of_getElem? hs, List.mem_flatMap.2 ⟨x, List.mem_of_getElem? hx, ha⟩⟩

theorem viewAfter_same [DecidableEq K] (L : Lib H) (ovf : K) (v : View K D H) : (viewAfter L ovf v).ty = v.ty ∧ (viewAfter L ovf v).cfg = v.cfg := by
  unfold viewAfter
  cases v.kind <;> exact ⟨rfl, rfl⟩

theorem grows_after [DecidableEq K] (L : Lib H) (ovf : K) (ms : List (Meter K D H)) : Grows ms (metersAfter L ovf ms) := by
  unfold metersAfter
  refine ⟨by rw [List.length_map]; exact Nat.le_refl _, fun j m m' hm hm' => ?_⟩
  rw [List.getElem?_map, hm] at hm'
  cases hm'
  refine ⟨by rw [List.length_map]; exact Nat.le_refl _, fun i v v' hv hv' => ?_⟩
  dsimp only at hv'
  rw [List.getElem?_map, hv] at hv'
  cases hv'
  exact viewAfter_same L ovf v

theorem grows_trans {a b c : List (Meter K D H)} (h : Grows a b) (k : Grows b c) : Grows a c := by
  refine ⟨Nat.le_trans h.1 k.1, fun j m m'' hm hm'' => ?_⟩
  obtain ⟨m', hm'⟩ := get_some (l := b) (i := j) (Nat.lt_of_lt_of_le (List.getElem?_eq_some_iff.1 hm).1 h.1)
  obtain ⟨h1, h2⟩ := h.2 j m m' hm hm'
  obtain ⟨k1, k2⟩ := k.2 j m' m'' hm' hm''
  refine ⟨Nat.le_trans h1 k1, fun i v v'' hv hv'' => ?_⟩
  obtain ⟨v', hv'⟩ := get_some (l := m'.views) (i := i) (Nat.lt_of_lt_of_le (List.getElem?_eq_some_iff.1 hv).1 h1)
  obtain ⟨p1, p2⟩ := h2 i v v' hv hv'
  obtain ⟨q1, q2⟩ := k2 i v' v'' hv' hv''
  exact ⟨q1.trans p1, q2.trans p2⟩

theorem ok_after [DecidableEq K] {L : Lib H} {size : H → Nat} (hL : L.Sound size) (ovf : K) {ms : List (Meter K D H)} (h : MetersOk size ms) : MetersOk size (metersAfter L ovf ms) := by
  intro m' hm' v' hv'
  obtain ⟨m, hm, rfl⟩ := List.mem_map.1 hm'
  obtain ⟨v, hv, rfl⟩ := List.mem_map.1 hv'
  have h1 := h m hm v hv
  obtain ⟨t1, t2⟩ := viewAfter_same L ovf v
  unfold ViewOk
  rw [t1, t2]
  unfold viewAfter
  intro e he
  cases hk : v.kind with
  | statefulSync => rw [hk] at he; exact h1 e he
  | lowmemorySync =>
    rw [hk] at he
    rcases List.mem_append.1 he with he | he
    · obtain ⟨e', he', rfl⟩ := List.mem_map.1 he
      have := h1 e' (List.mem_append_left _ (List.mem_filter.1 he').1)
      exact ⟨(emptied_ty L _ _).trans this.1, emptied_sized hL _ _⟩
    · exact h1 e (List.mem_append_right _ he)
  | lowmemoryAsync =>
    rw [hk] at he
    exact h1 e (List.mem_append_right _ he)
  | statefulAsync =>
    rw [hk] at he
    rcases List.mem_append.1 he with he | he
    · exact h1 e (List.mem_append_left _ (List.mem_filter.1 he).1)
    · exact h1 e (List.mem_append_left _ he)

theorem fit_noHist (size : H → Nat) {ms : List (Meter K D H)} (hn : NoHist ms) (h : Heap H) (o : Metrics K D) : FitMetrics false size ms h o := by
  refine ⟨fun j s m hs hm => ⟨fun i x v hx hv a ha ht f g e => ?_, fun h => by cases h⟩, fun h => by cases h⟩
  rw [e] at ht
  exact absurd ht.symm (hn m (List.mem_of_getElem? hm) v (List.mem_of_getElem? hv) f)

/-- What a step needs. -/
def StepOk (own : Bool) (owner : Nat → Nat) (size : H → Nat) (st : Step K D H) : Prop :=
  Allowed size st ∧ (own = true → owner st.obj = st.reader) ∧ (own = false → ∀ ms, NoHist (st.change ms))

theorem step_spec [DecidableEq K] {L : Lib H} {size : H → Nat} (hL : L.Sound size) (E : Env K D) (ovf : K) (res : D) {own : Bool} {owner : Nat → Nat} {s : Sys K D H}
    (hi : Inv own owner size s) (reuse : Bool) (st : Step K D H) (hst : StepOk own owner size st) :
    let r := s.step L E ovf res reuse st
    r.2 = report L res st.q (st.change (s.meters st.reader)) ∧ r.1.meters = upd s.meters st.reader (metersAfter L ovf (st.change (s.meters st.reader))) ∧
      Inv own owner size r.1 ∧ ∀ o m, o ≠ st.obj → s.objs o = some m → seen r.1.heap m = seen s.heap m := by
  obtain ⟨hok, hgrow⟩ := hst.1 _ (hi.ok st.reader)
  have husable : ∀ o, (if reuse then s.objs st.obj else none) = some o → Usable own size (st.change (s.meters st.reader)) s.heap o := by
    intro o ho
    cases reuse with
    | false => cases ho
    | true =>
      change s.objs st.obj = some o at ho
      refine ⟨(hi.mem _ o ho).1, ?_, (hi.mem _ o ho).2⟩
      cases own with
      | true =>
        have := hi.fit _ o ho rfl
        rw [hst.2.1 rfl] at this
        exact fit_grows hgrow this
      | false => exact fit_noHist size (hst.2.2 rfl _) _ _
  obtain ⟨k1, k2, k3, k4⟩ := produce_spec own hL E ovf res st.q (st.change (s.meters st.reader)) hok s.heap (if reuse then s.objs st.obj else none) husable
  have hB : ∀ a ∈ ((if reuse then s.objs st.obj else none).map ptrs).getD [], ∃ m, s.objs st.obj = some m ∧ a ∈ ptrs m := by
    intro a ha
    cases reuse with
    | false => cases ha
    | true =>
      change a ∈ ((s.objs st.obj).map ptrs).getD [] at ha
      cases ho : s.objs st.obj with
      | none => rw [ho] at ha; cases ha
      | some m => rw [ho] at ha; exact ⟨m, rfl, ha⟩
  unfold Sys.step
  dsimp only
  generalize produce L E ovf res st.q (st.change (s.meters st.reader)) s.heap (if reuse then s.objs st.obj else none) = r at *
  obtain ⟨ms', h', o'⟩ := r
  dsimp only at *
  subst k1
  -- other objects are not touched
  have hkeep : ∀ o m, o ≠ st.obj → s.objs o = some m → ∀ a ∈ ptrs m, h'.cell a = s.heap.cell a := by
    intro o m ho hm a ha
    refine k4.2.2.2 a ((hi.mem o m hm).1.2 a ha) (fun hb => ?_)
    obtain ⟨m', hm', ha'⟩ := hB a hb
    exact hi.apart o st.obj m m' ho hm hm' a ha ha'
  have hnew : ∀ o m, o ≠ st.obj → s.objs o = some m → ∀ a ∈ ptrs m, a ∉ ptrs o' := by
    intro o m ho hm a ha hb
    rcases (k4.2.2.1 a hb).1 with h | h
    · obtain ⟨m', hm', ha'⟩ := hB a h
      exact hi.apart o st.obj m m' ho hm hm' a ha ha'
    · have := (hi.mem o m hm).1.2 a ha; omega
  refine ⟨k2, rfl, ⟨?_, ?_, ?_, ?_⟩, ?_⟩
  · intro r
    dsimp only
    by_cases hr : r = st.reader
    · subst hr; rw [upd_same]; exact ok_after hL ovf hok
    · rw [upd_ne _ _ hr]; exact hi.ok r
  · intro o m hm
    dsimp only at hm ⊢
    by_cases ho : o = st.obj
    · subst ho; rw [upd_same] at hm; cases hm
      exact ⟨k3.own, k3.tidy⟩
    · rw [upd_ne _ _ ho] at hm
      obtain ⟨h1, h2⟩ := hi.mem o m hm
      exact ⟨⟨h1.1, fun a ha => Nat.lt_of_lt_of_le (h1.2 a ha) k4.1⟩, h2⟩
  · intro o m hm hown
    dsimp only at hm ⊢
    by_cases ho : o = st.obj
    · subst ho; rw [upd_same] at hm; cases hm
      rw [hst.2.1 hown, upd_same]
      have := k3.fit
      rw [hown] at this
      exact fit_grows (grows_after L ovf _) this
    · rw [upd_ne _ _ ho] at hm
      have h1 := fit_cong (hkeep o m ho hm) (hi.fit o m hm hown)
      by_cases hr : owner o = st.reader
      · rw [hr, upd_same]
        rw [hr] at h1
        exact fit_grows (grows_trans hgrow (grows_after L ovf _)) h1
      · rw [upd_ne _ _ hr]; exact h1
  · intro o1 o2 m1 m2 hne h1 h2 a ha
    dsimp only at h1 h2
    by_cases e1 : o1 = st.obj
    · have e2 : o2 ≠ st.obj := fun e2 => hne (e1.trans e2.symm)
      rw [e1, upd_same] at h1; cases h1
      rw [upd_ne _ _ e2] at h2
      exact fun hb => hnew o2 m2 e2 h2 a hb ha
    · rw [upd_ne _ _ e1] at h1
      by_cases e2 : o2 = st.obj
      · rw [e2, upd_same] at h2; cases h2
        exact hnew o1 m1 e1 h1 a ha
      · rw [upd_ne _ _ e2] at h2
        exact hi.apart o1 o2 m1 m2 hne h1 h2 a ha
  · intro o m ho hm
    unfold seen
    congr 1
    refine List.map_congr_left (fun sc hsc => seenScope_cong (fun a ha => hkeep o m ho hm a ?_))
    unfold ptrs
    rw [slicePtrs_eq]
    exact List.mem_append_left _ (List.mem_flatMap.2 ⟨sc, hsc, ha⟩)

theorem run_spec [DecidableEq K] {L : Lib H} {size : H → Nat} (hL : L.Sound size) (E : Env K D) (ovf : K) (res : D) {own : Bool} {owner : Nat → Nat} (reuse : Bool)
    (sts : List (Step K D H)) (hst : ∀ st ∈ sts, StepOk own owner size st) {s : Sys K D H} (hi : Inv own owner size s) :
    (s.run L E ovf res reuse sts).2 = wanted L ovf res s.meters sts ∧ Inv own owner size (s.run L E ovf res reuse sts).1 := by
  induction sts generalizing s with
  | nil => exact ⟨rfl, hi⟩
  | cons st sts ih =>
    obtain ⟨h1, h2, h3, -⟩ := step_spec hL E ovf res hi reuse st (hst st List.mem_cons_self)
    obtain ⟨k1, k2⟩ := ih (fun st' h' => hst st' (List.mem_cons_of_mem _ h')) h3
    refine ⟨?_, k2⟩
    rw [h2] at k1
    unfold Sys.run wanted
    dsimp only
    rw [h1, k1]

theorem start_inv (own : Bool) (owner : Nat → Nat) (size : H → Nat) (h : Heap H) (ms : Nat → List (Meter K D H)) (hms : ∀ r, MetersOk size (ms r)) :
    Inv own owner size (start h ms) := ⟨hms, (by intro o m hm; cases hm), (by intro o m hm; cases hm), (by intro o o' m m' _ hm; cases hm)⟩

/-! ### C39 -/

/-- C39. Over any history of collections by any readers, with any changes of the meters between them, in which every `Metrics` object is used by one reader: what is
seen in the result of each collection is what is seen when each is given a new object, and it is the report of the views at that time, whatever earlier
collections left in the object. -/
theorem C39_reuse [DecidableEq K] {L : Lib H} {size : H → Nat} (hL : L.Sound size) (E : Env K D) (ovf : K) (res : D) (owner : Nat → Nat) (h : Heap H)
    (ms : Nat → List (Meter K D H)) (hms : ∀ r, MetersOk size (ms r)) (sts : List (Step K D H)) (hst : ∀ st ∈ sts, Allowed size st ∧ owner st.obj = st.reader) :
    ((start h ms).run L E ovf res true sts).2 = ((start h ms).run L E ovf res false sts).2 ∧
    ((start h ms).run L E ovf res true sts).2 = wanted L ovf res ms sts := by
  have hok : ∀ st ∈ sts, StepOk true owner size st := fun st h => ⟨(hst st h).1, fun _ => (hst st h).2, fun h => by cases h⟩
  have h1 := (run_spec hL E ovf res true sts hok (start_inv true owner size h ms hms)).1
  have h2 := (run_spec hL E ovf res false sts hok (start_inv true owner size h ms hms)).1
  exact ⟨h1.trans h2.symm, h1⟩

/-- C39. The same when objects are passed around between readers in any way, as long as no view is a histogram. -/
theorem C39_share_partial [DecidableEq K] {L : Lib H} {size : H → Nat} (hL : L.Sound size) (E : Env K D) (ovf : K) (res : D) (h : Heap H)
    (ms : Nat → List (Meter K D H)) (hms : ∀ r, MetersOk size (ms r)) (sts : List (Step K D H)) (hst : ∀ st ∈ sts, Allowed size st ∧ ∀ ms, NoHist (st.change ms)) :
    ((start h ms).run L E ovf res true sts).2 = ((start h ms).run L E ovf res false sts).2 ∧
    ((start h ms).run L E ovf res true sts).2 = wanted L ovf res ms sts := by
  have hok : ∀ st ∈ sts, StepOk false id size st := fun st h => ⟨(hst st h).1, (fun h => by cases h), fun _ => (hst st h).2⟩
  have h1 := (run_spec hL E ovf res true sts hok (start_inv false id size h ms hms)).1
  have h2 := (run_spec hL E ovf res false sts hok (start_inv false id size h ms hms)).1
  exact ⟨h1.trans h2.symm, h1⟩

/-- C39. A collection changes nothing seen in any object other than the one it was given: results which are not handed back stay as they are. -/
theorem C39_others [DecidableEq K] {L : Lib H} {size : H → Nat} (hL : L.Sound size) (E : Env K D) (ovf : K) (res : D) (owner : Nat → Nat) (h : Heap H)
    (ms : Nat → List (Meter K D H)) (hms : ∀ r, MetersOk size (ms r)) (sts : List (Step K D H)) (hst : ∀ st ∈ sts, Allowed size st ∧ owner st.obj = st.reader)
    (st : Step K D H) (hs : Allowed size st ∧ owner st.obj = st.reader) (o : Nat) (ho : o ≠ st.obj) (m : Metrics K D)
    (hm : ((start h ms).run L E ovf res true sts).1.objs o = some m) :
    seen (((start h ms).run L E ovf res true sts).1.step L E ovf res true st).1.heap m = seen ((start h ms).run L E ovf res true sts).1.heap m := by
  have hok : ∀ st, (Allowed size st ∧ owner st.obj = st.reader) → StepOk (K := K) (D := D) true owner size st := fun st h => ⟨h.1, fun _ => h.2, fun h => by cases h⟩
  have h1 := (run_spec hL E ovf res true sts (fun st h => hok st (hst st h)) (start_inv true owner size h ms hms)).2
  exact (step_spec hL E ovf res h1 true st (hok st hs)).2.2.2 o m ho hm

/-! ### Concrete cases -/

namespace Ex

/-- A histogram which is a maximum size and a list of values; copying into one of another size keeps that size, and loses values if it is smaller. -/
def lib : Lib (Nat × List Nat) where
  init := fun c => (c, [])
  clear := fun h => (h.1, [])
  swap := fun a b => (b, a)
  copyInto := fun a b => (b.1, if a.1 = b.1 then a.2 else a.2.take b.1)
  count := fun h => h.2.length
  nonzero := fun _ x => x != 0
  sub := fun _ x y => x - y

theorem lib_sound : lib.Sound Prod.fst where
  init := fun _ => rfl
  clear := fun _ => rfl
  swap := fun _ _ _ => rfl
  copyInto := fun a b h => by show (b.1, if a.1 = b.1 then a.2 else _) = a; rw [if_pos h, ← h]

def env : Env Nat Nat := ⟨0, 0, fun n => n⟩

/-- A delta counter with these series. -/
def counter (es : List (Nat × UInt64)) : View Nat Nat (Nat × List Nat) := ⟨7, .lowmemorySync, .sum true false, 0, es.map (fun e => ⟨e.1, 0, .sum true false e.2⟩), []⟩
/-- A cumulative histogram with a maximum size. -/
def histo (n : Nat) : View Nat Nat (Nat × List Nat) := ⟨8, .statefulSync, .hist false, n, [⟨1, 0, .hist false (n, List.replicate 3 5)⟩], []⟩

def empty : Heap (Nat × List Nat) := ⟨0, fun _ => .sum false false 0⟩

def setCounter (es : List (Nat × UInt64)) (ms : List (Meter Nat Nat (Nat × List Nat))) : List (Meter Nat Nat (Nat × List Nat)) :=
  ms.map (fun m => { m with views := m.views.map (fun v => if v.desc = 7 then { v with data := (counter es).data } else v) })

def addMeter (ms : List (Meter Nat Nat (Nat × List Nat))) : List (Meter Nat Nat (Nat × List Nat)) := ms ++ [⟨2, [histo 4]⟩]

/-- C39: one reader, three collections into one object: points disappear, and a meter appears. -/
example : ((start empty (fun _ => [⟨1, [counter [(1, 3), (2, 4)], histo 4]⟩])).run lib env 9 0 true
      [⟨0, 0, ⟨0, 0, 1⟩, id⟩, ⟨0, 0, ⟨0, 1, 2⟩, setCounter [(1, 0), (2, 5)]⟩, ⟨0, 0, ⟨0, 2, 3⟩, addMeter⟩]).2 =
    [(0, [(1, [(7, [⟨1, .delta, some (.sum true false 3), 0, 1⟩, ⟨2, .delta, some (.sum true false 4), 0, 1⟩]),
               (8, [⟨1, .cumulative, some (.hist false (4, [5, 5, 5])), 0, 1⟩])])]),
     (0, [(1, [(7, [⟨2, .delta, some (.sum true false 5), 1, 2⟩]), (8, [⟨1, .cumulative, some (.hist false (4, [5, 5, 5])), 0, 2⟩])])]),
     (0, [(1, [(7, []), (8, [⟨1, .cumulative, some (.hist false (4, [5, 5, 5])), 0, 3⟩])]),
          (2, [(8, [⟨1, .cumulative, some (.hist false (4, [5, 5, 5])), 0, 3⟩])])])] := by decide +kernel

/-- The change before the third collection above is allowed. -/
example : Allowed Prod.fst (⟨0, 0, ⟨0, 0, 0⟩, addMeter⟩ : Step Nat Nat (Nat × List Nat)) := by
  intro ms h
  refine ⟨fun m hm => ?_, ?_, ?_⟩
  · rcases List.mem_append.1 hm with hm | hm
    · exact h m hm
    · rw [List.mem_singleton] at hm; subst hm
      intro v hv
      have hv : v = histo 4 := List.mem_singleton.1 hv
      subst hv
      intro e he
      have he : e = ⟨1, 0, .hist false (4, List.replicate 3 5)⟩ := by
        have h2 : e ∈ [(⟨1, 0, .hist false (4, List.replicate 3 5)⟩ : Entry Nat (Nat × List Nat))] := he
        exact List.mem_singleton.1 h2
      subst he
      exact ⟨rfl, fun f h e => by cases e; rfl⟩
  · show ms.length ≤ (ms ++ _).length
    rw [List.length_append]; omega
  · intro j m m' h1 h2
    have h3 := get_append_left (b := [⟨2, [histo 4]⟩]) h1
    change (ms ++ _)[j]? = _ at h2
    rw [h3] at h2; cases h2
    refine ⟨Nat.le_refl _, fun i v v' a b => ?_⟩
    rw [a] at b; cases b; exact ⟨rfl, rfl⟩

end Ex

/-- C39 fails for a library (as `go-expohisto` is understood to be) in which copying into a histogram keeps that histogram's maximum size: an object filled by a reader
with small histograms, given to a reader with large ones, makes the second reader's histogram small. -/
theorem C39_other_reader_fails : ∃ (L : Lib (Nat × List Nat)), L.Sound Prod.fst ∧
    ∃ (ms : Nat → List (Meter Nat Nat (Nat × List Nat))) (sts : List (Step Nat Nat (Nat × List Nat))),
      (∀ r, MetersOk Prod.fst (ms r)) ∧ (∀ st ∈ sts, st.change = id) ∧
      ((start Ex.empty ms).run L Ex.env 9 0 true sts).2 ≠ ((start Ex.empty ms).run L Ex.env 9 0 false sts).2 := by
  refine ⟨Ex.lib, Ex.lib_sound, fun r => [⟨1, [Ex.histo (r + 2)]⟩], [⟨0, 0, ⟨0, 0, 1⟩, id⟩, ⟨8, 0, ⟨0, 0, 1⟩, id⟩], fun r m hm v hv e he => ?_, ?_, by decide +kernel⟩
  · rw [List.mem_singleton] at hm; subst hm
    have hv : v = Ex.histo (r + 2) := List.mem_singleton.1 hv
    subst hv
    have h2 : e ∈ [(⟨1, 0, .hist false (r + 2, List.replicate 3 5)⟩ : Entry Nat (Nat × List Nat))] := he
    rw [List.mem_singleton.1 h2]
    exact ⟨rfl, fun f h e => by cases e; rfl⟩
  · intro st hst
    rcases List.mem_cons.1 hst with rfl | hst
    · rfl
    · rw [List.mem_singleton.1 hst]

end Verif.Reuse
