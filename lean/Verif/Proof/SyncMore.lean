import Verif.Proof.SyncVis

/-!
Helper file: cardinality limits, cumulative points, sequential runs.
-/

namespace Verif.Sync
open Verif
variable {AL KS N S : Type} [DecidableEq KS]

/-! ### Lists -/

/-- Pointwise fewer copies of everything means fewer matches of anything. -/
theorem countP_le_of_count_le {α : Type} [BEq α] [LawfulBEq α] {p : α → Bool} :
    ∀ {l₁ l₂ : List α}, (∀ x, l₁.count x ≤ l₂.count x) → l₁.countP p ≤ l₂.countP p
  | [], _, _ => by simp
  | a :: t, l₂, h => by
    have ha : a ∈ l₂ := by
      have := h a
      rw [List.count_cons_self] at this
      exact List.count_pos_iff.mp (by omega)
    have hp := List.perm_cons_erase ha
    rw [hp.countP_eq, List.countP_cons, List.countP_cons]
    have := countP_le_of_count_le (p := p) (l₁ := t) (l₂ := l₂.erase a) (by
      intro x
      have := h x
      rw [hp.count_eq, List.count_cons, List.count_cons] at this
      omega)
    omega

theorem countP_eq_of_count_eq {α : Type} [BEq α] [LawfulBEq α] {p : α → Bool} {l₁ l₂ : List α}
    (h : ∀ x, l₁.count x = l₂.count x) : l₁.countP p = l₂.countP p :=
  Nat.le_antisymm (countP_le_of_count_le fun x => Nat.le_of_eq (h x))
    (countP_le_of_count_le fun x => Nat.le_of_eq (h x).symm)

theorem nodup_eraseDups {α : Type} [DecidableEq α] : ∀ (n : Nat) (l : List α), l.length ≤ n → l.eraseDups.Nodup
  | 0, l, h => by
    have : l = [] := List.length_eq_zero_iff.mp (by omega)
    subst this; simp
  | n + 1, [], _ => by simp
  | n + 1, a :: t, h => by
    rw [List.eraseDups_cons, List.nodup_cons]
    refine ⟨?_, nodup_eraseDups n _ ?_⟩
    · rw [List.mem_eraseDups]; simp
    · have := List.length_filter_le (fun b => !b == a) t
      simp only [List.length_cons] at h
      omega

/-- Number of distinct elements. -/
theorem distinct_le {α : Type} [DecidableEq α] {l m : List α} (h : ∀ x, x ∈ l → x ∈ m) : l.eraseDups.length ≤ m.length :=
  (nodup_eraseDups _ l (Nat.le_refl _)).length_le_of_subset (fun x hx => h x (List.mem_eraseDups.mp hx))

/-! ### Per-view entries with their series -/

/-- Updates applied to view `l`, with their series. -/
def appliedView (s : State AL KS N S) (l : Nat) : List (KS × Nat × Nat) :=
  (s.applied.filter (fun e => e.1 == l)).map (·.2)

/-- Updates reported for view `l`, with their series. -/
def reportedKV (es : List (Emit KS S)) (l : Nat) : List (KS × Nat × Nat) :=
  (es.filter (fun e => e.leaf == l)).flatMap (fun e => e.ops.map (fun o => (e.key, o)))

theorem count_reportedKV (es : List (Emit KS S)) (l : Nat) (k : KS) (x : Nat × Nat) :
    (reportedKV es l).count (k, x) =
      ((es.filter (fun e => e.leaf == l && e.key == k)).flatMap (·.ops)).countP (fun y => y == x) := by
  induction es with
  | nil => simp [reportedKV]
  | cons e es ih =>
    simp only [reportedKV, List.filter_cons] at ih ⊢
    by_cases h1 : e.leaf = l
    · simp only [h1, beq_self_eq_true, if_true, List.flatMap_cons, List.count_append, Bool.true_and, ih]
      by_cases h2 : e.key = k
      · simp only [h2, beq_self_eq_true, if_true, List.flatMap_cons, List.countP_append, Nat.add_right_cancel_iff]
        rw [List.count, List.countP_map]
        apply List.countP_congr
        intro y _
        simp
      · have : (e.key == k) = false := by simpa using h2
        simp only [this, Bool.false_eq_true, if_false]
        rw [List.count_eq_zero_of_not_mem, Nat.zero_add]
        simp only [List.mem_map, Prod.mk.injEq, not_exists, not_and]
        intro y _ hk
        exact absurd hk h2
    · have : (e.leaf == l) = false := by simpa using h1
      simp only [this, Bool.false_and, Bool.false_eq_true, if_false]
      exact ih

theorem count_appliedView (s : State AL KS N S) (l : Nat) (k : KS) (x : Nat × Nat) :
    (appliedView s l).count (k, x) = (appliedTo s l k).countP (fun y => y == x) := by
  unfold appliedView appliedTo
  induction s.applied with
  | nil => simp
  | cons e es ih =>
    simp only [List.filter_cons]
    by_cases h1 : e.1 = l
    · simp only [h1, beq_self_eq_true, if_true, Bool.true_and, List.map_cons, List.count_cons, ih]
      by_cases h2 : e.2.1 = k
      · simp only [h2, beq_self_eq_true, if_true, List.map_cons, List.countP_cons]
        congr 2
        simp [Prod.ext_iff, h2]
      · have : (e.2.1 == k) = false := by simpa using h2
        have h3 : (e.2 == (k, x)) = false := by
          simp only [beq_eq_false_iff_ne, ne_eq]
          intro h; apply h2; rw [h]
        simp [this, h3]
    · have : (e.1 == l) = false := by simpa using h1
      simp only [this, Bool.false_and, Bool.false_eq_true, if_false]
      exact ih

theorem reportedKV_map (es : List (Emit KS S)) (l : Nat) :
    (reportedKV es l).map (·.2) = (es.filter (fun e => e.leaf == l)).flatMap (·.ops) := by
  unfold reportedKV
  induction es.filter (fun e => e.leaf == l) with
  | nil => rfl
  | cons e es ih =>
    simp only [List.flatMap_cons, List.map_append, List.map_map, ih]
    congr 1
    simp [Function.comp_def]

theorem appliedView_countP (s : State AL KS N S) (l i : Nat) :
    (appliedView s l).countP (fun e => e.2.1 == i) = s.applied.countP (fun e => e.1 == l && e.2.2.1 == i) := by
  unfold appliedView
  rw [List.countP_map, List.countP_filter]
  apply List.countP_congr
  intro e _
  simp [and_comm]

theorem timesReported_eq (s : State AL KS N S) (l i : Nat) :
    timesReported s l i = (reportedKV s.emits l).countP (fun e => e.2.1 == i) := by
  unfold timesReported reportedView
  rw [← reportedKV_map, List.countP_map]
  rfl

/-! ### Cardinality of a view -/

/-- At most `lim` series, and when full one of them is the overflow series. -/
def DataLen (c : Cfg AL KS N S) (s : State AL KS N S) : Prop :=
  ∀ l, 1 ≤ c.lim l → (s.data l).length ≤ c.lim l ∧
    ((s.data l).length = c.lim l → Storage.has (s.data l) c.overflowKS = true)

theorem has_iff {V : Type} {t : Storage.Table KS V} {k : KS} : Storage.has t k = true ↔ ∃ v, (k, v) ∈ t := by
  unfold Storage.has
  simp only [List.any_eq_true, beq_iff_eq]
  constructor
  · rintro ⟨⟨a, b⟩, h1, h2⟩; exact ⟨b, by simpa using h2 ▸ h1⟩
  · rintro ⟨v, h⟩; exact ⟨(k, v), h, rfl⟩

theorem find_none_has {V : Type} {t : Storage.Table KS V} {k : KS} : Storage.find t k = none ↔ Storage.has t k = false := by
  unfold Storage.find Storage.has
  simp [List.find?_eq_none]

theorem insert_len {V : Type} {lim : Nat} {ovf k0 : KS} {t : Storage.Table KS V} (hlim : 1 ≤ lim) (v : V)
    (h1 : t.length ≤ lim) (h2 : t.length = lim → Storage.has t ovf = true)
    (hf : Storage.find t (Storage.resolveKey lim ovf t k0) = none) :
    t.length + 1 ≤ lim ∧ (t.length + 1 = lim → Storage.has ((Storage.resolveKey lim ovf t k0, v) :: t) ovf = true) := by
  rw [find_none_has] at hf
  have hcons : ∀ k, Storage.has ((k, v) :: t) ovf = ((k == ovf) || Storage.has t ovf) := by
    intro k; simp [Storage.has]
  rw [hcons]
  generalize hk : Storage.resolveKey lim ovf t k0 = k at *
  unfold Storage.resolveKey at hk
  grind

section
variable {c : Cfg AL KS N S} {s s' : State AL KS N S}
set_option maxHeartbeats 1000000

theorem delete_lt {V : Type} {t : Storage.Table KS V} {k : KS} {v : V} (h : (k, v) ∈ t) :
    (Storage.delete t k).length < t.length := by
  unfold Storage.delete
  exact List.length_filter_lt_length_iff_exists.mpr ⟨(k, v), h, by simp⟩

theorem DataLen.preserved (h : DataLen c s) (w : Wf c s) (hs : Step c s s') : DataLen c s' := by
  cases hs
  case initNew r l k hw hl hll hk hf =>
    intro l' hl'
    have h0 := h l' hl'
    by_cases e : l' = l
    · subst e
      have := insert_len hl' s.nextHold h0.1 h0.2 (k0 := c.filt l' (c.newSet (s.recs r).attrs)) (by rw [← hk]; exact hf)
      rw [← hk] at this
      simpa [initNew] using this
    · simpa [initNew, e] using h0
  case lmvDel t l td k h' hpc hcc =>
    have hm := (w.lCur t l td k h' 0 hpc).1
    intro l' hl'
    have h0 := h l' hl'
    by_cases e : l' = l
    · subst e
      have := delete_lt hm
      simp only [setTask, upd_same]
      exact ⟨by omega, fun _ => by omega⟩
    · simpa [setTask, e] using h0
  all_goals exact h

/-! ### Cumulative points -/

/-- Every point contains only applied updates of its series. -/
def EmitLe (s : State AL KS N S) : Prop :=
  ∀ e, e ∈ s.emits → ∀ p, e.ops.countP p ≤ (appliedTo s e.leaf e.key).countP p

theorem applied_grow {l : Nat} {k : KS} {p} (hs : Step c s s') :
    (appliedTo s l k).countP p ≤ (appliedTo s' l k).countP p := by
  cases hs
  case upd i r k' sq a hpc ha =>
    simp only [appliedTo, setOpPc, List.filter_cons]
    split
    · simp only [List.map_cons, List.countP_cons]; omega
    · exact Nat.le_refl _
  all_goals exact Nat.le_refl _

theorem EmitLe.preserved (h : EmitLe s) (hc : Cons c s) (w : Wf c s) (hs : Step c s s') : EmitLe s' := by
  have hg := fun l k p => applied_grow (l := l) (k := k) (p := p) hs
  have key : ∀ x, x < s.nextHold → ∀ p,
      (s.hold x).store.ops.countP p ≤ (appliedTo s (s.hold x).leaf (s.hold x).key).countP p := by
    intro x hx p
    have h0 := hc (s.hold x).leaf (s.hold x).key p
    have h2 := le_sumTo (n := s.nextHold) (a := x) (f := fun b => if (s.hold b).leaf = (s.hold x).leaf ∧ (s.hold b).key = (s.hold x).key then
      (s.hold b).store.ops.countP p else 0) hx
    simp only [and_self, if_true] at h2
    rw [h0]; unfold holdW; omega
  cases hs
  case lscanCum t l td k h' hpc hr hd =>
    have hm := (w.lTodo t l (by rw [hpc]; rfl)).2 (k, h') (by rw [hpc]; exact hr)
    have hdo := w.dataOk l k h' hm
    intro e he p
    simp only [setTask, List.mem_cons] at he
    rcases he with he | he
    · subst he
      have := key h' hdo.1 p
      rw [hdo.2.1, hdo.2.2] at this
      exact this
    · exact Nat.le_trans (h e he p) (hg _ _ _)
  case lmvKeep t l td k h' nr hpc hcc =>
    have hdo := w.dataOk l k h' (w.lCur t l td k h' nr hpc).1
    intro e he p
    simp only [setTask, List.mem_cons] at he
    rcases he with he | he
    · subst he
      have := key h' hdo.1 p
      rw [hdo.2.1, hdo.2.2] at this
      exact this
    · exact Nat.le_trans (h e he p) (hg _ _ _)
  case lmvDel t l td k h' hpc hcc =>
    have hdo := w.dataOk l k h' (w.lCur t l td k h' 0 hpc).1
    intro e he p
    simp only [setTask, List.mem_cons] at he
    rcases he with he | he
    · subst he
      have := key h' hdo.1 p
      rw [hdo.2.1, hdo.2.2] at this
      exact this
    · exact Nat.le_trans (h e he p) (hg _ _ _)
  all_goals (intro e he p; exact Nat.le_trans (h e he p) (hg _ _ _))

/-- The updates of a cumulative point are still in its series. -/
def CumStore (c : Cfg AL KS N S) (s : State AL KS N S) : Prop :=
  ∀ e, e ∈ s.emits → c.delta e.leaf = false → ∃ h, (e.key, h) ∈ s.data e.leaf ∧ e.ops <:+ (s.hold h).store.ops

/-- Successive cumulative points of a series extend each other (newest first). -/
def CumMono (c : Cfg AL KS N S) (s : State AL KS N S) : Prop :=
  s.emits.Pairwise (fun e e' => e'.leaf = e.leaf → e'.key = e.key → c.delta e.leaf = false → e'.ops <:+ e.ops)

theorem CumStore.preserved (h : CumStore c s) (hd : LmvDelta c s) (w : Wf c s) (hs : Step c s s') : CumStore c s' := by
  cases hs
  case initOld r l k h' hw hl hll hk hf =>
    intro e he hde
    obtain ⟨x, h1, h2⟩ := h e he hde
    refine ⟨x, h1, ?_⟩
    by_cases ex : x = h'
    · subst ex; simpa [initOld] using h2
    · simpa [initOld, ex] using h2
  case initNew r l k hw hl hll hk hf =>
    intro e he hde
    obtain ⟨x, h1, h2⟩ := h e he hde
    have hx := (w.dataOk _ _ _ h1).1
    have hne : x ≠ s.nextHold := by omega
    refine ⟨x, ?_, by simpa [initNew, hne] using h2⟩
    by_cases el : e.leaf = l
    · simp [initNew, el]; right; rw [← el]; exact h1
    · simpa [initNew, el] using h1
  case mg t o td r m mN rel k a hpc ha =>
    intro e he hde
    obtain ⟨x, h1, h2⟩ := h e he hde
    refine ⟨x, h1, ?_⟩
    by_cases ex : x = (s.acc a).holder
    · subst ex
      simp only [setTask, setAcc, setHold, upd_same]
      exact h2.trans (List.suffix_append _ _)
    · simpa [setTask, setAcc, setHold, ex] using h2
  case rlRel t o td r m mN k a hpc ha =>
    intro e he hde
    obtain ⟨x, h1, h2⟩ := h e he hde
    refine ⟨x, h1, ?_⟩
    by_cases ex : x = (s.acc a).holder
    · subst ex; simpa [setTask, setAcc, setHold] using h2
    · simpa [setTask, setAcc, setHold, ex] using h2
  case lscanCum t l td k h' hpc hr hdl =>
    have hm := (w.lTodo t l (by rw [hpc]; rfl)).2 (k, h') (by rw [hpc]; exact hr)
    intro e he hde
    simp only [setTask, List.mem_cons] at he
    rcases he with he | he
    · subst he; exact ⟨h', hm, List.suffix_refl _⟩
    · exact h e he hde
  case lmvKeep t l td k h' nr hpc hcc =>
    have hm := (w.lCur t l td k h' nr hpc).1
    have hdl := hd t l td k h' nr hpc
    have hdo := w.dataOk l k h' hm
    intro e he hde
    simp only [setTask, List.mem_cons] at he
    rcases he with he | he
    · subst he; rw [hdl] at hde; cases hde
    · obtain ⟨x, h1, h2⟩ := h e he hde
      have : x ≠ h' := by
        intro ex; subst ex
        have := w.dataOk _ _ _ h1
        rw [← this.2.1, hdo.2.1, hdl] at hde; cases hde
      exact ⟨x, h1, by simpa [setTask, setHold, this] using h2⟩
  case lmvDel t l td k h' hpc hcc =>
    have hm := (w.lCur t l td k h' 0 hpc).1
    have hdl := hd t l td k h' 0 hpc
    have hdo := w.dataOk l k h' hm
    intro e he hde
    simp only [setTask, List.mem_cons] at he
    rcases he with he | he
    · subst he; rw [hdl] at hde; cases hde
    · obtain ⟨x, h1, h2⟩ := h e he hde
      have : x ≠ h' := by
        intro ex; subst ex
        have := w.dataOk _ _ _ h1
        rw [← this.2.1, hdo.2.1, hdl] at hde; cases hde
      have hle : e.leaf ≠ l := by intro ex; rw [ex, hdl] at hde; cases hde
      exact ⟨x, by simpa [setTask, setHold, hle] using h1, by simpa [setTask, setHold, this] using h2⟩
  all_goals exact h

theorem CumMono.preserved (h : CumMono c s) (hst : CumStore c s) (hd : LmvDelta c s) (w : Wf c s) (hs : Step c s s') :
    CumMono c s' := by
  cases hs
  case lscanCum t l td k h' hpc hr hdl =>
    have hm := (w.lTodo t l (by rw [hpc]; rfl)).2 (k, h') (by rw [hpc]; exact hr)
    unfold CumMono
    simp only [setTask, List.pairwise_cons]
    refine ⟨?_, h⟩
    intro e he h1 h2 h3
    obtain ⟨x, g1, g2⟩ := hst e he (by rw [h1]; exact h3)
    rw [h1, h2] at g1
    have := nodup_keys_eq (w.dataKeys l) g1 hm
    subst this
    exact g2
  case lmvKeep t l td k h' nr hpc hcc =>
    have hdl := hd t l td k h' nr hpc
    unfold CumMono
    simp only [setTask, List.pairwise_cons]
    refine ⟨?_, h⟩
    intro e he h1 h2 h3
    rw [hdl] at h3; cases h3
  case lmvDel t l td k h' hpc hcc =>
    have hdl := hd t l td k h' 0 hpc
    unfold CumMono
    simp only [setTask, List.pairwise_cons]
    refine ⟨?_, h⟩
    intro e he h1 h2 h3
    rw [hdl] at h3; cases h3
  all_goals exact h

structure More (c : Cfg AL KS N S) (s : State AL KS N S) : Prop where
  full : Full c s
  dataLen : DataLen c s
  emitLe : EmitLe s
  cumStore : CumStore c s
  cumMono : CumMono c s

theorem More.preserved (h : More c s) (hs : Step c s s') : More c s' where
  full := h.full.preserved hs
  dataLen := h.dataLen.preserved h.full.inv.wf hs
  emitLe := h.emitLe.preserved h.full.vals.p.cons h.full.inv.wf hs
  cumStore := h.cumStore.preserved h.full.vals.p.lmvDelta h.full.inv.wf hs
  cumMono := h.cumMono.preserved h.cumStore h.full.vals.p.lmvDelta h.full.inv.wf hs

theorem More.initial (n0 : N) : More c (Sync.initial c n0) where
  full := Full.initial n0
  dataLen := by
    intro l hl
    simp only [Sync.initial, List.length_nil]
    exact ⟨by omega, fun h => by omega⟩
  emitLe := by simp [EmitLe, Sync.initial]
  cumStore := by simp [CumStore, Sync.initial]
  cumMono := by simp [CumMono, Sync.initial]

theorem reachable_more {n0 : N} (hr : Reachable c n0 s) : More c s :=
  (reachable_ind (P := More c) (More.initial n0) (fun _ _ _ hp hs => hp.preserved hs) hr).2

end
end Verif.Sync
