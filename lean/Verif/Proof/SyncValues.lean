import Verif.Proof.SyncSolo
import Verif.Proof.Aggr

/-!
Helper file: totals over whole views, kept points, cumulative points.
-/

namespace Verif.Sync
open Verif Verif.Number Verif.Aggr Verif.Spec
variable {AL KS N S : Type} [DecidableEq KS]
variable {c : Cfg AL KS N S} {s s' : State AL KS N S}

/-! ### Kept points -/

/-- A delta point is kept exactly when its value has a change. -/
def KeptIff (c : Cfg AL KS N S) (s : State AL KS N S) : Prop :=
  ∀ e, e ∈ s.emits → e.kept = (if c.delta e.leaf then (c.agg e.leaf).hasChange e.val else true)

theorem KeptIff.preserved (h : KeptIff c s) (hd : LmvDelta c s) (hs : Step c s s') : KeptIff c s' := by
  cases hs
  case lmvKeep t l td k h' nr hpc hcc =>
    intro e he
    simp only [setTask, List.mem_cons] at he
    rcases he with he | he
    · subst he
      have := hd t l td k h' nr hpc
      simp [this]
    · exact h e he
  case lmvDel t l td k h' hpc hcc =>
    intro e he
    simp only [setTask, List.mem_cons] at he
    rcases he with he | he
    · subst he
      have := hd t l td k h' _ hpc
      simp [this, hcc]
    · exact h e he
  case lscanCum t l td k h' hpc hr hdl =>
    intro e he
    simp only [setTask, List.mem_cons] at he
    rcases he with he | he
    · subst he; simp [hdl]
    · exact h e he
  all_goals exact h

theorem reachable_kept {n0 : N} (hr : Reachable c n0 s) : KeptIff c s :=
  (reachable_ind (P := fun s => Vals2 c s ∧ KeptIff c s)
    ⟨⟨Prog2.initial n0, SeqPos.initial n0, Vals.initial n0, by simp [KeptOk, Sync.initial]⟩, by simp [KeptIff, Sync.initial]⟩
    (fun _ _ hi hp hs => ⟨⟨hp.1.p.preserved hi hs, hp.1.seqPos.preserved hs,
      hp.1.vals.preserved hp.1.seqPos hp.1.p.cons hp.1.p.lmvDelta hi hs, hp.1.kept.preserved hp.1.p.lmvDelta hs⟩,
      hp.2.preserved hp.1.p.lmvDelta hs⟩) hr).2.2

/-! ### View-level conservation -/

theorem count_keyed {α : Type} [BEq (Nat × Nat)] [LawfulBEq (Nat × Nat)] [BEq (KS × Nat × Nat)] [LawfulBEq (KS × Nat × Nat)]
    (L : List α) (key : α → KS) (ops : α → List (Nat × Nat)) (k : KS) (x : Nat × Nat) :
    (L.flatMap (fun a => (ops a).map (fun o => (key a, o)))).count (k, x) =
      ((L.filter (fun a => key a == k)).flatMap ops).count x := by
  induction L with
  | nil => simp
  | cons a t ih =>
    rw [List.flatMap_cons, List.count_append, ih, List.filter_cons]
    by_cases h : key a = k
    · rw [if_pos (by simpa using h), List.flatMap_cons, List.count_append]
      congr 1
      rw [h]
      generalize ops a = L
      induction L with
      | nil => rfl
      | cons y t ih => rw [List.map_cons, List.count_cons, List.count_cons, ih]; simp
    · rw [if_neg (by simpa using h)]
      have : ((ops a).map (fun o => (key a, o))).count (k, x) = 0 := by
        rw [List.count_eq_zero]
        simp only [List.mem_map, not_exists, not_and]
        intro o _ he
        simp only [Prod.mk.injEq] at he
        exact h he.1
      omega

theorem view_cons (hm : More c s) {l : Nat} (hd : c.delta l = true) :
    (appliedAll s l).Perm (reportedView s l ++ inAccsAll s l ++ inSeriesAll s l) := by
  let A : List (KS × Nat × Nat) := (s.applied.filter (fun e => e.1 == l)).map (·.2)
  let R : List (KS × Nat × Nat) := (s.emits.filter (fun e => e.leaf == l)).flatMap (fun e => e.ops.map (fun o => (e.key, o)))
  let B : List (KS × Nat × Nat) := ((List.range s.nextAcc).filter (fun a => (s.acc a).leaf == l)).flatMap
    (fun a => ((s.acc a).cur.ops ++ (s.acc a).snap.ops).map (fun o => ((s.acc a).key, o)))
  let D : List (KS × Nat × Nat) := (s.data l).flatMap (fun e => ((s.hold e.2).store.ops).map (fun o => (e.1, o)))
  have hp : A.Perm (R ++ B ++ D) := by
    rw [List.perm_iff_count]
    rintro ⟨k, x⟩
    have h := (cons_perm hm.full.inv hm.full.vals.p.cons hd k).count_eq x
    rw [List.count_append, List.count_append] at h ⊢
    have hA : A.count (k, x) = (appliedTo s l k).count x := by
      have := count_appliedView s l k x
      unfold appliedView at this
      rw [this]; rfl
    have hR : R.count (k, x) = (reported s l k).count x := by
      have := count_reportedKV s.emits l k x
      unfold reportedKV at this
      rw [this]; rfl
    have hB : B.count (k, x) = (inAccs s l k).count x := by
      unfold inAccs
      rw [count_keyed, List.filter_filter]
      congr 2
      apply List.filter_congr
      intro a _
      exact Bool.and_comm _ _
    have hD : D.count (k, x) = (inSeries s l k).count x := by
      unfold inSeries
      rw [count_keyed]
    rw [hA, hR, hB, hD]; exact h
  have hm2 := hp.map (·.2)
  have e1 : A.map (·.2) = appliedAll s l := by simp [A, appliedAll]
  have e2 : (R ++ B ++ D).map (·.2) = reportedView s l ++ inAccsAll s l ++ inSeriesAll s l := by
    simp [R, B, D, reportedView, inAccsAll, inSeriesAll, List.map_flatMap, Function.comp_def]
  rw [e1, e2] at hm2
  exact hm2

theorem view_cons_cum (hm : More c s) {l : Nat} (hd : c.delta l = false) :
    (appliedAll s l).Perm (inAccsAll s l ++ inSeriesAll s l) := by
  let A : List (KS × Nat × Nat) := (s.applied.filter (fun e => e.1 == l)).map (·.2)
  let B : List (KS × Nat × Nat) := ((List.range s.nextAcc).filter (fun a => (s.acc a).leaf == l)).flatMap
    (fun a => ((s.acc a).cur.ops ++ (s.acc a).snap.ops).map (fun o => ((s.acc a).key, o)))
  let D : List (KS × Nat × Nat) := (s.data l).flatMap (fun e => ((s.hold e.2).store.ops).map (fun o => (e.1, o)))
  have hp : A.Perm (B ++ D) := by
    rw [List.perm_iff_count]
    rintro ⟨k, x⟩
    have h := (cons_perm_cum hm.full.inv hm.full.vals.p.cons hd k).count_eq x
    rw [List.count_append] at h ⊢
    have hA : A.count (k, x) = (appliedTo s l k).count x := by
      have := count_appliedView s l k x
      unfold appliedView at this
      rw [this]; rfl
    have hB : B.count (k, x) = (inAccs s l k).count x := by
      unfold inAccs
      rw [count_keyed, List.filter_filter]
      congr 2
      apply List.filter_congr
      intro a _
      exact Bool.and_comm _ _
    have hD : D.count (k, x) = (inSeries s l k).count x := by
      unfold inSeries
      rw [count_keyed]
    rw [hA, hB, hD]; exact h
  have hm2 := hp.map (·.2)
  have e1 : A.map (·.2) = appliedAll s l := by simp [A, appliedAll]
  have e2 : (B ++ D).map (·.2) = inAccsAll s l ++ inSeriesAll s l := by
    simp [B, D, inAccsAll, inSeriesAll, List.map_flatMap, Function.comp_def]
  rw [e1, e2] at hm2
  exact hm2

theorem count_range_replicate (n : Nat) (f : Nat → Nat) (i : Nat) :
    ((List.range n).flatMap (fun j => List.replicate (f j) j)).count i = if i < n then f i else 0 := by
  induction n with
  | zero => simp
  | succ n ih =>
    rw [List.range_succ, List.flatMap_append, List.count_append, ih]
    simp only [List.flatMap_cons, List.flatMap_nil, List.append_nil, List.count_replicate, beq_iff_eq]
    by_cases h : n = i
    · subst h; simp
    · by_cases h2 : i < n
      · have : i < n + 1 := by omega
        simp [h, h2, this]
      · have : ¬ i < n + 1 := by omega
        simp [h, h2, this]

/-- When every call has returned, the updates applied to a view are those of all calls. -/
theorem applied_calls (hm : More c s) (l : Nat) (hall : ∀ i, i < s.nextOp → (s.op i).pc = .done) :
    (values s (appliedAll s l)).Perm (recorded c s l) := by
  have h1 : ((appliedAll s l).map (·.1)).Perm
      ((List.range s.nextOp).flatMap (fun j => List.replicate ((c.leavesOf (s.op j).obs).count l) j)) := by
    rw [List.perm_iff_count]
    intro i
    rw [count_range_replicate]
    have hc : ((appliedAll s l).map (·.1)).count i = s.applied.countP (fun e => e.1 == l && e.2.2.1 == i) := by
      unfold appliedAll
      rw [List.count, List.countP_map, List.countP_map, List.countP_filter]
      apply List.countP_congr
      intro e _
      simp [and_comm]
    rw [hc, hm.full.vals.p.prog i l]
    by_cases hi : i < s.nextOp
    · rw [if_pos hi, done_prog (hall i hi)]
    · rw [if_neg hi]
      have := hm.full.inv.wf.opIdle i (by omega)
      simp [progOf, this]
  have h2 := h1.map (fun i => (s.op i).num)
  have e1 : ((appliedAll s l).map (·.1)).map (fun i => (s.op i).num) = values s (appliedAll s l) := by
    simp [values, Function.comp_def]
  have e2 : ((List.range s.nextOp).flatMap (fun j => List.replicate ((c.leavesOf (s.op j).obs).count l) j)).map
      (fun i => (s.op i).num) = recorded c s l := by
    unfold recorded
    rw [List.map_flatMap]
    congr 1
    funext j
    simp
  rw [e1, e2] at h2
  exact h2

/-! ### Values of points -/

theorem agree_self : Agree s (fun i => (s.op i).num) := fun _ _ => rfl

theorem emit_holds (hm : More c s) {e : Emit KS S} (he : e ∈ s.emits) :
    Holds (c.agg e.leaf) (fun i => (s.op i).num) false e.val e.ops :=
  (hm.full.vals.vals false _ agree_self).2.2.2 e he (fun h => by cases h)

theorem hold_holds (hm : More c s) {h : Nat} (hlt : h < s.nextHold) :
    Holds (c.agg (s.hold h).leaf) (fun i => (s.op i).num) false (s.hold h).store.val (s.hold h).store.ops :=
  (hm.full.vals.vals false _ agree_self).2.2.1 h hlt (fun h => by cases h)

theorem values_append (o1 o2 : List (Nat × Nat)) : values s (o1 ++ o2) = values s o1 ++ values s o2 := by
  simp [values]

theorem values_perm {o1 o2 : List (Nat × Nat)} (h : o1.Perm o2) : (values s o1).Perm (values s o2) := h.map _

section Ints
variable {H : Type} {hh : HistOps Bits H}
variable {c : Cfg AL KS Bits (Cell Bits H)} {s s' : State AL KS Bits (Cell Bits H)}

theorem int_point (hm : More c s) {e : Emit KS (Cell Bits H)} (he : e ∈ s.emits) (ha : c.agg e.leaf = sumAgg intOps hh) :
    e.val.value = total64 (values s e.ops) := by
  have h := emit_holds hm he
  rw [ha] at h
  exact SumOf.total64 (holds_sum h)

theorem int_hold (hm : More c s) {h : Nat} (hlt : h < s.nextHold) (ha : c.agg (s.hold h).leaf = sumAgg intOps hh) :
    (s.hold h).store.val.value = total64 (values s (s.hold h).store.ops) := by
  have h := hold_holds hm hlt
  rw [ha] at h
  exact SumOf.total64 (holds_sum h)

theorem total64_flatMap {α : Type} (L : List α) (ops : α → List (Nat × Nat)) (v : α → Bits)
    (h : ∀ a, a ∈ L → v a = total64 (values s (ops a))) :
    total64 (values s (L.flatMap ops)) = total64 (L.map v) := by
  induction L with
  | nil => rfl
  | cons a t ih =>
    rw [List.flatMap_cons, values_append, total64_append, ih (fun b hb => h b (List.mem_cons_of_mem _ hb)),
      ← h a (List.mem_cons_self ..)]
    rfl

/-- Suppressed sum points have value zero, so leaving them out does not change the total. -/
theorem total64_kept (L : List (Emit KS (Cell Bits H))) (h : ∀ e, e ∈ L → e.kept = false → e.val.value = 0) :
    total64 (L.map (·.val.value)) = total64 ((L.filter (·.kept)).map (·.val.value)) := by
  induction L with
  | nil => rfl
  | cons e t ih =>
    have ih := ih (fun b hb => h b (List.mem_cons_of_mem _ hb))
    rw [List.filter_cons]
    cases hk : e.kept with
    | true =>
      simp only [List.map_cons, if_true]
      show e.val.value + total64 (t.map (·.val.value)) = e.val.value + total64 ((t.filter (·.kept)).map (·.val.value))
      rw [ih]
    | false =>
      have h0 := h e (List.mem_cons_self ..) hk
      simp only [List.map_cons, Bool.false_eq_true, if_false]
      show e.val.value + total64 (t.map (·.val.value)) = _
      rw [h0, ih]; simp

theorem suppressed_zero (hr : KeptIff c s) {e : Emit KS (Cell Bits H)} (he : e ∈ s.emits)
    (ha : c.agg e.leaf = sumAgg intOps hh) (hk : e.kept = false) : e.val.value = 0 := by
  have h := hr e he
  rw [hk, ha] at h
  split at h
  · simpa [sumAgg, intOps] using h.symm
  · cases h

/-- With non-negative values and no overflow the 64-bit total is the true total. -/
theorem total64_toInt (vals : List Bits) (hn : ∀ v, v ∈ vals → 0 ≤ v.toInt) (hs : (vals.map BitVec.toInt).sum < 2 ^ 63) :
    (total64 vals).toInt = (vals.map BitVec.toInt).sum ∧ 0 ≤ (vals.map BitVec.toInt).sum := by
  induction vals with
  | nil => simp [total64, total]
  | cons v t ih =>
    have hv := hn v (List.mem_cons_self ..)
    simp only [List.map_cons, List.sum_cons] at hs ⊢
    have hpos : 0 ≤ (t.map BitVec.toInt).sum := by
      have : ∀ x ∈ t.map BitVec.toInt, 0 ≤ x := by
        intro x hx
        rw [List.mem_map] at hx
        obtain ⟨y, hy, rfl⟩ := hx
        exact hn y (List.mem_cons_of_mem _ hy)
      generalize t.map BitVec.toInt = L at this
      induction L with
      | nil => simp
      | cons a b ihh =>
        have h1 := this a (List.mem_cons_self ..)
        have h2 := ihh (fun x hx => this x (List.mem_cons_of_mem _ hx))
        simp only [List.sum_cons]; omega
    have ih := ih (fun x hx => hn x (List.mem_cons_of_mem _ hx)) (by omega)
    have : total64 (v :: t) = v + total64 t := rfl
    rw [this, BitVec.toInt_add, ih.1]
    refine ⟨?_, by omega⟩
    rw [Int.bmod_def]
    split <;> omega

end Ints

/-! ### Cumulative collections -/

/-- A step that adds a cumulative point reports everything of that series that is not in accumulators. -/
theorem cum_emit_step (hm : More c s) {a : Action AL N} {e : Emit KS S} (hst : Step c s s')
    (he : s'.emits = e :: s.emits) (hd : c.delta e.leaf = false) :
    (appliedTo s e.leaf e.key).Perm (inAccs s e.leaf e.key ++ e.ops) := by
  have ne : ∀ {es : List (Emit KS S)} {x : Emit KS S}, ¬ es = x :: es := by
    intro es x h
    have := congrArg List.length h
    simp at this
  have w := hm.full.inv.wf
  cases hst
  case lscanCum t l td k h' hpc hr hdl =>
    simp only [setTask, List.cons.injEq, and_true] at he
    subst he
    have hmem := (w.lTodo t l (by rw [hpc]; rfl)).2 (k, h') (by rw [hpc]; exact hr)
    have hp := cons_perm_cum hm.full.inv hm.full.vals.p.cons hd k
    have hser : inSeries s l k = (s.hold h').store.ops := by
      unfold inSeries
      have hnd := w.dataKeys l
      have : (s.data l).filter (fun e => e.1 == k) = [(k, h')] := by
        revert hnd hmem
        generalize s.data l = L
        intro hmem hnd
        induction L with
        | nil => cases hmem
        | cons x t ih =>
          rw [List.map_cons, List.nodup_cons] at hnd
          rw [List.mem_cons] at hmem
          rw [List.filter_cons]
          rcases hmem with hx | hx
          · subst hx
            have : t.filter (fun e => e.1 == k) = [] := by
              rw [List.filter_eq_nil_iff]
              intro y hy hyk
              exact hnd.1 (List.mem_map.mpr ⟨y, hy, by simpa using hyk⟩)
            simp [this]
          · have hne : ¬ x.1 = k := fun h => hnd.1 (List.mem_map.mpr ⟨_, hx, h.symm⟩)
            rw [if_neg (by simpa using hne)]
            exact ih hx hnd.2
      rw [this]; simp
    rw [hser] at hp
    exact hp
  case lmvKeep t l td k h' nr hpc hcc =>
    simp only [setTask, setHold, List.cons.injEq, and_true] at he
    subst he
    have := hm.full.vals.p.lmvDelta t l td k h' nr hpc
    simp only at hd
    rw [this] at hd; cases hd
  case lmvDel t l td k h' hpc hcc =>
    simp only [setTask, setHold, List.cons.injEq, and_true] at he
    subst he
    have := hm.full.vals.p.lmvDelta t l td k h' _ hpc
    simp only at hd
    rw [this] at hd; cases hd
  all_goals exact absurd he ne

/-- Cumulative views never drop a series. -/
theorem cum_data_step (hm : More c s) {l : Nat} (hd : c.delta l = false) {e : KS × Nat} (he : e ∈ s.data l)
    (hs : Step c s s') : e ∈ s'.data l := by
  cases hs
  case initNew r l' k hw hl hll hk hf =>
    simp only [initNew, upd_apply]
    split
    · rename_i h; subst h; exact List.mem_cons_of_mem _ he
    · exact he
  case lmvDel t l' td k h' hpc hcc =>
    have hne : l ≠ l' := by
      rintro rfl
      have := hm.full.vals.p.lmvDelta t l td k h' _ hpc
      rw [hd] at this; cases this
    simp only [setTask, setHold, upd_ne _ _ hne]
    exact he
  all_goals exact he

/-- Emits only grow. -/
theorem emits_step (hs : Step c s s') : ∃ pre, s'.emits = pre ++ s.emits := by
  cases hs
  case lscanCum t l td k h' hpc hr hdl => exact ⟨[_], rfl⟩
  case lmvKeep t l td k h' nr hpc hcc => exact ⟨[_], rfl⟩
  case lmvDel t l td k h' hpc hcc => exact ⟨[_], rfl⟩
  all_goals exact ⟨[], rfl⟩

/-- Progress of a cumulative collection with respect to one series. -/
def Each (s : State AL KS N S) (t l : Nat) (k : KS) (E0 : List (Emit KS S)) : Prop :=
  (∃ pre, s.emits = pre ++ E0) ∧
  ((s.task t = .lockl l ∧ ∃ h, (k, h) ∈ s.data l) ∨ (∃ td h, s.task t = .lscan l td ∧ (k, h) ∈ td) ∨
   (∃ pre e, s.emits = pre ++ E0 ∧ e ∈ pre ∧ e.leaf = l ∧ e.key = k))

theorem Each.preserved {t l : Nat} {k : KS} {E0 : List (Emit KS S)} (hm : More c s) (hd : c.delta l = false)
    (h : Each s t l k E0) (hs : Step c s s') : Each s' t l k E0 := by
  obtain ⟨⟨pre, hpre⟩, h2⟩ := h
  obtain ⟨pre', hpre'⟩ := emits_step hs
  have hem : s'.emits = (pre' ++ pre) ++ E0 := by rw [hpre', hpre, List.append_assoc]
  refine ⟨⟨_, hem⟩, ?_⟩
  rcases h2 with ⟨ht, h0, hk⟩ | ⟨td, h0, ht, hk⟩ | ⟨pre2, e, hp2, he1, he2, he3⟩
  · have hk' := cum_data_step hm hd hk hs
    have hid := hm.full.inv.wf.taskIdle
    cases hs
    case lockl t' l' hpc hl =>
      by_cases e : t = t'
      · subst e
        rw [ht] at hpc
        simp only [TPc.lockl.injEq] at hpc
        subst hpc
        right; left
        exact ⟨_, h0, by simp [setTask], hk⟩
      · left
        refine ⟨?_, h0, hk'⟩
        simp only [setTask, upd_ne _ _ e]; exact ht
    case snapshot o =>
      left
      refine ⟨?_, h0, hk'⟩
      have : t ≠ s.nextTask := by
        rintro rfl
        have := hid s.nextTask (Nat.le_refl _)
        rw [ht] at this; cases this
      simp only [upd_ne _ _ this]; exact ht
    case collect o =>
      left
      refine ⟨?_, h0, hk'⟩
      have : t ≠ s.nextTask := by
        rintro rfl
        have := hid s.nextTask (Nat.le_refl _)
        rw [ht] at this; cases this
      simp only [upd_ne _ _ this]; exact ht
    all_goals
      left
      refine ⟨?_, h0, hk'⟩
      first
       | exact ht
       | (clear hm hk hk' hem hpre hpre' hid
          revert ht
          ssimp
          grind)
  · have hlt : t < s.nextTask := by
      have := hm.full.inv.wf.taskIdle t
      by_cases hlt : t < s.nextTask
      · exact hlt
      · have hid := this (by omega)
        rw [ht] at hid; cases hid
    have hn := (hm.full.inv.wf.lTodo t l (by rw [ht]; rfl)).1
    cases hs
    case lscanCum t' l' td' k' h' hpc hr hdl =>
      by_cases e : t = t'
      · subst e
        rw [ht] at hpc
        simp only [TPc.lscan.injEq] at hpc
        obtain ⟨rfl, rfl⟩ := hpc
        by_cases ek : k = k'
        · subst ek
          right; right
          refine ⟨pointOf s l (k, h') :: pre, pointOf s l (k, h'), ?_, List.mem_cons_self .., rfl, rfl⟩
          simp only [setTask, hpre]; rfl
        · right; left
          refine ⟨td.filter (fun e => !(e.1 == k')), h0, by simp only [setTask, upd_same], ?_⟩
          rw [List.mem_filter]
          exact ⟨hk, by simpa using ek⟩
      · right; left
        refine ⟨td, h0, ?_, hk⟩
        simp only [setTask, upd_ne _ _ e]; exact ht
    all_goals
      right; left
      refine ⟨td, h0, ?_, hk⟩
      first
       | exact ht
       | (clear hm hem hpre hpre' hn
          revert ht
          ssimp
          grind)
  · right; right
    exact ⟨pre' ++ pre2, e, by rw [hpre', hp2, List.append_assoc], List.mem_append_right _ he1, he2, he3⟩

theorem each_run {t l : Nat} {k : KS} {E0 : List (Emit KS S)} {acts : List (Action AL N)} (hd : c.delta l = false)
    (hm : More c s) (h : Each s t l k E0) (hr : run c s acts = some s') : Each s' t l k E0 := by
  induction acts generalizing s with
  | nil => simp only [run, Option.some.injEq] at hr; subst hr; exact h
  | cons a as ih =>
    simp only [run, Option.bind_eq_some_iff] at hr
    obtain ⟨s1, h1, h2⟩ := hr
    exact ih (hm.step h1) (h.preserved hm hd (hm.full.inv.step_sound h1)) h2

theorem cum_data_run {l : Nat} {e : KS × Nat} {acts : List (Action AL N)} (hd : c.delta l = false)
    (hm : More c s) (h : e ∈ s.data l) (hr : run c s acts = some s') : e ∈ s'.data l := by
  induction acts generalizing s with
  | nil => simp only [run, Option.some.injEq] at hr; subst hr; exact h
  | cons a as ih =>
    simp only [run, Option.bind_eq_some_iff] at hr
    obtain ⟨s1, h1, h2⟩ := hr
    exact ih (hm.step h1) (cum_data_step hm hd h (hm.full.inv.step_sound h1)) h2

end Verif.Sync
