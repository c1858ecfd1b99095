import Verif.Proof.SyncTotals
import Verif.Proof.SyncValues

/-!
Helper file: invariants of the synchronous machine about the calls made: what they are, which series keys they can lead to, how many updates a record can
have had.
-/

namespace Verif.Sync
open Verif
variable {AL KS N S : Type} [DecidableEq KS]
variable {c : Cfg AL KS N S} {s s' : State AL KS N S}

/-! ### The calls -/

/-- The calls made so far are exactly those in the list, in order. -/
def CallsAre (s : State AL KS N S) (L : List (Nat × AL × N)) : Prop :=
  s.nextOp = L.length ∧ ∀ i e, L[i]? = some e → (s.op i).obs = e.1 ∧ (s.op i).attrs = e.2.1 ∧ (s.op i).num = e.2.2

/-- Only a new call changes what calls there are. -/
theorem op_static (hs : Step c s s') : ∀ i, i < s.nextOp →
    (s'.op i).obs = (s.op i).obs ∧ (s'.op i).attrs = (s.op i).attrs ∧ (s'.op i).num = (s.op i).num := by
  intro i hi
  have hset : ∀ (x : State AL KS N S) (j : Nat) (pc : OPc AL), x.op = s.op → ((setOpPc x j pc).op i).obs = (s.op i).obs ∧
      ((setOpPc x j pc).op i).attrs = (s.op i).attrs ∧ ((setOpPc x j pc).op i).num = (s.op i).num := by
    intro x j pc hx
    unfold setOpPc upd
    dsimp only
    by_cases hj : i = j
    · subst hj; rw [if_pos rfl, hx]; exact ⟨rfl, rfl, rfl⟩
    · rw [if_neg hj, hx]; exact ⟨rfl, rfl, rfl⟩
  cases hs
  case observe o a n =>
    have hne : i ≠ s.nextOp := by omega
    simp [hne]
  case cnt j r hpc =>
    dsimp only [upd]
    by_cases hj : i = j
    · subst hj; rw [if_pos rfl]; exact ⟨rfl, rfl, rfl⟩
    · rw [if_neg hj]; exact ⟨rfl, rfl, rfl⟩
  all_goals first
    | exact ⟨rfl, rfl, rfl⟩
    | exact hset _ _ _ rfl

theorem CallsAre.step {L : List (Nat × AL × N)} (h : CallsAre s L) (w : Inv c s) {a : Action AL N} (hs : Sync.step c s a = some s')
    (ha : ∀ o x n, a ≠ .observe o x n) : CallsAre s' L := by
  refine ⟨(nextOp_step ha hs).trans h.1, ?_⟩
  intro i e he
  have hi : i < s.nextOp := by rw [h.1]; exact (List.getElem?_eq_some_iff.1 he).1
  have h1 := op_static (w.step_sound hs) i hi
  have h2 := h.2 i e he
  exact ⟨h1.1.trans h2.1, h1.2.1.trans h2.2.1, h1.2.2.trans h2.2.2⟩

theorem CallsAre.observe {L : List (Nat × AL × N)} (h : CallsAre s L) {o : Nat} {a : AL} {n : N}
    (hs : Sync.step c s (.observe o a n) = some s') : CallsAre s' (L ++ [(o, a, n)]) := by
  cases hs
  refine ⟨by simp [h.1], ?_⟩
  intro i e he
  dsimp only [upd]
  by_cases hi : i = s.nextOp
  · subst hi
    rw [h.1, List.getElem?_concat_length] at he
    cases he
    rw [if_pos rfl]
    exact ⟨rfl, rfl, rfl⟩
  · rw [if_neg hi]
    have hlt : i < L.length := by
      have := (List.getElem?_eq_some_iff.1 he).1
      rw [List.length_append, List.length_singleton] at this
      rw [h.1] at hi
      omega
    rw [List.getElem?_append_left hlt] at he
    exact h.2 i e he

omit [DecidableEq KS] in
/-- What was recorded, in terms of the list of calls. -/
theorem CallsAre.recorded {L : List (Nat × AL × N)} (h : CallsAre s L) (l : Nat) :
    recorded c s l = L.flatMap (fun e => List.replicate ((c.leavesOf e.1).count l) e.2.2) := by
  unfold Sync.recorded
  rw [h.1]
  have key : ∀ (L : List (Nat × AL × N)) (f : Nat → Op AL N),
      (∀ i e, L[i]? = some e → (f i).obs = e.1 ∧ (f i).num = e.2.2) →
      (List.range L.length).flatMap (fun i => List.replicate ((c.leavesOf (f i).obs).count l) (f i).num) =
        L.flatMap (fun e => List.replicate ((c.leavesOf e.1).count l) e.2.2) := by
    intro L
    induction L with
    | nil => intro f _; rfl
    | cons e L ih =>
      intro f hf
      rw [List.length_cons, List.range_succ_eq_map, List.flatMap_cons, List.flatMap_cons, List.flatMap_map]
      have h0 := hf 0 e rfl
      rw [h0.1, h0.2]
      congr 1
      exact ih (fun i => f (i + 1)) (fun i e' he => hf (i + 1) e' (by rw [List.getElem?_cons_succ]; exact he))
  exact key L s.op (fun i e he => ⟨(h.2 i e he).1, (h.2 i e he).2.2⟩)

/-! ### Series keys -/

/-- A key that can arise from attribute lists with property `P`. -/
def KeyFrom (c : Cfg AL KS N S) (P : AL → Prop) (l : Nat) (k : KS) : Prop :=
  k = c.overflowKS ∨ ∃ a, P a ∧ k = c.filt l (c.newSet a)

structure KeysFrom (c : Cfg AL KS N S) (P : AL → Prop) (s : State AL KS N S) : Prop where
  pcs : ∀ i a, (s.op i).pc = .rd a ∨ (s.op i).pc = .wr a → P a
  recs : ∀ r, P (s.recs r).attrs
  data : ∀ l k h, (k, h) ∈ s.data l → KeyFrom c P l k
  emits : ∀ e, e ∈ s.emits → KeyFrom c P e.leaf e.key

omit [DecidableEq KS] in
theorem KeysFrom.initial {P : AL → Prop} (hov : P c.overflowAL) (n0 : N) : KeysFrom c P (Sync.initial c n0) where
  pcs := by intro i a h; simp [Sync.initial] at h
  recs := by intro r; exact hov
  data := by intro l k h hm; cases hm
  emits := by intro e he; cases he

theorem resolveKey_from {P : AL → Prop} {l r : Nat} (hr : P (s.recs r).attrs) :
    KeyFrom c P l (Storage.resolveKey (c.lim l) c.overflowKS (s.data l) (c.filt l (c.newSet (s.recs r).attrs))) := by
  unfold Storage.resolveKey
  repeat' split
  all_goals first
    | exact .inl rfl
    | exact .inr ⟨_, hr, rfl⟩

theorem KeysFrom.preserved {P : AL → Prop} (h : KeysFrom c P s) (hov : P c.overflowAL) (w : Wf c s) (hs : Step c s s')
    (hnew : ∀ i, i < s'.nextOp → P (s'.op i).attrs) : KeysFrom c P s' := by
  have hpc : ∀ (x : State AL KS N S) (j : Nat) (pc : OPc AL), x.op = s.op → (∀ a, pc = .rd a ∨ pc = .wr a → P a) →
      ∀ i a, ((setOpPc x j pc).op i).pc = .rd a ∨ ((setOpPc x j pc).op i).pc = .wr a → P a := by
    intro x j pc hx hp i a hh
    unfold setOpPc upd at hh
    dsimp only at hh
    by_cases hj : i = j
    · subst hj; rw [if_pos rfl] at hh; exact hp a hh
    · rw [if_neg hj, hx] at hh; exact h.pcs i a hh
  have hno : ∀ (pc : OPc AL), (∀ a, pc ≠ .rd a) → (∀ a, pc ≠ .wr a) → ∀ a, pc = .rd a ∨ pc = .wr a → P a := by
    intro pc h1 h2 a hh
    rcases hh with hh | hh
    · exact absurd hh (h1 a)
    · exact absurd hh (h2 a)
  have hrec : ∀ (f : Nat → Rec AL) (r : Nat) (x : Rec AL), f = upd s.recs r x → P x.attrs → ∀ r', P (f r').attrs := by
    intro f r x hf hx r'
    rw [hf]
    unfold upd
    by_cases hr : r' = r
    · rw [if_pos hr]; exact hx
    · rw [if_neg hr]; exact h.recs r'
  cases hs
  case observe o a n =>
    refine ⟨?_, h.recs, h.data, h.emits⟩
    intro i b hb
    dsimp only [upd] at hb
    by_cases hi : i = s.nextOp
    · rw [if_pos hi] at hb
      have := hnew s.nextOp (Nat.lt_succ_self _)
      dsimp only [upd] at this
      rw [if_pos rfl] at this
      rcases hb with hb | hb
      · cases hb; exact this
      · cases hb
    · rw [if_neg hi] at hb; exact h.pcs i b hb
  case snapshot o => exact ⟨h.pcs, h.recs, h.data, h.emits⟩
  case collect l => exact ⟨h.pcs, h.recs, h.data, h.emits⟩
  case rdHit i a a' r hpc' hl hr ha hm =>
    exact ⟨hpc _ _ _ rfl (hno _ (by simp) (by simp)), hrec _ _ _ rfl (h.recs r), h.data, h.emits⟩
  case rdMiss i a a' hpc' hl hm =>
    refine ⟨hpc _ _ _ rfl ?_, h.recs, h.data, h.emits⟩
    intro b hb
    rcases hb with hb | hb
    · cases hb
    · cases hb
      rcases hm.2 with h1 | h1
      · rw [h1.1]; exact h.pcs i a (.inl hpc')
      · rw [h1.1]; exact hov
  case wrHit i a r hpc' hl hr hm =>
    exact ⟨hpc _ _ _ rfl (hno _ (by simp) (by simp)), hrec _ _ _ rfl (h.recs r), h.data, h.emits⟩
  case wrNew i a hpc' hl hf =>
    exact ⟨hpc _ _ _ rfl (hno _ (by simp) (by simp)), hrec _ _ _ rfl (h.pcs i a (.inr hpc')), h.data, h.emits⟩
  case initOld r l k hh hw hl hll hk hf =>
    exact ⟨h.pcs, hrec _ _ _ rfl (h.recs r), h.data, h.emits⟩
  case initNew r l k hw hl hll hk hf =>
    refine ⟨h.pcs, hrec _ _ _ rfl (h.recs r), ?_, h.emits⟩
    intro l' k' h' hm
    dsimp only [initNew, upd] at hm
    by_cases hl' : l' = l
    · subst hl'
      rw [if_pos rfl] at hm
      rcases List.mem_cons.1 hm with hm | hm
      · cases hm
        rw [hk]
        exact resolveKey_from (h.recs r)
      · exact h.data _ _ _ hm
    · rw [if_neg hl'] at hm; exact h.data _ _ _ hm
  case cnt i r hpc' =>
    refine ⟨?_, hrec _ _ _ rfl (h.recs r), h.data, h.emits⟩
    intro j a hh
    dsimp only [upd] at hh
    by_cases hj : j = i
    · rw [if_pos hj] at hh; rcases hh with hh | hh <;> cases hh
    · rw [if_neg hj] at hh; exact h.pcs j a hh
  case unref i r hpc' => exact ⟨hpc _ _ _ rfl (hno _ (by simp) (by simp)), hrec _ _ _ rfl (h.recs r), h.data, h.emits⟩
  case lscanCum t l td k hh hpc' hr hd =>
    refine ⟨h.pcs, h.recs, h.data, ?_⟩
    intro e he
    rcases List.mem_cons.1 he with he | he
    · rw [he]
      have hm := (w.lTodo t l (by rw [hpc']; rfl)).2 (k, hh) (by rw [hpc']; exact hr)
      exact h.data _ _ _ hm
    · exact h.emits e he
  case lmvKeep t l td k hh nr hpc' hcc =>
    refine ⟨h.pcs, h.recs, h.data, ?_⟩
    intro e he
    rcases List.mem_cons.1 he with he | he
    · rw [he]; exact h.data _ _ _ (w.lCur t l td k hh nr hpc').1
    · exact h.emits e he
  case lmvDel t l td k hh hpc' hcc =>
    refine ⟨h.pcs, h.recs, ?_, ?_⟩
    · intro l' k' h' hm
      dsimp only [setTask, setHold, upd] at hm
      by_cases hl' : l' = l
      · subst hl'
        rw [if_pos rfl] at hm
        exact h.data _ _ _ (List.mem_filter.1 hm).1
      · rw [if_neg hl'] at hm; exact h.data _ _ _ hm
    · intro e he
      rcases List.mem_cons.1 he with he | he
      · rw [he]; exact h.data _ _ _ (w.lCur t l td k hh 0 hpc').1
      · exact h.emits e he
  all_goals first
    | exact ⟨h.pcs, h.recs, h.data, h.emits⟩
    | exact ⟨hpc _ _ _ rfl (hno _ (by simp) (by simp)), h.recs, h.data, h.emits⟩
    | exact ⟨h.pcs, hrec _ _ _ rfl (h.recs _), h.data, h.emits⟩

/-! ### Number of updates -/

/-- Calls that have incremented the counter of their record. -/
def counted : OPc AL → Nat
  | .unref _ => 1
  | .done => 1
  | _ => 0

/-- No record had more updates than calls have counted. -/
def FewUpdates (s : State AL KS N S) : Prop := ∀ r, (s.recs r).updN ≤ sumTo s.nextOp (fun i => counted (s.op i).pc)

omit [DecidableEq KS] in
theorem FewUpdates.initial (n0 : N) : FewUpdates (Sync.initial c n0) := by
  intro r; exact Nat.le_refl 0

theorem FewUpdates.preserved (h : FewUpdates s) (w : Wf c s) (hs : Step c s s') : FewUpdates s' := by
  have hlt : ∀ i, (s.op i).pc ≠ .idle → i < s.nextOp := by
    intro i hi
    apply Classical.byContradiction
    intro hn
    exact hi (w.opIdle i (Nat.not_lt.1 hn))
  have hset : ∀ (x : State AL KS N S) (j : Nat) (pc : OPc AL), x.op = s.op → x.nextOp = s.nextOp → (s.op j).pc ≠ .idle →
      counted (s.op j).pc ≤ counted pc →
      sumTo s.nextOp (fun i => counted (s.op i).pc) ≤ sumTo (setOpPc x j pc).nextOp (fun i => counted ((setOpPc x j pc).op i).pc) := by
    intro x j pc hx hn hj hc
    have := sumTo_change (n := s.nextOp) (f := fun i => counted (s.op i).pc) (g := fun i => counted ((setOpPc x j pc).op i).pc) (hlt j hj)
      (by intro i _ hne; simp [setOpPc, upd, hne, hx])
    have h2 : counted ((setOpPc x j pc).op j).pc = counted pc := by simp [setOpPc, upd]
    rw [h2] at this
    show _ ≤ sumTo x.nextOp _
    rw [hn]
    omega
  have hrec : ∀ (f : Nat → Rec AL) (r : Nat) (x : Rec AL), f = upd s.recs r x → x.updN ≤ (s.recs r).updN → ∀ r',
      (f r').updN ≤ sumTo s.nextOp (fun i => counted (s.op i).pc) := by
    intro f r x hf hx r'
    rw [hf]
    unfold upd
    by_cases hr : r' = r
    · rw [if_pos hr]; exact Nat.le_trans hx (h r)
    · rw [if_neg hr]; exact h r'
  cases hs
  case observe o a n =>
    intro r
    refine Nat.le_trans (h r) ?_
    show _ ≤ sumTo (s.nextOp + 1) _
    rw [sumTo_succ]
    refine Nat.le_trans (Nat.le_of_eq (sumTo_congr ?_)) (Nat.le_add_right _ _)
    intro i hi
    have : i ≠ s.nextOp := by omega
    simp [upd, this]
  case rdHit i a a' r hpc hl hr ha hm =>
    exact fun r' => Nat.le_trans (hrec _ _ _ (by rfl) (by exact Nat.le_refl _) r') (hset _ _ _ rfl rfl (by rw [hpc]; simp) (by rw [hpc]; exact Nat.le_refl 0))
  case rdMiss i a a' hpc hl hm =>
    exact fun r' => Nat.le_trans (h r') (hset _ _ _ rfl rfl (by rw [hpc]; simp) (by rw [hpc]; exact Nat.le_refl 0))
  case wrHit i a r hpc hl hr hm =>
    exact fun r' => Nat.le_trans (hrec _ _ _ (by rfl) (by exact Nat.le_refl _) r') (hset _ _ _ rfl rfl (by rw [hpc]; simp) (by rw [hpc]; exact Nat.le_refl 0))
  case wrNew i a hpc hl hf =>
    exact fun r' => Nat.le_trans (hrec _ _ _ (by rfl) (by exact Nat.zero_le _) r') (hset _ _ _ rfl rfl (by rw [hpc]; simp) (by rw [hpc]; exact Nat.le_refl 0))
  case iniDone i r hpc hlen =>
    exact fun r' => Nat.le_trans (h r') (hset _ _ _ rfl rfl (by rw [hpc]; simp) (by rw [hpc]; exact Nat.le_refl 0))
  case fetch i r k hpc hk =>
    exact fun r' => Nat.le_trans (h r') (hset _ _ _ rfl rfl (by rw [hpc]; simp) (by rw [hpc]; exact Nat.le_refl 0))
  case fetchEnd i r k hpc hk =>
    exact fun r' => Nat.le_trans (h r') (hset _ _ _ rfl rfl (by rw [hpc]; simp) (by rw [hpc]; exact Nat.le_refl 0))
  case upd i r k sq a hpc ha =>
    exact fun r' => Nat.le_trans (h r') (hset _ _ _ rfl rfl (by rw [hpc]; simp) (by rw [hpc]; exact Nat.le_refl 0))
  case unref i r hpc =>
    exact fun r' => Nat.le_trans (hrec _ _ _ (by rfl) (by exact Nat.le_refl _) r') (hset _ _ _ rfl rfl (by rw [hpc]; simp) (by rw [hpc]; exact Nat.le_refl 1))
  case cnt i r hpc =>
    intro r'
    have := sumTo_change (n := s.nextOp) (f := fun j => counted (s.op j).pc)
      (g := fun j => counted (upd s.op i { s.op i with pc := .unref r, rank := (s.recs r).updN + 1 } j).pc) (hlt i (by rw [hpc]; simp))
      (by intro j _ hne; simp [upd, hne])
    have h2 : counted (upd s.op i { s.op i with pc := OPc.unref r, rank := (s.recs r).updN + 1 } i).pc = 1 := by simp [upd, counted]
    dsimp only at this
    rw [h2, hpc] at this
    have h3 : counted (OPc.cnt r : OPc AL) = 0 := rfl
    rw [h3, Nat.add_zero] at this
    dsimp only
    rw [this]
    by_cases hr : r' = r
    · subst hr
      simp only [upd, if_true]
      exact Nat.succ_le_succ (h r')
    · simp only [upd, if_neg hr]
      exact Nat.le_succ_of_le (h r')
  case initOld r l k hh hw hl hll hk hf => exact fun r' => hrec _ _ _ (by rfl) (by exact Nat.le_refl _) r'
  case initNew r l k hw hl hll hk hf => exact fun r' => hrec _ _ _ (by rfl) (by exact Nat.le_refl _) r'
  all_goals first
    | exact h
    | exact fun r' => hrec _ _ _ (by rfl) (by exact Nat.le_refl _) r'

theorem counted_le (n : Nat) (f : Nat → OPc AL) : sumTo n (fun i => counted (f i)) ≤ n := by
  induction n with
  | zero => exact Nat.le_refl 0
  | succ n ih =>
    rw [sumTo_succ]
    have : counted (f n) ≤ 1 := by cases f n <;> simp [counted]
    omega

omit [DecidableEq KS] in
/-- With fewer calls than the counters can hold, none of them wraps around. -/
theorem FewUpdates.noWrap (h : FewUpdates s) (hn : s.nextOp < c.W) (o : Nat) : NoWrap c o s := by
  intro r _ _
  have h1 := h r
  have h2 := counted_le s.nextOp (fun i => (s.op i).pc)
  omega

end Verif.Sync
