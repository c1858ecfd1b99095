import Verif.Spec.MultiFair
import Verif.Proof.Multi
import Verif.Proof.DeliveryFair

/-!
Helper file: a fair execution with several readers is one for each of them.
-/

namespace Verif.Multi
open Verif.Attr Verif.Number Verif.Assembly
open Verif.Delivery (Often)
variable {C G ν : Type} [DecidableEq C] {farm : Str → UInt64} {w : World C G} {fsub : Bits → Bits → Bits} {x : Views.Ext C}
  {views : List (Views.Views C)} {start : Int} {p : Provider.Provider C ν} {f : Nat → Sys C G ν} {a : Nat → Act ν}

/-! ### Steps -/

omit [DecidableEq C] in
theorem put_view (y : Sys C G ν) (i : Nat) : put y i (view y i) = y := by
  unfold put
  obtain ⟨p, σ, rs, cs⟩ := y
  simp only [view, Sys.mk.injEq, true_and, and_true]
  funext j
  split
  · rename_i h; rw [h]; rfl
  · rfl

omit [DecidableEq C] in
theorem ext_view {y y' : Sys C G ν} {i : Nat} {s : Delivery.Sys C G ν} (h : y' = put y i s) (hv : view y' i = view y i) : y' = y := by
  rw [h, view_put] at hv
  rw [h, hv, put_view]

theorem at_put {y y' : Sys C G ν} {i : Nat} {b : Delivery.Act ν} (h : at' farm w fsub x y i b = some y') :
    i < y.p.views.length ∧ ∃ s, Delivery.step farm w fsub x i (view y i) b = some s ∧ y' = put y i s := by
  unfold at' at h
  split at h
  · rename_i hi
    obtain ⟨s, h1, h2⟩ := Option.map_eq_some_iff.1 h
    exact ⟨hi, s, h1, h2.symm⟩
  · cases h

theorem at_some {y : Sys C G ν} {i : Nat} {b : Delivery.Act ν} {s : Delivery.Sys C G ν} (hi : i < y.p.views.length) (h : Delivery.step farm w fsub x i (view y i) b = some s) :
    at' farm w fsub x y i b = some (put y i s) := by
  unfold at'
  rw [if_pos hi, h]
  rfl

/-- What a reader can do, the program can do. -/
def lift (i : Nat) : Delivery.Act ν → Option (Act ν)
  | .op o => some (.op o)
  | .task t ch => some (.task t ch)
  | .cb b => some (.cb i b)
  | .produce now => some (.produce i now)
  | .reader b order => some (.reader i b order)
  | _ => none

theorem sched_shared {y : Sys C G ν} {i : Nat} {s : Delivery.Sys C G ν} {b : Delivery.Act ν} (hb : (∃ o, b = .op o) ∨ ∃ t ch, b = .task t ch)
    (h : Delivery.step farm w fsub x i (view y i) b = some s) :
    shared farm w fsub x y b = some { y with p := s.z.p, sync := s.z.s.sync } ∧ s = view { y with p := s.z.p, sync := s.z.s.sync } i := by
  rcases hb with ⟨o, rfl⟩ | ⟨t, ch, rfl⟩ <;>
  · simp only [Delivery.step, Option.map_eq_some_iff] at h
    obtain ⟨z, h1, rfl⟩ := h
    obtain ⟨h2, h3⟩ := sched_any h1 0 (view y 0).z rfl rfl
    obtain ⟨h4, h5⟩ := sched_any h1 i (view y i).z rfl rfl
    rw [h1] at h5
    refine ⟨?_, ?_⟩
    · unfold shared
      simp only [Delivery.step, h3, Option.map_some]
    · injection h5 with h5
      simp only [view]
      rw [h5]
      rfl

theorem lift_step {y : Sys C G ν} {i : Nat} {s : Delivery.Sys C G ν} {b : Delivery.Act ν} {c : Act ν} (hi : i < y.p.views.length) (hc : lift i b = some c)
    (h : Delivery.step farm w fsub x i (view y i) b = some s) : ∃ y', step farm w fsub x y c = some y' ∧ view y' i = s := by
  cases b with
  | make d => cases hc
  | call o as n => cases hc
  | other d => cases hc
  | op o =>
    cases hc
    obtain ⟨h1, h2⟩ := sched_shared (.inl ⟨o, rfl⟩) h
    exact ⟨_, h1, h2.symm⟩
  | task t ch =>
    cases hc
    obtain ⟨h1, h2⟩ := sched_shared (.inr ⟨t, ch, rfl⟩) h
    exact ⟨_, h1, h2.symm⟩
  | cb d => cases hc; exact ⟨_, at_some hi h, view_put ..⟩
  | produce now => cases hc; exact ⟨_, at_some hi h, view_put ..⟩
  | reader d order => cases hc; exact ⟨_, at_some hi h, view_put ..⟩

/-- A step of such a goroutine which has an effect has one for the reader. -/
theorem lift_effect {y y' : Sys C G ν} {i : Nat} {b : Delivery.Act ν} {c : Act ν} (hc : lift i b = some c) (h : step farm w fsub x y c = some y') (hne : y' ≠ y) :
    view y' i ≠ view y i := by
  intro hv
  refine hne ?_
  have hsh : ∀ d, shared farm w fsub x y d = some y' → y' = y := by
    intro d h
    unfold shared at h
    obtain ⟨s, -, rfl⟩ := Option.map_eq_some_iff.1 h
    obtain ⟨p, σ, rs, cs⟩ := y
    simp only [view, Delivery.Sys.mk.injEq, Live.Sys.mk.injEq, Whole.Sys.mk.injEq] at hv
    obtain ⟨⟨h1, h2, -⟩, -⟩ := hv
    rw [h1, h2]
  have hat : ∀ d, at' farm w fsub x y i d = some y' → y' = y := by
    intro d h
    obtain ⟨-, s, -, h1⟩ := at_put h
    exact ext_view h1 hv
  cases b with
  | make d => cases hc
  | call o as n => cases hc
  | other d => cases hc
  | op o => cases hc; exact hsh _ h
  | task t ch => cases hc; exact hsh _ h
  | cb d => cases hc; exact hat _ h
  | produce now => cases hc; exact hat _ h
  | reader d order => cases hc; exact hat _ h

/-! ### One reader -/

/-- A step which changes nothing: of a goroutine which does not exist. -/
def idle (i : Nat) (y : Sys C G ν) : Delivery.Act ν := .reader (.go (y.readers i).r.threads.length false) []

/-- What reader `i` sees at a step at which nothing is made. -/
def proj (i : Nat) (y : Sys C G ν) : Act ν → Delivery.Act ν
  | .make _ => idle i y
  | .shutdown => idle i y
  | b => (seenBy i y b).getD (idle i y)

theorem idle_step (i : Nat) (y : Sys C G ν) : Delivery.step farm w fsub x i (view y i) (idle i y) = some (view y i) := by
  have h1 : (view y i).r.threads[(y.readers i).r.threads.length]? = none := List.getElem?_eq_none (Nat.le_refl _)
  have h2 : Delivery.returns (view y i).r (.go (y.readers i).r.threads.length false) = false := by
    simp only [Delivery.returns, h1]
  simp only [idle, Delivery.step, h2, Bool.false_eq_true, if_false, Periodic.step, h1]

theorem proj_step {y y' : Sys C G ν} {b : Act ν} (h : step farm w fsub x y b = some y') (hp : y'.p = y.p) (i : Nat) :
    Delivery.step farm w fsub x i (view y i) (proj i y b) = some (view y' i) := by
  have h1 := step_view h i
  have hmake : ∀ c, Delivery.run farm w fsub x i (view y i) [.make c] = some (view y' i) → view y' i = view y i := by
    intro c hc
    simp only [Delivery.run, Delivery.step, Live.step, Option.map_some, Option.bind_some, Option.some.injEq] at hc
    have h2 : (Provider.step x y.p c).1 = y.p := by
      have := congrArg (fun s => s.z.p) hc
      exact this.trans hp
    rw [← hc]
    show ({ view y i with z := { (view y i).z with p := (Provider.step x y.p c).1 } } : Delivery.Sys C G ν) = view y i
    rw [h2]
    rfl
  have hopt : ∀ o : Option (Delivery.Act ν), Delivery.run farm w fsub x i (view y i) o.toList = some (view y' i) →
      Delivery.step farm w fsub x i (view y i) (o.getD (idle i y)) = some (view y' i) := by
    intro o ho
    cases o with
    | none =>
      have : view y i = view y' i := Option.some.inj ho
      rw [← this]
      exact idle_step i y
    | some d =>
      simp only [Option.toList, Delivery.run] at ho
      obtain ⟨s, h2, h3⟩ := Option.bind_eq_some_iff.1 ho
      cases h3
      exact h2
  cases b with
  | make c => rw [show proj i y (.make c) = idle i y from rfl, hmake c h1]; exact idle_step i y
  | shutdown => rw [show proj i y .shutdown = idle i y from rfl, hmake _ h1]; exact idle_step i y
  | call o as n => exact hopt _ h1
  | op o => exact hopt _ h1
  | task t ch => exact hopt _ h1
  | cb j d => exact hopt _ h1
  | produce j now => exact hopt _ h1
  | reader j d order => exact hopt _ h1
  | flush => exact hopt _ h1
  | go t => exact hopt _ h1

theorem seenBy_not_make {i : Nat} {y : Sys C G ν} {b : Act ν} {c : Provider.Call ν} (h : proj i y b = .make c) : False := by
  cases b with
  | make c => cases h
  | shutdown => cases h
  | call o as n => cases h
  | op o => cases h
  | task t ch => cases h
  | cb j d => simp only [proj, seenBy] at h; split at h <;> cases h
  | produce j now =>
    simp only [proj, seenBy] at h
    split at h
    · cases h
    · cases hf : foreignOf j (view y j) <;> rw [hf] at h <;> cases h
  | reader j d order => simp only [proj, seenBy] at h; split at h <;> cases h
  | flush => cases h
  | go t =>
    simp only [proj, seenBy] at h
    split at h
    · split at h <;> cases h
    · cases h

theorem proj_lift {i : Nat} {y : Sys C G ν} {b : Delivery.Act ν} {c : Act ν} (hc : lift i b = some c) : proj i y c = b := by
  cases b with
  | make d => cases hc
  | call o as n => cases hc
  | other d => cases hc
  | op o => cases hc; rfl
  | task t ch => cases hc; rfl
  | cb d => cases hc; simp [proj, seenBy]
  | produce now => cases hc; simp [proj, seenBy]
  | reader d order => cases hc; simp [proj, seenBy]

/-! ### Endless executions -/

theorem Endless.run (E : Endless farm w fsub x views start p f a) (n : Nat) : Multi.run farm w fsub x (initial farm w fsub p views start) (first a n) = some (f n) := by
  induction n with
  | zero => rw [← E.start]; rfl
  | succ n ih =>
    unfold first at ih ⊢
    rw [List.range_succ, List.map_append, run_append, ih]
    simp [Multi.run, E.next n]

theorem Endless.same (E : Endless farm w fsub x views start p f a) (n : Nat) : (f n).p.views = views := by
  rw [run_views (E.run n)]
  rfl

theorem often_shift {P : Nat → Prop} (m : Nat) (h : Often P) : Often (fun k => P (m + k)) := by
  intro n
  obtain ⟨k, hk, h1⟩ := h (m + n)
  exact ⟨k - m, by omega, by show P (m + (k - m)); rw [show m + (k - m) = k by omega]; exact h1⟩

theorem often_unshift {P : Nat → Prop} (m : Nat) (h : Often (fun k => P (m + k))) : Often P := by
  intro n
  obtain ⟨k, hk, h1⟩ := h n
  exact ⟨m + k, by omega, h1⟩

/-- From some time on, to each reader it is an endless execution with this reader. -/
theorem Endless.of (E : Endless farm w fsub x views start p f a) {m : Nat} (hm : ∀ n, m ≤ n → (f n).p = p) (i : Nat) :
    Delivery.Endless farm w fsub x i (view (f m) i) (fun k => view (f (m + k)) i) (fun k => proj i (f (m + k)) (a (m + k))) where
  start := rfl
  next n := proj_step (E.next (m + n)) (by rw [hm _ (by omega), hm _ (by omega)]) i
  asked n c h := seenBy_not_make h

/-- Fairness to a goroutine. -/
theorem fairTo_of (E : Endless farm w fsub x views start p f a) {i m : Nat} (hi : i < views.length) {P : Delivery.Act ν → Prop} {Q : Act ν → Prop}
    (h1 : ∀ b, P b → ∃ c, lift i b = some c ∧ Q c) (h2 : ∀ c, Q c → ∃ b, lift i b = some c ∧ P b) (h : FairTo farm w fsub x f a Q) :
    Delivery.FairTo farm w fsub x i (fun k => view (f (m + k)) i) (fun k => proj i (f (m + k)) (a (m + k))) P := by
  intro ho
  have hc : Often (fun k => Can farm w fsub x Q (f k)) := by
    refine often_unshift m fun n => ?_
    obtain ⟨k, hk, b, s, hb, hs, hne⟩ := ho n
    obtain ⟨c, hc, hq⟩ := h1 b hb
    obtain ⟨y', h3, h4⟩ := lift_step (by rw [E.same]; exact hi) hc hs
    exact ⟨k, hk, c, y', hq, h3, fun e => hne (by rw [← h4, e])⟩
  have h3 := often_shift m (h hc)
  intro n
  obtain ⟨k, hk, hq, hne⟩ := h3 n
  obtain ⟨b, hb, hp⟩ := h2 _ hq
  refine ⟨k, hk, ?_, ?_⟩
  · show P (proj i (f (m + k)) (a (m + k)))
    rw [proj_lift hb]
    exact hp
  · exact lift_effect hb (E.next (m + k)) hne

/-- To each reader the schedule is fair. -/
theorem Fair.of (F : Fair farm w fsub x views f a) (E : Endless farm w fsub x views start p f a) {i : Nat} (m : Nat) (hi : i < views.length) :
    Delivery.Fair farm w fsub x i (fun k => view (f (m + k)) i) (fun k => proj i (f (m + k)) (a (m + k))) where
  calls o := fairTo_of E hi (fun b hb => by subst hb; exact ⟨_, rfl, rfl⟩) (fun c hc => by subst hc; exact ⟨.op o, rfl, rfl⟩) (F.calls o)
  tasks t := fairTo_of E hi (fun b hb => by obtain ⟨ch, rfl⟩ := hb; exact ⟨_, rfl, ch, rfl⟩) (fun c hc => by obtain ⟨ch, rfl⟩ := hc; exact ⟨.task t ch, rfl, ch, rfl⟩) (F.tasks t)
  observations o := fairTo_of E hi (fun b hb => by subst hb; exact ⟨_, rfl, rfl⟩) (fun c hc => by subst hc; exact ⟨.cb (.op o), rfl, rfl⟩) (F.observations i o hi)
  produce := fairTo_of E hi (fun b hb => by obtain ⟨now, rfl⟩ := hb; exact ⟨_, rfl, now, rfl⟩) (fun c hc => by obtain ⟨now, rfl⟩ := hc; exact ⟨.produce now, rfl, now, rfl⟩)
    (F.produce i hi)
  requests t := fairTo_of E hi (fun b hb => by obtain ⟨q, o, rfl⟩ := hb; exact ⟨_, rfl, q, o, rfl⟩)
    (fun c hc => by obtain ⟨q, o, rfl⟩ := hc; exact ⟨.reader (.go t q) o, rfl, q, o, rfl⟩) (F.requests i t hi)
  select ho := by
    have h := often_shift m (F.select i hi (often_unshift m ho))
    intro n
    obtain ⟨k, hk, h1, order, h2⟩ := h n
    exact ⟨k, hk, h1, order, by rw [h2]; simp [proj, seenBy]⟩
  callbacks := often_shift m (F.callbacks i hi)

theorem Endless.good (E : Endless farm w fsub x views start p f a) {m i : Nat} (hm : (f m).p = p) (hi : i < views.length) : Delivery.Good farm w fsub x i (view (f m) i) := by
  have h := run_view (E.run m) i
  rw [view_initial] at h
  refine Delivery.good_run (views := views) (start := start) (acts := seen farm w fsub x i (initial farm w fsub p views start) (first a m)) hi (s := view (f m) i) ?_
  rw [show (view (f m) i).z.p = p from hm]
  exact h

theorem Endless.noNil (E : Endless farm w fsub x views start p f a) (ha : Answered x views a) {m : Nat} (hm : (f m).p = p) : Provider.NoNil p := by
  rw [← hm, run_prov (E.run m)]
  exact Provider.noNil_answered (ha m)

/-! ### What returns -/

/-- Late enough, nothing is made any more. -/
theorem Endless.late (E : Endless farm w fsub x views start p f a) (n : Nat) : ∃ m, n ≤ m ∧ ∀ k, m ≤ k → (f k).p = p := by
  obtain ⟨N, h⟩ := E.settles
  exact ⟨max n N, by omega, fun k hk => h k (by omega)⟩

theorem Endless.later (E : Endless farm w fsub x views start p f a) {n m : Nat} (h : n ≤ m) : ∃ acts, Multi.run farm w fsub x (f n) acts = some (f m) := by
  induction h with
  | refl => exact ⟨[], rfl⟩
  | step _ ih =>
    obtain ⟨acts, h1⟩ := ih
    exact ⟨acts ++ [a _], by rw [run_append, h1, Option.bind_some]; exact step_run (E.next _)⟩

theorem _root_.Verif.Delivery.run_counts {pipe : Nat} {s s' : Delivery.Sys C G ν} {acts : List (Delivery.Act ν)} (h : Delivery.run farm w fsub x pipe s acts = some s') :
    Delivery.Counts s s' := by
  induction acts generalizing s with
  | nil => cases h; exact ⟨Nat.le_refl _, Nat.le_refl _, Nat.le_refl _, Nat.le_refl _, Nat.le_refl _⟩
  | cons b bs ih =>
    simp only [Delivery.run] at h
    obtain ⟨y, h1, h2⟩ := Option.bind_eq_some_iff.1 h
    obtain ⟨a1, a2, a3, a4, a5⟩ := Delivery.step_counts h1
    obtain ⟨b1, b2, b3, b4, b5⟩ := ih h2
    exact ⟨Nat.le_trans a1 b1, Nat.le_trans a2 b2, Nat.le_trans a3 b3, Nat.le_trans a4 b4, Nat.le_trans a5 b5⟩

theorem Endless.call_done (E : Endless farm w fsub x views start p f a) (F : Fair farm w fsub x views f a) (hv : 0 < views.length) {n i : Nat} (hi : i < (f n).sync.nextOp) :
    ∃ k, n ≤ k ∧ ((f k).sync.op i).pc = .done := by
  obtain ⟨m, hm, hp⟩ := E.late n
  obtain ⟨acts, h1⟩ := E.later hm
  have h2 := Delivery.run_counts (run_view h1 0)
  obtain ⟨k, -, h3⟩ := (E.of hp 0).call_done (F.of E m hv) (E.good (hp m (Nat.le_refl _)) hv) (n := 0) (i := i) (Nat.lt_of_lt_of_le hi h2.1)
  exact ⟨m + k, by omega, h3⟩

theorem Endless.task_done (E : Endless farm w fsub x views start p f a) (F : Fair farm w fsub x views f a) (hv : 0 < views.length) {n t : Nat} (ht : t < (f n).sync.nextTask) :
    ∃ k, n ≤ k ∧ (f k).sync.task t = .done := by
  obtain ⟨m, hm, hp⟩ := E.late n
  obtain ⟨acts, h1⟩ := E.later hm
  have h2 := Delivery.run_counts (run_view h1 0)
  obtain ⟨k, -, h3⟩ := (E.of hp 0).task_done (F.of E m hv) (E.good (hp m (Nat.le_refl _)) hv) (n := 0) (t := t) (Nat.lt_of_lt_of_le ht h2.2.1)
  exact ⟨m + k, by omega, h3⟩

theorem Endless.obs_done (E : Endless farm w fsub x views start p f a) (F : Fair farm w fsub x views f a) {r n i : Nat} (hv : r < views.length)
    (hi : i < ((f n).readers r).async.nextOp) : ∃ k, n ≤ k ∧ ((((f k).readers r).async.op i).pc = .done ∨ (((f k).readers r).async.op i).pc = .rejected) := by
  obtain ⟨m, hm, hp⟩ := E.late n
  obtain ⟨acts, h1⟩ := E.later hm
  have h2 := Delivery.run_counts (run_view h1 r)
  obtain ⟨k, -, h3⟩ := (E.of hp r).obs_done (F.of E m hv) (n := 0) (i := i) (Nat.lt_of_lt_of_le hi h2.2.2.1)
  exact ⟨m + k, by omega, h3⟩

theorem Endless.request_done (E : Endless farm w fsub x views start p f a) (F : Fair farm w fsub x views f a) (ha : Answered x views a) {r n t : Nat} (hv : r < views.length)
    {th : Periodic.Thread} (h0 : t ≠ 0) (ht : ((f n).readers r).r.threads[t]? = some th) : ∃ k, n ≤ k ∧ Returned r t (f k) := by
  obtain ⟨m, hm, hp⟩ := E.late n
  obtain ⟨acts, h1⟩ := E.later hm
  obtain ⟨kind, pos⟩ := th
  obtain ⟨p', h2⟩ := (run_grown h1 r).kind t kind pos ht
  obtain ⟨k, -, h3⟩ := (E.of hp r).request_done (F.of E m hv) (E.good (hp m (Nat.le_refl _)) hv) (by
    show Provider.NoNil (f m).p
    rw [hp m (Nat.le_refl _)]
    exact E.noNil ha (hp m (Nat.le_refl _))) (n := 0) h0 h2
  exact ⟨m + k, by omega, h3⟩

theorem run_cancelled {y y' : Sys C G ν} {acts : List (Act ν)} (h : Multi.run farm w fsub x y acts = some y') {r : Nat} (hc : (y.readers r).r.cancelled = true) :
    (y'.readers r).r.cancelled = true := by
  have key : ∀ (acts : List (Delivery.Act ν)) {s s' : Delivery.Sys C G ν}, Delivery.run farm w fsub x r s acts = some s' → s.r.cancelled = true → s'.r.cancelled = true := by
    intro acts
    induction acts with
    | nil => intro s s' h hc; cases h; exact hc
    | cons b bs ih =>
      intro s s' h hc
      simp only [Delivery.run] at h
      obtain ⟨y, h1, h2⟩ := Option.bind_eq_some_iff.1 h
      refine ih h2 ?_
      rw [Delivery.step_reader h1]
      cases b with
      | reader d o => exact Periodic.cancelled_keep d hc
      | _ => exact hc
  exact key _ (run_view h r) hc

theorem Endless.loop_done (E : Endless farm w fsub x views start p f a) (F : Fair farm w fsub x views f a) (ha : Answered x views a) {r n : Nat} (hv : r < views.length)
    (hc : ((f n).readers r).r.cancelled = true) : ∃ k, n ≤ k ∧ Returned r 0 (f k) := by
  obtain ⟨m, hm, hp⟩ := E.late n
  obtain ⟨acts, h1⟩ := E.later hm
  obtain ⟨k, -, h3⟩ := (E.of hp r).loop_done (F.of E m hv) (E.good (hp m (Nat.le_refl _)) hv) (by
    show Provider.NoNil (f m).p
    rw [hp m (Nat.le_refl _)]
    exact E.noNil ha (hp m (Nat.le_refl _))) (n := 0) (run_cancelled h1 hc)
  exact ⟨m + k, by omega, (Periodic.loopDone_iff _).1 h3⟩

theorem Endless.collection_done (E : Endless farm w fsub x views start p f a) (F : Fair farm w fsub x views f a) (ha : Answered x views a) {r : Nat} (hv : r < views.length) (n : Nat) :
    ∃ k, n ≤ k ∧ ((f k).readers r).pos = .out := by
  obtain ⟨m, hm, hp⟩ := E.late n
  obtain ⟨k, -, h3⟩ := (E.of hp r).collection_done (F.of E m hv) (E.good (hp m (Nat.le_refl _)) hv) (by
    show Provider.NoNil (f m).p
    rw [hp m (Nat.le_refl _)]
    exact E.noNil ha (hp m (Nat.le_refl _))) 0
  exact ⟨m + k, by omega, h3⟩

theorem Endless.tick_served (E : Endless farm w fsub x views start p f a) (F : Fair farm w fsub x views f a) (ha : Answered x views a) {r n : Nat} (hv : r < views.length)
    (hp : ∀ k, n ≤ k → (f k).p = p) (hc : ((f n).readers r).r.chan = true) : ∃ k, n ≤ k ∧ (exports r (f n) < exports r (f k) ∨ Returned r 0 (f k)) := by
  obtain ⟨k, -, h3⟩ := (E.of hp r).tick_served (F.of E n hv) (E.good (hp n (Nat.le_refl _)) hv) (by
    show Provider.NoNil (f n).p
    rw [hp n (Nat.le_refl _)]
    exact E.noNil ha (hp n (Nat.le_refl _))) (n := 0) hc
  exact ⟨n + k, by omega, h3.imp id (fun h4 => (Periodic.loopDone_iff _).1 h4)⟩

theorem Endless.exports_often (E : Endless farm w fsub x views start p f a) (F : Fair farm w fsub x views f a) (ha : Answered x views a) {r : Nat} (hv : r < views.length)
    (ht : Often (fun k => ∃ order, a k = .reader r .tick order)) (hd : ∀ k, ¬ Returned r 0 (f k)) (n : Nat) : ∃ k, n ≤ exports r (f k) := by
  obtain ⟨m, -, hp⟩ := E.late 0
  obtain ⟨k, h3⟩ := (E.of hp r).exports_often (F.of E m hv) (E.good (hp m (Nat.le_refl _)) hv) (by
    show Provider.NoNil (f m).p
    rw [hp m (Nat.le_refl _)]
    exact E.noNil ha (hp m (Nat.le_refl _))) (by
      intro j
      obtain ⟨k, hk, order, h1⟩ := often_shift m ht j
      exact ⟨k, hk, order, by rw [h1]; simp [proj, seenBy]⟩) (fun k => by
      cases hl : Periodic.loopDone (view (f (m + k)) r).r with
      | false => rfl
      | true => exact absurd ((Periodic.loopDone_iff _).1 hl) (hd (m + k))) n
  exact ⟨m + k, h3⟩

/-! ### Calls on the provider -/

/-- A call on the provider which does not go on stays where it is. -/
theorem calls_kept {y y' : Sys C G ν} {b : Act ν} {t : Nat} {pc : Pc} (h : step farm w fsub x y b = some y') (hb : b ≠ .go t) (ht : y.calls[t]? = some pc) : y'.calls[t]? = some pc := by
  have happ : ∀ l, (y.calls ++ l)[t]? = some pc := fun l => by rw [List.getElem?_append_left (List.getElem?_eq_some_iff.1 ht).1]; exact ht
  cases b with
  | make c => rw [shared_calls h]; exact ht
  | call o as n => rw [shared_calls h]; exact ht
  | op o => rw [shared_calls h]; exact ht
  | task t c => rw [shared_calls h]; exact ht
  | cb j b => rw [at_calls h]; exact ht
  | reader j b o => rw [at_calls h]; exact ht
  | produce j now => rw [at_calls h]; exact ht
  | flush => cases h; exact happ _
  | shutdown =>
    simp only [step, Option.map_eq_some_iff] at h
    obtain ⟨y1, -, rfl⟩ := h
    exact happ _
  | go u =>
    simp only [step] at h
    split at h
    · cases h
    · obtain ⟨pc', h1⟩ := advance_calls h
      rw [h1, List.getElem?_set, if_neg (fun e => hb (by rw [e]))]
      exact ht

theorem done_kept {y y' : Sys C G ν} {b : Act ν} {t : Nat} {v : Bool} (h : step farm w fsub x y b = some y') (ht : y.calls[t]? = some (Pc.done v)) : y'.calls[t]? = some (Pc.done v) := by
  refine calls_kept h ?_ ht
  rintro rfl
  simp only [step, ht, advance] at h
  cases h

/-- If from some time on the call can always go on, it does. -/
theorem Endless.goes (E : Endless farm w fsub x views start p f a) (F : Fair farm w fsub x views f a) {n t : Nat} {pc : Pc} (ht : (f n).calls[t]? = some pc)
    (hc : ∀ k, n ≤ k → (f k).calls[t]? = some pc → Can farm w fsub x (fun b => b = .go t) (f k)) :
    ∃ k, n ≤ k ∧ (f k).calls[t]? = some pc ∧ a k = .go t := by
  refine Classical.byContradiction fun hno => ?_
  have hst : ∀ k, n ≤ k → (f k).calls[t]? = some pc := by
    intro k hk
    induction hk with
    | refl => exact ht
    | step hk ih => exact calls_kept (E.next _) (fun e => hno ⟨_, hk, ih, e⟩) ih
  obtain ⟨k, hk, h1, -⟩ := F.provider t (fun m => ⟨max n m, by omega, hc _ (by omega) (hst _ (by omega))⟩) n
  exact hno ⟨k, hk, hst k hk, h1⟩

theorem can_call {y : Sys C G ν} {t : Nat} {pc : Pc} {z : Sys C G ν} (ht : y.calls[t]? = some pc) (hs : advance farm w fsub x y t pc = some z) {pc' : Pc} (hz : z.calls = y.calls.set t pc')
    (hne : pc' ≠ pc) : Can farm w fsub x (fun b => b = .go t) y := by
  refine ⟨.go t, z, rfl, by simp only [step, ht]; exact hs, fun e => hne ?_⟩
  have h1 : z.calls[t]? = some pc' := by rw [hz, List.getElem?_set, if_pos rfl, if_pos (List.getElem?_eq_some_iff.1 ht).1]
  rw [e, ht] at h1
  exact (Option.some.inj h1).symm

/-- A call at the loop over the readers. -/
theorem advance_none {y : Sys C G ν} {t r : Nat} {kind : Periodic.Kind} (hr : r < y.p.views.length) :
    ∃ z, advance farm w fsub x y t (.loop kind r none) = some z ∧ z.calls = y.calls.set t (.loop kind r (some (y.readers r).r.threads.length)) ∧
      ∃ th, (z.readers r).r.threads[(y.readers r).r.threads.length]? = some th := by
  have hret : Delivery.returns (view y r).r (request kind) = false := by cases kind <;> rfl
  have h1 : Delivery.step farm w fsub x r (view y r) (.reader (request kind) []) = some { view y r with r := Periodic.step (view y r).r (request kind) } := by
    simp only [Delivery.step, hret, Bool.false_eq_true, if_false]
  refine ⟨_, by simp only [advance, if_pos hr, at_some hr h1, Option.map_some]; rfl, rfl, ?_⟩
  have h2 : ∀ th, (Periodic.step (view y r).r (request kind)).threads = (view y r).r.threads ++ [th] →
      ∃ th, (((put y r { view y r with r := Periodic.step (view y r).r (request kind) }).readers r).r.threads)[(y.readers r).r.threads.length]? = some th := by
    intro th h
    have h3 : ((put y r { view y r with r := Periodic.step (view y r).r (request kind) }).readers r).r = Periodic.step (view y r).r (request kind) := by simp [put, one]
    rw [h3, h]
    exact ⟨th, by rw [show (y.readers r).r.threads.length = (view y r).r.threads.length from rfl, List.getElem?_append_right (Nat.le_refl _), Nat.sub_self]; rfl⟩
  cases kind with
  | shutdown => exact h2 _ rfl
  | flush => exact h2 _ rfl
  | tick => exact h2 _ rfl

/-- The goroutine of a reader which a call on the provider waits for exists, and is not the loop. -/
def Waiting (y : Sys C G ν) : Prop := ∀ (t r u : Nat) kind, y.calls[t]? = some (.loop kind r (some u)) → u ≠ 0 ∧ r < y.p.views.length ∧ ∃ th, (y.readers r).r.threads[u]? = some th

theorem Waiting.step {y y' : Sys C G ν} {b : Act ν} (hw : Waiting y) (hpos : ∀ r, 0 < (y.readers r).r.threads.length) (h : step farm w fsub x y b = some y') : Waiting y' := by
  intro t r u kind ht
  have hg := step_grown h r
  have old : y.calls[t]? = some (.loop kind r (some u)) → u ≠ 0 ∧ r < y'.p.views.length ∧ ∃ th, (y'.readers r).r.threads[u]? = some th := by
    intro h1
    obtain ⟨h2, h3, ⟨k, pos⟩, h4⟩ := hw t r u kind h1
    obtain ⟨p', h5⟩ := hg.kind u k pos h4
    exact ⟨h2, by rw [step_views h]; exact h3, _, h5⟩
  by_cases hb : b = .go t
  · subst hb
    simp only [Multi.step] at h
    cases hc : y.calls[t]? with
    | none => rw [hc] at h; cases h
    | some pc =>
      rw [hc] at h
      dsimp only at h
      have hlt := (List.getElem?_eq_some_iff.1 hc).1
      cases pc with
      | done v => cases h
      | loop k r' wait =>
        cases wait with
        | none =>
          by_cases hr : r' < y.p.views.length
          · obtain ⟨z, h1, h2, h3⟩ := advance_none (farm := farm) (w := w) (fsub := fsub) (x := x) (t := t) (kind := k) hr
            rw [h] at h1
            cases h1
            rw [h2, List.getElem?_set, if_pos rfl, if_pos hlt] at ht
            cases ht
            refine ⟨fun e => ?_, ?_, h3⟩
            · have := hpos r
              omega
            · have : y'.p.views = y.p.views := by
                have hs : Multi.step farm w fsub x y (.go t) = some y' := by simp only [Multi.step, hc]; exact h
                exact step_views hs
              rw [this]
              exact hr
          · simp only [advance, if_neg hr] at h
            cases h
            rw [List.getElem?_set, if_pos rfl, if_pos hlt] at ht
            cases ht
        | some v =>
          simp only [advance] at h
          split at h
          · cases h
          · split at h
            · cases h
              rw [List.getElem?_set, if_pos rfl, if_pos hlt] at ht
              cases ht
            · cases h
  · refine old ?_
    by_cases hlt : t < y.calls.length
    · have h1 := calls_kept h hb (List.getElem?_eq_getElem hlt)
      rw [ht] at h1
      rw [List.getElem?_eq_getElem hlt, ← h1]
    · exfalso
      have hnone : y.calls[t]? = none := List.getElem?_eq_none (by omega)
      have hsame : y'.calls = y.calls → False := fun e => by rw [e, hnone] at ht; cases ht
      cases b with
      | make c => exact hsame (shared_calls h)
      | call o as n => exact hsame (shared_calls h)
      | op o => exact hsame (shared_calls h)
      | task t c => exact hsame (shared_calls h)
      | cb j b => exact hsame (at_calls h)
      | reader j b o => exact hsame (at_calls h)
      | produce j now => exact hsame (at_calls h)
      | flush =>
        cases h
        rw [List.getElem?_append_right (by omega), List.getElem?_singleton] at ht
        split at ht <;> cases ht
      | shutdown =>
        simp only [Multi.step, Option.map_eq_some_iff] at h
        obtain ⟨y1, -, rfl⟩ := h
        dsimp only at ht
        rw [List.getElem?_append_right (by omega), List.getElem?_singleton] at ht
        split at ht
        · split at ht <;> cases ht
        · cases ht
      | go v =>
        simp only [Multi.step] at h
        split at h
        · cases h
        · obtain ⟨pc', h1⟩ := advance_calls h
          rw [h1, List.getElem?_set, if_neg (fun e => hb (by rw [e])), hnone] at ht
          cases ht

theorem Endless.waiting (E : Endless farm w fsub x views start p f a) (n : Nat) : Waiting (f n) ∧ ∀ r, 0 < ((f n).readers r).r.threads.length := by
  induction n with
  | zero =>
    rw [E.start]
    exact ⟨fun t r u kind h => by simp [initial] at h, fun r => Nat.zero_lt_one⟩
  | succ n ih => exact ⟨ih.1.step ih.2 (E.next n), fun r => Nat.lt_of_lt_of_le (ih.2 r) (step_grown (E.next n) r).length⟩

/-- Every `ForceFlush` and every `Shutdown` of the provider returns. -/
theorem Endless.provider_done (E : Endless farm w fsub x views start p f a) (F : Fair farm w fsub x views f a) (ha : Answered x views a) {n t : Nat} (ht : t < (f n).calls.length) :
    ∃ k, n ≤ k ∧ Answers t (f k) := by
  have hlen : ∀ k, (f k).p.views.length = views.length := fun k => by rw [E.same]
  have key : ∀ d n kind r wait, views.length - r ≤ d → (f n).calls[t]? = some (Pc.loop kind r wait) → ∃ k, n ≤ k ∧ Answers t (f k) := by
    intro d
    induction d with
    | zero =>
      intro n kind r wait hd hn
      cases wait with
      | some u => have := ((E.waiting n).1 t r u kind hn).2.1; rw [hlen] at this; omega
      | none =>
        have hadv : ∀ k, advance farm w fsub x (f k) t (.loop kind r none) = some { f k with calls := (f k).calls.set t (.done false) } := fun k => by
          simp only [advance, hlen k, if_neg (show ¬ r < views.length by omega)]
        obtain ⟨k, hk, h1, h2⟩ := E.goes F hn (fun k _ h1 => can_call h1 (hadv k) rfl (by simp))
        have h3 := E.next k
        rw [h2] at h3
        simp only [step, h1, hadv k] at h3
        refine ⟨k + 1, by omega, false, ?_⟩
        rw [← Option.some.inj h3]
        show ((f k).calls.set t _)[t]? = _
        rw [List.getElem?_set, if_pos rfl, if_pos (List.getElem?_eq_some_iff.1 h1).1]
    | succ d ih =>
      have hwait : ∀ n kind r u, views.length - r ≤ d + 1 → (f n).calls[t]? = some (Pc.loop kind r (some u)) → ∃ k, n ≤ k ∧ Answers t (f k) := by
        intro n kind r u hd hn
        obtain ⟨h0, hr, ⟨th, h1⟩⟩ := (E.waiting n).1 t r u kind hn
        rw [hlen] at hr
        obtain ⟨j, hj, ⟨k2, pos⟩, h2, h3⟩ := E.request_done F ha hr h0 h1
        dsimp only at h3
        subst h3
        by_cases hb : ∀ k, n ≤ k → k < j → a k ≠ .go t
        · have hjc : (f j).calls[t]? = some (Pc.loop kind r (some u)) := by
            have : ∀ q, n ≤ q → q ≤ j → (f q).calls[t]? = some (Pc.loop kind r (some u)) := by
              intro q hq
              induction hq with
              | refl => exact fun _ => hn
              | step hq ih => exact fun hle => calls_kept (E.next _) (hb _ hq (by omega)) (ih (by omega))
            exact this j hj (Nat.le_refl _)
          have hadv : ∀ k, j ≤ k → advance farm w fsub x (f k) t (.loop kind r (some u)) = some { f k with calls := (f k).calls.set t (.loop kind (r + 1) none) } := by
            intro k hk
            obtain ⟨acts, h4⟩ := E.later hk
            have h5 := (run_grown h4 r).done u k2 h2
            simp only [advance, h5, if_true]
          obtain ⟨k, hk, h4, h5⟩ := E.goes F hjc (fun k hk h4 => can_call h4 (hadv k hk) rfl (by simp))
          have h6 := E.next k
          rw [h5] at h6
          simp only [step, h4, hadv k hk] at h6
          have h7 : (f (k + 1)).calls[t]? = some (Pc.loop kind (r + 1) none) := by
            rw [← Option.some.inj h6]
            show ((f k).calls.set t _)[t]? = _
            rw [List.getElem?_set, if_pos rfl, if_pos (List.getElem?_eq_some_iff.1 h4).1]
          obtain ⟨q, hq, h8⟩ := ih (k + 1) kind (r + 1) none (by omega) h7
          exact ⟨q, by omega, h8⟩
        · -- it went on before
          obtain ⟨k, hk⟩ := Classical.not_forall.1 hb
          obtain ⟨hk1, hk2⟩ := Classical.not_imp.1 hk
          obtain ⟨hk2, hk3⟩ := Classical.not_imp.1 hk2
          have hk3 := Classical.not_not.1 hk3
          -- the first time
          have hmin : ∃ k, n ≤ k ∧ a k = .go t ∧ ∀ q, n ≤ q → q < k → a q ≠ .go t := by
            have : ∀ e k, k - n ≤ e → n ≤ k → a k = .go t → ∃ k, n ≤ k ∧ a k = .go t ∧ ∀ q, n ≤ q → q < k → a q ≠ .go t := by
              intro e
              induction e with
              | zero => exact fun k h1 h2 h3 => ⟨k, h2, h3, fun q h4 h5 => by omega⟩
              | succ e ihe =>
                intro k h1 h2 h3
                by_cases hq : ∀ q, n ≤ q → q < k → a q ≠ .go t
                · exact ⟨k, h2, h3, hq⟩
                · obtain ⟨q, hq⟩ := Classical.not_forall.1 hq
                  obtain ⟨hq1, hq2⟩ := Classical.not_imp.1 hq
                  obtain ⟨hq2, hq3⟩ := Classical.not_imp.1 hq2
                  exact ihe q (by omega) hq1 (Classical.not_not.1 hq3)
            exact this _ k (Nat.le_refl _) hk1 hk3
          obtain ⟨k, hk, h4, h5⟩ := hmin
          have h6 : (f k).calls[t]? = some (Pc.loop kind r (some u)) := by
            have : ∀ q, n ≤ q → q ≤ k → (f q).calls[t]? = some (Pc.loop kind r (some u)) := by
              intro q hq
              induction hq with
              | refl => exact fun _ => hn
              | step hq ih => exact fun hle => calls_kept (E.next _) (h5 _ hq (by omega)) (ih (by omega))
            exact this k hk (Nat.le_refl _)
          have h7 := E.next k
          rw [h4] at h7
          simp only [step, h6, advance] at h7
          split at h7
          · cases h7
          · split at h7
            · have h8 : (f (k + 1)).calls[t]? = some (Pc.loop kind (r + 1) none) := by
                rw [← Option.some.inj h7]
                show ((f k).calls.set t _)[t]? = _
                rw [List.getElem?_set, if_pos rfl, if_pos (List.getElem?_eq_some_iff.1 h6).1]
              obtain ⟨q, hq, h9⟩ := ih (k + 1) kind (r + 1) none (by omega) h8
              exact ⟨q, by omega, h9⟩
            · cases h7
      intro n kind r wait hd hn
      cases wait with
      | some u => exact hwait n kind r u hd hn
      | none =>
        by_cases hr : r < views.length
        · obtain ⟨k, hk, h1, h2⟩ := E.goes F hn (fun k _ h1 => by
            obtain ⟨z, h3, h4, -⟩ := advance_none (farm := farm) (w := w) (fsub := fsub) (x := x) (y := f k) (t := t) (kind := kind) (r := r) (by rw [hlen]; exact hr)
            exact can_call h1 h3 h4 (by simp))
          obtain ⟨z, h3, h4, -⟩ := advance_none (farm := farm) (w := w) (fsub := fsub) (x := x) (y := f k) (t := t) (kind := kind) (r := r) (by rw [hlen]; exact hr)
          have h5 := E.next k
          rw [h2] at h5
          simp only [step, h1, h3] at h5
          have h6 : (f (k + 1)).calls[t]? = some (Pc.loop kind r (some ((f k).readers r).r.threads.length)) := by
            rw [← Option.some.inj h5, h4, List.getElem?_set, if_pos rfl, if_pos (List.getElem?_eq_some_iff.1 h1).1]
          obtain ⟨q, hq, h7⟩ := hwait (k + 1) kind r _ hd h6
          exact ⟨q, by omega, h7⟩
        · exact ih n kind r none (by omega) hn
  cases hpc : (f n).calls[t]? with
  | none => rw [List.getElem?_eq_none_iff] at hpc; omega
  | some pc =>
    cases pc with
    | done v => exact ⟨n, Nat.le_refl _, v, hpc⟩
    | loop kind r wait => exact key _ n kind r wait (Nat.le_refl _) hpc

end Verif.Multi
