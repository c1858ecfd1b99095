import Verif.Spec.Fair
import Verif.Proof.SyncFair
import Verif.Proof.DeliveryStuck

/-!
Helper file: what one step of the system with its reader does to each of its parts.
-/

namespace Verif.Async
variable {K N S : Type} [DecidableEq K] [DecidableEq N] {c : Cfg K N S} {s s' : State K N S}

omit [DecidableEq N] in
theorem getOrCreate_ops (c : Cfg K N S) (s : State K N S) (n o : Nat) (k : K) : (getOrCreate c s n o k).op = s.op ∧ (getOrCreate c s n o k).nextOp = s.nextOp := by
  unfold getOrCreate
  split <;> exact ⟨rfl, rfl⟩

/-- An observation comes closer to its end. -/
theorem op_own {i : Nat} (h : step c s (.op i) = some s') : s'.nextOp = s.nextOp ∧ (s'.op i).pc.rank < (s.op i).pc.rank ∧ ∀ j, j ≠ i → s'.op j = s.op j := by
  simp only [step] at h
  split at h
  · cases h
  · cases hp : (s.op i).pc with
    | check =>
      rw [hp] at h
      dsimp only at h
      split at h
      · split at h <;> cases h <;> exact ⟨rfl, by simp [upd_same, Pc.rank], fun j hj => upd_ne _ _ hj⟩
      · cases h; exact ⟨rfl, by simp [upd_same, Pc.rank], fun j hj => upd_ne _ _ hj⟩
    | create =>
      rw [hp] at h
      dsimp only at h
      cases h
      obtain ⟨h1, h2⟩ := getOrCreate_ops c s (s.cb (s.op i).cb).coll (s.op i).obs (c.canon (s.op i).obs (s.op i).set)
      refine ⟨h2, by simp [upd_same, Pc.rank], fun j hj => ?_⟩
      dsimp only
      rw [h1, upd_ne _ _ hj]
    | update => rw [hp] at h; cases h; exact ⟨rfl, by simp [upd_same, Pc.rank], fun j hj => upd_ne _ _ hj⟩
    | done => rw [hp] at h; cases h
    | rejected => rw [hp] at h; cases h

theorem op_other {i : Nat} (hi : i < s.nextOp) {a : Action K N} (ha : a ≠ .op i) (h : step c s a = some s') : i < s'.nextOp ∧ s'.op i = s.op i := by
  cases a with
  | startCb is => cases h; exact ⟨hi, rfl⟩
  | endCb j =>
    simp only [step] at h
    split at h
    · cases h; exact ⟨hi, rfl⟩
    · cases h
  | observe cb o x v =>
    simp only [step] at h
    split at h
    · cases h; exact ⟨Nat.lt_succ_of_lt hi, upd_ne _ _ (by omega)⟩
    · cases h
  | op j =>
    obtain ⟨h1, -, h2⟩ := op_own h
    exact ⟨by rw [h1]; exact hi, h2 i (fun e => ha (by rw [e]))⟩
  | finish order =>
    simp only [step] at h
    split at h
    · cases h; exact ⟨hi, rfl⟩
    · cases h

theorem op_can {i : Nat} (hi : i < s.nextOp) (h1 : (s.op i).pc ≠ .done) (h2 : (s.op i).pc ≠ .rejected) : step c s (.op i) ≠ none := by
  intro h
  simp only [step, if_neg (Nat.not_le.2 hi)] at h
  cases hp : (s.op i).pc with
  | check =>
    rw [hp] at h
    dsimp only at h
    split at h
    · split at h <;> cases h
    · cases h
  | create => rw [hp] at h; cases h
  | update => rw [hp] at h; cases h
  | done => exact h1 hp
  | rejected => exact h2 hp

end Verif.Async

namespace Verif.Periodic

/-- A step of another thread leaves a thread where it is. -/
theorem thread_other {r : State} {t : Nat} {th : Thread} (h : r.threads[t]? = some th) {b : Act} (hb : ∀ q, b ≠ .go t q) : (step r b).threads[t]? = some th := by
  have happ : ∀ th', (r.threads ++ [th'])[t]? = some th := fun th' => by rw [List.getElem?_append_left (List.getElem?_eq_some_iff.1 h).1, h]
  cases b with
  | tick => exact h
  | callShutdown => exact happ _
  | callFlush => exact happ _
  | go t' q =>
    have hne : t ≠ t' := fun e => hb q (by rw [e])
    simp only [step]
    cases ht : r.threads[t']? with
    | none => exact h
    | some th' =>
      dsimp only
      have key : ∀ (y : State) (p : Pos), y.threads = r.threads → (y.move t' th' p).threads[t]? = some th := by
        intro y p hy
        simp only [State.move, hy]
        rw [get_set ht, if_neg hne, h]
      unfold advance
      cases hp : th'.pos with
      | idle =>
        dsimp only
        unfold select
        split
        · split
          · exact key _ _ rfl
          · exact h
        · split
          · exact key _ _ rfl
          · exact h
      | start => exact key _ _ rfl
      | stopped =>
        dsimp only
        split
        · exact key _ _ rfl
        · exact h
      | wait =>
        dsimp only
        split
        · exact key _ _ rfl
        · exact h
      | crit c =>
        dsimp only
        unfold inside
        cases c <;> exact key _ _ rfl
      | done => exact h

/-- A thread which goes on comes closer to its return, or leaves its select. -/
theorem thread_own {r : State} {t : Nat} {th : Thread} (h : r.threads[t]? = some th) (q : Bool) (hne : step r (.go t q) ≠ r) :
    ∃ p, (step r (.go t q)).threads[t]? = some { th with pos := p } ∧ (th.pos ≠ .idle → p.rank < th.pos.rank) := by
  have key : ∀ (y : State) (p : Pos), y.threads = r.threads → (y.move t th p).threads[t]? = some { th with pos := p } := by
    intro y p hy
    simp only [State.move, hy]
    rw [get_set h, if_pos rfl]
  simp only [step, h] at hne ⊢
  unfold advance at hne ⊢
  cases hp : th.pos with
  | idle =>
    rw [hp] at hne
    dsimp only at hne ⊢
    unfold select at hne ⊢
    by_cases hq : q = true
    · rw [if_pos hq] at hne ⊢
      by_cases hc : r.cancelled = true
      · rw [if_pos hc]; exact ⟨_, key _ _ rfl, fun e => absurd rfl e⟩
      · rw [if_neg hc] at hne; exact absurd rfl hne
    · rw [if_neg hq] at hne ⊢
      by_cases hc : r.chan = true
      · rw [if_pos hc]; exact ⟨_, key _ _ rfl, fun e => absurd rfl e⟩
      · rw [if_neg hc] at hne; exact absurd rfl hne
  | start => exact ⟨_, key _ _ rfl, fun _ => by simp [Pos.rank]⟩
  | stopped =>
    rw [hp] at hne
    dsimp only at hne ⊢
    by_cases hc : loopDone r = true
    · rw [if_pos hc]; exact ⟨_, key _ _ rfl, fun _ => by simp [Pos.rank]⟩
    · rw [if_neg hc] at hne; exact absurd rfl hne
  | wait =>
    rw [hp] at hne
    dsimp only at hne ⊢
    by_cases hc : r.lock = none
    · rw [if_pos hc]; exact ⟨_, key _ _ rfl, fun _ => by simp [Pos.rank]⟩
    · rw [if_neg hc] at hne; exact absurd rfl hne
  | crit c =>
    dsimp only
    unfold inside
    cases c with
    | locked => exact ⟨_, key _ _ rfl, fun _ => by simp [Pos.rank]⟩
    | produced => exact ⟨_, key _ _ rfl, fun _ => by simp [Pos.rank]⟩
    | exporting => exact ⟨_, key _ _ rfl, fun _ => by split <;> simp [Pos.rank]⟩
  | done => rw [hp] at hne; exact absurd rfl hne

/-- When a thread can go on. -/
theorem thread_can {r : State} {t : Nat} {th : Thread} (h : r.threads[t]? = some th)
    (hp : th.pos = .start ∨ (th.pos = .stopped ∧ loopDone r = true) ∨ (th.pos = .wait ∧ r.lock = none) ∨ ∃ c, th.pos = .crit c) : step r (.go t false) ≠ r := by
  intro he
  have key : ∀ (y : State) (p : Pos), y.move t th p = r → y.threads = r.threads → p = th.pos := by
    intro y p hm hy
    have h1 : (y.move t th p).threads[t]? = some { th with pos := p } := by
      simp only [State.move, hy]
      rw [get_set h, if_pos rfl]
    rw [hm, h] at h1
    cases th
    injection h1 with h1
    injection h1 with _ h1
    exact h1.symm
  rcases hp with hp | ⟨hp, hl⟩ | ⟨hp, hl⟩ | ⟨c, hp⟩
  · simp only [step, h, advance, hp] at he
    have := key _ _ he rfl; rw [hp] at this; cases this
  · simp only [step, h, advance, hp, if_pos hl] at he
    have := key _ _ he rfl; rw [hp] at this; cases this
  · simp only [step, h, advance, hp, if_pos hl] at he
    have := key _ _ he rfl; rw [hp] at this; cases this
  · simp only [step, h, advance, hp, inside] at he
    cases c with
    | locked => have := key _ _ he rfl; rw [hp] at this; cases this
    | produced => have := key _ _ he rfl; rw [hp] at this; cases this
    | exporting => have := key _ _ he rfl; rw [hp] at this; split at this <;> cases this

/-- The lock is passed on only by its holder. -/
theorem lock_keep {r : State} (b : Act) {t : Nat} (h : r.lock = some t) : (step r b).lock = some t ∨ (step r b).lock = none := by
  cases b with
  | tick => exact .inl h
  | callShutdown => exact .inl h
  | callFlush => exact .inl h
  | go t' q =>
    simp only [step]
    cases ht : r.threads[t']? with
    | none => exact .inl h
    | some th' =>
      dsimp only
      unfold advance
      cases hp : th'.pos with
      | idle =>
        dsimp only
        unfold select
        left
        split
        · split <;> exact h
        · split <;> exact h
      | start => exact .inl h
      | stopped => dsimp only; left; split <;> exact h
      | wait =>
        dsimp only
        rw [if_neg (by rw [h]; simp)]
        exact .inl h
      | crit c =>
        dsimp only
        unfold inside
        cases c with
        | locked => exact .inl h
        | produced => exact .inl h
        | exporting => exact .inr rfl
      | done => exact .inl h

theorem log_grows (r : State) (b : Act) : ∃ l, (step r b).log = r.log ++ l := by
  have same : ∀ y : State, y.log = r.log → ∃ l, y.log = r.log ++ l := fun y h => ⟨[], by rw [h, List.append_nil]⟩
  cases b with
  | tick => exact same _ rfl
  | callShutdown => exact same _ rfl
  | callFlush => exact same _ rfl
  | go t q =>
    simp only [step]
    split
    · exact same _ rfl
    · rename_i th hth
      unfold advance
      split
      · unfold select
        split <;> split <;> exact same _ rfl
      · exact same _ rfl
      · split <;> exact same _ rfl
      · split <;> exact same _ rfl
      · rename_i c _
        cases c <;> exact ⟨_, rfl⟩
      · exact same _ rfl

/-- A tick waits until the loop takes it. -/
theorem chan_step {r : State} (hi : Inv r) (b : Act) (h : r.chan = true) : (step r b).chan = true ∨ (step r b).threads[0]? = some ⟨.tick, .wait⟩ := by
  cases b with
  | tick => exact .inl rfl
  | callShutdown => exact .inl h
  | callFlush => exact .inl h
  | go t q =>
    simp only [step]
    split
    · exact .inl h
    · rename_i th hth
      unfold advance
      cases hp : th.pos with
      | idle =>
        dsimp only
        have h0 : t = 0 := Classical.byContradiction fun h0 => (hi.calls t th hth h0).2 hp
        subst h0
        obtain ⟨p, h1, -⟩ := hi.loop
        rw [hth] at h1
        injection h1 with h1
        subst h1
        unfold select
        split
        · split <;> exact .inl h
        · right
          simp only [State.move]
          rw [get_set hth, if_pos rfl]
      | start => exact .inl h
      | stopped => dsimp only; split <;> exact .inl h
      | wait => dsimp only; split <;> exact .inl h
      | crit c => cases c <;> exact .inl h
      | done => exact .inl h

/-- Cancelled is cancelled. -/
theorem cancelled_keep {r : State} (b : Act) (h : r.cancelled = true) : (step r b).cancelled = true := by
  cases b with
  | tick => exact h
  | callShutdown => exact h
  | callFlush => exact h
  | go t' q =>
    simp only [step]
    cases ht : r.threads[t']? with
    | none => exact h
    | some th' =>
      dsimp only
      unfold advance
      cases hp : th'.pos with
      | idle =>
        dsimp only
        unfold select
        split
        · exact h
        · split <;> exact h
      | start => rfl
      | stopped => dsimp only; split <;> exact h
      | wait => dsimp only; split <;> exact h
      | crit c => dsimp only; unfold inside; cases c <;> exact h
      | done => exact h

end Verif.Periodic

namespace Verif.Whole
open Verif.Attr Verif.Number
variable {H : Type} {P : Parts H} {R : Pipeline.Reader H} {x y : Sys H}

/-- What a step does to the synchronous instruments. -/
theorem sync_of {b : Act} (h : step P R x b = some y) :
    ∃ o, ((o = none ∧ y.sync = x.sync) ∨ ∃ d, o = some d ∧ Sync.step P.c x.sync d = some y.sync) ∧
      (∀ d, b = .sched d → o = some d) ∧ ∀ d, o = some d → b = .sched d ∨ ∃ k v n, d = .observe k v n := by
  cases b with
  | call i as n =>
    cases h
    dsimp only
    unfold Front.observe
    dsimp only
    split
    · split
      · rename_i hs
        exact ⟨_, .inr ⟨_, rfl, hs⟩, (fun d e => by cases e), fun d e => by cases e; exact .inr ⟨_, _, _, rfl⟩⟩
      · exact ⟨none, .inl ⟨rfl, rfl⟩, (fun d e => by cases e), fun d e => by cases e⟩
    · exact ⟨none, .inl ⟨rfl, rfl⟩, (fun d e => by cases e), fun d e => by cases e⟩
  | sched a =>
    simp only [step] at h
    split at h
    · cases h
    · obtain ⟨s, h1, rfl⟩ := Option.map_eq_some_iff.1 h
      exact ⟨some a, .inr ⟨a, rfl, h1⟩, (fun d e => by cases e; rfl), fun d e => by cases e; exact .inl rfl⟩
  | cb a =>
    simp only [step] at h
    split at h
    · cases h
    · obtain ⟨s, h1, rfl⟩ := Option.map_eq_some_iff.1 h
      exact ⟨none, .inl ⟨rfl, rfl⟩, (fun d e => by cases e), fun d e => by cases e⟩
  | collect order q =>
    simp only [step] at h
    obtain ⟨s, h1, rfl⟩ := Option.map_eq_some_iff.1 h
    exact ⟨none, .inl ⟨rfl, rfl⟩, (fun d e => by cases e), fun d e => by cases e⟩

/-- What a step does to the asynchronous instruments. -/
theorem async_of {b : Act} (h : step P R x b = some y) :
    (y.async = x.async ∧ ∀ d, b ≠ .cb d) ∨ ∃ d, Async.step (AsyncPipeline.cfg P.u) x.async d = some y.async ∧ (b = .cb d ∨ ((∀ d', b ≠ .cb d') ∧ ∃ order, d = .finish order)) := by
  cases b with
  | call i as n => cases h; exact .inl ⟨rfl, fun d e => by cases e⟩
  | sched a =>
    simp only [step] at h
    split at h
    · cases h
    · obtain ⟨s, h1, rfl⟩ := Option.map_eq_some_iff.1 h
      exact .inl ⟨rfl, fun d e => by cases e⟩
  | cb a =>
    simp only [step] at h
    split at h
    · cases h
    · obtain ⟨s, h1, rfl⟩ := Option.map_eq_some_iff.1 h
      exact .inr ⟨a, h1, .inl rfl⟩
  | collect order q =>
    simp only [step] at h
    obtain ⟨s, h1, rfl⟩ := Option.map_eq_some_iff.1 h
    exact .inr ⟨_, h1, .inr ⟨(fun d e => by cases e), order, rfl⟩⟩

end Verif.Whole

namespace Verif.Delivery
open Verif.Attr Verif.Number Verif.Assembly
variable {C G ν : Type} [DecidableEq C]
variable {farm : Str → UInt64} {w : World C G} {fsub : Bits → Bits → Bits} {x : Views.Ext C} {pipe : Nat} {s s' : Sys C G ν}

/-- Every step but a request to the provider is a step of the program with its instruments, or none. -/
theorem whole_of {a : Act ν} (ha : ∀ c, a ≠ .make c) (h : step farm w fsub x pipe s a = some s') :
    s'.z.p = s.z.p ∧ ((liveOf pipe s a = none ∧ s'.z.s = s.z.s) ∨
      ∃ b, liveOf pipe s a = some (.run b) ∧ Whole.step (Whole.parts farm w fsub s.z.p pipe) (reader w s.z.p pipe) s.z.s b = some s'.z.s) := by
  have h1 := step_live h
  have hno : ∀ c, liveOf pipe s a ≠ some (.make c) := by
    intro c hl
    cases a with
    | make c => exact ha _ rfl
    | call i as n => cases hl
    | other b => cases hl
    | op i => cases hl
    | task t ch => cases hl
    | cb b => cases hl
    | produce now =>
      have := produceLive_cases (ν := ν) pipe s
      have hl : produceLive pipe s = some (.make c) := hl
      rw [hl] at this
      simp at this
    | reader b order =>
      have := readerLive_cases (ν := ν) s b order
      have hl : readerLive s b order = some (.make c) := hl
      rw [hl] at this
      simp at this
  cases hl : liveOf pipe s a with
  | none => rw [hl] at h1; injection h1 with h1; rw [← h1]; exact ⟨rfl, .inl ⟨rfl, rfl⟩⟩
  | some b =>
    cases b with
    | make c => exact absurd hl (hno c)
    | run b =>
      rw [hl] at h1
      simp only [Option.toList, Live.run, Option.bind_eq_some_iff] at h1
      obtain ⟨z, h2, h3⟩ := h1
      injection h3 with h3
      rw [← h3]
      obtain ⟨-, y, hy, he⟩ := live_run h2
      rw [he]
      exact ⟨rfl, .inr ⟨b, rfl, hy⟩⟩

theorem sync_of {a : Act ν} (ha : ∀ c, a ≠ .make c) (h : step farm w fsub x pipe s a = some s') :
    ∃ o, ((o = none ∧ s'.z.s.sync = s.z.s.sync) ∨ ∃ d, o = some d ∧ Sync.step (Whole.parts farm w fsub s.z.p pipe).c s.z.s.sync d = some s'.z.s.sync) ∧
      (∀ i, a = .op i → o = some (.op i)) ∧ ∀ t ch, a = .task t ch → o = some (.task t ch) := by
  obtain ⟨-, ⟨h1, h2⟩ | ⟨b, h1, h2⟩⟩ := whole_of ha h
  · refine ⟨none, .inl ⟨rfl, by rw [h2]⟩, fun i e => ?_, fun t ch e => ?_⟩ <;> subst e <;> cases h1
  · obtain ⟨o, h3, h4, -⟩ := Whole.sync_of h2
    refine ⟨o, h3, fun i e => ?_, fun t ch e => ?_⟩
    · subst e; cases h1; exact h4 _ rfl
    · subst e; cases h1; exact h4 _ rfl

/-- Only its own steps change a call, a `SnapshotAndProcess` or a `Collect`. -/
theorem sync_kept {a : Act ν} (ha : ∀ c, a ≠ .make c) (h : step farm w fsub x pipe s a = some s') :
    (∀ i, a ≠ .op i → i < s.z.s.sync.nextOp → i < s'.z.s.sync.nextOp ∧ s'.z.s.sync.op i = s.z.s.sync.op i) ∧
      ∀ t, (∀ ch, a ≠ .task t ch) → t < s.z.s.sync.nextTask → t < s'.z.s.sync.nextTask ∧ s'.z.s.sync.task t = s.z.s.sync.task t := by
  obtain ⟨-, ⟨h1, h2⟩ | ⟨b, h1, h2⟩⟩ := whole_of ha h
  · rw [h2]; exact ⟨fun i _ hi => ⟨hi, rfl⟩, fun t _ ht => ⟨ht, rfl⟩⟩
  · have hown : ∀ d, b = .sched d → (∀ i, d = .op i → a = .op i) ∧ ∀ t ch, d = .task t ch → a = .task t ch := by
      intro d hb
      subst hb
      cases a with
      | make c => exact absurd rfl (ha c)
      | call i as n => cases h1
      | op i => cases h1; exact ⟨fun i e => by cases e; rfl, fun t ch e => by cases e⟩
      | task t ch => cases h1; exact ⟨fun i e => by (cases e), fun t ch e => by cases e; rfl⟩
      | cb d => cases h1
      | other d' =>
        cases h1
        simp only [step] at h
        split at h
        · rename_i hf
          refine ⟨fun i e => ?_, fun t ch e => ?_⟩ <;> subst e <;> cases hf
        · cases h
      | produce now =>
        have h1 : produceLive pipe s = _ := h1
        rcases produceLive_cases pipe s with h3 | ⟨o, h3⟩ | ⟨l, h3⟩ <;> rw [h1] at h3 <;> cases h3 <;>
          exact ⟨fun i e => by (cases e), fun t ch e => by cases e⟩
      | reader d' order =>
        have h1 : readerLive s d' order = _ := h1
        unfold readerLive at h1
        split at h1
        · split at h1 <;> cases h1
        · cases h1
    obtain ⟨o, h3, -, h4⟩ := Whole.sync_of h2
    rcases h3 with ⟨-, h3⟩ | ⟨d, rfl, h3⟩
    · rw [h3]; exact ⟨fun i _ hi => ⟨hi, rfl⟩, fun t _ ht => ⟨ht, rfl⟩⟩
    · have hd : (∀ i, d = .op i → a = .op i) ∧ ∀ t ch, d = .task t ch → a = .task t ch := by
        rcases h4 d rfl with h5 | ⟨k, v, n, rfl⟩
        · exact hown d h5
        · exact ⟨fun i e => by (cases e), fun t ch e => by cases e⟩
      exact ⟨fun i hne hi => ⟨Nat.lt_of_lt_of_le hi (Sync.nextOp_mono h3), Sync.op_other hi (fun e => hne (hd.1 i e)) h3⟩,
        fun t hne ht => ⟨Nat.lt_of_lt_of_le ht (Sync.nextTask_mono h3), Sync.task_other ht (fun ch e => hne ch (hd.2 t ch e)) h3⟩⟩

theorem async_of {a : Act ν} (ha : ∀ c, a ≠ .make c) (h : step farm w fsub x pipe s a = some s') :
    (s'.z.s.async = s.z.s.async ∧ ∀ d, a ≠ .cb d) ∨ ∃ d, Async.step (AsyncPipeline.cfg (Whole.parts farm w fsub s.z.p pipe).u) s.z.s.async d = some s'.z.s.async ∧
      (a = .cb d ∨ ((∀ d', a ≠ .cb d') ∧ ∃ order, d = .finish order)) := by
  obtain ⟨-, ⟨h1, h2⟩ | ⟨b, h1, h2⟩⟩ := whole_of ha h
  · refine .inl ⟨by rw [h2], fun d e => ?_⟩
    subst e; cases h1
  · have hcb : ∀ d, a = .cb d → b = .cb d := by
      rintro d rfl
      cases h1
      rfl
    have hbc : ∀ d, b = .cb d → a = .cb d := by
      rintro d rfl
      cases a with
      | make c => cases h1
      | call i as n => cases h1
      | other b => cases h1
      | op i => cases h1
      | task t ch => cases h1
      | cb b => cases h1; rfl
      | produce now =>
        have h1 : produceLive pipe s = some (.run (.cb d)) := h1
        have := produceLive_cases (ν := ν) pipe s
        rw [h1] at this
        simp at this
      | reader b order =>
        have h1 : readerLive s b order = some (.run (.cb d)) := h1
        have := readerLive_cases (ν := ν) s b order
        rw [h1] at this
        simp at this
    rcases Whole.async_of h2 with ⟨h3, h4⟩ | ⟨d, h3, h4 | ⟨h4, h5⟩⟩
    · exact .inl ⟨h3, fun d e => h4 d (hcb d e)⟩
    · exact .inr ⟨d, h3, .inl (hbc d h4)⟩
    · exact .inr ⟨d, h3, .inr ⟨fun d' e => h4 d' (hcb d' e), h5⟩⟩

theorem Good.next {a : Act ν} (h : Good farm w fsub x pipe s) (ha : ∀ c, a ≠ .make c) (hs : Delivery.step farm w fsub x pipe s a = some s') :
    Good farm w fsub x pipe s' ∧ s'.z.p = s.z.p := by
  obtain ⟨hp, h1⟩ := whole_of ha hs
  refine ⟨⟨?_, h.locked.step hs, step_posOk h.pos hs, by rw [hp]; exact h.prov, by rw [hp]; exact h.reader⟩, hp⟩
  unfold Halting
  rw [hp]
  rcases h1 with ⟨-, h1⟩ | ⟨b, -, h1⟩
  · rw [h1]; exact h.halt
  · exact Whole.halt_step h.halt h1

/-- What a step does to the reader. -/
theorem reader_of {a : Act ν} (h : step farm w fsub x pipe s a = some s') :
    (s'.r = s.r ∧ ∀ b order, a ≠ .reader b order) ∨ ∃ b order, a = .reader b order ∧ s'.r = Periodic.step s.r b := by
  have one : ∀ {b : Whole.Act}, (Live.step farm w fsub x pipe s.z (.run b)).map (fun z => { s with z := z }) = some s' → s'.r = s.r := by
    intro b hb
    obtain ⟨z, hz, rfl⟩ := Option.map_eq_some_iff.1 hb
    rfl
  cases a with
  | make c => cases h; exact .inl ⟨rfl, fun b o e => by cases e⟩
  | call i as n => exact .inl ⟨one h, fun b o e => by cases e⟩
  | op i => exact .inl ⟨one h, fun b o e => by cases e⟩
  | task t ch => exact .inl ⟨one h, fun b o e => by cases e⟩
  | cb b =>
    simp only [step] at h
    split at h
    · exact .inl ⟨one h, fun b o e => by cases e⟩
    · cases h
  | other b =>
    simp only [step] at h
    split at h
    · exact .inl ⟨one h, fun b o e => by cases e⟩
    · cases h
  | produce now => exact .inl ⟨(produce_keeps h).1, fun b o e => by cases e⟩
  | reader b order =>
    right
    refine ⟨b, order, rfl, ?_⟩
    simp only [step] at h
    split at h
    · split at h
      · obtain ⟨z, hz, rfl⟩ := Option.map_eq_some_iff.1 h
        rfl
      · cases h
    · cases h
      rfl

/-- What a step does to the collection in progress. -/
theorem pos_of {a : Act ν} (h : step farm w fsub x pipe s a = some s') :
    s'.pos = s.pos ∨ (∃ now, a = .produce now ∧ produce farm w fsub x pipe now s = some s') ∨
      ((∃ q, s.pos = .meters q []) ∧ ∃ t quit order, a = .reader (.go t quit) order ∧ ∃ th, s.r.threads[t]? = some th ∧ th.pos = .crit .locked) := by
  have one : ∀ {b : Whole.Act}, (Live.step farm w fsub x pipe s.z (.run b)).map (fun z => { s with z := z }) = some s' → s'.pos = s.pos := by
    intro b hb
    obtain ⟨z, hz, rfl⟩ := Option.map_eq_some_iff.1 hb
    rfl
  cases a with
  | make c => cases h; exact .inl rfl
  | call i as n => exact .inl (one h)
  | op i => exact .inl (one h)
  | task t ch => exact .inl (one h)
  | cb b =>
    simp only [step] at h
    split at h
    · exact .inl (one h)
    · cases h
  | other b =>
    simp only [step] at h
    split at h
    · exact .inl (one h)
    · cases h
  | produce now => exact .inr (.inl ⟨now, rfl, h⟩)
  | reader b order =>
    simp only [step] at h
    split at h
    · rename_i hr
      split at h
      · rename_i q hpos
        refine .inr (.inr ⟨⟨q, hpos⟩, ?_⟩)
        cases b with
        | go t quit =>
          refine ⟨t, quit, order, rfl, ?_⟩
          simp only [returns] at hr
          cases ht : s.r.threads[t]? with
          | none => rw [ht] at hr; cases hr
          | some th => rw [ht] at hr; exact ⟨th, rfl, of_decide_eq_true hr⟩
        | _ => cases hr
      · cases h
    · cases h
      exact .inl rfl

theorem produce_out {now : Int} (h : produce farm w fsub x pipe now s = some s') : s'.pos ≠ .out := by
  intro he
  have h1 := produce_near h
  unfold produce at h
  rw [he] at h1
  cases hp : s.pos <;> rw [hp] at h1 <;> simp [Pos.m1] at h1

end Verif.Delivery
