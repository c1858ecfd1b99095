import Verif.Proof.DeliveryFair

/-!
Helper file: there are fair endless executions in which things keep coming.
-/

namespace Verif.Periodic

theorem chan_keep {r : State} (hi : Inv r) {b : Act} (hb : ∀ q, b ≠ .go 0 q) (h : r.chan = true) : (step r b).chan = true := by
  cases b with
  | tick => rfl
  | callShutdown => exact h
  | callFlush => exact h
  | go t q =>
    have h0 : t ≠ 0 := fun e => hb q (by rw [e])
    simp only [step]
    split
    · exact h
    · rename_i th hth
      have hid := (hi.calls t th hth h0).2
      unfold advance
      cases hp : th.pos with
      | idle => exact absurd hp hid
      | start => exact h
      | stopped => dsimp only; split <;> exact h
      | wait => dsimp only; split <;> exact h
      | crit c => cases c <;> exact h
      | done => exact h

/-- As long as `Shutdown` is not called, the loop is not stopped. -/
def Unstopped (r : State) : Prop := r.cancelled = false ∧ ∀ th ∈ r.threads, th.pos ≠ .start

theorem Unstopped.step {r : State} (h : Unstopped r) {b : Act} (hb : b ≠ .callShutdown) : Unstopped (step r b) := by
  obtain ⟨h1, h2⟩ := h
  have move : ∀ (y : State) (t : Nat) (th : Thread) (p : Pos), y.cancelled = false → y.threads = r.threads → p ≠ .start → Unstopped (y.move t th p) := by
    intro y t th p hc ht hp
    refine ⟨hc, fun th' hm => ?_⟩
    simp only [State.move, ht] at hm
    rcases List.mem_or_eq_of_mem_set hm with hm | rfl
    · exact h2 th' hm
    · exact hp
  cases b with
  | tick => exact ⟨h1, h2⟩
  | callShutdown => exact absurd rfl hb
  | callFlush =>
    refine ⟨h1, fun th hm => ?_⟩
    rcases List.mem_append.1 hm with hm | hm
    · exact h2 th hm
    · simp only [List.mem_singleton] at hm
      subst hm
      simp
  | go t q =>
    simp only [Periodic.step]
    split
    · exact ⟨h1, h2⟩
    · rename_i th hth
      unfold advance
      cases hp : th.pos with
      | idle =>
        dsimp only
        unfold select
        split
        · split
          · exact move _ _ _ _ h1 rfl (by simp)
          · exact ⟨h1, h2⟩
        · split
          · exact move _ _ _ _ h1 rfl (by simp)
          · exact ⟨h1, h2⟩
      | start => exact absurd hp (h2 th (List.mem_of_getElem? hth))
      | stopped =>
        dsimp only
        split
        · exact move _ _ _ _ h1 rfl (by simp)
        · exact ⟨h1, h2⟩
      | wait =>
        dsimp only
        split
        · exact move _ _ _ _ h1 rfl (by simp)
        · exact ⟨h1, h2⟩
      | crit c =>
        cases c with
        | locked => exact move _ _ _ _ h1 rfl (by simp)
        | produced => exact move _ _ _ _ h1 rfl (by simp)
        | exporting => exact move _ _ _ _ h1 rfl (by split <;> simp)
      | done => exact ⟨h1, h2⟩

end Verif.Periodic

namespace Verif.Delivery
open Verif.Attr Verif.Number Verif.Assembly
variable {C G ν : Type} [DecidableEq C]
variable {farm : Str → UInt64} {w : World C G} {fsub : Bits → Bits → Bits} {x : Views.Ext C} {pipe : Nat} {s s' : Sys C G ν} {f : Nat → Sys C G ν} {a : Nat → Act ν}

/-- What is no longer so has been changed by a step. -/
theorem Endless.changed (E : Endless farm w fsub x pipe s f a) {P : Act ν → Prop} {Q : Sys C G ν → Prop} {n m : Nat} (hm : n ≤ m) (h1 : Q (f n)) (h2 : ¬ Q (f m))
    (hk : ∀ k, Q (f k) → ¬ P (a k) → Q (f (k + 1))) : ∃ k, n ≤ k ∧ P (a k) ∧ f (k + 1) ≠ f k := by
  refine Classical.byContradiction fun hno => h2 ?_
  refine E.keeps (P := fun k => Q (f k)) h1 (fun k hn hp => ?_) m hm
  by_cases hP : P (a k)
  · by_cases he : f (k + 1) = f k
    · rw [he]; exact hp
    · exact absurd ⟨k, hn, hP, he⟩ hno
  · exact hk k hp hP

/-- An execution in which again and again everything has returned is fair. -/
theorem Endless.fair (E : Endless farm w fsub x pipe s f a) (h : Good farm w fsub x pipe s) (hr : Often (fun k => AllReturned (f k))) : Fair farm w fsub x pipe f a := by
  have base : ∀ {P : Act ν → Prop} {Q : Sys C G ν → Prop}, (∀ k, Can farm w fsub x pipe P (f k) → Q (f k)) → (∀ k, AllReturned (f k) → ¬ Q (f k)) →
      (∀ k, Q (f k) → ¬ P (a k) → Q (f (k + 1))) → FairTo farm w fsub x pipe f a P := by
    intro P Q h1 h2 h3 ho n
    obtain ⟨k, hk, hc⟩ := ho n
    obtain ⟨m, hm, ha⟩ := hr k
    obtain ⟨j, hj, h4⟩ := E.changed hm (h1 k hc) (h2 m ha) h3
    exact ⟨j, Nat.le_trans hk hj, h4⟩
  refine ⟨fun i => ?_, fun t => ?_, fun i => ?_, ?_, fun t => ?_, ?_, ?_⟩
  · -- calls
    refine base (Q := fun y => i < y.z.s.sync.nextOp ∧ (y.z.s.sync.op i).pc ≠ .done) ?_ (fun k ha hq => hq.2 (ha.calls i hq.1)) ?_
    · rintro k ⟨b, y, rfl, hs, -⟩
      obtain ⟨o, h1, h2, -⟩ := sync_of (fun c e => by cases e) hs
      rcases h1 with ⟨h1, -⟩ | ⟨d, h1, h3⟩
      · rw [h2 i rfl] at h1; cases h1
      · rw [h2 i rfl] at h1
        cases h1
        have hh : Sync.Halt (Whole.parts farm w fsub (f k).z.p pipe).c (f k).z.s.sync := (E.good h k).1.halt
        refine ⟨Nat.lt_of_not_le fun hle => ?_, fun hd => ?_⟩
        · have := hh.inv.wf.opIdle i hle
          simp [Sync.step, Sync.stepOp, this] at h3
        · simp [Sync.step, Sync.stepOp, hd] at h3
    · rintro k ⟨hi, hq⟩ hne
      obtain ⟨h1, h2⟩ := (sync_kept (E.asked k) (E.next k)).1 i hne hi
      rw [h2]
      exact ⟨h1, hq⟩
  · -- `SnapshotAndProcess` and `Collect`
    refine base (Q := fun y => t < y.z.s.sync.nextTask ∧ y.z.s.sync.task t ≠ .done) ?_ (fun k ha hq => hq.2 (ha.tasks t hq.1)) ?_
    · rintro k ⟨b, y, ⟨ch, rfl⟩, hs, -⟩
      obtain ⟨o, h1, -, h2⟩ := sync_of (fun c e => by cases e) hs
      rcases h1 with ⟨h1, -⟩ | ⟨d, h1, h3⟩
      · rw [h2 t ch rfl] at h1; cases h1
      · rw [h2 t ch rfl] at h1
        cases h1
        have hh : Sync.Halt (Whole.parts farm w fsub (f k).z.p pipe).c (f k).z.s.sync := (E.good h k).1.halt
        refine ⟨Nat.lt_of_not_le fun hle => ?_, fun hd => ?_⟩
        · have := hh.inv.wf.taskIdle t hle
          simp [Sync.step, Sync.stepTask, this] at h3
        · simp [Sync.step, Sync.stepTask, hd] at h3
    · rintro k ⟨hi, hq⟩ hne
      obtain ⟨h1, h2⟩ := (sync_kept (E.asked k) (E.next k)).2 t (fun ch e => hne ⟨ch, e⟩) hi
      rw [h2]
      exact ⟨h1, hq⟩
  · -- observations
    refine base (Q := fun y => i < y.z.s.async.nextOp ∧ (y.z.s.async.op i).pc ≠ .done ∧ (y.z.s.async.op i).pc ≠ .rejected) ?_
      (fun k ha hq => (ha.observations i hq.1).elim hq.2.1 hq.2.2) ?_
    · rintro k ⟨b, y, rfl, hs, -⟩
      rcases async_of (fun c e => by cases e) hs with ⟨-, h1⟩ | ⟨d, h1, h2⟩
      · exact absurd rfl (h1 _)
      · rcases h2 with h2 | ⟨h2, -⟩
        · cases h2
          refine ⟨Nat.lt_of_not_le fun hle => ?_, fun hd => ?_, fun hd => ?_⟩
          · simp only [Async.step, if_pos hle] at h1; cases h1
          · have := (Async.op_own h1).2.1
            rw [hd] at this
            exact Nat.not_lt_zero _ this
          · have := (Async.op_own h1).2.1
            rw [hd] at this
            exact Nat.not_lt_zero _ this
        · exact absurd rfl (h2 _)
    · rintro k ⟨hi, hq⟩ hne
      rcases async_of (E.asked k) (E.next k) with ⟨h1, -⟩ | ⟨d, h1, h2⟩
      · rw [h1]; exact ⟨hi, hq⟩
      · have hd : d ≠ .op i := by
          rintro rfl
          rcases h2 with h2 | ⟨-, o, h2⟩
          · exact hne h2
          · cases h2
        obtain ⟨h3, h4⟩ := Async.op_other hi hd h1
        rw [h4]
        exact ⟨h3, hq⟩
  · -- `Produce`
    refine base (Q := fun y => (producing y.r = true ∧ y.pos = .out) ∨ (y.pos ≠ .out ∧ ∀ q, y.pos ≠ .meters q [])) ?_ ?_ ?_
    · rintro k ⟨b, y, ⟨now, rfl⟩, hs, -⟩
      have hs : produce farm w fsub x pipe now (f k) = some y := hs
      cases hp : (f k).pos with
      | out =>
        left
        simp only [produce, hp] at hs
        split at hs
        · rename_i h1; exact ⟨h1, rfl⟩
        · cases hs
      | meters q ks =>
        right
        refine ⟨by simp, fun q' e => ?_⟩
        cases e
        simp only [produce, hp] at hs
        cases hs
      | callbacks q k1 is ks => exact .inr ⟨by simp, by simp⟩
      | insts q k1 td wt ks => exact .inr ⟨by simp, by simp⟩
      | outputs q k1 td wt ks => exact .inr ⟨by simp, by simp⟩
    · rintro k ha (⟨h1, -⟩ | ⟨h1, -⟩)
      · obtain ⟨t, th, h2, h3⟩ := (Periodic.producing_iff _ (E.good h k).1.locked.per).1 h1
        rcases ha.requests t th h2 with h4 | ⟨-, h4, -⟩ <;> rw [h3] at h4 <;> cases h4
      · exact h1 ha.collection
    · rintro k hq hne
      rcases pos_of (E.next k) with h1 | ⟨now, h1, -⟩ | ⟨⟨q, h1⟩, -⟩
      · rcases hq with ⟨h2, h3⟩ | hq
        · refine .inl ⟨?_, by rw [h1]; exact h3⟩
          obtain ⟨t, th, h4, h5⟩ := (Periodic.producing_iff _ (E.good h k).1.locked.per).1 h2
          refine (Periodic.producing_iff _ (E.good h (k + 1)).1.locked.per).2 ⟨t, th, ?_, h5⟩
          rcases reader_of (E.next k) with ⟨h6, -⟩ | ⟨d, o, h6, h7⟩
          · rw [h6]; exact h4
          · rw [h7]
            refine Periodic.thread_other h4 (fun q e => ?_)
            subst e
            have h8 := E.next k
            rw [h6] at h8
            simp [Delivery.step, returns, h4, h5, h3] at h8
        · rw [h1]; exact .inr hq
      · exact absurd ⟨now, h1⟩ hne
      · rcases hq with ⟨-, h3⟩ | ⟨-, h3⟩
        · rw [h1] at h3; cases h3
        · exact absurd h1 (h3 q)
  · -- the goroutines of the reader
    refine base (Q := fun y => ∃ th, y.r.threads[t]? = some th ∧ th.pos ≠ .done ∧ (th.pos = .idle → y.r.chan = true ∨ y.r.cancelled = true)) ?_ ?_ ?_
    · rintro k ⟨b, y, ⟨quit, order, rfl⟩, hs, hne⟩
      have hst : Periodic.step (f k).r (.go t quit) ≠ (f k).r := by
        intro he
        simp only [Delivery.step] at hs
        split at hs
        · rename_i hr
          have := Periodic.returns_rank hr
          rw [he] at this
          exact Nat.lt_irrefl _ this
        · injection hs with hs
          rw [he] at hs
          exact hne hs.symm
      cases hth : (f k).r.threads[t]? with
      | none => simp [Periodic.step, hth] at hst
      | some th =>
        refine ⟨th, rfl, fun hd => ?_, fun hi => ?_⟩
        · simp [Periodic.step, hth, Periodic.advance, hd] at hst
        · refine Classical.byContradiction fun hno => hst ?_
          have h1 : (f k).r.chan = false := by cases hc : (f k).r.chan <;> simp_all
          have h2 : (f k).r.cancelled = false := by cases hc : (f k).r.cancelled <;> simp_all
          simp [Periodic.step, hth, Periodic.advance, hi, Periodic.select, h1, h2]
    · rintro k ha ⟨th, h1, h2, h3⟩
      rcases ha.requests t th h1 with h4 | ⟨-, h4, h5, h6⟩
      · exact h2 h4
      · rcases h3 h4 with h7 | h7
        · rw [h5] at h7; cases h7
        · rw [h6] at h7; cases h7
    · rintro k ⟨th, h1, h2, h3⟩ hne
      rcases reader_of (E.next k) with ⟨h4, -⟩ | ⟨d, o, h4, h5⟩
      · rw [h4]; exact ⟨th, h1, h2, h3⟩
      · have hd : ∀ q, d ≠ .go t q := fun q e => hne ⟨q, o, by rw [h4, e]⟩
        rw [h5]
        refine ⟨th, Periodic.thread_other h1 hd, h2, fun hi => ?_⟩
        have ht0 : t = 0 := Classical.byContradiction fun h0 => ((E.good h k).1.locked.per.calls t th h1 h0).2 hi
        rw [ht0] at hd
        rcases h3 hi with h6 | h6
        · exact .inl (Periodic.chan_keep (E.good h k).1.locked.per hd h6)
        · exact .inr (Periodic.cancelled_keep d h6)
  · -- the select of the loop
    intro ho
    exfalso
    obtain ⟨k, -, h1, h2⟩ := ho 0
    obtain ⟨m, hm, ha⟩ := hr k
    have hc : ∀ j, k ≤ j → (f j).r.cancelled = true := E.keeps (P := fun k => (f k).r.cancelled = true) h2 (fun k _ hp => by
      rcases reader_of (E.next k) with ⟨h1, -⟩ | ⟨d, o, -, h1⟩
      · rw [h1]; exact hp
      · rw [h1]; exact Periodic.cancelled_keep d hp)
    obtain ⟨p, h3⟩ := E.thread h1 m hm
    rcases ha.requests 0 _ h3 with h4 | ⟨-, -, -, h4⟩
    · obtain ⟨j, hj, h5, -⟩ := ho m
      have hdone : ∀ j, m ≤ j → (f j).r.threads[0]? = some ⟨.tick, .done⟩ := E.keeps (P := fun j => (f j).r.threads[0]? = some ⟨.tick, .done⟩)
        (by rw [h3]; dsimp only at h4; rw [h4]) (fun j _ hp => by
        rcases thread_next (E.next j) hp with ⟨-, -, p', -, h6⟩ | h6
        · exact absurd (h6 (by simp)) (Nat.not_lt_zero _)
        · exact h6)
      rw [hdone j hj] at h5
      cases h5
    · rw [hc m hm] at h4
      cases h4
  · -- callbacks
    intro n
    obtain ⟨k, hk, ha⟩ := hr n
    refine ⟨k, hk, ?_⟩
    simp only [Async.noneLive, List.all_eq_true, List.mem_range]
    intro i hi
    simp [ha.callbacks i hi]

theorem Endless.unstopped (E : Endless farm w fsub x pipe s f a) (h : Periodic.Unstopped s.r) (ha : ∀ k order, a k ≠ .reader .callShutdown order) (n : Nat) : Periodic.Unstopped (f n).r := by
  induction n with
  | zero => rw [E.start]; exact h
  | succ n ih =>
    rcases reader_of (E.next n) with ⟨h1, -⟩ | ⟨d, o, h1, h2⟩
    · rw [h1]; exact ih
    · rw [h2]
      exact ih.step (fun e => ha n o (by rw [h1, e]))

/-! ### They exist -/

theorem can_arrive {p : Provider.Provider C ν} {b : Act ν} (hb : arrives w p b = true) (hp : s.z.p = p) : ∃ y, step farm w fsub x pipe s b = some y := by
  cases b with
  | call i as n =>
    refine Option.ne_none_iff_exists'.1 fun hno => ?_
    simp only [arrives] at hb
    simp only [Delivery.step, Live.step, Live.possible, hp, hb, if_true, Whole.step, Option.map_some] at hno
    cases hno
  | reader d order =>
    cases d with
    | go t q => cases hb
    | tick => exact ⟨_, rfl⟩
    | callFlush => exact ⟨_, rfl⟩
    | callShutdown => exact ⟨_, rfl⟩
  | _ => cases hb

/-- A state, what is to be done until everything has returned, and how many things have come. -/
structure Plan (farm : Str → UInt64) (w : World C G) (fsub : Bits → Bits → Bits) (x : Views.Ext C) (pipe : Nat) (p : Provider.Provider C ν) where
  s : Sys C G ν
  todo : List (Act ν)
  i : Nat
  good : Good farm w fsub x pipe s
  prov : s.z.p = p
  made : ∀ b ∈ todo, ongoing b = true
  ends : ∃ s', run farm w fsub x pipe s todo = some s' ∧ AllReturned s'

/-- What happens next. -/
structure Plan.Next {p : Provider.Provider C ν} (g : Nat → Act ν) (c : Plan farm w fsub x pipe p) (q : Plan farm w fsub x pipe p × Act ν) : Prop where
  step : step farm w fsub x pipe c.s q.2 = some q.1.s
  which : (c.todo = q.2 :: q.1.todo ∧ q.1.i = c.i) ∨ (c.todo = [] ∧ q.2 = g c.i ∧ q.1.i = c.i + 1)

theorem Plan.next {p : Provider.Provider C ν} (hn : Provider.NoNil p) {g : Nat → Act ν} (hg : ∀ n, arrives w p (g n) = true) (c : Plan farm w fsub x pipe p) :
    ∃ q, c.Next g q := by
  obtain ⟨s, todo, i, hgood, hp, hmade, hends⟩ := c
  cases todo with
  | nil =>
    obtain ⟨y, hy⟩ := can_arrive (farm := farm) (fsub := fsub) (x := x) (pipe := pipe) (hg i) hp
    obtain ⟨h1, h2⟩ := hgood.next (fun c e => by have := hg i; rw [e] at this; cases this) hy
    obtain ⟨more, s', h3, h4, h5⟩ := h1.way (by rw [h2, hp]; exact hn)
    exact ⟨(⟨y, more, i + 1, h1, h2.trans hp, h3, s', h4, h5⟩, g i), hy, .inr ⟨rfl, rfl, rfl⟩⟩
  | cons b todo =>
    obtain ⟨s', h1, h2⟩ := hends
    rw [Delivery.run] at h1
    obtain ⟨y, hy, h3⟩ := Option.bind_eq_some_iff.1 h1
    obtain ⟨h4, h5⟩ := hgood.next (fun c e => by have := hmade b (List.mem_cons_self ..); rw [e] at this; cases this) hy
    exact ⟨(⟨y, todo, i, h4, h5.trans hp, fun b hb => hmade b (List.mem_cons_of_mem _ hb), s', h3, h2⟩, b), hy, .inl ⟨rfl, rfl⟩⟩

/-- Whatever is to come, there is a fair execution in which it comes. -/
theorem Good.exists_fair (h : Good farm w fsub x pipe s) (hn : Provider.NoNil s.z.p) {g : Nat → Act ν} (hg : ∀ n, arrives w s.z.p (g n) = true) :
    ∃ f a, Endless farm w fsub x pipe s f a ∧ Fair farm w fsub x pipe f a ∧ (∀ n, ∃ k, n ≤ k ∧ a k = g n) ∧ ∀ k, ongoing (a k) = true ∨ ∃ n, a k = g n := by
  obtain ⟨F, hF⟩ := Classical.axiomOfChoice (Plan.next (farm := farm) (fsub := fsub) (x := x) (pipe := pipe) hn hg)
  obtain ⟨more, s', h1, h2, h3⟩ := h.way hn
  let c0 : Plan farm w fsub x pipe s.z.p := ⟨s, more, 0, h, rfl, h1, s', h2, h3⟩
  let conf : Nat → Plan farm w fsub x pipe s.z.p := fun n => n.rec c0 (fun _ c => (F c).1)
  have hs : ∀ n, conf (n + 1) = (F (conf n)).1 := fun n => rfl
  let f : Nat → Sys C G ν := fun n => (conf n).s
  let a : Nat → Act ν := fun n => (F (conf n)).2
  have hnext : ∀ n, Plan.Next g (conf n) (conf (n + 1), a n) := fun n => hF (conf n)
  have E : Endless farm w fsub x pipe s f a := by
    refine ⟨rfl, fun n => (hnext n).step, fun n c e => ?_⟩
    rcases (hnext n).which with ⟨h4, -⟩ | ⟨-, h4, -⟩
    · have := (conf n).made (a n) (by rw [h4]; exact List.mem_cons_self ..)
      rw [e] at this
      cases this
    · have := hg (conf n).i
      dsimp only at h4
      rw [← h4, e] at this
      cases this
  have hempty : ∀ l n, (conf n).todo.length = l → ∃ k, n ≤ k ∧ (conf k).todo = [] ∧ (conf k).i = (conf n).i := by
    intro l
    induction l with
    | zero => exact fun n hl => ⟨n, Nat.le_refl _, List.length_eq_zero_iff.1 hl, rfl⟩
    | succ l ih =>
      intro n hl
      rcases (hnext n).which with ⟨h4, h5⟩ | ⟨h4, -⟩
      · dsimp only at h4 h5
        rw [h4, List.length_cons] at hl
        obtain ⟨k, hk, h6, h7⟩ := ih (n + 1) (by omega)
        exact ⟨k, by omega, h6, h7.trans h5⟩
      · rw [h4] at hl; cases hl
  have hle : ∀ n, (conf n).i ≤ n := by
    intro n
    induction n with
    | zero => exact Nat.le_refl _
    | succ n ih =>
      rcases (hnext n).which with ⟨-, h4⟩ | ⟨-, -, h4⟩ <;> dsimp only at h4 <;> omega
  refine ⟨f, a, E, E.fair h (fun n => ?_), fun n => ?_, fun k => ?_⟩
  · obtain ⟨k, hk, h4, -⟩ := hempty _ n rfl
    refine ⟨k, hk, ?_⟩
    obtain ⟨y, h5, h6⟩ := (conf k).ends
    rw [h4] at h5
    cases h5
    exact h6
  · have : ∃ k, (conf k).todo = [] ∧ (conf k).i = n := by
      induction n with
      | zero =>
        obtain ⟨k, -, h4, h5⟩ := hempty _ 0 rfl
        exact ⟨k, h4, h5⟩
      | succ n ih =>
        obtain ⟨k, h4, h5⟩ := ih
        rcases (hnext k).which with ⟨h6, -⟩ | ⟨-, -, h6⟩
        · rw [h4] at h6; cases h6
        · dsimp only at h6
          obtain ⟨j, -, h7, h8⟩ := hempty _ (k + 1) rfl
          exact ⟨j, h7, by omega⟩
    obtain ⟨k, h4, h5⟩ := this
    refine ⟨k, by have := hle k; omega, ?_⟩
    rcases (hnext k).which with ⟨h6, -⟩ | ⟨-, h6, -⟩
    · rw [h4] at h6; cases h6
    · dsimp only at h6
      rw [h6, h5]
  · rcases (hnext k).which with ⟨h4, -⟩ | ⟨-, h4, -⟩
    · exact .inl ((conf k).made (a k) (by rw [h4]; exact List.mem_cons_self ..))
    · exact .inr ⟨_, h4⟩

end Verif.Delivery
