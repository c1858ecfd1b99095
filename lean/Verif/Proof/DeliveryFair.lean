import Verif.Proof.DeliveryNext

/-!
Helper file: under a fair schedule everything which begins returns, though more keeps beginning.
-/

namespace Verif.Delivery
open Verif.Attr Verif.Number Verif.Assembly
variable {C G ν : Type} [DecidableEq C]
variable {farm : Str → UInt64} {w : World C G} {fsub : Bits → Bits → Bits} {x : Views.Ext C} {pipe : Nat} {s s' : Sys C G ν} {f : Nat → Sys C G ν} {a : Nat → Act ν}

/-! ### Who can go on -/

theorem sched_step {b : Sync.Action (List KV) Bits} {σ} (h1 : Pipeline.isObserve b = false) (h2 : Live.possible w s.z.p (.sched b) = true)
    (h3 : Sync.step (Whole.parts farm w fsub s.z.p pipe).c s.z.s.sync b = some σ) :
    Live.step farm w fsub x pipe s.z (.run (.sched b)) = some { s.z with s := { s.z.s with sync := σ } } := by
  simp only [Live.step, h2, if_true, Whole.step, h1, Bool.false_eq_true, if_false, h3, Option.map_some]

theorem Good.can_op (h : Good farm w fsub x pipe s) {i : Nat} (hs : Sync.stepOp (Whole.parts farm w fsub s.z.p pipe).c s.z.s.sync i ≠ none) :
    Can farm w fsub x pipe (fun b => b = .op i) s := by
  obtain ⟨σ, hq⟩ := Option.ne_none_iff_exists'.1 hs
  refine ⟨.op i, { s with z := { s.z with s := { s.z.s with sync := σ } } }, rfl, ?_, fun he => ?_⟩
  · simp only [Delivery.step, sched_step (b := .op i) rfl rfl hq, Option.map_some]
  · have h1 := lower_sync (s := s) (y := { s with z := { s.z with s := { s.z.s with sync := σ } } }) rfl rfl rfl (h.halt.op_lower (s' := σ) hq)
    rw [he] at h1
    exact lexBy_irrefl _ _ h1

theorem Good.can_task (h : Good farm w fsub x pipe s) {t ch : Nat} (hs : Sync.stepTask (Whole.parts farm w fsub s.z.p pipe).c s.z.s.sync t ch ≠ none) :
    Can farm w fsub x pipe (fun b => ∃ ch, b = .task t ch) s := by
  obtain ⟨σ, hq⟩ := Option.ne_none_iff_exists'.1 hs
  refine ⟨.task t ch, { s with z := { s.z with s := { s.z.s with sync := σ } } }, ⟨ch, rfl⟩, ?_, fun he => ?_⟩
  · simp only [Delivery.step, sched_step (b := .task t ch) rfl rfl hq, Option.map_some]
  · have h1 := lower_sync (s := s) (y := { s with z := { s.z with s := { s.z.s with sync := σ } } }) rfl rfl rfl (h.halt.task_lower (s' := σ) hq)
    rw [he] at h1
    exact lexBy_irrefl _ _ h1

theorem can_obs {i : Nat} (hi : i < s.z.s.async.nextOp) (h1 : (s.z.s.async.op i).pc ≠ .done) (h2 : (s.z.s.async.op i).pc ≠ .rejected) :
    Can farm w fsub x pipe (fun b => b = .cb (.op i)) s := by
  obtain ⟨σ, hq⟩ := Option.ne_none_iff_exists'.1 (Async.op_can (c := AsyncPipeline.cfg (Whole.parts farm w fsub s.z.p pipe).u) hi h1 h2)
  refine ⟨.cb (.op i), { s with z := { s.z with s := { s.z.s with async := σ } } }, rfl, ?_, fun he => ?_⟩
  · simp only [Delivery.step, permitted, Live.step, Live.possible, if_true, Whole.step, AsyncPipeline.isFinish, Bool.false_eq_true, if_false, hq, Option.map_some]
  · have h3 : σ = s.z.s.async := by rw [← he]
    have h4 := (Async.op_own hq).2.1
    rw [h3] at h4
    exact Nat.lt_irrefl _ h4

theorem can_produce {y : Sys C G ν} (h : produce farm w fsub x pipe 0 s = some y) : Can farm w fsub x pipe (fun b => ∃ now, b = .produce now) s := by
  refine ⟨.produce 0, y, ⟨0, rfl⟩, h, fun he => ?_⟩
  have := produce_lower h
  rw [he] at this
  exact lexBy_irrefl _ _ this

/-- The task which `Produce` waits for. -/
def Pos.waits : Pos → Option Nat
  | .insts _ _ _ wt _ => wt
  | .outputs _ _ _ wt _ => wt
  | _ => none

/-- `Produce` goes on, unless it is over, or waits for a callback or a task. -/
theorem Good.goes (h : Good farm w fsub x pipe s) (hn : Provider.NoNil s.z.p) :
    (∃ y, produce farm w fsub x pipe 0 s = some y) ∨ (s.pos = .out ∧ producing s.r = false) ∨ (∃ q, s.pos = .meters q []) ∨
      (Async.noneLive s.z.s.async = false ∧ ∃ q k is ks, s.pos = .callbacks q k is ks) ∨
      ∃ t, s.pos.waits = some t ∧ t < s.z.s.sync.nextTask ∧ s.z.s.sync.task t ≠ .done := by
  have hpos := h.pos
  cases hp : s.pos with
  | out =>
    cases hpr : producing s.r with
    | false => exact .inr (.inl ⟨rfl, rfl⟩)
    | true =>
      left
      simp only [produce, hp]
      rw [if_pos hpr]
      exact ⟨_, rfl⟩
  | meters q ks =>
    rw [hp] at hpos
    cases ks with
    | cons k ks =>
      left
      refine ⟨{ s with pos := .callbacks q k (s.z.p.ordered[k]'(hpos k (List.mem_cons_self ..))).sync ks }, ?_⟩
      simp only [produce, hp, List.getElem?_eq_getElem (hpos k (List.mem_cons_self ..))]
    | nil => exact .inr (.inr (.inl ⟨q, rfl⟩))
  | callbacks q k is ks =>
    cases hnone : Async.noneLive s.z.s.async with
    | false => exact .inr (.inr (.inr (.inl ⟨rfl, q, k, is, ks, rfl⟩)))
    | true =>
      left
      refine ⟨{ s with pos := .insts q k is none ks }, ?_⟩
      simp only [produce, hp, hnone, if_true]
  | insts q k td wt ks =>
    rw [hp] at hpos
    obtain ⟨⟨m, hm, hsub⟩, hwt, -⟩ := hpos
    have hok := h.prov.meters m (List.mem_of_getElem? hm)
    cases wt with
    | some t =>
      by_cases hd : s.z.s.sync.task t = .done
      · left
        refine ⟨{ s with pos := .insts q k td none ks }, ?_⟩
        simp only [produce, hp]
        rw [hd]
        rfl
      · exact .inr (.inr (.inr (.inr ⟨t, rfl, hwt t rfl, hd⟩)))
    | none =>
      left
      cases td with
      | nil =>
        have hlt : pipe < m.comps.length := by rw [hok.comps]; exact h.reader
        refine ⟨{ s with pos := .outputs q k (List.range (m.comps[pipe]'hlt).collectors.length) none ks }, ?_⟩
        simp only [produce, hp, hm, Option.bind_some, List.getElem?_eq_getElem hlt]
      | cons i td =>
        cases i with
        | none => exact absurd (hsub none (List.mem_cons_self ..)) (hn m (List.mem_of_getElem? hm))
        | some i =>
          have hi := hok.sync _ (hsub _ (List.mem_cons_self ..)) i rfl
          have hpo : Live.possible w s.z.p (.sched (.snapshot (instAddr k i))) = true := by
            simp only [Live.possible, Live.hasInst, instAt, instAddr, unpair_pair, hm, Option.bind_some, List.getElem?_eq_getElem hi, Option.isSome_some]
          simp only [produce, hp]
          rw [sched_step (b := .snapshot (instAddr k i)) rfl hpo rfl, Option.map_some]
          exact ⟨_, rfl⟩
  | outputs q k td wt ks =>
    rw [hp] at hpos
    cases wt with
    | some t =>
      by_cases hd : s.z.s.sync.task t = .done
      · left
        refine ⟨{ s with pos := .outputs q k td none ks }, ?_⟩
        simp only [produce, hp]
        rw [hd]
        rfl
      · exact .inr (.inr (.inr (.inr ⟨t, rfl, hpos.1 t rfl, hd⟩)))
    | none =>
      left
      cases td with
      | nil =>
        refine ⟨{ s with pos := .meters q ks }, ?_⟩
        simp only [produce, hp]
      | cons j td =>
        by_cases hl : syncLeaf s.z.p (leafAddr k pipe j) = true
        · have hpo : Live.possible w s.z.p (.sched (.collect (leafAddr k pipe j))) = true := by
            unfold syncLeaf at hl
            simp only [Live.possible]
            cases hq : leafAt s.z.p (leafAddr k pipe j) with
            | none => rw [hq] at hl; cases hl
            | some l => rfl
          simp only [produce, hp]
          rw [if_pos hl, sched_step (b := .collect (leafAddr k pipe j)) rfl hpo rfl, Option.map_some]
          exact ⟨_, rfl⟩
        · refine ⟨{ s with pos := .outputs q k td none ks }, ?_⟩
          simp only [produce, hp]
          rw [if_neg hl]

/-- `Produce` returns when it has been through all meters and no callback is running. -/
theorem can_return {t : Nat} {th : Periodic.Thread} (ht : s.r.threads[t]? = some th) (hc : th.pos = .crit .locked) {q : Times.Seq} (hp : s.pos = .meters q [])
    (hnone : Async.noneLive s.z.s.async = true) : Can farm w fsub x pipe (fun b => ∃ quit order, b = .reader (.go t quit) order) s := by
  have hret : returns s.r (.go t false) = true := by simp [returns, ht, hc]
  have hfin : ∃ σ, Async.step (AsyncPipeline.cfg (Whole.parts farm w fsub s.z.p pipe).u) s.z.s.async (.finish (s.z.s.async.store s.z.s.async.coll)) = some σ := by
    simp only [Async.step, hnone, true_and]
    rw [if_pos (List.isPerm_iff.2 (List.Perm.refl _))]
    exact ⟨_, rfl⟩
  obtain ⟨σ, hσ⟩ := hfin
  have hst : ∃ z, Live.step farm w fsub x pipe s.z (.run (.collect (s.z.s.async.store s.z.s.async.coll) q)) = some z := by
    simp only [Live.step, Live.possible, if_true, Whole.step, hσ, Option.map_some]
    exact ⟨_, rfl⟩
  obtain ⟨z, hz⟩ := hst
  refine ⟨.reader (.go t false) (s.z.s.async.store s.z.s.async.coll), { s with z := z, r := Periodic.step s.r (.go t false), pos := .out }, ⟨false, _, rfl⟩, ?_, fun he => ?_⟩
  · simp only [Delivery.step, hret, if_true, hp, hz, Option.map_some]
  · have : s.pos = .out := by rw [← he]
    rw [hp] at this
    cases this

theorem can_go {t : Nat} {th : Periodic.Thread} (ht : s.r.threads[t]? = some th) (hc : th.pos ≠ .crit .locked) (hne : Periodic.step s.r (.go t false) ≠ s.r) :
    Can farm w fsub x pipe (fun b => ∃ quit order, b = .reader (.go t quit) order) s := by
  have hret : returns s.r (.go t false) = false := by simp [returns, ht, hc]
  refine ⟨.reader (.go t false) [], { s with r := Periodic.step s.r (.go t false) }, ⟨false, _, rfl⟩, ?_, fun he => hne ?_⟩
  · simp only [Delivery.step, hret, Bool.false_eq_true, if_false]
  · conv => rhs; rw [← he]

/-! ### Endless executions -/

theorem Endless.good (E : Endless farm w fsub x pipe s f a) (h : Good farm w fsub x pipe s) (n : Nat) : Good farm w fsub x pipe (f n) ∧ (f n).z.p = s.z.p := by
  induction n with
  | zero => rw [E.start]; exact ⟨h, rfl⟩
  | succ n ih =>
    obtain ⟨h1, h2⟩ := ih.1.next (E.asked n) (E.next n)
    exact ⟨h1, h2.trans ih.2⟩

theorem Endless.run (E : Endless farm w fsub x pipe s f a) (n : Nat) : Delivery.run farm w fsub x pipe s ((List.range n).map a) = some (f n) := by
  induction n with
  | zero => rw [E.start]; rfl
  | succ n ih =>
    rw [List.range_succ, List.map_append, run_append, ih]
    simp [Delivery.run, E.next n]

/-- What holds at a time and is kept by steps, holds later. -/
theorem Endless.keeps (E : Endless farm w fsub x pipe s f a) {P : Nat → Prop} {n : Nat} (h0 : P n) (hs : ∀ k, n ≤ k → P k → P (k + 1)) : ∀ k, n ≤ k → P k := by
  intro k hk
  induction hk with
  | refl => exact h0
  | step hk ih => exact hs _ hk ih

/-- The synchronous instruments in it. -/
theorem Endless.trace (E : Endless farm w fsub x pipe s f a) (F : Fair farm w fsub x pipe f a) (h : Good farm w fsub x pipe s) :
    ∃ b, Sync.Trace (Whole.parts farm w fsub s.z.p pipe).c (fun n => (f n).z.s.sync) b := by
  have hex := fun n => sync_of (E.asked n) (E.next n)
  obtain ⟨b, hb⟩ := Classical.axiomOfChoice hex
  refine ⟨b, ⟨?_, fun n => ?_, fun i ho m => ?_, fun t ho m => ?_⟩⟩
  · have := (E.good h 0).1.halt
    unfold Halting at this
    rw [(E.good h 0).2] at this
    exact this
  · have h1 := (hb n).1
    rw [(E.good h n).2] at h1
    exact h1
  · obtain ⟨k, hk, h1, -⟩ := F.calls i (fun m => by
      obtain ⟨k, hk, h1⟩ := ho m
      refine ⟨k, hk, (E.good h k).1.can_op ?_⟩
      rw [(E.good h k).2]
      exact h1) m
    exact ⟨k, hk, (hb k).2.1 i h1⟩
  · obtain ⟨k, hk, ⟨ch, h1⟩, -⟩ := F.tasks t (fun m => by
      obtain ⟨k, hk, ch, h1⟩ := ho m
      refine ⟨k, hk, (E.good h k).1.can_task (ch := ch) ?_⟩
      rw [(E.good h k).2]
      exact h1) m
    exact ⟨k, hk, ch, (hb k).2.2 t ch h1⟩

theorem Endless.call_done (E : Endless farm w fsub x pipe s f a) (F : Fair farm w fsub x pipe f a) (h : Good farm w fsub x pipe s) {n i : Nat} (hi : i < (f n).z.s.sync.nextOp) :
    ∃ k, n ≤ k ∧ ((f k).z.s.sync.op i).pc = .done := by
  obtain ⟨b, T⟩ := E.trace F h
  exact T.op_done hi

theorem Endless.task_done (E : Endless farm w fsub x pipe s f a) (F : Fair farm w fsub x pipe f a) (h : Good farm w fsub x pipe s) {n t : Nat} (ht : t < (f n).z.s.sync.nextTask) :
    ∃ k, n ≤ k ∧ (f k).z.s.sync.task t = .done := by
  obtain ⟨b, T⟩ := E.trace F h
  exact T.task_done ht

theorem Endless.obs_done (E : Endless farm w fsub x pipe s f a) (F : Fair farm w fsub x pipe f a) {n i : Nat} (hi : i < (f n).z.s.async.nextOp) :
    ∃ k, n ≤ k ∧ (((f k).z.s.async.op i).pc = .done ∨ ((f k).z.s.async.op i).pc = .rejected) := by
  have key : ∀ k, i < (f k).z.s.async.nextOp → (a k = .cb (.op i) → ((f (k + 1)).z.s.async.op i).pc.rank < ((f k).z.s.async.op i).pc.rank) ∧
      (a k ≠ .cb (.op i) → (f (k + 1)).z.s.async.op i = (f k).z.s.async.op i) ∧ i < (f (k + 1)).z.s.async.nextOp := by
    intro k hk
    rcases async_of (E.asked k) (E.next k) with ⟨h1, h2⟩ | ⟨d, h1, h2⟩
    · rw [h1]
      exact ⟨fun e => absurd e (h2 _), fun _ => rfl, hk⟩
    · by_cases hd : d = .op i
      · subst hd
        obtain ⟨h3, h4, -⟩ := Async.op_own h1
        refine ⟨fun _ => h4, fun hne => ?_, by rw [h3]; exact hk⟩
        rcases h2 with h2 | ⟨-, o, h2⟩
        · exact absurd h2 hne
        · cases h2
      · obtain ⟨h3, h4⟩ := Async.op_other hk hd h1
        refine ⟨fun e => ?_, fun _ => h4, h3⟩
        rcases h2 with h2 | ⟨h2, -⟩
        · rw [e] at h2; injection h2 with h2; exact absurd h2.symm hd
        · exact absurd e (h2 _)
  have hlt : ∀ k, n ≤ k → i < (f k).z.s.async.nextOp := E.keeps (P := fun k => i < (f k).z.s.async.nextOp) hi (fun k _ hp => (key k hp).2.2)
  refine leads (Nat.lt_wfRel.wf : WellFounded (· < ·)) (T := fun k => a k = .cb (.op i) ∧ f (k + 1) ≠ f k) (μ := fun k => ((f k).z.s.async.op i).pc.rank) ?_ ?_ ?_
  · intro k hk _ _
    by_cases ha : a k = .cb (.op i)
    · exact .inr ((key k (hlt k hk)).1 ha)
    · left; rw [(key k (hlt k hk)).2.1 ha]
  · intro k hk _ _ hT
    exact (key k (hlt k hk)).1 hT.1
  · intro hD m _
    refine F.observations i (fun m' => ⟨max n m', Nat.le_max_right .., ?_⟩) m
    have := hD (max n m') (Nat.le_max_left ..)
    exact can_obs (hlt _ (Nat.le_max_left ..)) (fun e => this (.inl e)) (fun e => this (.inr e))

/-! ### `Produce` -/

/-- How far `Produce` is from its return. -/
def Pos.far (p : Pos) : Nat × Nat × Nat × Nat := (p.m2, p.m3, p.m4, p.m5)
def Nearer : Nat × Nat × Nat × Nat → Nat × Nat × Nat × Nat → Prop := LexBy [fun x => x.1, fun x => x.2.1, fun x => x.2.2.1, fun x => x.2.2.2]

theorem produce_far {now : Int} (h : produce farm w fsub x pipe now s = some s') (ho : s.pos ≠ .out) : Nearer s'.pos.far s.pos.far := by
  have h1 := produce_near h
  have h2 : s.pos.m1 = 0 := by cases hp : s.pos <;> first | rfl | exact absurd hp ho
  have h3 : s'.pos.m1 = 0 := by
    have := produce_out h
    cases hp : s'.pos <;> first | rfl | exact absurd hp this
  simp only [Nearer, LexBy, Pos.far]
  omega

/-- As long as `Produce` has not been through all meters, it is in progress until then. -/
theorem Endless.through (E : Endless farm w fsub x pipe s f a) (F : Fair farm w fsub x pipe f a) (h : Good farm w fsub x pipe s) (hn : Provider.NoNil s.z.p) {n : Nat}
    (ho : (f n).pos ≠ .out) : ∃ k, n ≤ k ∧ ∃ q, (f k).pos = .meters q [] := by
  have hstep : ∀ k, (¬ ∃ q, (f k).pos = .meters q []) → (f (k + 1)).pos = (f k).pos ∨ ∃ now, a k = .produce now ∧ produce farm w fsub x pipe now (f k) = some (f (k + 1)) := by
    intro k hk
    rcases pos_of (E.next k) with h1 | h1 | ⟨h1, -⟩
    · exact .inl h1
    · exact .inr h1
    · exact absurd h1 hk
  refine Classical.byContradiction fun hno => ?_
  have hD : ∀ k, n ≤ k → ¬ ∃ q, (f k).pos = .meters q [] := fun k hk hq => hno ⟨k, hk, hq⟩
  have hout : ∀ k, n ≤ k → (f k).pos ≠ .out := E.keeps (P := fun k => (f k).pos ≠ .out) ho (fun k hk hp => by
    rcases hstep k (hD k hk) with h1 | ⟨now, -, h1⟩
    · rw [h1]; exact hp
    · exact produce_out h1)
  have still : ∀ m k, n ≤ m → m ≤ k → (∃ j, m ≤ j ∧ Can farm w fsub x pipe (fun b => ∃ now, b = .produce now) (f j)) ∨ (f k).pos = (f m).pos := by
    intro m k hm hk
    by_cases hex : ∃ j, m ≤ j ∧ Can farm w fsub x pipe (fun b => ∃ now, b = .produce now) (f j)
    · exact .inl hex
    · right
      refine E.keeps (P := fun k => (f k).pos = (f m).pos) rfl (fun k hk hp => ?_) k hk
      rcases hstep k (hD k (Nat.le_trans hm hk)) with h1 | ⟨now, h0, h1⟩
      · rw [h1]; exact hp
      · refine absurd ⟨k, hk, .produce now, _, ⟨now, rfl⟩, h1, fun he => ?_⟩ hex
        have := produce_lower h1
        rw [he] at this
        exact lexBy_irrefl _ _ this
  obtain ⟨k, hk, hq⟩ := leads (lexBy_wf _ : WellFounded Nearer) (n := n) (D := fun k => ∃ q, (f k).pos = .meters q [])
    (T := fun k => (∃ now, a k = .produce now) ∧ f (k + 1) ≠ f k) (μ := fun k => (f k).pos.far) (by
      intro k hk hd _
      rcases hstep k hd with h1 | ⟨now, -, h1⟩
      · left; rw [h1]
      · exact .inr (produce_far h1 (hout k hk))) (by
      rintro k hk - - ⟨⟨now, hT⟩, -⟩
      have := E.next k
      rw [hT] at this
      exact produce_far this (hout k hk)) (by
      intro _ m _
      refine F.produce (fun m' => ?_) m
      have hq : n ≤ max n m' := Nat.le_max_left ..
      suffices hs : ∃ k, max n m' ≤ k ∧ Can farm w fsub x pipe (fun b => ∃ now, b = .produce now) (f k) by
        obtain ⟨k, h1, h2⟩ := hs
        exact ⟨k, Nat.le_trans (Nat.le_max_right ..) h1, h2⟩
      generalize max n m' = q at hq
      have hnn : ∀ k, Provider.NoNil (f k).z.p := fun k => by rw [(E.good h k).2]; exact hn
      rcases (E.good h q).1.goes (hnn q) with ⟨y, hy⟩ | ⟨h1, -⟩ | h1 | ⟨h1, q1, k1, is1, ks1, h2⟩ | ⟨t, h1, h2, h3⟩
      · exact ⟨q, Nat.le_refl _, can_produce hy⟩
      · exact absurd h1 (hout q hq)
      · exact absurd h1 (hD q hq)
      · obtain ⟨k, hk, h3⟩ := F.callbacks q
        rcases still q k hq hk with h4 | h4
        · exact h4
        · rw [h2] at h4
          refine ⟨k, hk, can_produce (y := { f k with pos := .insts q1 k1 is1 none ks1 }) ?_⟩
          simp only [produce, h4, h3, if_true]
      · obtain ⟨k, hk, h5⟩ := E.task_done F h h2
        rcases still q k hq hk with h4 | h4
        · exact h4
        · refine ⟨k, hk, ?_⟩
          rcases (E.good h k).1.goes (hnn k) with ⟨y, hy⟩ | ⟨h6, -⟩ | h6 | ⟨h6, q1, k1, is1, ks1, h7⟩ | ⟨t', h6, h7, h8⟩
          · exact can_produce hy
          · exact absurd h6 (hout k (Nat.le_trans hq hk))
          · exact absurd h6 (hD k (Nat.le_trans hq hk))
          · rw [← h4, h7] at h1; cases h1
          · rw [h4, h1] at h6
            injection h6 with h6
            subst h6
            exact absurd h5 h8)
  exact hD k hk hq

/-! ### The reader -/

/-- Where a goroutine of the reader is. -/
def place (t : Nat) (s : Sys C G ν) : Periodic.Pos := match s.r.threads[t]? with
  | some th => th.pos
  | none => .done

/-- The steps of a goroutine of the reader. -/
abbrev goes (t : Nat) : Act ν → Prop := fun b => ∃ quit order, b = .reader (.go t quit) order

theorem thread_next {b : Act ν} (h : step farm w fsub x pipe s b = some s') {t : Nat} {th : Periodic.Thread} (ht : s.r.threads[t]? = some th) :
    (goes t b ∧ s' ≠ s ∧ ∃ p, s'.r.threads[t]? = some { th with pos := p } ∧ (th.pos ≠ .idle → p.rank < th.pos.rank)) ∨ s'.r.threads[t]? = some th := by
  rcases reader_of h with ⟨h1, -⟩ | ⟨d, order, rfl, h1⟩
  · right; rw [h1]; exact ht
  · by_cases hd : ∃ q, d = .go t q
    · obtain ⟨q, rfl⟩ := hd
      by_cases he : Periodic.step s.r (.go t q) = s.r
      · right; rw [h1, he]; exact ht
      · left
        refine ⟨⟨q, order, rfl⟩, fun e => he ?_, ?_⟩
        · rw [← h1, e]
        · rw [h1]
          exact Periodic.thread_own ht q he
    · right
      rw [h1]
      exact Periodic.thread_other ht (fun q e => hd ⟨q, e⟩)

/-- With an effect. -/
theorem thread_moves {b : Act ν} (h : step farm w fsub x pipe s b = some s') (hne : s' ≠ s) {t : Nat} {th : Periodic.Thread} (ht : s.r.threads[t]? = some th) (hb : goes t b) :
    ∃ p, s'.r.threads[t]? = some { th with pos := p } ∧ (th.pos ≠ .idle → p.rank < th.pos.rank) := by
  obtain ⟨q, order, rfl⟩ := hb
  by_cases he : Periodic.step s.r (.go t q) = s.r
  · exfalso
    -- only the return of `Produce` changes anything else
    simp only [step] at h
    split at h
    · rename_i hr
      have := Periodic.returns_rank hr
      rw [he] at this
      exact Nat.lt_irrefl _ this
    · injection h with h
      rw [he] at h
      exact hne h.symm
  · rcases reader_of h with ⟨-, h1⟩ | ⟨d, order', h0, h1⟩
    · exact absurd rfl (h1 _ _)
    · cases h0
      rw [h1]
      exact Periodic.thread_own ht q he

theorem Endless.thread (E : Endless farm w fsub x pipe s f a) {n t : Nat} {th : Periodic.Thread} (ht : (f n).r.threads[t]? = some th) :
    ∀ k, n ≤ k → ∃ p, (f k).r.threads[t]? = some { th with pos := p } :=
  E.keeps (P := fun k => ∃ p, (f k).r.threads[t]? = some { th with pos := p }) ⟨th.pos, ht⟩ (fun k _ hp => by
    obtain ⟨p, hp⟩ := hp
    rcases thread_next (E.next k) hp with ⟨-, -, p', h1, -⟩ | h1
    · exact ⟨p', h1⟩
    · exact ⟨p, h1⟩)

/-- Up to a later time the goroutine could go on, or is where it was. -/
theorem Endless.thread_still (E : Endless farm w fsub x pipe s f a) {n t : Nat} {th : Periodic.Thread} (ht : (f n).r.threads[t]? = some th) {m : Nat} (hm : n ≤ m) :
    (∃ k, n ≤ k ∧ Can farm w fsub x pipe (goes t) (f k)) ∨ (f m).r.threads[t]? = some th := by
  by_cases hex : ∃ k, n ≤ k ∧ Can farm w fsub x pipe (goes t) (f k)
  · exact .inl hex
  · right
    refine E.keeps (P := fun k => (f k).r.threads[t]? = some th) ht (fun k hk hp => ?_) m hm
    rcases thread_next (E.next k) hp with ⟨h1, h2, -⟩ | h1
    · exact absurd ⟨k, hk, a k, _, h1, E.next k, h2⟩ hex
    · exact h1

theorem Endless.thread_leads (E : Endless farm w fsub x pipe s f a) (F : Fair farm w fsub x pipe f a) {n t : Nat} {th : Periodic.Thread} (ht : (f n).r.threads[t]? = some th)
    {D : Nat → Prop} (hidle : ∀ k, n ≤ k → ¬ D k → place t (f k) ≠ .idle)
    (often : (∀ k, n ≤ k → ¬ D k) → ∀ m, n ≤ m → ∃ k, m ≤ k ∧ Can farm w fsub x pipe (goes t) (f k)) : ∃ k, n ≤ k ∧ D k := by
  refine leads (Nat.lt_wfRel.wf : WellFounded (· < ·)) (T := fun k => goes t (a k) ∧ f (k + 1) ≠ f k) (μ := fun k => (place t (f k)).rank) ?_ ?_ ?_
  · intro k hk hd _
    obtain ⟨p, hp⟩ := E.thread ht k hk
    have hid := hidle k hk hd
    have h0 : place t (f k) = p := by simp only [place, hp]
    rw [h0] at hid ⊢
    rcases thread_next (E.next k) hp with ⟨-, -, p', h1, h2⟩ | h1
    · right
      have h3 : place t (f (k + 1)) = p' := by simp only [place, h1]
      rw [h3]
      exact h2 hid
    · left
      have h3 : place t (f (k + 1)) = p := by simp only [place, h1]
      rw [h3]
  · rintro k hk hd - ⟨hT, hne⟩
    obtain ⟨p, hp⟩ := E.thread ht k hk
    have hid := hidle k hk hd
    have h0 : place t (f k) = p := by simp only [place, hp]
    rw [h0] at hid ⊢
    obtain ⟨p', h1, h2⟩ := thread_moves (E.next k) hne hp hT
    have h3 : place t (f (k + 1)) = p' := by simp only [place, h1]
    rw [h3]
    exact h2 hid
  · intro hD m _
    refine F.requests t (fun m' => ?_) m
    obtain ⟨k, h1, h2⟩ := often hD (max n m') (Nat.le_max_left ..)
    exact ⟨k, Nat.le_trans (Nat.le_max_right ..) h1, h2⟩

/-- Nobody stays within `Produce` for ever. -/
theorem Endless.unlocked (E : Endless farm w fsub x pipe s f a) (F : Fair farm w fsub x pipe f a) (h : Good farm w fsub x pipe s) (hn : Provider.NoNil s.z.p) {n t : Nat}
    {th : Periodic.Thread} (hc : th.pos = .crit .locked) (hl : ∀ k, n ≤ k → (f k).r.threads[t]? = some th) : False := by
  have hprod : ∀ k, n ≤ k → producing (f k).r = true := fun k hk => (Periodic.producing_iff _ (E.good h k).1.locked.per).2 ⟨t, th, hl k hk, hc⟩
  -- it begins
  have h1 : ∃ k, n ≤ k ∧ (f k).pos ≠ .out := by
    refine Classical.byContradiction fun hno => ?_
    have hout : ∀ k, n ≤ k → (f k).pos = .out := fun k hk => Classical.byContradiction fun hh => hno ⟨k, hk, hh⟩
    obtain ⟨k, hk, ⟨now, hT⟩, -⟩ := F.produce (fun m => by
      have hm : n ≤ max n m := Nat.le_max_left ..
      refine ⟨max n m, Nat.le_max_right .., ?_⟩
      rcases (E.good h (max n m)).1.goes (by rw [(E.good h _).2]; exact hn) with ⟨y, hy⟩ | ⟨-, h2⟩ | ⟨q, h2⟩ | ⟨-, q, k1, is, ks, h2⟩ | ⟨t', h2, -⟩
      · exact can_produce hy
      · rw [hprod _ hm] at h2; cases h2
      · rw [hout _ hm] at h2; cases h2
      · rw [hout _ hm] at h2; cases h2
      · rw [hout _ hm] at h2; cases h2) n
    have := E.next k
    rw [hT] at this
    exact produce_out this (hout (k + 1) (by omega))
  obtain ⟨n1, hn1, h1⟩ := h1
  -- it goes through all meters
  obtain ⟨n2, hn2, q, h2⟩ := E.through F h hn h1
  have h3 : ∀ k, n2 ≤ k → (f k).pos = .meters q [] := E.keeps (P := fun k => (f k).pos = .meters q []) h2 (fun k hk hp => by
    rcases pos_of (E.next k) with h4 | ⟨now, -, h4⟩ | ⟨-, t', quit, order, h4, th', h5, h6⟩
    · rw [h4]; exact hp
    · simp only [produce, hp] at h4; cases h4
    · exfalso
      have hlk := ((E.good h k).1.locked.per.lock t').2 ⟨th', .locked, h5, h6⟩
      have hlk' := ((E.good h k).1.locked.per.lock t).2 ⟨th, .locked, hl k (by omega), hc⟩
      rw [hlk] at hlk'
      injection hlk' with e
      subst e
      rcases reader_of (E.next k) with ⟨-, h7⟩ | ⟨d, o, h7, h8⟩
      · exact h7 _ _ h4
      · rw [h4] at h7
        cases h7
        obtain ⟨p, h9, h10⟩ := Periodic.thread_own h5 quit (fun e => by
          have := Periodic.returns_rank (s := (f k).r) (t := t') (quit := quit) (by simp [returns, h5, h6])
          rw [e] at this
          exact Nat.lt_irrefl _ this)
        rw [← h8, hl (k + 1) (by omega)] at h9
        rw [hl k (by omega)] at h5
        injection h5 with h5
        injection h9 with h9
        have : p = th.pos := by rw [h9]
        rw [← h5, this] at h10
        exact Nat.lt_irrefl _ (h10 (by rw [hc]; simp)))
  -- it returns
  obtain ⟨k, hk, hT, hne⟩ := F.requests t (fun m => by
    obtain ⟨k, hk, h4⟩ := F.callbacks (max n2 m)
    refine ⟨k, Nat.le_trans (Nat.le_max_right ..) hk, ?_⟩
    have hk2 : n2 ≤ k := Nat.le_trans (Nat.le_max_left ..) hk
    exact can_return (hl k (by omega)) hc (h3 k hk2) h4) n
  obtain ⟨p, h5, h6⟩ := thread_moves (E.next k) hne (hl k hk) hT
  rw [hl (k + 1) (by omega)] at h5
  injection h5 with h5
  have : p = th.pos := by rw [h5]
  rw [this] at h6
  exact Nat.lt_irrefl _ (h6 (by rw [hc]; simp))

/-- Who has the lock of the reader can go on again and again. -/
theorem Endless.inside (E : Endless farm w fsub x pipe s f a) (F : Fair farm w fsub x pipe f a) (h : Good farm w fsub x pipe s) (hn : Provider.NoNil s.z.p) {n t : Nat}
    {th : Periodic.Thread} {c : Periodic.Crit} (ht : (f n).r.threads[t]? = some th) (hc : th.pos = .crit c) : ∃ k, n ≤ k ∧ Can farm w fsub x pipe (goes t) (f k) := by
  by_cases hl : c = .locked
  · subst hl
    refine Classical.byContradiction fun hno => ?_
    exact E.unlocked F h hn hc (fun k hk => (E.thread_still ht hk).resolve_left hno)
  · exact ⟨n, Nat.le_refl _, can_go ht (by rw [hc]; exact fun e => hl (by injection e)) (Periodic.thread_can ht (.inr (.inr (.inr ⟨c, hc⟩))))⟩

/-- Again and again nobody has the lock of the reader. -/
theorem Endless.reader_free (E : Endless farm w fsub x pipe s f a) (F : Fair farm w fsub x pipe f a) (h : Good farm w fsub x pipe s) (hn : Provider.NoNil s.z.p) (n : Nat) :
    ∃ k, n ≤ k ∧ (f k).r.lock = none := by
  refine Classical.byContradiction fun hno => ?_
  have hne : ∀ k, n ≤ k → (f k).r.lock ≠ none := fun k hk e => hno ⟨k, hk, e⟩
  obtain ⟨t, ht⟩ := Option.ne_none_iff_exists'.1 (hne n (Nat.le_refl _))
  have hkeep : ∀ k, n ≤ k → (f k).r.lock = some t := E.keeps (P := fun k => (f k).r.lock = some t) ht (fun k hk hp => by
    rcases reader_of (E.next k) with ⟨h1, -⟩ | ⟨d, o, -, h1⟩
    · rw [h1]; exact hp
    · rw [h1]
      refine (Periodic.lock_keep d hp).resolve_right (fun e => ?_)
      rw [← h1] at e
      exact hne (k + 1) (by omega) e)
  have hcrit : ∀ k, n ≤ k → ∃ th c, (f k).r.threads[t]? = some th ∧ th.pos = .crit c := fun k hk => ((E.good h k).1.locked.per.lock t).1 (hkeep k hk)
  obtain ⟨th, c, h1, h2⟩ := hcrit n (Nat.le_refl _)
  obtain ⟨k, -, hD⟩ := E.thread_leads F h1 (D := fun _ => False) (fun k hk _ => by
    obtain ⟨th', c', h3, h4⟩ := hcrit k hk
    simp only [place, h3, h4]
    simp) (fun _ m hm => by
    obtain ⟨th', c', h3, h4⟩ := hcrit m hm
    exact E.inside F h hn h3 h4)
  exact hD

/-- Who waits for the lock of the reader, or has it, can go on again and again. -/
theorem Endless.busy (E : Endless farm w fsub x pipe s f a) (F : Fair farm w fsub x pipe f a) (h : Good farm w fsub x pipe s) (hn : Provider.NoNil s.z.p) {n t : Nat}
    {th : Periodic.Thread} (ht : (f n).r.threads[t]? = some th) (hc : th.pos = .wait ∨ ∃ c, th.pos = .crit c) : ∃ k, n ≤ k ∧ Can farm w fsub x pipe (goes t) (f k) := by
  rcases hc with hc | ⟨c, hc⟩
  · obtain ⟨k, hk, h1⟩ := E.reader_free F h hn n
    rcases E.thread_still ht hk with h2 | h2
    · exact h2
    · exact ⟨k, hk, can_go h2 (by rw [hc]; simp) (Periodic.thread_can h2 (.inr (.inr (.inl ⟨hc, h1⟩))))⟩
  · exact E.inside F h hn ht hc

/-- The loop of the reader returns once its context is cancelled. -/
theorem Endless.loop_done (E : Endless farm w fsub x pipe s f a) (F : Fair farm w fsub x pipe f a) (h : Good farm w fsub x pipe s) (hn : Provider.NoNil s.z.p) {n : Nat}
    (hcan : (f n).r.cancelled = true) : ∃ k, n ≤ k ∧ Periodic.loopDone (f k).r = true := by
  refine Classical.byContradiction fun hno => ?_
  have hnd : ∀ k, n ≤ k → ¬ Periodic.loopDone (f k).r = true := fun k hk e => hno ⟨k, hk, e⟩
  have hcans : ∀ k, n ≤ k → (f k).r.cancelled = true := E.keeps (P := fun k => (f k).r.cancelled = true) hcan (fun k _ hp => by
    rcases reader_of (E.next k) with ⟨h1, -⟩ | ⟨d, o, -, h1⟩
    · rw [h1]; exact hp
    · rw [h1]; exact Periodic.cancelled_keep d hp)
  have hpos : ∀ k, n ≤ k → ∃ p, (f k).r.threads[0]? = some ⟨.tick, p⟩ ∧ (p = .idle ∨ p = .wait ∨ ∃ c, p = .crit c) := by
    intro k hk
    obtain ⟨p, h1, h2, h3⟩ := (E.good h k).1.locked.per.loop
    refine ⟨p, h1, ?_⟩
    cases p with
    | idle => exact .inl rfl
    | wait => exact .inr (.inl rfl)
    | crit c => exact .inr (.inr ⟨c, rfl⟩)
    | start => exact absurd rfl h2
    | stopped => exact absurd rfl h3
    | done => exact absurd ((Periodic.loopDone_iff _).2 ⟨_, h1, rfl⟩) (hnd k hk)
  have hoften : Often (fun k => Quitting (f k)) := by
    intro m
    have hm : n ≤ max n m := Nat.le_max_left ..
    obtain ⟨p, h1, -⟩ := hpos (max n m) hm
    obtain ⟨k, hk, hD⟩ := E.thread_leads F h1 (D := fun k => place 0 (f k) = .idle) (fun _ _ hd => hd) (fun hD m' hm' => by
      obtain ⟨p', h2, h3⟩ := hpos m' (Nat.le_trans hm hm')
      refine E.busy F h hn h2 (h3.resolve_left fun e => hD m' hm' ?_)
      simp only [place, h2, e])
    obtain ⟨p', h2, -⟩ := hpos k (Nat.le_trans hm hk)
    simp only [place, h2] at hD
    subst hD
    exact ⟨k, Nat.le_trans (Nat.le_max_right ..) hk, h2, hcans k (Nat.le_trans hm hk)⟩
  obtain ⟨k, hk, ⟨h1, h2⟩, order, h3⟩ := F.select hoften n
  have h4 := E.next k
  rw [h3] at h4
  rcases reader_of h4 with ⟨-, h5⟩ | ⟨d, o, h5, h6⟩
  · exact h5 _ _ rfl
  · cases h5
    refine hnd (k + 1) (by omega) ((Periodic.loopDone_iff _).2 ⟨⟨.tick, .done⟩, ?_, rfl⟩)
    rw [h6]
    simp only [Periodic.step, h1, Periodic.advance, Periodic.select, h2, if_true, Periodic.State.move]
    rw [Periodic.get_set h1, if_pos rfl]

/-- Every `ForceFlush` and every `Shutdown` returns. -/
theorem Endless.request_done (E : Endless farm w fsub x pipe s f a) (F : Fair farm w fsub x pipe f a) (h : Good farm w fsub x pipe s) (hn : Provider.NoNil s.z.p) {n t : Nat}
    {th : Periodic.Thread} (h0 : t ≠ 0) (ht : (f n).r.threads[t]? = some th) : ∃ k, n ≤ k ∧ Returned t (f k) := by
  have hnot : ∀ k, n ≤ k → place t (f k) ≠ .idle := by
    intro k hk
    obtain ⟨p, h1⟩ := E.thread ht k hk
    simp only [place, h1]
    exact ((E.good h k).1.locked.per.calls t _ h1 h0).2
  refine E.thread_leads F ht (fun k hk _ => hnot k hk) (fun hD m hm => ?_)
  obtain ⟨p, h1⟩ := E.thread ht m hm
  cases p with
  | done => exact absurd ⟨_, h1, rfl⟩ (hD m hm)
  | idle => have := hnot m hm; simp only [place, h1] at this; exact absurd rfl this
  | wait => exact E.busy F h hn h1 (.inl rfl)
  | crit c => exact E.busy F h hn h1 (.inr ⟨c, rfl⟩)
  | start => exact ⟨m, Nat.le_refl _, can_go h1 (by simp) (Periodic.thread_can h1 (.inl rfl))⟩
  | stopped =>
    have hcan := (E.good h m).1.locked.per.stop t _ h1 (.inr rfl)
    obtain ⟨k, hk, h2⟩ := E.loop_done F h hn hcan
    rcases E.thread_still h1 hk with h3 | h3
    · exact h3
    · exact ⟨k, hk, can_go h3 (by simp) (Periodic.thread_can h3 (.inr (.inl ⟨rfl, h2⟩)))⟩

/-- Every collection ends. -/
theorem Endless.collection_done (E : Endless farm w fsub x pipe s f a) (F : Fair farm w fsub x pipe f a) (h : Good farm w fsub x pipe s) (hn : Provider.NoNil s.z.p) (n : Nat) :
    ∃ k, n ≤ k ∧ (f k).pos = .out := by
  obtain ⟨k, hk, h1⟩ := E.reader_free F h hn n
  refine ⟨k, hk, Classical.byContradiction fun hne => ?_⟩
  have := (E.good h k).1.locked.out hne
  simp [producing, h1] at this

/-! ### Ticks -/

theorem Endless.exports_le (E : Endless farm w fsub x pipe s f a) (n : Nat) : exports (f n) ≤ exports (f (n + 1)) := by
  rcases reader_of (E.next n) with ⟨h1, -⟩ | ⟨d, o, -, h1⟩
  · unfold exports; rw [h1]; exact Nat.le_refl _
  · obtain ⟨l, hl⟩ := Periodic.log_grows (f n).r d
    unfold exports
    rw [h1, hl, List.countP_append]
    exact Nat.le_add_right ..

/-- The loop is at its select again some time, or has returned. -/
theorem Endless.loop_idle (E : Endless farm w fsub x pipe s f a) (F : Fair farm w fsub x pipe f a) (h : Good farm w fsub x pipe s) (hn : Provider.NoNil s.z.p) (n : Nat) :
    ∃ k, n ≤ k ∧ ((f k).r.threads[0]? = some ⟨.tick, .idle⟩ ∨ Periodic.loopDone (f k).r = true) := by
  obtain ⟨p, h1, -⟩ := (E.good h n).1.locked.per.loop
  refine E.thread_leads F h1 (fun k _ hd hi => hd (.inl ?_)) (fun hD m hm => ?_)
  · obtain ⟨p, h2, -⟩ := (E.good h k).1.locked.per.loop
    simp only [place, h2] at hi
    rw [h2, hi]
  · obtain ⟨p, h2, h3, h4⟩ := (E.good h m).1.locked.per.loop
    cases p with
    | idle => exact absurd (.inl h2) (hD m hm)
    | wait => exact E.busy F h hn h2 (.inl rfl)
    | crit c => exact E.busy F h hn h2 (.inr ⟨c, rfl⟩)
    | start => exact absurd rfl h3
    | stopped => exact absurd rfl h4
    | done => exact absurd (.inr ((Periodic.loopDone_iff _).2 ⟨_, h2, rfl⟩)) (hD m hm)

/-- The loop takes each tick, and calls the exporter, unless it returns. -/
theorem Endless.tick_served (E : Endless farm w fsub x pipe s f a) (F : Fair farm w fsub x pipe f a) (h : Good farm w fsub x pipe s) (hn : Provider.NoNil s.z.p) {n : Nat}
    (hc : (f n).r.chan = true) : ∃ k, n ≤ k ∧ (exports (f n) < exports (f k) ∨ Periodic.loopDone (f k).r = true) := by
  refine Classical.byContradiction fun hno => ?_
  have hnd : ∀ k, n ≤ k → ¬ Periodic.loopDone (f k).r = true := fun k hk e => hno ⟨k, hk, .inr e⟩
  have hle : ∀ k, n ≤ k → exports (f n) ≤ exports (f k) := E.keeps (P := fun k => exports (f n) ≤ exports (f k)) (Nat.le_refl _) (fun k _ hp => Nat.le_trans hp (E.exports_le k))
  have heq : ∀ k, n ≤ k → exports (f k) = exports (f n) := fun k hk => by
    have := hle k hk
    have : ¬ exports (f n) < exports (f k) := fun e => hno ⟨k, hk, .inl e⟩
    omega
  -- the loop takes the tick
  have h1 : ∃ k, n ≤ k ∧ (f k).r.threads[0]? = some ⟨.tick, .wait⟩ := by
    refine Classical.byContradiction fun hnw => ?_
    have hchan : ∀ k, n ≤ k → (f k).r.chan = true := E.keeps (P := fun k => (f k).r.chan = true) hc (fun k hk hp => by
      rcases reader_of (E.next k) with ⟨h2, -⟩ | ⟨d, o, -, h2⟩
      · rw [h2]; exact hp
      · rw [h2]
        refine (Periodic.chan_step (E.good h k).1.locked.per d hp).resolve_right (fun e => ?_)
        rw [← h2] at e
        exact hnw ⟨k + 1, by omega, e⟩)
    obtain ⟨m, hm, h2⟩ := E.loop_idle F h hn n
    have h2 := h2.resolve_right (hnd m hm)
    have move : ∀ k, m ≤ k → (f k).r.threads[0]? = some ⟨.tick, .idle⟩ → ∀ p, p ≠ .idle → (f (k + 1)).r.threads[0]? ≠ some ⟨.tick, p⟩ := by
      intro k hk h3 p hp h4
      obtain ⟨q, hq⟩ : ∃ q, q = p := ⟨p, rfl⟩
      rcases reader_of (E.next k) with ⟨h5, -⟩ | ⟨d, o, -, h5⟩
      · rw [h5, h3] at h4; cases h4; exact hp rfl
      · by_cases hd : ∃ quit, d = .go 0 quit
        · obtain ⟨quit, rfl⟩ := hd
          rw [h5] at h4
          simp only [Periodic.step, h3, Periodic.advance, Periodic.select] at h4
          split at h4
          · split at h4
            · simp only [Periodic.State.move] at h4
              rw [Periodic.get_set h3, if_pos rfl] at h4
              injection h4 with h4
              injection h4 with _ h4
              refine hnd (k + 1) (by omega) ((Periodic.loopDone_iff _).2 ⟨⟨.tick, .done⟩, ?_, rfl⟩)
              rw [h5]
              rename_i q1 q2 _
              simp only [Periodic.step, h3, Periodic.advance, Periodic.select, q1, q2, if_true, Periodic.State.move]
              rw [Periodic.get_set h3, if_pos rfl]
            · rw [h3] at h4; cases h4; exact hp rfl
          · split at h4
            · simp only [Periodic.State.move] at h4
              rw [Periodic.get_set h3, if_pos rfl] at h4
              injection h4 with h4
              injection h4 with _ h4
              refine hnw ⟨k + 1, by omega, ?_⟩
              rw [h5]
              rename_i q1 q2 _
              simp only [Periodic.step, h3, Periodic.advance, Periodic.select, q1, q2, Bool.false_eq_true, if_false, if_true, Periodic.State.move]
              rw [Periodic.get_set h3, if_pos rfl]
            · rw [h3] at h4; cases h4; exact hp rfl
        · rw [h5, Periodic.thread_other h3 (fun q e => hd ⟨q, e⟩)] at h4
          cases h4
          exact hp rfl
    have hidle : ∀ k, m ≤ k → (f k).r.threads[0]? = some ⟨.tick, .idle⟩ := E.keeps (P := fun k => (f k).r.threads[0]? = some ⟨.tick, .idle⟩) h2 (fun k hk hp => by
      obtain ⟨p, h3, -⟩ := (E.good h (k + 1)).1.locked.per.loop
      by_cases hp' : p = .idle
      · rw [h3, hp']
      · exact absurd h3 (move k hk hp p hp'))
    obtain ⟨k, hk, ⟨quit, order, hT⟩, hne⟩ := F.requests 0 (fun j => by
      have hj : m ≤ max m j := Nat.le_max_left ..
      refine ⟨max m j, Nat.le_max_right .., can_go (hidle _ hj) (by simp) (fun he => ?_)⟩
      have h3 := hchan (max m j) (Nat.le_trans hm hj)
      have h4 : (Periodic.step (f (max m j)).r (.go 0 false)).chan = false := by
        simp [Periodic.step, hidle _ hj, Periodic.advance, Periodic.select, h3, Periodic.State.move]
      rw [he, h3] at h4
      cases h4) m
    -- its own step takes the tick or ends the loop
    have h4 := E.next k
    rw [hT] at h4
    have h5 : (f (k + 1)).r = Periodic.step (f k).r (.go 0 quit) := by
      rcases reader_of h4 with ⟨-, h5⟩ | ⟨d, o, h5, h6⟩
      · exact absurd rfl (h5 _ _)
      · cases h5; exact h6
    have h6 := hidle (k + 1) (by omega)
    have h7 := hidle k hk
    refine hne ?_
    have hret : returns (f k).r (.go 0 quit) = false := by simp [returns, h7]
    simp only [Delivery.step, hret, Bool.false_eq_true, if_false] at h4
    injection h4 with h4
    rw [← h4]
    have h8 : Periodic.step (f k).r (.go 0 quit) = (f k).r := by
      rw [h5] at h6
      simp only [Periodic.step, h7, Periodic.advance, Periodic.select] at h6 ⊢
      split
      · rename_i q1
        rw [if_pos q1] at h6
        split
        · rename_i q2
          rw [if_pos q2] at h6
          simp only [Periodic.State.move] at h6
          rw [Periodic.get_set h7, if_pos rfl] at h6
          cases h6
        · rfl
      · rename_i q1
        rw [if_neg q1] at h6
        split
        · rename_i q2
          rw [if_pos q2] at h6
          simp only [Periodic.State.move] at h6
          rw [Periodic.get_set h7, if_pos rfl] at h6
          cases h6
        · rfl
    rw [h8]
  -- it comes to the exporter
  obtain ⟨m, hm, h1⟩ := h1
  have hstay : ∀ k, m ≤ k → ∃ p, (f k).r.threads[0]? = some ⟨.tick, p⟩ ∧ (p = .wait ∨ p = .crit .locked ∨ p = .crit .produced) :=
    E.keeps (P := fun k => ∃ p, (f k).r.threads[0]? = some ⟨.tick, p⟩ ∧ (p = .wait ∨ p = .crit .locked ∨ p = .crit .produced)) ⟨_, h1, .inl rfl⟩ (fun k hk hp => by
      obtain ⟨p, h2, h3⟩ := hp
      rcases reader_of (E.next k) with ⟨h4, -⟩ | ⟨d, o, -, h4⟩
      · rw [h4]; exact ⟨p, h2, h3⟩
      · by_cases hd : ∃ quit, d = .go 0 quit
        · obtain ⟨quit, rfl⟩ := hd
          rcases h3 with rfl | rfl | rfl
          · by_cases hl : (f k).r.lock = none
            · refine ⟨_, ?_, .inr (.inl rfl)⟩
              rw [h4]
              simp only [Periodic.step, h2, Periodic.advance, hl, if_true, Periodic.State.move]
              rw [Periodic.get_set h2, if_pos rfl]
            · refine ⟨_, ?_, .inl rfl⟩
              rw [h4]
              simp only [Periodic.step, h2, Periodic.advance, if_neg hl]
          · refine ⟨_, ?_, .inr (.inr rfl)⟩
            rw [h4]
            simp only [Periodic.step, h2, Periodic.advance, Periodic.inside, Periodic.State.move]
            rw [Periodic.get_set h2, if_pos rfl]
          · exfalso
            have h5 := heq (k + 1) (by omega)
            have h6 := heq k (by omega)
            have h7 : (Periodic.step (f k).r (.go 0 quit)).log = (f k).r.log ++ [(0, .export .tick)] := by
              simp only [Periodic.step, h2, Periodic.advance, Periodic.inside, Periodic.State.move]
            unfold exports at h5 h6
            rw [h4, h7, List.countP_append] at h5
            simp at h5
            omega
        · refine ⟨p, ?_, h3⟩
          rw [h4]
          exact Periodic.thread_other h2 (fun q e => hd ⟨q, e⟩))
  obtain ⟨k, hk, h2⟩ := E.loop_idle F h hn m
  obtain ⟨p, h3, h4⟩ := hstay k hk
  rcases h2 with h2 | h2
  · rw [h2] at h3
    cases h3
    rcases h4 with h4 | h4 | h4 <;> cases h4
  · exact hnd k (by omega) h2

/-- As long as the ticker goes on and the loop has not returned, the loop calls the exporter again and again. -/
theorem Endless.exports_often (E : Endless farm w fsub x pipe s f a) (F : Fair farm w fsub x pipe f a) (h : Good farm w fsub x pipe s) (hn : Provider.NoNil s.z.p)
    (ht : Often (fun k => ∃ order, a k = .reader .tick order)) (hd : ∀ k, Periodic.loopDone (f k).r = false) (m : Nat) : ∃ k, m ≤ exports (f k) := by
  induction m with
  | zero => exact ⟨0, Nat.zero_le _⟩
  | succ m ih =>
    obtain ⟨k, hk⟩ := ih
    obtain ⟨j, hj, order, hT⟩ := ht k
    have h1 := E.next j
    rw [hT] at h1
    have h2 : (f (j + 1)).r.chan = true := by
      rcases reader_of h1 with ⟨-, h3⟩ | ⟨d, o, h3, h4⟩
      · exact absurd rfl (h3 _ _)
      · cases h3; rw [h4]; rfl
    obtain ⟨i, hi, h3⟩ := E.tick_served F h hn h2
    have h4 : exports (f k) ≤ exports (f (j + 1)) :=
      E.keeps (P := fun q => exports (f k) ≤ exports (f q)) (Nat.le_refl _) (fun q _ hp => Nat.le_trans hp (E.exports_le q)) (j + 1) (by omega)
    rcases h3 with h3 | h3
    · exact ⟨i, by omega⟩
    · rw [hd i] at h3; cases h3

end Verif.Delivery
