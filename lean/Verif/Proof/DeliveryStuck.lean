import Verif.Proof.DeliveryHalt

/-!
Helper file: when no goroutine can do anything, everything has returned.
-/

namespace Verif.Whole
open Verif.Attr Verif.Number
variable {H : Type} {P : Parts H} {R : Pipeline.Reader H} {x y : Sys H}

theorem halt_step {a : Act} (h : Sync.Halt P.c x.sync) (hs : step P R x a = some y) : Sync.Halt P.c y.sync := by
  cases a with
  | call i as n =>
    cases hs
    show Sync.Halt P.c (Front.observe P.c x.sync (some i) as n)
    unfold Front.observe
    dsimp only
    split
    · split
      · rename_i h1; exact h.step h1
      · exact h
    · exact h
  | sched a =>
    simp only [step] at hs
    split at hs
    · cases hs
    · obtain ⟨s, h1, rfl⟩ := Option.map_eq_some_iff.1 hs
      exact h.step h1
  | cb a =>
    simp only [step] at hs
    split at hs
    · cases hs
    · obtain ⟨s, h1, rfl⟩ := Option.map_eq_some_iff.1 hs
      exact h
  | collect order q =>
    simp only [step] at hs
    obtain ⟨s, h1, rfl⟩ := Option.map_eq_some_iff.1 hs
    exact h

theorem halt_run {acts : List Act} (h : Sync.Halt P.c x.sync) (hs : run P R x acts = some y) : Sync.Halt P.c y.sync := by
  induction acts generalizing x with
  | nil => cases hs; exact h
  | cons a acts ih =>
    rw [run] at hs
    obtain ⟨x1, h1, h2⟩ := Option.bind_eq_some_iff.1 hs
    exact ih (halt_step h h1) h2

end Verif.Whole

namespace Verif.Delivery
open Verif.Attr Verif.Number Verif.Assembly
variable {C G ν : Type} [DecidableEq C]
variable {farm : Str → UInt64} {w : World C G} {fsub : Bits → Bits → Bits} {x : Views.Ext C} {pipe : Nat} {s s' : Sys C G ν}

/-- The collection in progress goes through things which exist, and waits for a task which exists. -/
def PosOk (p : Provider.Provider C ν) (nt : Nat) : Pos → Prop
  | .out => True
  | .meters _ ks => ∀ k ∈ ks, k < p.ordered.length
  | .callbacks _ k is ks => (∃ m, p.ordered[k]? = some m ∧ ∀ i ∈ is, i ∈ m.sync) ∧ ∀ k ∈ ks, k < p.ordered.length
  | .insts _ k td wt ks => (∃ m, p.ordered[k]? = some m ∧ ∀ i ∈ td, i ∈ m.sync) ∧ (∀ t, wt = some t → t < nt) ∧ ∀ k ∈ ks, k < p.ordered.length
  | .outputs _ _ _ wt ks => (∀ t, wt = some t → t < nt) ∧ ∀ k ∈ ks, k < p.ordered.length

theorem PosOk.mono {p : Provider.Provider C ν} {n n' : Nat} {pos : Pos} (h : PosOk p n pos) (hn : n ≤ n') : PosOk p n' pos := by
  cases pos with
  | out => trivial
  | meters q ks => exact h
  | callbacks q k is ks => exact h
  | insts q k td wt ks => exact ⟨h.1, fun t ht => Nat.lt_of_lt_of_le (h.2.1 t ht) hn, h.2.2⟩
  | outputs q k td wt ks => exact ⟨fun t ht => Nat.lt_of_lt_of_le (h.1 t ht) hn, h.2⟩

theorem PosOk.make {p : Provider.Provider C ν} {n : Nat} {pos : Pos} (h : PosOk p n pos) (c : Provider.Call ν) : PosOk (Provider.step x p c).1 n pos := by
  have hk : ∀ k, k < p.ordered.length → k < (Provider.step x p c).1.ordered.length := by
    intro k hk
    obtain ⟨m', h1, -⟩ := Provider.sync_step x p c (List.getElem?_eq_getElem hk)
    exact (List.getElem?_eq_some_iff.1 h1).1
  have hm : ∀ (k : Nat) (is : List (Option Nat)), (∃ m, p.ordered[k]? = some m ∧ ∀ i ∈ is, i ∈ m.sync) →
      ∃ m, (Provider.step x p c).1.ordered[k]? = some m ∧ ∀ i ∈ is, i ∈ m.sync := by
    rintro k is ⟨m, h1, h2⟩
    obtain ⟨m', h3, h4⟩ := Provider.sync_step x p c h1
    exact ⟨m', h3, fun i hi => h4 i (h2 i hi)⟩
  cases pos with
  | out => trivial
  | meters q ks => exact fun k hh => hk k (h k hh)
  | callbacks q k is ks => exact ⟨hm k is h.1, fun k hh => hk k (h.2 k hh)⟩
  | insts q k td wt ks => exact ⟨hm k td h.1, h.2.1, fun k hh => hk k (h.2.2 k hh)⟩
  | outputs q k td wt ks => exact ⟨h.1, fun k hh => hk k (h.2 k hh)⟩

theorem produce_posOk {now : Int} (h0 : PosOk s.z.p s.z.s.sync.nextTask s.pos) (h : produce farm w fsub x pipe now s = some s') :
    PosOk s'.z.p s'.z.s.sync.nextTask s'.pos := by
  have hnew : ∀ {a : Sync.Action (List KV) Bits} {z : Live.Sys C G ν}, Live.step farm w fsub x pipe s.z (.run (.sched a)) = some z →
      (∀ σ σ' : Sync.State (List KV) (List KV) Bits (Aggr.Cell Bits G), Sync.step (Whole.parts farm w fsub s.z.p pipe).c σ a = some σ' → σ'.nextTask = σ.nextTask + 1) →
      z.p = s.z.p ∧ z.s.sync.nextTask = s.z.s.sync.nextTask + 1 := by
    intro a z hz ha
    obtain ⟨-, y, hy, rfl⟩ := live_run hz
    simp only [Whole.step] at hy
    split at hy
    · cases hy
    · obtain ⟨σ, hσ, rfl⟩ := Option.map_eq_some_iff.1 hy
      exact ⟨rfl, ha _ _ hσ⟩
  unfold produce at h
  split at h
  · rename_i hpos
    split at h
    · cases h
      exact fun k hk => List.mem_range.1 hk
    · cases h
  · cases h
  · rename_i q k ks hpos
    rw [hpos] at h0
    split at h
    · cases h
    · rename_i m hm
      cases h
      exact ⟨⟨m, hm, fun _ hi => hi⟩, fun k' hk => h0 k' (List.mem_cons_of_mem _ hk)⟩
  · rename_i hpos
    rw [hpos] at h0
    split at h
    · cases h
      exact ⟨h0.1, fun t ht => (by cases ht), h0.2⟩
    · cases h
  · rename_i hpos
    rw [hpos] at h0
    split at h
    · cases h
      exact ⟨h0.1, fun t ht => (by cases ht), h0.2.2⟩
    · cases h
  · rename_i q k i todo ks hpos
    rw [hpos] at h0
    obtain ⟨z, hz, rfl⟩ := Option.map_eq_some_iff.1 h
    obtain ⟨h1, h2⟩ := hnew hz (fun σ σ' hσ => by cases hσ; rfl)
    show PosOk z.p z.s.sync.nextTask _
    rw [h1, h2]
    obtain ⟨⟨m, h3, h4⟩, -, h5⟩ := h0
    exact ⟨⟨m, h3, fun j hj => h4 j (List.mem_cons_of_mem _ hj)⟩, fun t ht => by cases ht; exact Nat.lt_succ_self _, h5⟩
  · cases h
  · rename_i hpos
    rw [hpos] at h0
    split at h
    · cases h
    · cases h
      exact ⟨fun t ht => (by cases ht), h0.2.2⟩
  · rename_i hpos
    rw [hpos] at h0
    split at h
    · cases h
      exact ⟨fun t ht => (by cases ht), h0.2⟩
    · cases h
  · rename_i hpos
    rw [hpos] at h0
    split at h
    · obtain ⟨z, hz, rfl⟩ := Option.map_eq_some_iff.1 h
      obtain ⟨h1, h2⟩ := hnew hz (fun σ σ' hσ => by cases hσ; rfl)
      show PosOk z.p z.s.sync.nextTask _
      rw [h1, h2]
      exact ⟨fun t ht => by cases ht; exact Nat.lt_succ_self _, h0.2⟩
    · cases h
      exact ⟨fun t ht => (by cases ht), h0.2⟩
  · rename_i hpos
    rw [hpos] at h0
    cases h
    exact h0.2

theorem step_posOk {a : Act ν} (h0 : PosOk s.z.p s.z.s.sync.nextTask s.pos) (h : step farm w fsub x pipe s a = some s') : PosOk s'.z.p s'.z.s.sync.nextTask s'.pos := by
  have one : ∀ {b : Whole.Act}, (Live.step farm w fsub x pipe s.z (.run b)).map (fun z => { s with z := z }) = some s' → PosOk s'.z.p s'.z.s.sync.nextTask s'.pos := by
    intro b hb
    obtain ⟨z, hz, rfl⟩ := Option.map_eq_some_iff.1 hb
    obtain ⟨-, y, hy, rfl⟩ := live_run hz
    exact h0.mono (Whole.step_tasks hy).1
  cases a with
  | make c => cases h; exact h0.make c
  | call i as n => exact one h
  | op i => exact one h
  | task t ch => exact one h
  | cb b =>
    simp only [step] at h
    split at h
    · exact one h
    · cases h
  | other b =>
    simp only [step] at h
    split at h
    · exact one h
    · cases h
  | produce now => exact produce_posOk h0 h
  | reader b order =>
    simp only [step] at h
    split at h
    · split at h
      · obtain ⟨z, hz, rfl⟩ := Option.map_eq_some_iff.1 h
        trivial
      · cases h
    · cases h
      exact h0

theorem run_posOk {acts : List (Act ν)} (h0 : PosOk s.z.p s.z.s.sync.nextTask s.pos) (h : run farm w fsub x pipe s acts = some s') : PosOk s'.z.p s'.z.s.sync.nextTask s'.pos := by
  induction acts generalizing s with
  | nil => cases h; exact h0
  | cons a acts ih =>
    rw [run] at h
    obtain ⟨y, h1, h2⟩ := Option.bind_eq_some_iff.1 h
    exact ih (step_posOk h0 h1) h2

/-- What is known of reachable states. -/
structure Good (farm : Str → UInt64) (w : World C G) (fsub : Bits → Bits → Bits) (x : Views.Ext C) (pipe : Nat) (s : Sys C G ν) : Prop where
  halt : Halting farm w fsub pipe s
  locked : Locked s
  pos : PosOk s.z.p s.z.s.sync.nextTask s.pos
  prov : Provider.ProvOk x s.z.p
  reader : pipe < s.z.p.views.length

theorem good_run {views : List (Views.Views C)} {start : Int} {acts : List (Act ν)} (hv : pipe < views.length)
    (h : run farm w fsub x pipe (initial farm w fsub s.z.p views pipe start) acts = some s) : Good farm w fsub x pipe s := by
  have hl := run_lives h
  obtain ⟨h1, -, t, h2, h3⟩ := Live.Sim.run (p' := s.z.p) (Provider.new_ok x views) (Live.inUse_initial (farm := farm) (w := w) (fsub := fsub) (pipe := pipe) s.z.p views)
    (Live.Sim.refl_nil rfl) hl (Live.More.refl _)
  refine ⟨?_, (locked_initial s.z.p views start).run h, run_posOk (by trivial) h, h1, ?_⟩
  · have h4 : Sync.Halt (Whole.parts farm w fsub s.z.p pipe).c t.sync := Whole.halt_run (Sync.Halt.initial _ _) h2
    have h5 : t.sync = s.z.s.sync := by rw [h3.state]
    unfold Halting
    rw [← h5]
    exact h4
  · rw [Live.run_prov hl]
    show pipe < (Provider.run x (Provider.new views) _).views.length
    rw [(Provider.run_ok (Provider.new_ok x views) _).2]
    exact hv

/-- While nothing begins, the provider stays. -/
theorem ongoing_prov {a : Act ν} (ha : ongoing a = true) (h : step farm w fsub x pipe s a = some s') : s'.z.p = s.z.p := by
  have h1 := step_live h
  cases hl : liveOf pipe s a with
  | none => rw [hl] at h1; injection h1 with h1; rw [← h1]
  | some b =>
    rw [hl] at h1
    have h2 := Live.run_prov h1
    rw [h2]
    cases b with
    | run b => rfl
    | make c =>
      exfalso
      cases a with
      | make c => cases ha
      | call i as n => cases ha
      | other b => cases ha
      | op i => cases hl
      | task t ch => cases hl
      | cb b => cases hl
      | produce now =>
        have := produceLive_cases (ν := ν) pipe s
        have hl : produceLive pipe s = some (.make c) := hl
        rw [hl] at this
        simp at this
      | reader b order =>
        have := readerLive_cases (ν := ν) s b order
        have hl : readerLive s b order = some (.make c) := hl
        rw [hl] at this
        simp at this

theorem Good.step {a : Act ν} (h : Good farm w fsub x pipe s) (ha : ongoing a = true) (hs : step farm w fsub x pipe s a = some s') : Good farm w fsub x pipe s' := by
  have hp := ongoing_prov ha hs
  refine ⟨?_, h.locked.step hs, step_posOk h.pos hs, by rw [hp]; exact h.prov, by rw [hp]; exact h.reader⟩
  have h1 := step_live hs
  unfold Halting
  rw [hp]
  cases hl : liveOf pipe s a with
  | none => rw [hl] at h1; injection h1 with h1; rw [← h1]; exact h.halt
  | some b =>
    rw [hl] at h1
    simp only [Option.toList, Live.run, Option.bind_eq_some_iff] at h1
    obtain ⟨z, h2, h3⟩ := h1
    injection h3 with h3
    rw [← h3]
    cases b with
    | make c => cases h2; exact h.halt
    | run b =>
      obtain ⟨-, y, hy, he⟩ := live_run h2
      rw [he]
      exact Whole.halt_step h.halt hy

/-- When no goroutine can do anything, everything has returned. -/
theorem Good.stuck (h : Good farm w fsub x pipe s) (hn : Provider.NoNil s.z.p) (hs : ∀ y, ¬ Goes farm w fsub x pipe s y) : AllReturned s := by
  have same : ∀ a y, ongoing a = true → Delivery.step farm w fsub x pipe s a = some y → y = s := fun a y ha hy => Classical.byContradiction fun hne => hs y ⟨hne, a, ha, hy⟩
  have never : ∀ a y, ongoing a = true → Delivery.step farm w fsub x pipe s a = some y → LexBy (measures farm w fsub pipe) y s → False := by
    intro a y ha hy hl
    rw [same a y ha hy] at hl
    exact lexBy_irrefl _ _ hl
  -- synchronous instruments
  have hsched : ∀ {b : Sync.Action (List KV) Bits} {σ}, Pipeline.isObserve b = false → Live.possible w s.z.p (.sched b) = true →
      Sync.step (Whole.parts farm w fsub s.z.p pipe).c s.z.s.sync b = some σ →
      Live.step farm w fsub x pipe s.z (.run (.sched b)) = some { s.z with s := { s.z.s with sync := σ } } := by
    intro b σ h1 h2 h3
    simp only [Live.step, h2, if_true, Whole.step, h1, Bool.false_eq_true, if_false, h3, Option.map_some]
  have hsync : Sync.AllDone s.z.s.sync := by
    refine h.halt.stuck (fun i => ?_) (fun t ch => ?_)
    · cases hq : Sync.stepOp (Whole.parts farm w fsub s.z.p pipe).c s.z.s.sync i with
      | none => rfl
      | some σ =>
        have h1 : Delivery.step farm w fsub x pipe s (.op i) = some { s with z := { s.z with s := { s.z.s with sync := σ } } } := by
          simp only [Delivery.step, hsched (b := .op i) rfl rfl hq, Option.map_some]
        exact (never (.op i) _ rfl h1 (lower_sync rfl rfl rfl (h.halt.op_lower (s' := σ) hq))).elim
    · cases hq : Sync.stepTask (Whole.parts farm w fsub s.z.p pipe).c s.z.s.sync t ch with
      | none => rfl
      | some σ =>
        have h1 : Delivery.step farm w fsub x pipe s (.task t ch) = some { s with z := { s.z with s := { s.z.s with sync := σ } } } := by
          simp only [Delivery.step, hsched (b := .task t ch) rfl rfl hq, Option.map_some]
        exact (never (.task t ch) _ rfl h1 (lower_sync rfl rfl rfl (h.halt.task_lower (s' := σ) hq))).elim
  -- asynchronous instruments
  have hcb : ∀ {b : Async.Action (List KV) Bits} {σ}, permitted s.pos b = true → AsyncPipeline.isFinish b = false → Live.possible w s.z.p (.cb b) = true →
      Async.step (AsyncPipeline.cfg (Whole.parts farm w fsub s.z.p pipe).u) s.z.s.async b = some σ →
      Delivery.step farm w fsub x pipe s (.cb b) = some { s with z := { s.z with s := { s.z.s with async := σ } } } := by
    intro b σ h0 h1 h2 h3
    simp only [Delivery.step, h0, Live.step, h2, if_true, Whole.step, h1, Bool.false_eq_true, if_false, h3, Option.map_some]
  have hops : ∀ i, i < s.z.s.async.nextOp → (s.z.s.async.op i).pc = .done ∨ (s.z.s.async.op i).pc = .rejected := by
    refine Async.ops_stuck (c := AsyncPipeline.cfg (Whole.parts farm w fsub s.z.p pipe).u) (fun i => ?_)
    cases hq : Async.step (AsyncPipeline.cfg (Whole.parts farm w fsub s.z.p pipe).u) s.z.s.async (.op i) with
    | none => rfl
    | some σ => exact (never (.cb (.op i)) _ rfl (hcb rfl rfl rfl hq) (lower_async rfl rfl rfl rfl (.inl (Async.ranks_op hq)))).elim
  have hcbs : ∀ i, i < s.z.s.async.nextCb → (s.z.s.async.cb i).live = false := by
    refine Async.cbs_stuck (c := AsyncPipeline.cfg (Whole.parts farm w fsub s.z.p pipe).u) (fun i σ hq => ?_)
    have h1 := same (.cb (.endCb i)) _ rfl (hcb rfl rfl rfl hq)
    have h2 : σ = (({ s with z := { s.z with s := { s.z.s with async := σ } } } : Sys C G ν)).z.s.async := rfl
    rw [h2, h1]
  have hnone : Async.noneLive s.z.s.async = true := by
    unfold Async.noneLive
    rw [List.all_eq_true]
    intro i hi
    simp [hcbs i (List.mem_range.1 hi)]
  -- the collection in progress
  have hprod : ∀ y, produce farm w fsub x pipe 0 s ≠ some y := fun y hy => never (.produce 0) y rfl hy (produce_lower hy)
  have hpos := h.pos
  have hout : s.pos = .out := by
    cases hp : s.pos with
    | out => rfl
    | meters q ks =>
      exfalso
      rw [hp] at hpos
      cases ks with
      | cons k ks =>
        refine hprod _ (?_ : _ = some { s with pos := .callbacks q k (s.z.p.ordered[k]'(hpos k (List.mem_cons_self ..))).sync ks })
        simp only [produce, hp, List.getElem?_eq_getElem (hpos k (List.mem_cons_self ..))]
      | nil =>
        -- the goroutine which has the lock returns from `Produce`
        have hpr := h.locked.out (by rw [hp]; exact fun hh => by cases hh)
        obtain ⟨t, th, h1, h2⟩ := (Periodic.producing_iff s.r h.locked.per).1 hpr
        have hret : returns s.r (.go t false) = true := by simp [returns, h1, h2]
        have hfin : ∃ σ, Async.step (AsyncPipeline.cfg (Whole.parts farm w fsub s.z.p pipe).u) s.z.s.async (.finish (s.z.s.async.store s.z.s.async.coll)) = some σ := by
          simp only [Async.step, hnone, true_and]
          rw [if_pos (List.isPerm_iff.2 (List.Perm.refl _))]
          exact ⟨_, rfl⟩
        obtain ⟨σ, hσ⟩ := hfin
        have hst : ∃ z, Live.step farm w fsub x pipe s.z (.run (.collect (s.z.s.async.store s.z.s.async.coll) q)) = some z := by
          simp only [Live.step, Live.possible, if_true, Whole.step, hσ, Option.map_some]
          exact ⟨_, rfl⟩
        obtain ⟨z, hz⟩ := hst
        have h3 : Delivery.step farm w fsub x pipe s (.reader (.go t false) (s.z.s.async.store s.z.s.async.coll)) =
            some { s with z := z, r := Periodic.step s.r (.go t false), pos := .out } := by
          simp only [Delivery.step, hret, if_true, hp, hz, Option.map_some]
        have h4 := same (.reader (.go t false) _) _ rfl h3
        have h5 : s.pos = .out := by rw [← h4]
        rw [hp] at h5
        cases h5
    | callbacks q k is ks =>
      exfalso
      refine hprod _ (?_ : _ = some { s with pos := .insts q k is none ks })
      simp only [produce, hp, hnone, if_true]
    | insts q k td wt ks =>
      exfalso
      rw [hp] at hpos
      obtain ⟨⟨m, hm, hsub⟩, hwt, -⟩ := hpos
      have hok := h.prov.meters m (List.mem_of_getElem? hm)
      cases wt with
      | some t =>
        refine hprod _ (?_ : _ = some { s with pos := .insts q k td none ks })
        simp only [produce, hp]
        rw [hsync.2 t (hwt t rfl)]
        rfl
      | none =>
        cases td with
        | nil =>
          have hlt : pipe < m.comps.length := by rw [hok.comps]; exact h.reader
          refine hprod _ (?_ : _ = some { s with pos := .outputs q k (List.range (m.comps[pipe]'hlt).collectors.length) none ks })
          simp only [produce, hp, hm, Option.bind_some, List.getElem?_eq_getElem hlt]
        | cons i td =>
          cases i with
          | none => exact hn m (List.mem_of_getElem? hm) (hsub none (List.mem_cons_self ..))
          | some i =>
            have hi := hok.sync _ (hsub _ (List.mem_cons_self ..)) i rfl
            have hpo : Live.possible w s.z.p (.sched (.snapshot (instAddr k i))) = true := by
              simp only [Live.possible, Live.hasInst, instAt, instAddr, unpair_pair, hm, Option.bind_some, List.getElem?_eq_getElem hi, Option.isSome_some]
            have hex : ∃ y, produce farm w fsub x pipe 0 s = some y := by
              simp only [produce, hp]
              rw [hsched (b := .snapshot (instAddr k i)) rfl hpo rfl, Option.map_some]
              exact ⟨_, rfl⟩
            exact hex.elim hprod
    | outputs q k td wt ks =>
      exfalso
      rw [hp] at hpos
      cases wt with
      | some t =>
        refine hprod _ (?_ : _ = some { s with pos := .outputs q k td none ks })
        simp only [produce, hp]
        rw [hsync.2 t (hpos.1 t rfl)]
        rfl
      | none =>
        cases td with
        | nil =>
          refine hprod _ (?_ : _ = some { s with pos := .meters q ks })
          simp only [produce, hp]
        | cons j td =>
          by_cases hl : syncLeaf s.z.p (leafAddr k pipe j) = true
          · have hpo : Live.possible w s.z.p (.sched (.collect (leafAddr k pipe j))) = true := by
              unfold syncLeaf at hl
              simp only [Live.possible]
              cases hq : leafAt s.z.p (leafAddr k pipe j) with
              | none => rw [hq] at hl; cases hl
              | some l => rfl
            have hex : ∃ y, produce farm w fsub x pipe 0 s = some y := by
              simp only [produce, hp]
              rw [if_pos hl, hsched (b := .collect (leafAddr k pipe j)) rfl hpo rfl, Option.map_some]
              exact ⟨_, rfl⟩
            exact hex.elim hprod
          · refine hprod _ (?_ : _ = some { s with pos := .outputs q k td none ks })
            simp only [produce, hp]
            rw [if_neg hl]
  have hnp : producing s.r = false := by
    rw [← Bool.not_eq_true]
    intro hpr
    have hex : ∃ y, produce farm w fsub x pipe 0 s = some y := by
      simp only [produce, hout]
      rw [if_pos hpr]
      exact ⟨_, rfl⟩
    exact hex.elim hprod
  refine ⟨hsync.1, hsync.2, hops, hcbs, hout, Periodic.stuck h.locked.per (fun t quit => ?_)⟩
  have hret : returns s.r (.go t quit) = false := by
    rw [← Bool.not_eq_true]
    intro hr
    simp only [returns] at hr
    cases ht : s.r.threads[t]? with
    | none => rw [ht] at hr; cases hr
    | some th =>
      rw [ht] at hr
      have := (Periodic.producing_iff s.r h.locked.per).2 ⟨t, th, ht, of_decide_eq_true hr⟩
      rw [hnp] at this
      cases this
  have h1 : Delivery.step farm w fsub x pipe s (.reader (.go t quit) []) = some { s with r := Periodic.step s.r (.go t quit) } := by
    simp only [Delivery.step, hret, Bool.false_eq_true, if_false]
  have h2 := same (.reader (.go t quit) []) _ rfl h1
  conv => rhs; rw [← h2]

theorem goes_good {y : Sys C G ν} (h : Good farm w fsub x pipe s) (hg : Goes farm w fsub x pipe s y) :
    Good farm w fsub x pipe y ∧ y.z.p = s.z.p ∧ LexBy (measures farm w fsub pipe) y s := by
  obtain ⟨hne, a, ha, hs⟩ := hg
  exact ⟨h.step ha hs, ongoing_prov ha hs, (goes_lower h.halt ha hs).resolve_left hne⟩

/-- Every schedule comes to an end. -/
theorem Good.ends (h : Good farm w fsub x pipe s) (hn : Provider.NoNil s.z.p) {f : Nat → Sys C G ν} (hf : Schedule farm w fsub x pipe s f) :
    ∃ n, AllReturned (f n) := by
  have hgood : ∀ n, Good farm w fsub x pipe (f n) ∧ (f n).z.p = s.z.p := by
    intro n
    induction n with
    | zero => rw [hf.1]; exact ⟨h, rfl⟩
    | succ n ih =>
      rcases hf.2 n with hg | ⟨-, he⟩
      · obtain ⟨h1, h2, -⟩ := goes_good ih.1 hg
        exact ⟨h1, by rw [h2]; exact ih.2⟩
      · rw [he]; exact ih
  have key : ∀ y, ∀ n, f n = y → ∃ m, AllReturned (f m) := by
    intro y
    induction y using (lexBy_wf (measures farm w fsub pipe)).induction with
    | _ y ih =>
      intro n hy
      rcases hf.2 n with hg | ⟨hst, -⟩
      · exact ih (f (n + 1)) (by rw [← hy]; exact (goes_good (hgood n).1 hg).2.2) (n + 1) rfl
      · exact ⟨n, (hgood n).1.stuck (by rw [(hgood n).2]; exact hn) hst⟩
  exact key _ 0 rfl

/-- From every state there is a way to the return of everything. -/
theorem Good.way (h : Good farm w fsub x pipe s) (hn : Provider.NoNil s.z.p) :
    ∃ more s', (∀ a ∈ more, ongoing a = true) ∧ run farm w fsub x pipe s more = some s' ∧ AllReturned s' := by
  induction s using (lexBy_wf (measures farm w fsub pipe)).induction with
  | _ s ih =>
    by_cases hst : ∀ y, ¬ Goes farm w fsub x pipe s y
    · exact ⟨[], s, (fun _ hh => by cases hh), rfl, h.stuck hn hst⟩
    · obtain ⟨y, hy⟩ := Classical.not_forall.1 hst
      have hg := Classical.not_not.1 hy
      obtain ⟨h1, h2, h3⟩ := goes_good h hg
      obtain ⟨more, s', h4, h5, h6⟩ := ih y h3 h1 (by rw [h2]; exact hn)
      obtain ⟨-, a, ha, hs⟩ := hg
      refine ⟨a :: more, s', ?_, ?_, h6⟩
      · intro b hb
        rcases List.mem_cons.1 hb with rfl | hb
        · exact ha
        · exact h4 b hb
      · rw [Delivery.run, hs]
        exact h5

end Verif.Delivery
