import Verif.Spec.SelfTelemetry
import Verif.Proof.Failures
import Verif.Proof.SyncBound
import Verif.Props.Client

/-!
Helper file: the calls on the counter of the exporter are those for the payloads answered.
-/

namespace Verif.SelfTelemetry
open Verif.Attr Verif.Number Verif.Export Verif.Assembly
open Verif.Views (lit)
variable {C G ν E : Type} [DecidableEq C]
variable {farm : Str → UInt64} {w : World C G} {fsub : Bits → Bits → Bits} {x : Views.Ext C} {pipe : Nat} {xe : Client.Errs E} {o : Nat}

/-! ### Payloads stay sent -/

theorem live_sent {z z' : Live.Sys C G ν} {a : Live.Act ν} (h : Live.step farm w fsub x pipe z a = some z') : ∃ l, z'.s.sent = z.s.sent ++ l := by
  cases a with
  | make c => cases h; exact ⟨[], (List.append_nil _).symm⟩
  | run a =>
    simp only [Live.step] at h
    split at h
    · obtain ⟨s, hs, rfl⟩ := Option.map_eq_some_iff.1 h
      cases a with
      | call i as n => cases hs; exact ⟨[], (List.append_nil _).symm⟩
      | sched b =>
        simp only [Whole.step] at hs
        split at hs
        · cases hs
        · obtain ⟨y, -, rfl⟩ := Option.map_eq_some_iff.1 hs; exact ⟨[], (List.append_nil _).symm⟩
      | cb b =>
        simp only [Whole.step] at hs
        split at hs
        · cases hs
        · obtain ⟨y, -, rfl⟩ := Option.map_eq_some_iff.1 hs; exact ⟨[], (List.append_nil _).symm⟩
      | collect order q =>
        simp only [Whole.step] at hs
        obtain ⟨y, -, rfl⟩ := Option.map_eq_some_iff.1 hs
        exact ⟨_, rfl⟩
    · cases h

theorem step_sent {s s' : Delivery.Sys C G ν} {a : Delivery.Act ν} (h : Delivery.step farm w fsub x pipe s a = some s') : ∃ l, s'.z.s.sent = s.z.s.sent ++ l := by
  have := Delivery.step_live h
  cases hl : Delivery.liveOf pipe s a with
  | none =>
    rw [hl] at this
    have h0 : s.z = s'.z := Option.some.inj this
    exact ⟨[], by rw [← h0, List.append_nil]⟩
  | some b =>
    rw [hl] at this
    simp only [Option.toList, Live.run] at this
    obtain ⟨z, h1, h2⟩ := Option.bind_eq_some_iff.1 this
    rw [← Option.some.inj h2]
    exact live_sent h1

theorem call_sent {s s' : Delivery.Sys C G ν} {i : Front.Inst} {as : List KV} {b : Bits} (h : Delivery.step farm w fsub x pipe s (.call i as b) = some s') : s'.z.s.sent = s.z.s.sent := by
  simp only [Delivery.step] at h
  obtain ⟨z, hz, rfl⟩ := Option.map_eq_some_iff.1 h
  simp only [Live.step] at hz
  split at hz
  · obtain ⟨s1, hs, rfl⟩ := Option.map_eq_some_iff.1 hz
    cases hs
    rfl
  · cases hz

/-! ### The calls on the counter -/

/-- The call for a payload answered. -/
def callFor (w : World C G) (xe : Client.Errs E) (o : Nat) (e : Payload × Option E) : Front.Inst × List KV × Bits :=
  (counter w o, attrsOf xe e.2, BitVec.ofNat 64 (Client.dataPointCount e.1))

def onCounter (o : Nat) (acts : List (Delivery.Act ν)) : List (Front.Inst × List KV × Bits) :=
  (Pipeline.calls (Delivery.measured acts)).filter (fun e => e.1.id == o)

omit [DecidableEq C] in
theorem zip_more {α β : Type} (as ls : List α) (bs : List β) (h : bs.length ≤ as.length) : (as ++ ls).zip bs = as.zip bs := by
  induction as generalizing bs with
  | nil => cases bs with
    | nil => simp
    | cons _ _ => simp at h
  | cons a as ih => cases bs with
    | nil => simp
    | cons b bs => simp only [List.cons_append, List.zip_cons_cons, ih bs (by simpa using h)]

omit [DecidableEq C] in
theorem zip_snoc {α β : Type} (as : List α) (bs : List β) (a : α) (b : β) (h : as[bs.length]? = some a) : as.zip (bs ++ [b]) = as.zip bs ++ [(a, b)] := by
  induction as generalizing bs with
  | nil => cases h
  | cons a' as ih => cases bs with
    | nil => cases h; simp
    | cons b' bs => simp only [List.cons_append, List.zip_cons_cons, ih bs (by simpa using h)]

omit [DecidableEq C] in
theorem onCounter_snoc (acts : List (Delivery.Act ν)) (a : Delivery.Act ν) : onCounter o (acts ++ [a]) = onCounter o acts ++ onCounter o [a] := by
  simp only [onCounter, Delivery.measured, Pipeline.calls, List.filterMap_append, List.filter_append]

structure Kept (w : World C G) (xe : Client.Errs E) (o : Nat) (y : Sys C G ν E) : Prop where
  le : y.answers.length ≤ y.d.z.s.sent.length
  calls : onCounter o y.past = (y.d.z.s.sent.zip y.answers).map (callFor w xe o)

theorem Kept.step {y y' : Sys C G ν E} {a : Act ν E} (h : Kept w xe o y) (hs : step farm w fsub x pipe xe o y a = some y') : Kept w xe o y' := by
  cases a with
  | prog a =>
    simp only [SelfTelemetry.step] at hs
    split at hs
    · rename_i ha
      obtain ⟨d, hd, rfl⟩ := Option.map_eq_some_iff.1 hs
      obtain ⟨l, hl⟩ := step_sent hd
      refine ⟨?_, ?_⟩
      · dsimp only; rw [hl, List.length_append]; have := h.le; omega
      · dsimp only
        rw [hl, zip_more _ _ _ h.le, onCounter_snoc, h.calls]
        suffices onCounter o [a] = [] by rw [this, List.append_nil]
        cases a with
        | call i as n =>
          have : i.id ≠ o := by simpa [allowed] using ha
          simp [onCounter, Delivery.measured, Pipeline.calls, this]
        | _ => rfl
    · cases hs
  | answer e =>
    simp only [SelfTelemetry.step] at hs
    split at hs
    · split at hs
      · cases hs
      · rename_i pl hpl
        obtain ⟨d, hd, rfl⟩ := Option.map_eq_some_iff.1 hs
        have hlt := (List.getElem?_eq_some_iff.1 hpl).1
        refine ⟨?_, ?_⟩
        · dsimp only; rw [call_sent hd, List.length_append, List.length_singleton]; omega
        · dsimp only
          rw [call_sent hd, zip_snoc _ _ _ _ hpl, onCounter_snoc, h.calls, List.map_append]
          simp [onCounter, Delivery.measured, Pipeline.calls, counter, callFor]
    · cases hs

theorem Kept.run {y y' : Sys C G ν E} {as : List (Act ν E)} (h : Kept w xe o y) (hs : run farm w fsub x pipe xe o y as = some y') : Kept w xe o y' := by
  induction as generalizing y with
  | nil => cases hs; exact h
  | cons a as ih =>
    simp only [SelfTelemetry.run] at hs
    obtain ⟨y1, h1, h2⟩ := Option.bind_eq_some_iff.1 hs
    exact ih (h.step h1) h2

omit [DecidableEq C] in
theorem kept_initial (p : Provider.Provider C ν) (views : List (Views.Views C)) (start : Int) : Kept w xe o (initial farm w fsub p views pipe start : Sys C G ν E) :=
  ⟨Nat.zero_le _, rfl⟩

theorem run_sent {y y' : Sys C G ν E} {as : List (Act ν E)} (hs : run farm w fsub x pipe xe o y as = some y') : ∃ l, y'.d.z.s.sent = y.d.z.s.sent ++ l := by
  induction as generalizing y with
  | nil => cases hs; exact ⟨[], (List.append_nil _).symm⟩
  | cons a as ih =>
    simp only [SelfTelemetry.run] at hs
    obtain ⟨y1, h1, h2⟩ := Option.bind_eq_some_iff.1 hs
    obtain ⟨l, hl⟩ := ih h2
    have : ∃ l, y1.d.z.s.sent = y.d.z.s.sent ++ l := by
      cases a with
      | prog a =>
        simp only [SelfTelemetry.step] at h1
        split at h1
        · obtain ⟨d, hd, rfl⟩ := Option.map_eq_some_iff.1 h1
          exact step_sent hd
        · cases h1
      | answer e =>
        simp only [SelfTelemetry.step] at h1
        split at h1
        · split at h1
          · cases h1
          · obtain ⟨d, hd, rfl⟩ := Option.map_eq_some_iff.1 h1
            exact step_sent hd
        · cases h1
    obtain ⟨l0, h0⟩ := this
    exact ⟨l0 ++ l, by rw [hl, h0, List.append_assoc]⟩

/-! ### The steps as steps of the program -/

/-- What the program asks for in a step. -/
def ask : Act ν E → List (Provider.Call ν)
  | .prog c => Delivery.makes [c]
  | .answer _ => []

theorem step_past {y y' : Sys C G ν E} {a : Act ν E} (h : step farm w fsub x pipe xe o y a = some y') :
    ∃ b, y'.past = y.past ++ [b] ∧ Delivery.step farm w fsub x pipe y.d b = some y'.d ∧ Delivery.makes [b] = ask a := by
  cases a with
  | prog a =>
    simp only [SelfTelemetry.step] at h
    split at h
    · obtain ⟨d, hd, rfl⟩ := Option.map_eq_some_iff.1 h
      exact ⟨a, rfl, hd, rfl⟩
    · cases h
  | answer e =>
    simp only [SelfTelemetry.step] at h
    split at h
    · split at h
      · cases h
      · obtain ⟨d, hd, rfl⟩ := Option.map_eq_some_iff.1 h
        exact ⟨_, rfl, hd, rfl⟩
    · cases h

/-- What the program asks for. -/
def asked (as : List (Act ν E)) : List (Provider.Call ν) := as.flatMap ask

theorem run_past {y y' : Sys C G ν E} {as : List (Act ν E)} (h : run farm w fsub x pipe xe o y as = some y') :
    ∃ more, y'.past = y.past ++ more ∧ Delivery.run farm w fsub x pipe y.d more = some y'.d ∧ Delivery.makes more = asked as := by
  induction as generalizing y with
  | nil => cases h; exact ⟨[], (List.append_nil _).symm, rfl, rfl⟩
  | cons a as ih =>
    simp only [SelfTelemetry.run] at h
    obtain ⟨y1, h1, h2⟩ := Option.bind_eq_some_iff.1 h
    obtain ⟨b, b1, b2, b3⟩ := step_past h1
    obtain ⟨more, m1, m2, m3⟩ := ih h2
    refine ⟨b :: more, by rw [m1, b1, List.append_assoc]; rfl, by rw [Delivery.run, b2]; exact m2, ?_⟩
    have : Delivery.makes (b :: more) = Delivery.makes [b] ++ Delivery.makes more := List.filterMap_append (l := [b]) ..
    rw [this, b3, m3]
    rfl

/-! ### Between exports -/

open Sync in
/-- All calls on the counter have returned. -/
def Settled {S : Type} (o : Nat) (s : Sync.State (List KV) (List KV) Bits S) : Prop := ∀ j, j < s.nextOp → (s.op j).obs = o → (s.op j).pc = .done

theorem settled_step {S : Type} {c : Sync.Cfg (List KV) (List KV) Bits S} {s s' : Sync.State (List KV) (List KV) Bits S} {a : Sync.Action (List KV) Bits} (h : Settled o s)
    (hs : Sync.step c s a = some s') (ha : ∀ x as v, a = .observe x as v → x ≠ o) : Settled o s' := by
  cases a with
  | observe x as v =>
    cases hs
    intro j hj hobs
    dsimp only at hj hobs ⊢
    by_cases hjn : j = s.nextOp
    · subst hjn
      rw [upd_same] at hobs
      exact absurd hobs (ha x as v rfl)
    · rw [upd_ne _ _ hjn] at hobs ⊢
      exact h j (by omega) hobs
  | snapshot x => cases hs; exact h
  | collect x => cases hs; exact h
  | op i =>
    have hn := Sync.nextOp_step (by intro _ _ _ h; cases h) hs
    obtain ⟨h1, h2⟩ := Sync.stepOp_done hs
    have h3 := (Sync.stepOp_changes hs).1
    intro j hj hobs
    rw [hn] at hj
    by_cases hji : j = i
    · subst hji
      rw [h3] at hobs
      exact absurd (h j hj hobs) h1
    · rw [h2 j hji] at hobs ⊢
      exact h j hj hobs
  | task t ch =>
    have hn := Sync.nextOp_step (by intro _ _ _ h; cases h) hs
    have hop := Sync.stepTask_ops hs
    intro j hj hobs
    rw [hn] at hj
    rw [hop] at hobs ⊢
    exact h j hj hobs

theorem settled_live {z z' : Live.Sys C G ν} {a : Live.Act ν} (h : Settled o z.s.sync) (hs : Live.step farm w fsub x pipe z a = some z')
    (ha : ∀ i as v, a = .run (.call i as v) → i.id ≠ o) : Settled o z'.s.sync := by
  cases a with
  | make c => cases hs; exact h
  | run a =>
    simp only [Live.step] at hs
    split at hs
    · obtain ⟨s, h1, rfl⟩ := Option.map_eq_some_iff.1 hs
      clear hs
      cases a with
      | call i as v =>
        cases h1
        show Settled o (Front.observe _ _ _ _ _)
        unfold Front.observe
        dsimp only
        split
        · split
          · rename_i s1 h2
            refine settled_step h h2 ?_
            intro x as' v' he
            cases he
            exact ha i as v rfl
          · exact h
        · exact h
      | sched b =>
        simp only [Whole.step] at h1
        split at h1
        · cases h1
        · rename_i hb
          obtain ⟨y, hy, rfl⟩ := Option.map_eq_some_iff.1 h1
          refine settled_step h hy ?_
          rintro x as v rfl
          exact absurd rfl hb
      | cb b =>
        simp only [Whole.step] at h1
        split at h1
        · cases h1
        · obtain ⟨y, -, rfl⟩ := Option.map_eq_some_iff.1 h1; exact h
      | collect order q =>
        simp only [Whole.step] at h1
        obtain ⟨y, -, rfl⟩ := Option.map_eq_some_iff.1 h1
        exact h
    · cases hs

theorem live_keeps {z z' : Live.Sys C G ν} {a : Live.Act ν} (hs : Live.step farm w fsub x pipe z a = some z') (ha : ∀ order q, a ≠ .run (.collect order q)) : z'.s.sent = z.s.sent := by
  cases a with
  | make c => cases hs; rfl
  | run a =>
    simp only [Live.step] at hs
    split at hs
    · obtain ⟨s, h1, rfl⟩ := Option.map_eq_some_iff.1 hs
      clear hs
      cases a with
      | call i as v => cases h1; rfl
      | sched b =>
        simp only [Whole.step] at h1
        split at h1
        · cases h1
        · obtain ⟨y, -, rfl⟩ := Option.map_eq_some_iff.1 h1; rfl
      | cb b =>
        simp only [Whole.step] at h1
        split at h1
        · cases h1
        · obtain ⟨y, -, rfl⟩ := Option.map_eq_some_iff.1 h1; rfl
      | collect order q => exact absurd rfl (ha order q)
    · cases hs

theorem idle_move {r : Periodic.State} {t : Nat} {th : Periodic.Thread} {p : Periodic.Pos} (ht : r.threads[t]? = some th) (hth : th.pos ≠ .crit .produced ∧ th.pos ≠ .crit .exporting)
    (h : ∀ u ∈ r.threads.set t { th with pos := p }, u.pos ≠ .crit .produced ∧ u.pos ≠ .crit .exporting) : Idle r := by
  intro u hu
  obtain ⟨i, hi⟩ := List.getElem?_of_mem hu
  by_cases hit : i = t
  · subst hit
    rw [ht] at hi
    cases hi
    exact hth
  · refine h u (List.mem_of_getElem? (i := i) ?_)
    rw [List.getElem?_set_ne (Ne.symm hit)]
    exact hi

theorem idle_back {r : Periodic.State} {a : Periodic.Act} (h : Idle (Periodic.step r a)) :
    (∃ t q, a = .go t q ∧ exportingAt r t = true ∧ Delivery.returns r a = false) ∨ (Idle r ∧ Delivery.returns r a = false) := by
  cases a with
  | tick => exact Or.inr ⟨h, rfl⟩
  | callShutdown => exact Or.inr ⟨fun u hu => h u (List.mem_append_left _ hu), rfl⟩
  | callFlush => exact Or.inr ⟨fun u hu => h u (List.mem_append_left _ hu), rfl⟩
  | go t q =>
    simp only [Periodic.step] at h
    cases ht : r.threads[t]? with
    | none =>
      rw [ht] at h
      exact Or.inr ⟨h, by simp [Delivery.returns, ht]⟩
    | some th =>
      rw [ht] at h
      dsimp only at h
      unfold Periodic.advance at h
      have hlt := (List.getElem?_eq_some_iff.1 ht).1
      split at h
      · rename_i hpos
        refine Or.inr ⟨?_, by simp [Delivery.returns, ht, hpos]⟩
        unfold Periodic.select at h
        split at h
        · split at h
          · exact idle_move ht (by simp [hpos]) h
          · exact h
        · split at h
          · exact idle_move ht (by simp [hpos]) h
          · exact h
      · rename_i hpos
        exact Or.inr ⟨idle_move ht (by simp [hpos]) h, by simp [Delivery.returns, ht, hpos]⟩
      · rename_i hpos
        refine Or.inr ⟨?_, by simp [Delivery.returns, ht, hpos]⟩
        split at h
        · exact idle_move ht (by simp [hpos]) h
        · exact h
      · rename_i hpos
        refine Or.inr ⟨?_, by simp [Delivery.returns, ht, hpos]⟩
        split at h
        · exact idle_move ht (by simp [hpos]) h
        · exact h
      · rename_i c hpos
        cases c with
        | locked => exact absurd rfl (h { th with pos := .crit .produced } (List.mem_of_getElem? (i := t) (by simp [Periodic.State.move, Periodic.inside, hlt]))).1
        | produced => exact absurd rfl (h { th with pos := .crit .exporting } (List.mem_of_getElem? (i := t) (by simp [Periodic.State.move, Periodic.inside, hlt]))).2
        | exporting => exact Or.inl ⟨t, q, rfl, by simp [exportingAt, ht, hpos], by simp [Delivery.returns, ht, hpos]⟩
      · rename_i hpos
        exact Or.inr ⟨h, by simp [Delivery.returns, ht, hpos]⟩

/-- When nobody exports, everything sent was answered and counted. -/
def Even (o : Nat) (y : Sys C G ν E) : Prop := Idle y.d.r → y.answers.length = y.d.z.s.sent.length ∧ Settled o y.d.z.s.sync

omit [DecidableEq C] in
theorem settled_iff {s : Delivery.Sys C G ν} (h : settled o s = true) : Settled o s.z.s.sync := by
  intro j hj hobs
  have := List.all_eq_true.1 h j (List.mem_range.2 hj)
  rw [Bool.or_eq_true] at this
  rcases this with h1 | h1
  · simp [hobs] at h1
  · split at h1
    · assumption
    · cases h1

theorem quiet_act {s s' : Delivery.Sys C G ν} {b : Delivery.Act ν} (hs : Delivery.step farm w fsub x pipe s b = some s') (hset : Settled o s.z.s.sync)
    (hb : ∀ i as v, b = .call i as v → i.id ≠ o) (hr : ∀ a order, b = .reader a order → Delivery.returns s.r a = false) :
    s'.z.s.sent = s.z.s.sent ∧ Settled o s'.z.s.sync := by
  have hrun := Delivery.step_live hs
  cases hl : Delivery.liveOf pipe s b with
  | none =>
    rw [hl] at hrun
    have h0 : s.z = s'.z := Option.some.inj hrun
    rw [← h0]
    exact ⟨rfl, hset⟩
  | some l =>
    rw [hl] at hrun
    simp only [Option.toList, Live.run] at hrun
    obtain ⟨z, h1, h2⟩ := Option.bind_eq_some_iff.1 hrun
    rw [← Option.some.inj h2]
    have hcase : (∀ i as v, l = .run (.call i as v) → i.id ≠ o) ∧ ∀ order q, l ≠ .run (.collect order q) := by
      cases b with
      | call i as v => cases hl; exact ⟨fun i' as' v' he => by cases he; exact hb i as v rfl, by intros; simp⟩
      | produce now =>
        have := Delivery.produceLive_cases pipe s
        dsimp only [Delivery.liveOf] at hl
        rcases this with h0 | ⟨o', h0⟩ | ⟨l', h0⟩ <;> rw [h0] at hl
        · cases hl
        · cases hl; exact ⟨by intros; simp_all, by intros; simp⟩
        · cases hl; exact ⟨by intros; simp_all, by intros; simp⟩
      | reader a order =>
        simp only [Delivery.liveOf, Delivery.readerLive, hr a order rfl] at hl
        cases hl
      | _ => cases hl; exact ⟨by intros; simp_all, by intros; simp⟩
    exact ⟨live_keeps h1 hcase.2, settled_live hset h1 hcase.1⟩

theorem Even.step {y y' : Sys C G ν E} {a : Act ν E} (h : Even o y) (hs : SelfTelemetry.step farm w fsub x pipe xe o y a = some y') : Even o y' := by
  cases a with
  | answer e =>
    simp only [SelfTelemetry.step] at hs
    split at hs
    · rename_i hex
      split at hs
      · cases hs
      · obtain ⟨d, hd, rfl⟩ := Option.map_eq_some_iff.1 hs
        intro hid
        have hr : d.r = y.d.r := by
          simp only [Delivery.step] at hd
          obtain ⟨z, -, rfl⟩ := Option.map_eq_some_iff.1 hd
          rfl
        dsimp only at hid
        rw [hr] at hid
        obtain ⟨th, h1, h2⟩ := List.any_eq_true.1 hex
        exact absurd (of_decide_eq_true h2) (hid th h1).2
    · cases hs
  | prog b =>
    simp only [SelfTelemetry.step] at hs
    split at hs
    · rename_i hal
      obtain ⟨d, hd, rfl⟩ := Option.map_eq_some_iff.1 hs
      intro hid
      dsimp only at hid ⊢
      have hcall : ∀ i as v, b = .call i as v → i.id ≠ o := by
        rintro i as v rfl
        simpa [allowed] using hal
      have main : (y.answers.length = y.d.z.s.sent.length ∧ Settled o y.d.z.s.sync) → (∀ a order, b = .reader a order → Delivery.returns y.d.r a = false) →
          y.answers.length = d.z.s.sent.length ∧ Settled o d.z.s.sync := by
        intro h0 h1
        obtain ⟨g1, g2⟩ := quiet_act hd h0.2 hcall h1
        exact ⟨by rw [g1]; exact h0.1, g2⟩
      cases hb : b with
      | reader a order =>
        subst hb
        have hr : d.r = Periodic.step y.d.r a := by
          simp only [Delivery.step] at hd
          split at hd
          · split at hd
            · obtain ⟨z, -, rfl⟩ := Option.map_eq_some_iff.1 hd; rfl
            · cases hd
          · cases hd; rfl
        rw [hr] at hid
        rcases idle_back hid with ⟨t, q, rfl, h1, h2⟩ | ⟨h1, h2⟩
        · simp only [allowed, h1, Bool.not_true, Bool.false_or, Bool.and_eq_true, beq_iff_eq] at hal
          exact main ⟨hal.1, settled_iff hal.2⟩ (by intro a' o' he; cases he; exact h2)
        · exact main (h h1) (by intro a' o' he; cases he; exact h2)
      | produce now =>
        subst hb
        have hr : d.r = y.d.r := (Delivery.produce_keeps hd).1
        rw [hr] at hid
        exact main (h hid) (by intros; simp_all)
      | _ =>
        subst hb
        have hr : d.r = y.d.r := by
          simp only [Delivery.step] at hd
          first
          | (obtain ⟨z, -, rfl⟩ := Option.map_eq_some_iff.1 hd; rfl)
          | (split at hd
             · obtain ⟨z, -, rfl⟩ := Option.map_eq_some_iff.1 hd; rfl
             · cases hd)
        rw [hr] at hid
        exact main (h hid) (by intros; simp_all)
    · cases hs

theorem Even.run {y y' : Sys C G ν E} {as : List (Act ν E)} (h : Even o y) (hs : SelfTelemetry.run farm w fsub x pipe xe o y as = some y') : Even o y' := by
  induction as generalizing y with
  | nil => cases hs; exact h
  | cons a as ih =>
    simp only [SelfTelemetry.run] at hs
    obtain ⟨y1, h1, h2⟩ := Option.bind_eq_some_iff.1 hs
    exact ih (h.step h1) h2

omit [DecidableEq C] in
theorem even_initial (p : Provider.Provider C ν) (views : List (Views.Views C)) (start : Int) : Even o (initial farm w fsub p views pipe start : Sys C G ν E) :=
  fun _ => ⟨rfl, fun _ hj _ => absurd hj (Nat.not_lt_zero _)⟩

/-! ### Attributes -/

theorem named_iff (e : Option E) (state : String) : Client.Named xe e state ↔ Client.stateOf xe e = state := by
  have h0 : Client.Named xe e (Client.stateOf xe e) := Props.stateOf_named xe e
  constructor
  · intro h
    cases e with
    | none => rw [h.ok.2 rfl]; rfl
    | some e =>
      cases h1 : xe.canceled e with
      | true => rw [h.canceled.2 ⟨e, rfl, h1⟩, h0.canceled.2 ⟨e, rfl, h1⟩]
      | false => cases h2 : xe.deadline e with
        | true => rw [h.timeout.2 ⟨e, rfl, h1, h2⟩, h0.timeout.2 ⟨e, rfl, h1, h2⟩]
        | false => rw [h.error.2 ⟨e, rfl, h1, h2⟩, h0.error.2 ⟨e, rfl, h1, h2⟩]
  · intro h; rw [← h]; exact h0

theorem stateOf_cases (e : Option E) : (e.isNone = true ∧ Client.stateOf xe e = "ok") ∨ (e.isNone = false ∧ (Client.stateOf xe e = "canceled" ∨ Client.stateOf xe e = "timeout" ∨ Client.stateOf xe e = "error")) := by
  cases e with
  | none => exact Or.inl ⟨rfl, rfl⟩
  | some e =>
    refine Or.inr ⟨rfl, ?_⟩
    unfold Client.stateOf
    dsimp only
    split
    · exact Or.inl rfl
    · split
      · exact Or.inr (Or.inl rfl)
      · exact Or.inr (Or.inr rfl)

/-- The names of the outcomes. -/
abbrev States : List String := ["ok", "canceled", "timeout", "error"]

theorem lits : lit "state" ≠ lit "success" ∧ lit "state" < lit "success" ∧ lit "state" ≠ [] ∧ lit "success" ≠ [] := by decide +kernel

theorem lit_states {a b : String} (ha : a ∈ States) (hb : b ∈ States) (h : lit a = lit b) : a = b := by
  have : ∀ a ∈ States, ∀ b ∈ States, lit a = lit b → a = b := by decide +kernel
  exact this a ha b hb h

theorem stateOf_mem (e : Option E) : Client.stateOf xe e ∈ States := by
  rcases stateOf_cases (xe := xe) e with ⟨-, h⟩ | ⟨-, h | h | h⟩ <;> rw [h] <;> simp [States]

theorem last_attrs (k : Str) (e : Option E) : lastValue k (attrsOf xe e) =
    if lit "state" = k then some (.str (lit (Client.stateOf xe e))) else if lit "success" = k then some (.bool e.isNone) else none := by
  unfold lastValue attrsOf
  simp only [List.reverse_cons, List.reverse_nil, List.nil_append, List.singleton_append, List.find?_cons, List.find?_nil]
  by_cases h1 : lit "state" = k
  · simp [h1]
  · by_cases h2 : lit "success" = k
    · rw [beq_eq_false_iff_ne.2 h1, h2]; simp [h1]
    · rw [beq_eq_false_iff_ne.2 h1, beq_eq_false_iff_ne.2 h2]; simp [h1, h2]

theorem describes_iff (e : Option E) {b : Bool} {st : String} (hst : st ∈ States) : Pipeline.Describes none (attrsOf xe e) (outcome b st) ↔ e.isNone = b ∧ Client.stateOf xe e = st := by
  constructor
  · rintro ⟨-, h⟩
    refine ⟨?_, ?_⟩
    · obtain ⟨-, -, v, h1, h2⟩ := (h (lit "success") (.one (.bool b))).1 (by simp [outcome])
      rw [last_attrs, if_neg lits.1, if_pos rfl] at h1
      cases h1
      exact h2.symm
    · obtain ⟨-, -, v, h1, h2⟩ := (h (lit "state") (.one (.str (lit st)))).1 (by simp [outcome])
      rw [last_attrs, if_pos rfl] at h1
      cases h1
      exact lit_states (stateOf_mem e) hst h2.symm
  · rintro ⟨rfl, rfl⟩
    refine ⟨by simp [outcome, lits.2.1], fun k v => ⟨?_, ?_⟩⟩
    · intro h
      simp only [outcome, List.mem_cons, Prod.mk.injEq, List.not_mem_nil, or_false] at h
      rcases h with ⟨rfl, rfl⟩ | ⟨rfl, rfl⟩
      · exact ⟨lits.2.2.1, by simp, .str (lit (Client.stateOf xe e)), by rw [last_attrs, if_pos rfl], rfl⟩
      · exact ⟨lits.2.2.2, by simp, .bool e.isNone, by rw [last_attrs, if_neg lits.1, if_pos rfl], rfl⟩
    · rintro ⟨-, -, u, h1, h2⟩
      rw [last_attrs] at h1
      split at h1
      · rename_i hk
        cases h1
        subst hk
        simp only [canonVal] at h2
        rcases v with (_ | _) | _ <;> simp_all [ValueOf, outcome]
      · split at h1
        · rename_i hk
          cases h1
          subst hk
          simp only [canonVal] at h2
          rcases v with (_ | _) | _ <;> simp_all [ValueOf, outcome]
        · cases h1

open Launched in
omit [DecidableEq C] in
theorem counter_attrs (e : Outside C G) (pc : Launcher.PipelineConfig) (a : Option E) : (counter (world e pc) o).attrs (attrsOf xe a) = attrsOf xe a := by
  show truncate perf.sizeLimit (attrsOf xe a) = attrsOf xe a
  unfold attrsOf
  have h : ∀ b : Bool, ∀ st ∈ States, truncate perf.sizeLimit [⟨lit "success", .bool b⟩, ⟨lit "state", .str (lit st)⟩] = [⟨lit "success", .bool b⟩, ⟨lit "state", .str (lit st)⟩] := by decide +kernel
  exact h _ _ (stateOf_mem a)

/-- The four lists of attributes. -/
def lists : List (List KV) := [true, false].flatMap fun b => States.map fun st => [⟨lit "success", .bool b⟩, ⟨lit "state", .str (lit st)⟩]

theorem attrs_mem (a : Option E) : attrsOf xe a ∈ lists := by
  unfold lists attrsOf
  exact List.mem_flatMap.2 ⟨a.isNone, by cases a <;> simp, List.mem_map.2 ⟨_, stateOf_mem a, rfl⟩⟩

/-! ### What is recorded on the counter -/

theorem points_eq (pl : Payload) : Client.dataPointCount pl = Client.payloadPoints pl := by
  unfold Client.dataPointCount Client.payloadPoints Client.dataLen
  rfl

theorem not_rejected {n : Nat} (h : n < 2 ^ 63) : ¬ Props.Rejected .int64 .syncCounter (BitVec.ofNat 64 n) := by
  unfold Props.Rejected
  have : (BitVec.ofNat 64 n).toInt = n := by
    rw [BitVec.toInt_eq_toNat_cond, BitVec.toNat_ofNat, Nat.mod_eq_of_lt (by omega), if_pos (by omega)]
  simp [this]

theorem kept_same {α β : Type} {l : List α} {p q : α → Bool} {f g : α → β} (h : ∀ a ∈ l, p a = q a) (hf : ∀ a, f a = g a) : (l.filter p).map f = (l.filter q).map g := by
  rw [List.filter_congr h, funext hf]

open Launched in
omit [DecidableEq C] in
theorem recorded_answered {e0 : Outside C G} {pc : Launcher.PipelineConfig} {y : Sys C G ν E} (h : Kept (world e0 pc) xe o y) {p : Provider.Provider C ν} {k : Nat} {n : Str}
    (hone : ∀ id, Called p k n id ↔ id = o) (hsm : ∀ pl ∈ y.d.z.s.sent, Client.payloadPoints pl < 2 ^ 63) {b : Bool} {st : String} (hst : st ∈ States) :
    recordedBy p k n (fun as => Pipeline.Describes none as (outcome b st)) (Delivery.measured y.past) = answered xe b st y.d.z.s.sent y.answers := by
  classical
  unfold recordedBy answered
  have h1 : ∀ (P : Front.Inst × List KV × Bits → Prop) [DecidablePred P], (∀ e, P e → e.1.id = o) →
      (Pipeline.calls (Delivery.measured y.past)).filter (fun e => decide (P e)) = (onCounter o y.past).filter (fun e => decide (P e)) := by
    intro P _ hP
    unfold onCounter
    rw [List.filter_filter]
    refine List.filter_congr (fun e _ => ?_)
    by_cases hp : P e
    · simp [hp, hP e hp]
    · simp [hp]
  rw [h1 _ (fun e he => (hone _).1 he.2.2), h.calls, List.filter_map, List.map_map]
  have h2 : ∀ e ∈ y.d.z.s.sent.zip y.answers,
      (¬ Props.Rejected (callFor (world e0 pc) xe o e).1.num (callFor (world e0 pc) xe o e).1.kind (callFor (world e0 pc) xe o e).2.2 ∧
        Pipeline.Describes none ((callFor (world e0 pc) xe o e).1.attrs (callFor (world e0 pc) xe o e).2.1) (outcome b st) ∧ Called p k n (callFor (world e0 pc) xe o e).1.id) ↔
      (e.2.isNone = b ∧ Client.Named xe e.2 st) := by
    intro e he
    have hm := hsm e.1 (List.of_mem_zip he).1
    rw [named_iff]
    show (¬ Props.Rejected .int64 .syncCounter (BitVec.ofNat 64 (Client.dataPointCount e.1)) ∧ Pipeline.Describes none ((counter (world e0 pc) o).attrs (attrsOf xe e.2)) (outcome b st) ∧ Called p k n o) ↔ _
    rw [counter_attrs, describes_iff e.2 hst, points_eq]
    exact ⟨fun h => h.2.1, fun h => ⟨not_rejected hm, h, (hone o).2 rfl⟩⟩
  refine kept_same (fun e he => decide_eq_decide.2 (h2 e he)) (fun e => ?_)
  show BitVec.ofNat 64 (Client.dataPointCount e.1) = _
  rw [points_eq]

open Launched in
omit [DecidableEq C] in
theorem few_answered {e0 : Outside C G} {pc : Launcher.PipelineConfig} {y : Sys C G ν E} (h : Kept (world e0 pc) xe o y) {p : Provider.Provider C ν} {k : Nat} {n : Str}
    (hone : ∀ id, Called p k n id ↔ id = o) : Few p k n (Delivery.measured y.past) := by
  refine ⟨fun _ => lists, lists, fun _ _ => (by decide +kernel : lists.length < 3000), (by decide +kernel : lists.length < 2000), ?_, fun id _ a ha => ⟨?_, a, ha, fun _ _ _ => rfl⟩⟩
  · intro e he hc
    have hm : e ∈ onCounter o y.past := List.mem_filter.2 ⟨he, by simpa using (hone _).1 hc⟩
    rw [h.calls] at hm
    obtain ⟨q, -, rfl⟩ := List.mem_map.1 hm
    show (counter (world e0 pc) o).attrs (attrsOf xe q.2) ∈ lists
    rw [counter_attrs]
    exact attrs_mem q.2
  · rintro ⟨kv, hkv, xs, hv, -⟩
    unfold lists at ha
    obtain ⟨b, -, ha⟩ := List.mem_flatMap.1 ha
    obtain ⟨st, -, rfl⟩ := List.mem_map.1 ha
    simp only [List.mem_cons, List.not_mem_nil, or_false] at hkv
    rcases hkv with rfl | rfl <;> cases hv

open Launched in
theorem answered_same {e0 : Outside C G} {pc : Launcher.PipelineConfig} {t : Front.IKind → Views.Tempo} {start : Int} {acts after : List (Act ν E)} {y y' : Sys C G ν E}
    (hp : Reports e0 pc t start xe o acts after y y') (hno : y'.answers = y.answers) {b : Bool} {st : String} :
    answered xe b st y'.d.z.s.sent y'.answers = answered xe b st y.d.z.s.sent y.answers := by
  have k1 := (kept_initial (farm := e0.farm) (w := world e0 pc) (fsub := e0.fsub) (pipe := 0) (xe := xe) (o := o) y'.d.z.p (views e0 t) start).run hp.before
  obtain ⟨l, hl⟩ := run_sent hp.runs
  unfold answered
  rw [hno, hl, zip_more _ _ _ k1.le]

theorem between_same {α : Type} {a v : List α} (h : Busy.Between a v a) : v.Perm a := by
  obtain ⟨m, r, h1, h2⟩ := h
  have := (h2.trans (h1.append_right r)).length_eq
  simp only [List.length_append] at this
  have hm : m = [] := List.eq_nil_of_length_eq_zero (by omega)
  rw [hm, List.append_nil] at h1
  exact h1

theorem describes_unique {f : Option (List Str)} {as : List KV} {m m' : PMap} (h : Pipeline.Describes f as m) (h' : Pipeline.Describes f as m') : m = m' :=
  Pipeline.sorted_unique h.1 h'.1 (by rintro ⟨k, v⟩; rw [h.2, h'.2])

end Verif.SelfTelemetry

namespace Verif.Props
open Verif Verif.Attr Verif.Number Verif.Export Verif.Assembly Verif.Instruments Verif.Launched Verif.Delivery Verif.Busy
open Verif.Front (IKind)
open Verif.Views (Tempo)

variable {C G ν : Type} [DecidableEq C] {lx : Launcher.Ext} {lw : Launcher.World} {opts : List Launcher.Opt} {pref : Launcher.Preference} {pc : Launcher.PipelineConfig}
  {sel : IKind → Tempo} {e : Outside C G} {k : Nat} {sc : Views.Scope} {c : Ctor} {n unit : Str} {start : Int} {acts after : List (Delivery.Act ν)}
  {s s' : Delivery.Sys C G ν}

/-- When all calls on the instruments with the name have returned, all values recorded are those of calls which have returned. -/
theorem flushes_returned (hl : Launch lx lw opts pref pc sel) (h : Named (makes acts) s'.z.p k sc c n unit) (hp : Flushes e pc sel start acts after s s')
    (hsy : (promise c).observed = false) (hret : ∀ i, i < s.z.s.sync.nextOp → Called s'.z.p k n (s.z.s.sync.op i).obs → (s.z.s.sync.op i).pc = .done) (Q : List KV → Prop) :
    returnedBy s'.z.p k n Q s.z.s.sync = recordedBy s'.z.p k n Q (measured acts) := by
  have hv := h.viewed hl (busy_made hp)
  obtain ⟨o, f, pacts, pcoll, xs, xs', more, h1, h2, h3, h4, -⟩ := Flushing.pipeline hp hv (look_sync hsy)
  have hb := h2 [o.shape] (List.mem_singleton_self _)
  have hc : Sync.CallsAre s.z.s.sync (Pipeline.started pacts) := by
    rw [← h3]
    rcases look_shape (e := e) (pref := pref) (unit := unit) c with (hk | hk | hk) | hk
    · exact hb.calls_before Pipeline.extracts_numbers (by rw [h1.shape_eq, hk]; simp [Pipeline.Shape.kind])
    · exact hb.calls_before Pipeline.extracts_numbers (by rw [h1.shape_eq, hk]; simp [Pipeline.Shape.kind])
    · exact hb.calls_before Pipeline.extracts_numbers (by rw [h1.shape_eq, hk]; simp [Pipeline.Shape.kind])
    · exact hb.calls_before Pipeline.extracts_exp (by rw [h1.shape_eq, hk]; simp [Pipeline.Shape.kind])
  have h5 := Pipeline.recordedOn_ids (farm := e.farm) (u := setup (world e pc) s'.z.p) hc o.leaf Q
  rw [h1.recorded, recorded_eq] at h5
  have h6 : recordedBy s'.z.p k n Q pacts = recordedBy s'.z.p k n Q (measured acts) := by unfold recordedBy; rw [h4]
  rw [← returned_eq (s := s.z.s.sync) (z := s.z.s.sync) h1 ⟨Nat.le_refl _, fun _ _ => ⟨rfl, rfl, rfl⟩⟩ Q, ← h6, ← h5]
  rw [Pipeline.idsOn_eq]
  unfold Pipeline.returnedOn
  congr 1
  rw [List.filter_eq_self]
  intro i hi
  obtain ⟨j, hj, h7⟩ := List.mem_flatMap.1 hi
  have hlt := List.mem_range.1 hj
  split at h7
  · obtain ⟨h8, h9⟩ := List.mem_replicate.1 h7
    subst h9
    have hcalled : Called s'.z.p k n (s.z.s.sync.op i).obs := by
      refine (called_iff e sel sc).1 ?_
      rw [← h1.count]
      exact Nat.pos_of_ne_zero h8
    exact @decide_eq_true _ (Classical.propDecidable _) ⟨hlt, hret i hlt hcalled⟩
  · cases h7

end Verif.Props
