import Verif.Proof.DeliveryStuck
import Verif.Proof.DeliveryEnds
import Verif.Proof.Hinted
import Verif.Props.Provider

/-!
Lemmas for C98: requests answered without an instrument.
-/

namespace Verif.Provider
open Verif.Attr Verif.Views
variable {H ν : Type} [DecidableEq H] {x : Ext H} {views : List (Views H)}

/-- A request on a meter in use which is answered without an instrument leaves a nil instrument. -/
theorem refused_nil {m : Meter H ν} (h : MeterOk x views m) (d : Desc) (hr : (configure x views m d).2 = none) : none ∈ (configure x views m d).1.sync := by
  rcases (configure_spec h d).2.2.2 with ⟨n', -, e, -, -⟩ | ⟨-, -, -, -, -, e⟩ | ⟨-, -, e, -, -⟩
  · rw [hr] at e; cases e
  · rw [e]; simp
  · rw [hr] at e; cases e

theorem nil_stays {cs : List (Call ν)} {i : Nat} (h : Delivery.Refused x views cs i) :
    ∃ (k : Nat) (m : Meter H ν), (run x (new views) cs).ordered[k]? = some m ∧ none ∈ m.sync := by
  obtain ⟨k, d, h1, ⟨sc, hk⟩, h2⟩ := h
  obtain ⟨hok, hv⟩ := run_ok (new_ok (ν := ν) x views) (cs.take i)
  have hv' : (run x (new views) (cs.take i) : Provider H ν).views = views := hv
  rw [← scopes_run x views, List.getElem?_map] at hk
  obtain ⟨m, hm, hsc⟩ := Option.map_eq_some_iff.1 hk
  have hmok := hok.meters m (List.mem_of_getElem? hm)
  rw [hv'] at hmok
  rw [responses_get x _ cs i _ h1] at h2
  simp only [step, hm, Option.some.injEq, Res.pointer.injEq] at h2
  rw [hv'] at h2
  have hstep : (step x (run x (new views) (cs.take i)) (.instrument k d)).1.ordered[k]? = some (configure x views m d).1 := by
    simp only [step, hm]
    rw [List.getElem?_set, if_pos rfl, if_pos (List.getElem?_eq_some_iff.1 hm).1, hv']
  have hg := run_grows (step_ok hok (.instrument k d)).1 (cs.drop (i+1))
  obtain ⟨m', h3, -, -, h4⟩ := hg.insts k _ hstep
  rw [run_split x _ cs i _ h1]
  exact ⟨k, m', h3, h4.subset (refused_nil hmok d h2)⟩

theorem noNil_answered {cs : List (Call ν)} (h : Delivery.Answered x views cs) : NoNil (run x (new views) cs : Provider H ν) := by
  suffices hs : ∀ n ≤ cs.length, NoNil (run x (new views) (cs.take n) : Provider H ν) by
    have := hs cs.length (Nat.le_refl _)
    rwa [List.take_length] at this
  intro n
  induction n with
  | zero => intro _ m hm; simp [run, new] at hm
  | succ n ih =>
    intro hn
    have ih := ih (by omega)
    rw [List.take_add_one, List.getElem?_eq_getElem (by omega), Option.toList_some, run_append, run_cons]
    have hc : cs[n]? = some cs[n] := by simp
    generalize cs[n] = c at hc ⊢
    show NoNil (step x (run x (new views) (cs.take n)) c).1
    by_cases hk : ∃ k d, c = .instrument k d ∧ (run x (new views) (cs.take n) : Provider H ν).ordered[k]? = none
    · obtain ⟨k, d, rfl, hk⟩ := hk
      simp only [step, hk]
      exact ih
    · refine noNil_step ih c ?_
      rintro k d rfl hh
      refine h n ⟨k, d, hc, ?_, ?_⟩
      · rw [← scopes_run x views, List.getElem?_map]
        cases hm : (run x (new views) (cs.take n) : Provider H ν).ordered[k]? with
        | none => exact absurd ⟨k, d, rfl, hm⟩ hk
        | some m => exact ⟨_, rfl⟩
      · rw [responses_get x _ cs n _ hc, hh]

/-- When the views of some reader keep every synchronous instrument, every request is answered. -/
theorem answered_of_kept {cs : List (Call ν)} (h : ∀ k d sc, .instrument k d ∈ cs → d.kind.synchronous = true → ¬ NoOutput x views sc d) : Delivery.Answered x views cs := by
  rintro i ⟨k, d, h1, ⟨sc, hk⟩, h2⟩
  obtain ⟨a, ha, ha', -⟩ := instrument_response x views cs i k d h1
  rw [h2] at ha
  cases ha
  obtain ⟨h3, h4⟩ := ha'.1 rfl sc hk
  exact h k d sc (List.mem_of_getElem? h1) h3 h4

end Verif.Provider

namespace Verif.Whole
open Verif.Attr Verif.Number
variable {H : Type} {P : Parts H} {R : Pipeline.Reader H} {y y' : Sys H} {a : Act}

/-- Numbers are given to further calls, observations and callbacks only. -/
theorem step_counts (h : step P R y a = some y') :
    y.sync.nextOp ≤ y'.sync.nextOp ∧ y.async.nextOp ≤ y'.async.nextOp ∧ y.async.nextCb ≤ y'.async.nextCb := by
  have hasync : ∀ {b : Async.Action (List KV) Bits} {σ}, Async.step (AsyncPipeline.cfg P.u) y.async b = some σ → y.async.nextOp ≤ σ.nextOp ∧ y.async.nextCb ≤ σ.nextCb := by
    intro b σ hb
    cases b with
    | startCb insts => cases hb; exact ⟨Nat.le_refl _, Nat.le_succ _⟩
    | endCb id =>
      simp only [Async.step] at hb
      split at hb
      · cases hb; exact ⟨Nat.le_refl _, Nat.le_refl _⟩
      · cases hb
    | observe cb obs set val =>
      simp only [Async.step] at hb
      split at hb
      · cases hb; exact ⟨Nat.le_succ _, Nat.le_refl _⟩
      · cases hb
    | op i =>
      simp only [Async.step] at hb
      split at hb
      · cases hb
      · split at hb
        · split at hb
          · split at hb <;> (cases hb; exact ⟨Nat.le_refl _, Nat.le_refl _⟩)
          · cases hb; exact ⟨Nat.le_refl _, Nat.le_refl _⟩
        · cases hb
          unfold Async.getOrCreate
          split <;> exact ⟨Nat.le_refl _, Nat.le_refl _⟩
        · cases hb; exact ⟨Nat.le_refl _, Nat.le_refl _⟩
        · cases hb
    | finish order =>
      simp only [Async.step] at hb
      split at hb
      · cases hb; exact ⟨Nat.le_refl _, Nat.le_refl _⟩
      · cases hb
  cases a with
  | call i as n =>
    cases h
    refine ⟨?_, Nat.le_refl _, Nat.le_refl _⟩
    show _ ≤ (Front.observe P.c y.sync (some i) as n).nextOp
    unfold Front.observe
    dsimp only
    split
    · exact Nat.le_succ _
    · exact Nat.le_refl _
  | sched a =>
    simp only [step] at h
    split at h
    · cases h
    · obtain ⟨s, h1, rfl⟩ := Option.map_eq_some_iff.1 h
      exact ⟨Sync.nextOp_mono h1, Nat.le_refl _, Nat.le_refl _⟩
  | cb a =>
    simp only [step] at h
    split at h
    · cases h
    · obtain ⟨s, h1, rfl⟩ := Option.map_eq_some_iff.1 h
      exact ⟨Nat.le_refl _, hasync h1⟩
  | collect order q =>
    simp only [step] at h
    obtain ⟨s, h1, rfl⟩ := Option.map_eq_some_iff.1 h
    exact ⟨Nat.le_refl _, hasync h1⟩

end Verif.Whole

namespace Verif.Periodic

theorem threads_step (r : State) (a : Act) : r.threads.length ≤ (step r a).threads.length := by
  cases a with
  | tick => exact Nat.le_refl _
  | callShutdown => simp [step]
  | callFlush => simp [step]
  | go t quit =>
    simp only [step]
    split
    · exact Nat.le_refl _
    · unfold advance
      split
      · unfold select
        repeat' split
        all_goals simp [State.move]
      · simp [State.move]
      · split <;> simp [State.move]
      · split <;> simp [State.move]
      · unfold inside
        split <;> simp [State.move]
      · exact Nat.le_refl _

end Verif.Periodic

namespace Verif.Delivery
open Verif.Attr Verif.Number Verif.Assembly
variable {C G ν : Type} [DecidableEq C] {farm : Str → UInt64} {w : World C G} {fsub : Bits → Bits → Bits} {x : Views.Ext C} {pipe : Nat} {s s' : Sys C G ν}

theorem prov_run {acts : List (Act ν)} (h : run farm w fsub x pipe s acts = some s') : s'.z.p = Provider.run x s.z.p (makes acts) := by
  have := Live.run_prov (run_lives h)
  rw [lives_makes h] at this
  exact this

/-! ### The launcher -/

theorem launched_keeps {e : Launched.Outside C G} {t : Front.IKind → Views.Tempo} {sc : Views.Scope} {d : Views.Desc} (hd : ¬ DropHint e.x d) :
    ¬ Provider.NoOutput e.x (Launched.views e t) sc d := by
  intro h
  have h1 := h (Launched.view e t) (List.mem_singleton.2 rfl)
  unfold Views.behaviors at h1
  dsimp only at h1
  rw [Launched.view_clauses] at h1
  rw [if_pos (by rfl)] at h1
  dsimp only at h1
  by_cases hk : (Views.tryToApplyHint e.x (Launched.view e t) d).akind = .drop
  · have hu : Views.usualAgg d.kind ≠ .drop := by cases d.kind <;> decide
    unfold Views.tryToApplyHint at hk
    dsimp only at hk
    rw [Launched.view_agg] at hk
    split at hk
    · rename_i hb
      split at hk
      · exact hu hk
      · rename_i hint hp
        dsimp only at hk
        split at hk
        · exact hu hk
        · rename_i hne
          split at hk
          · exact hu hk
          · rename_i kk hpk
            split at hk
            · exact hu hk
            · subst hk
              refine hd ⟨hint, ?_, hne, ?_⟩
              · unfold Views.hintIn
                rw [if_pos (by simpa using hb)]
                exact hp
              · have := Views.parse_words hpk
                simpa [Views.aggregationWords] using this
    · exact hu hk
  · rw [if_neg hk] at h1
    cases h1

/-! ### A nil instrument -/

/-- The goroutine within `Produce` has the nil instrument of the `k`th meter before it. -/
def NilAhead (k : Nat) : Pos → Prop
  | .out => True
  | .meters _ ks => k ∈ ks
  | .callbacks _ k' is ks => k ∈ ks ∨ (k' = k ∧ none ∈ is)
  | .insts _ k' td _ ks => k ∈ ks ∨ (k' = k ∧ none ∈ td)
  | .outputs _ _ _ _ ks => k ∈ ks

/-- The `k`th meter has a nil instrument. -/
def HasNil (p : Provider.Provider C ν) (k : Nat) : Prop := ∃ m, p.ordered[k]? = some m ∧ none ∈ m.sync

theorem HasNil.make {p : Provider.Provider C ν} {k : Nat} (h : HasNil p k) (c : Provider.Call ν) : HasNil (Provider.step x p c).1 k := by
  obtain ⟨m, h1, h2⟩ := h
  obtain ⟨m', h3, h4⟩ := Provider.sync_step x p c h1
  exact ⟨m', h3, h4 _ h2⟩

theorem HasNil.run {p : Provider.Provider C ν} {k : Nat} {cs : List (Provider.Call ν)} (h : HasNil p k) : HasNil (Provider.run x p cs) k := by
  induction cs generalizing p with
  | nil => exact h
  | cons c cs ih => exact ih (h.make c)

theorem produce_ahead {k : Nat} {now : Int} (hp : HasNil s.z.p k) (h0 : NilAhead k s.pos) (h : produce farm w fsub x pipe now s = some s') : NilAhead k s'.pos := by
  unfold produce at h
  split at h
  · split at h
    · cases h
      obtain ⟨m, h1, -⟩ := hp
      exact List.mem_range.2 (List.getElem?_eq_some_iff.1 h1).1
    · cases h
  · cases h
  · rename_i q k' ks hpos
    rw [hpos] at h0
    split at h
    · cases h
    · rename_i m hm
      cases h
      rcases List.mem_cons.1 h0 with rfl | h0
      · obtain ⟨m', h1, h2⟩ := hp
        rw [hm] at h1
        cases h1
        exact Or.inr ⟨rfl, h2⟩
      · exact Or.inl h0
  · rename_i hpos
    rw [hpos] at h0
    split at h
    · cases h; exact h0
    · cases h
  · rename_i hpos
    rw [hpos] at h0
    split at h
    · cases h; exact h0
    · cases h
  · rename_i hpos
    rw [hpos] at h0
    obtain ⟨z, -, rfl⟩ := Option.map_eq_some_iff.1 h
    rcases h0 with h0 | ⟨h0, h1⟩
    · exact Or.inl h0
    · rcases List.mem_cons.1 h1 with h1 | h1
      · cases h1
      · exact Or.inr ⟨h0, h1⟩
  · cases h
  · rename_i hpos
    rw [hpos] at h0
    split at h
    · cases h
    · cases h
      rcases h0 with h0 | ⟨-, h1⟩
      · exact h0
      · cases h1
  · rename_i hpos
    rw [hpos] at h0
    split at h
    · cases h; exact h0
    · cases h
  · rename_i hpos
    rw [hpos] at h0
    split at h
    · obtain ⟨z, -, rfl⟩ := Option.map_eq_some_iff.1 h
      exact h0
    · cases h; exact h0
  · rename_i hpos
    rw [hpos] at h0
    cases h
    exact h0

/-- The goroutine has not gone past `Produce`. -/
def Early (p : Periodic.Pos) : Prop := p ≠ .crit .produced ∧ p ≠ .crit .exporting ∧ p ≠ .done

/-- Requests made later have not gone past `Produce`. -/
def Waiting (n : Nat) (r : Periodic.State) : Prop := ∀ (t : Nat) (th : Periodic.Thread), n ≤ t → r.threads[t]? = some th → Early th.pos ∧ th.pos ≠ .idle

theorem waiting_move {n t : Nat} {r : Periodic.State} {th : Periodic.Thread} {p : Periodic.Pos} (h : Waiting n r) (hp : n ≤ t → Early p ∧ p ≠ .idle) : Waiting n (r.move t th p) := by
  intro u th' hu hh
  simp only [Periodic.State.move, List.getElem?_set] at hh
  split at hh
  · rename_i e
    subst e
    split at hh
    · cases hh; exact hp hu
    · cases hh
  · exact h u th' hu hh

theorem waiting_step {n : Nat} {r : Periodic.State} {a : Periodic.Act} (h : Waiting n r) (hr : returns r a = false) : Waiting n (Periodic.step r a) := by
  have happ : ∀ th : Periodic.Thread, Early th.pos ∧ th.pos ≠ .idle → Waiting n { r with threads := r.threads ++ [th] } := by
    intro th hth u th' hu hh
    dsimp only at hh
    rw [List.getElem?_append] at hh
    split at hh
    · exact h u th' hu hh
    · rw [List.getElem?_singleton] at hh
      split at hh
      · cases hh; exact hth
      · cases hh
  cases a with
  | tick => exact h
  | callShutdown => exact happ _ (by simp [Early])
  | callFlush => exact happ _ (by simp [Early])
  | go t quit =>
    simp only [Periodic.step]
    cases ht : r.threads[t]? with
    | none => exact h
    | some th =>
      dsimp only
      have hth := h t th
      have hlock : th.pos ≠ .crit .locked := by
        simp only [returns, ht] at hr
        exact of_decide_eq_false hr
      unfold Periodic.advance
      split
      · rename_i hpos
        have hlt : ¬ n ≤ t := fun hle => (hth hle ht).2 hpos
        unfold Periodic.select
        split
        · split
          · exact waiting_move h (fun hle => absurd hle hlt)
          · exact h
        · split
          · exact waiting_move (r := { r with chan := false }) h (fun hle => absurd hle hlt)
          · exact h
      · exact waiting_move (r := { r with cancelled := true }) h (fun _ => by simp [Early])
      · split
        · exact waiting_move h (fun _ => by simp [Early])
        · exact h
      · split
        · exact waiting_move (r := { r with lock := some t }) h (fun _ => by simp [Early])
        · exact h
      · rename_i c hpos
        unfold Periodic.inside
        split
        · exact absurd hpos hlock
        · exact waiting_move (r := { r with log := _ }) h (fun hle => absurd hpos (hth hle ht).1.1)
        · exact waiting_move (r := { r with log := _, lock := none }) h (fun hle => absurd hpos (hth hle ht).1.2.1)
      · exact h

/-- Nothing is sent, and no request made later returns. -/
theorem nil_step {n k : Nat} {a : Act ν} (hp : HasNil s.z.p k) (h0 : NilAhead k s.pos) (hw : Waiting n s.r) (h : step farm w fsub x pipe s a = some s') :
    NilAhead k s'.pos ∧ Waiting n s'.r ∧ s'.z.s.sent = s.z.s.sent := by
  have hy : NilAhead k s'.pos ∧ Waiting n s'.r ∧ ∀ order q, liveOf pipe s a ≠ some (.run (.collect order q)) := by
    by_cases ha : outside a = true
    · obtain ⟨h1, h2⟩ := outside_keeps ha h
      refine ⟨by rw [h2]; exact h0, by rw [h1]; exact hw, fun order q e => ?_⟩
      cases a <;> first | (cases e; done) | (cases ha; done)
    · cases a with
      | produce now =>
        refine ⟨produce_ahead hp h0 h, by rw [(produce_keeps h).1]; exact hw, fun order q e => ?_⟩
        rcases produceLive_cases pipe s with e' | ⟨_, e'⟩ | ⟨_, e'⟩ <;> rw [liveOf, e'] at e <;> cases e
      | reader a order =>
        have hr : returns s.r a = false := by
          cases hr : returns s.r a with
          | false => rfl
          | true =>
            exfalso
            simp only [step] at h
            rw [if_pos hr] at h
            split at h
            · rename_i q hpos
              rw [hpos] at h0
              cases h0
            · cases h
        have h' := h
        simp only [step] at h'
        rw [if_neg (by rw [hr]; exact Bool.false_ne_true)] at h'
        cases h'
        refine ⟨h0, waiting_step hw hr, fun order' q e => ?_⟩
        rw [liveOf] at e
        unfold readerLive at e
        rw [hr] at e
        cases e
      | _ => exact absurd rfl ha
  refine ⟨hy.1, hy.2.1, ?_⟩
  have hl := step_live h
  cases hla : liveOf pipe s a with
  | none =>
    rw [hla] at hl
    rw [Option.some.inj hl]
  | some b =>
    rw [hla] at hl
    rw [Option.toList_some, Live.run] at hl
    obtain ⟨z, h3, h4⟩ := Option.bind_eq_some_iff.1 hl
    have h4 : z = s'.z := Option.some.inj h4
    rw [← h4]
    exact live_sent (fun order q e => hy.2.2 order q (by rw [hla, e])) h3

theorem nil_run {n k : Nat} {acts : List (Act ν)} (hp : HasNil s.z.p k) (h0 : NilAhead k s.pos) (hw : Waiting n s.r) (h : run farm w fsub x pipe s acts = some s') :
    Waiting n s'.r ∧ s'.z.s.sent = s.z.s.sent := by
  induction acts generalizing s with
  | nil => cases h; exact ⟨hw, rfl⟩
  | cons a acts ih =>
    rw [run] at h
    obtain ⟨y, h1, h2⟩ := Option.bind_eq_some_iff.1 h
    obtain ⟨g1, g2, g3⟩ := nil_step hp h0 hw h1
    have hpy : HasNil y.z.p k := by
      have := prov_run (acts := [a]) (s' := y) (by rw [run, h1]; rfl)
      rw [this]
      exact hp.run
    obtain ⟨g4, g5⟩ := ih hpy g1 g2 h2
    exact ⟨g4, g5.trans g3⟩

/-! ### Numbers -/

/-- As many calls, tasks, observations, callbacks and requests. -/
def Counts (s s' : Sys C G ν) : Prop := s.z.s.sync.nextOp ≤ s'.z.s.sync.nextOp ∧ s.z.s.sync.nextTask ≤ s'.z.s.sync.nextTask ∧
    s.z.s.async.nextOp ≤ s'.z.s.async.nextOp ∧ s.z.s.async.nextCb ≤ s'.z.s.async.nextCb ∧ s.r.threads.length ≤ s'.r.threads.length

theorem step_counts {a : Act ν} (h : step farm w fsub x pipe s a = some s') : Counts s s' := by
  have hr : s.r.threads.length ≤ s'.r.threads.length := by
    rw [step_reader h]
    cases a with
    | reader a order => exact Periodic.threads_step s.r a
    | _ => exact Nat.le_refl _
  have h1 := step_live h
  cases hl : liveOf pipe s a with
  | none => rw [hl] at h1; injection h1 with h1; unfold Counts; rw [← h1]; exact ⟨Nat.le_refl _, Nat.le_refl _, Nat.le_refl _, Nat.le_refl _, hr⟩
  | some b =>
    rw [hl, Option.toList_some, Live.run] at h1
    obtain ⟨z, h3, h4⟩ := Option.bind_eq_some_iff.1 h1
    have h4 : z = s'.z := Option.some.inj h4
    unfold Counts
    rw [← h4]
    cases b with
    | make c => cases h3; exact ⟨Nat.le_refl _, Nat.le_refl _, Nat.le_refl _, Nat.le_refl _, hr⟩
    | run b =>
      obtain ⟨-, y, hy, rfl⟩ := live_run h3
      obtain ⟨g1, g2, g3⟩ := Whole.step_counts hy
      exact ⟨g1, (Whole.step_tasks hy).1, g2, g3, hr⟩

theorem schedule_counts {f : Nat → Sys C G ν} (hf : Schedule farm w fsub x pipe s f) (n : Nat) : Counts s (f n) := by
  induction n with
  | zero => rw [hf.1]; exact ⟨Nat.le_refl _, Nat.le_refl _, Nat.le_refl _, Nat.le_refl _, Nat.le_refl _⟩
  | succ n ih =>
    obtain ⟨a1, a2, a3, a4, a5⟩ := ih
    rcases hf.2 n with ⟨-, a, -, h⟩ | ⟨-, h⟩
    · obtain ⟨b1, b2, b3, b4, b5⟩ := step_counts h
      exact ⟨Nat.le_trans a1 b1, Nat.le_trans a2 b2, Nat.le_trans a3 b3, Nat.le_trans a4 b4, Nat.le_trans a5 b5⟩
    · rw [h]; exact ⟨a1, a2, a3, a4, a5⟩

end Verif.Delivery
