import Verif.Spec.SpanTelemetry
import Verif.Proof.SelfTelemetry
import Verif.Proof.Traced

/-!
Helper file: the calls on the counter of the spans exporter are those for the payloads answered.
-/

namespace Verif.SpanTelemetry
open Verif.Attr Verif.Number Verif.Export Verif.Assembly
open Verif.Views (lit)
open Verif.SelfTelemetry (counter settled attrsOf onCounter onCounter_snoc States lists attrs_mem counter_attrs describes_iff named_iff not_rejected kept_same outcome)
variable {C G ν E : Type} [DecidableEq C]
variable {farm : Str → UInt64} {w : World C G} {fsub : Bits → Bits → Bits} {x : Views.Ext C} {pipe : Nat} {xe : Client.Errs E} {res : List KV} {o : Nat}

/-- The call for a payload answered. -/
def callFor (w : World C G) (xe : Client.Errs E) (o : Nat) (e : TraceExport.Traces × Option E) : Front.Inst × List KV × Bits :=
  (counter w o, attrsOf xe e.2, BitVec.ofNat 64 (Traced.spansIn e.1).length)

omit [DecidableEq C] in
/-- What a call of the exporter does: the batch answered, if it is one, and the calls on the counter. -/
theorem step_log {t : Traced.Sys E} {c : Traced.Call E} (h : t.panicked = false) (h' : (Traced.step xe res t c).panicked = false) :
    ∃ l, (Traced.step xe res t c).log = t.log ++ l ∧
      (Traced.sent l = [] ∧ l.filterMap (callOf (ν := ν) w o) = [] ∨ ∃ p a, Traced.sent l = [(p, a)] ∧ l.filterMap (callOf (ν := ν) w o) = [.call (counter w o) (attrsOf xe a) (BitVec.ofNat 64 (Traced.spansIn p).length)]) := by
  cases c with
  | shutdown bat exp =>
    refine ⟨(Client.shutdownTrace bat exp).1, ?_, Or.inl ⟨rfl, rfl⟩⟩
    simp [Traced.step, h]
  | spans l next =>
    cases hd : (TraceExport.d2pd t.rm (l.map (Traced.ofProvider res))).2 with
    | none =>
      rw [Traced.step_panics h hd] at h'
      cases h'
    | some p =>
      refine ⟨_, by rw [Traced.step_spans h hd], Or.inr ⟨p, next p, Traced.sent_export p (next p) _, ?_⟩⟩
      rw [← Traced.spanCount_eq]
      rfl

structure Kept (w : World C G) (xe : Client.Errs E) (o : Nat) (y : Sys C G ν E) : Prop where
  going : y.t.panicked = false
  calls : onCounter o y.past = (Traced.sent y.t.log).map (callFor w xe o)

theorem Kept.step {y y' : Sys C G ν E} {a : Act ν E} (h : Kept w xe o y) (hs : step farm w fsub x pipe xe res o y a = some y') : Kept w xe o y' := by
  cases a with
  | prog a =>
    simp only [SpanTelemetry.step] at hs
    split at hs
    · rename_i ha
      obtain ⟨d, hd, rfl⟩ := Option.map_eq_some_iff.1 hs
      refine ⟨h.going, ?_⟩
      dsimp only
      rw [onCounter_snoc, h.calls]
      suffices onCounter o [a] = [] by rw [this, List.append_nil]
      cases a with
      | call i as n =>
        have : i.id ≠ o := by simpa [allowed] using ha
        simp [onCounter, Delivery.measured, Pipeline.calls, this]
      | _ => rfl
    · cases hs
  | spans c =>
    simp only [SpanTelemetry.step] at hs
    split at hs
    · rename_i hc
      rw [Bool.and_eq_true, Bool.not_eq_true'] at hc
      obtain ⟨d, hd, rfl⟩ := Option.map_eq_some_iff.1 hs
      obtain ⟨l, h1, h2⟩ := step_log (ν := ν) (w := w) (o := o) h.going hc.2
      refine ⟨hc.2, ?_⟩
      dsimp only
      rw [h1, List.drop_left, Traced.sent_append, List.map_append, ← h.calls]
      rcases h2 with ⟨h2, h3⟩ | ⟨p, a, h2, h3⟩ <;> rw [h2, h3]
      · simp
      · rw [onCounter_snoc]
        simp [onCounter, Delivery.measured, Pipeline.calls, counter, callFor]
    · cases hs

theorem Kept.run {y y' : Sys C G ν E} {as : List (Act ν E)} (h : Kept w xe o y) (hs : run farm w fsub x pipe xe res o y as = some y') : Kept w xe o y' := by
  induction as generalizing y with
  | nil => cases hs; exact h
  | cons a as ih =>
    simp only [SpanTelemetry.run] at hs
    obtain ⟨y1, h1, h2⟩ := Option.bind_eq_some_iff.1 hs
    exact ih (h.step h1) h2

omit [DecidableEq C] in
theorem kept_initial (p : Provider.Provider C ν) (views : List (Views.Views C)) (start : Int) : Kept w xe o (initial farm w fsub p views pipe start : Sys C G ν E) :=
  ⟨rfl, rfl⟩

/-! ### The spans exporter -/

theorem run_exporter {y y' : Sys C G ν E} {as : List (Act ν E)} (hs : run farm w fsub x pipe xe res o y as = some y') : y'.t = (exporterCalls as).foldl (Traced.step xe res) y.t := by
  induction as generalizing y with
  | nil => cases hs; rfl
  | cons a as ih =>
    simp only [SpanTelemetry.run] at hs
    obtain ⟨y1, h1, h2⟩ := Option.bind_eq_some_iff.1 hs
    rw [ih h2]
    cases a with
    | prog a =>
      simp only [SpanTelemetry.step] at h1
      split at h1
      · obtain ⟨d, hd, rfl⟩ := Option.map_eq_some_iff.1 h1; rfl
      · cases h1
    | spans c =>
      simp only [SpanTelemetry.step] at h1
      split at h1
      · obtain ⟨d, hd, rfl⟩ := Option.map_eq_some_iff.1 h1; rfl
      · cases h1

theorem sent_more {y y' : Sys C G ν E} {as : List (Act ν E)} (h : Kept w xe o y) (hs : run farm w fsub x pipe xe res o y as = some y') : ∃ l, Traced.sent y'.t.log = Traced.sent y.t.log ++ l := by
  induction as generalizing y with
  | nil => cases hs; exact ⟨[], (List.append_nil _).symm⟩
  | cons a as ih =>
    simp only [SpanTelemetry.run] at hs
    obtain ⟨y1, h1, h2⟩ := Option.bind_eq_some_iff.1 hs
    obtain ⟨l, hl⟩ := ih (h.step h1) h2
    have : ∃ l, Traced.sent y1.t.log = Traced.sent y.t.log ++ l := by
      cases a with
      | prog a =>
        simp only [SpanTelemetry.step] at h1
        split at h1
        · obtain ⟨d, hd, rfl⟩ := Option.map_eq_some_iff.1 h1; exact ⟨[], (List.append_nil _).symm⟩
        · cases h1
      | spans c =>
        simp only [SpanTelemetry.step] at h1
        split at h1
        · rename_i hc
          rw [Bool.and_eq_true, Bool.not_eq_true'] at hc
          obtain ⟨d, hd, rfl⟩ := Option.map_eq_some_iff.1 h1
          obtain ⟨l, h3, -⟩ := step_log (ν := ν) (w := w) (o := o) h.going hc.2
          exact ⟨Traced.sent l, by dsimp only; rw [h3, Traced.sent_append]⟩
        · cases h1
    obtain ⟨l0, h0⟩ := this
    exact ⟨l0 ++ l, by rw [hl, h0, List.append_assoc]⟩

theorem batches_answered {bs : List (List TraceExport.Span)} {ps : List (TraceExport.Traces × Option E)} (h : bs.length = ps.length)
    (hl : ∀ (i : Nat) (b : List TraceExport.Span) (p : TraceExport.Traces × Option E), bs[i]? = some b → ps[i]? = some p → b.length = (Traced.spansIn p.1).length) (Q : Option E → Bool) :
    ((bs.zip (ps.map (·.2))).filter (fun e => Q e.2)).map (fun e => BitVec.ofNat 64 e.1.length) = (ps.filter (fun e => Q e.2)).map (fun e => BitVec.ofNat 64 (Traced.spansIn e.1).length) := by
  induction bs generalizing ps with
  | nil => cases ps with
    | nil => rfl
    | cons _ _ => cases h
  | cons b bs ih => cases ps with
    | nil => cases h
    | cons p ps =>
      have h0 := hl 0 b p rfl rfl
      have := ih (Nat.succ.inj h) (fun i b' p' h1 h2 => hl (i + 1) b' p' h1 h2)
      simp only [List.map_cons, List.zip_cons_cons, List.filter_cons]
      cases Q p.2 with
      | true => simp only [if_true, List.map_cons, this, h0]
      | false => simpa using this

theorem foldl_same {cs : List (Traced.Call E)} (h : Traced.batches cs = []) (t : Traced.Sys E) : Traced.sent (cs.foldl (Traced.step xe res) t).log = Traced.sent t.log := by
  induction cs generalizing t with
  | nil => rfl
  | cons c cs ih =>
    cases c with
    | spans l next => simp [Traced.batches] at h
    | shutdown bat exp =>
      rw [List.foldl_cons, ih h]
      unfold Traced.step
      split
      · rfl
      · dsimp only
        rw [Traced.sent_append, Traced.sent_shutdown, List.append_nil]

theorem answered_same {y y' : Sys C G ν E} {as : List (Act ν E)} (hs : run farm w fsub x pipe xe res o y as = some y') (hno : Traced.batches (exporterCalls as) = []) {b : Bool} {st : String} :
    answered xe b st y'.t.log = answered xe b st y.t.log := by
  unfold answered
  rw [run_exporter hs, foldl_same hno]

/-! ### What is recorded on the counter -/

open Launched in
omit [DecidableEq C] in
theorem recorded_answered {e0 : Outside C G} {pc : Launcher.PipelineConfig} {y : Sys C G ν E} (h : Kept (world e0 pc) xe o y) {p : Provider.Provider C ν} {k : Nat} {n : Str}
    (hone : ∀ id, Called p k n id ↔ id = o) (hsm : ∀ e ∈ Traced.sent y.t.log, (Traced.spansIn e.1).length < 2 ^ 63) {b : Bool} {st : String} (hst : st ∈ States) :
    recordedBy p k n (fun as => Pipeline.Describes none as (outcome b st)) (Delivery.measured y.past) = answered xe b st y.t.log := by
  classical
  unfold recordedBy answered
  have h1 : ∀ (P : Front.Inst × List KV × Bits → Prop) [DecidablePred P], (∀ e, P e → e.1.id = o) →
      (Pipeline.calls (Delivery.measured y.past)).filter (fun e => decide (P e)) = (onCounter o y.past).filter (fun e => decide (P e)) := by
    intro P _ hP
    unfold onCounter
    rw [List.filter_filter]
    refine List.filter_congr (fun e _ => ?_)
    by_cases hp : P e
    · simp [hp, hP e hp]
    · simp [hp]
  rw [h1 _ (fun e he => (hone _).1 he.2.2), h.calls, List.filter_map, List.map_map]
  have h2 : ∀ e ∈ Traced.sent y.t.log,
      (¬ Props.Rejected (callFor (world e0 pc) xe o e).1.num (callFor (world e0 pc) xe o e).1.kind (callFor (world e0 pc) xe o e).2.2 ∧
        Pipeline.Describes none ((callFor (world e0 pc) xe o e).1.attrs (callFor (world e0 pc) xe o e).2.1) (outcome b st) ∧ Called p k n (callFor (world e0 pc) xe o e).1.id) ↔
      (e.2.isNone = b ∧ Client.Named xe e.2 st) := by
    intro e he
    have hm := hsm e he
    rw [named_iff]
    show (¬ Props.Rejected .int64 .syncCounter (BitVec.ofNat 64 (Traced.spansIn e.1).length) ∧ Pipeline.Describes none ((counter (world e0 pc) o).attrs (attrsOf xe e.2)) (outcome b st) ∧ Called p k n o) ↔ _
    rw [counter_attrs, describes_iff e.2 hst]
    exact ⟨fun h => h.2.1, fun h => ⟨not_rejected hm, h, (hone o).2 rfl⟩⟩
  exact kept_same (fun e he => decide_eq_decide.2 (h2 e he)) (fun e => rfl)

open Launched in
omit [DecidableEq C] in
theorem few_answered {e0 : Outside C G} {pc : Launcher.PipelineConfig} {y : Sys C G ν E} (h : Kept (world e0 pc) xe o y) {p : Provider.Provider C ν} {k : Nat} {n : Str}
    (hone : ∀ id, Called p k n id ↔ id = o) : Few p k n (Delivery.measured y.past) := by
  refine ⟨fun _ => lists, lists, fun _ _ => (by decide +kernel : lists.length < 3000), (by decide +kernel : lists.length < 2000), ?_, fun id _ a ha => ⟨?_, a, ha, fun _ _ _ => rfl⟩⟩
  · intro e he hc
    have hm : e ∈ onCounter o y.past := List.mem_filter.2 ⟨he, by simpa using (hone _).1 hc⟩
    rw [h.calls] at hm
    obtain ⟨q, -, rfl⟩ := List.mem_map.1 hm
    show (counter (world e0 pc) o).attrs (attrsOf xe q.2) ∈ lists
    rw [counter_attrs]
    exact attrs_mem q.2
  · rintro ⟨kv, hkv, xs, hv, -⟩
    unfold lists at ha
    obtain ⟨b, -, ha⟩ := List.mem_flatMap.1 ha
    obtain ⟨st, -, rfl⟩ := List.mem_map.1 ha
    simp only [List.mem_cons, List.not_mem_nil, or_false] at hkv
    rcases hkv with rfl | rfl <;> cases hv

/-! ### The steps as steps of the program -/

/-- What the program asks for. -/
def asked (as : List (Act ν E)) : List (Provider.Call ν) := as.flatMap (fun a => match a with
  | .prog c => Delivery.makes [c]
  | .spans _ => [])

theorem run_append {s s' s'' : Delivery.Sys C G ν} {as bs : List (Delivery.Act ν)} (h : Delivery.run farm w fsub x pipe s as = some s') (h' : Delivery.run farm w fsub x pipe s' bs = some s'') :
    Delivery.run farm w fsub x pipe s (as ++ bs) = some s'' := by
  induction as generalizing s with
  | nil => cases h; exact h'
  | cons a as ih =>
    simp only [Delivery.run] at h
    obtain ⟨s1, h1, h2⟩ := Option.bind_eq_some_iff.1 h
    rw [List.cons_append, Delivery.run, h1]
    exact ih h2

omit [DecidableEq C] in
theorem makes_calls (l : List (Client.Ev TraceExport.Traces E)) : Delivery.makes (l.filterMap (callOf (ν := ν) w o)) = [] := by
  induction l with
  | nil => rfl
  | cons e l ih =>
    cases e <;> simp only [List.filterMap_cons, callOf] <;> exact ih

theorem run_past {y y' : Sys C G ν E} {as : List (Act ν E)} (h : run farm w fsub x pipe xe res o y as = some y') :
    ∃ more, y'.past = y.past ++ more ∧ Delivery.run farm w fsub x pipe y.d more = some y'.d ∧ Delivery.makes more = asked as := by
  induction as generalizing y with
  | nil => cases h; exact ⟨[], (List.append_nil _).symm, rfl, rfl⟩
  | cons a as ih =>
    simp only [SpanTelemetry.run] at h
    obtain ⟨y1, h1, h2⟩ := Option.bind_eq_some_iff.1 h
    obtain ⟨more, m1, m2, m3⟩ := ih h2
    have : ∃ b, y1.past = y.past ++ b ∧ Delivery.run farm w fsub x pipe y.d b = some y1.d ∧ Delivery.makes b ++ asked as = asked (a :: as) := by
      cases a with
      | prog a =>
        simp only [SpanTelemetry.step] at h1
        split at h1
        · obtain ⟨d, hd, rfl⟩ := Option.map_eq_some_iff.1 h1
          exact ⟨[a], rfl, by rw [Delivery.run, hd]; rfl, rfl⟩
        · cases h1
      | spans c =>
        simp only [SpanTelemetry.step] at h1
        split at h1
        · obtain ⟨d, hd, rfl⟩ := Option.map_eq_some_iff.1 h1
          exact ⟨_, rfl, hd, by rw [makes_calls]; rfl⟩
        · cases h1
    obtain ⟨b, b1, b2, b3⟩ := this
    refine ⟨b ++ more, by rw [m1, b1, List.append_assoc], run_append b2 m2, ?_⟩
    rw [← b3, ← m3]
    exact List.filterMap_append ..

end Verif.SpanTelemetry
