import Verif.Model.Defaults
import Verif.Props.Provider

/-!
C84: settings left out take their documented defaults. C85: which meter a request is for.
-/

namespace Verif.Props
open Verif Verif.Defaults Verif.Attr
open Verif.Views (Scope Views Ext lit)

/-! ## C84 defaults -/

/-- A setting given, or what stands for it when it is zero. -/
def orElse (given default : Nat) : Nat := if given = 0 then default else given

/-- C84 (performance settings). Each number left out is replaced by its documented default and each number given is used as it is; the
other settings are used as they are. Only the last settings given count, even for a number they leave out. -/
theorem C84_performance {M : Type} (before : List (Perf M)) (p : Perf M) :
    settings (before ++ [p]) =
      { ignoreCollisions := p.ignoreCollisions
        inactivePeriods := orElse p.inactivePeriods 10
        instrumentLimit := orElse p.instrumentLimit 3000
        aggregatorLimit := orElse p.aggregatorLimit 2000
        processor := p.processor
        sizeLimit := orElse p.sizeLimit 8192 } ∧
    settings ([] : List (Perf M)) =
      { ignoreCollisions := false
        inactivePeriods := 10
        instrumentLimit := 3000
        aggregatorLimit := 2000
        processor := none
        sizeLimit := 8192 } := by
  constructor
  · unfold settings
    rw [List.getLast?_append]
    obtain ⟨a, b, c, d, e, f⟩ := p
    unfold validate orElse
    by_cases hb : b = 0 <;> by_cases hc : c = 0 <;> by_cases hd : d = 0 <;> by_cases hf : f = 0 <;>
      simp [hb, hc, hd, hf, defaultPeriods, defaultInstrumentLimit, defaultAggregatorLimit, defaultSizeLimit]
  · rfl

/-- C84 (no limit is zero). -/
theorem C84_positive {M : Type} (given : List (Perf M)) :
    0 < (settings given).inactivePeriods ∧ 0 < (settings given).instrumentLimit ∧ 0 < (settings given).aggregatorLimit ∧ 0 < (settings given).sizeLimit := by
  rcases List.eq_nil_or_concat given with rfl | ⟨before, p, rfl⟩
  · rw [(C84_performance (M := M) [] ⟨false, 0, 0, 0, none, 0⟩).2]
    simp only; omega
  · rw [List.concat_eq_append, (C84_performance before p).1]
    simp only [orElse]
    refine ⟨?_, ?_, ?_, ?_⟩ <;> split <;> omega

/-- C84 (validated twice is validated once): the provider, the views and every synchronous instrument validate the settings again
(provider.go:69, views.go:40, standard.go:61, sync.go:76), and all use the same numbers. -/
theorem C84_again {M : Type} (p : Perf M) : validate (validate p) = validate p := by
  obtain ⟨a, b, c, d, e, f⟩ := p
  unfold validate
  by_cases hb : b = 0 <;> by_cases hc : c = 0 <;> by_cases hd : d = 0 <;> by_cases hf : f = 0 <;>
    simp [hb, hc, hd, hf, defaultPeriods, defaultInstrumentLimit, defaultAggregatorLimit, defaultSizeLimit]

/-- C84 (one period means none). The setting 1 for the inactive collection periods, which can be given, has the effect 0 would have, which cannot
(performance.go:80-82): the machine makes the same steps. -/
theorem C84_periods_one {AL KS N S : Type} [DecidableEq KS] (c : Sync.Cfg AL KS N S) (s : Sync.State AL KS N S) (acts : List (Sync.Action AL N)) :
    Sync.run { c with periods := 1 } s acts = Sync.run { c with periods := 0 } s acts := by
  have hstep : ∀ (s : Sync.State AL KS N S) a, Sync.step { c with periods := 1 } s a = Sync.step { c with periods := 0 } s a := by
    intro s a
    cases a with
    | task t ch =>
      show Sync.stepTask _ s t ch = Sync.stepTask _ s t ch
      unfold Sync.stepTask
      cases s.task t <;> try rfl
    | _ => rfl
  induction acts generalizing s with
  | nil => rfl
  | cons a as ih =>
    show (Sync.step _ s a).bind _ = (Sync.step _ s a).bind _
    rw [hstep]
    congr 1
    funext s'
    exact ih s'

/-- C84 (periodic reader). A reader is made unless an option is nil. Its interval is the one given, when positive, else 30 seconds; its timeout is the one given
last, or the interval given when there is none, when positive, else 30 seconds. -/
theorem C84_periodic (interval : Int) (opts : List (Option Int)) :
    ((newPeriodicReader interval opts).isSome ↔ ∀ o ∈ opts, o ≠ none) ∧
    ∀ p, newPeriodicReader interval opts = some p →
      p.interval = (if 0 < interval then interval else 30000000000) ∧
      ∀ wanted, wanted = (opts.filterMap id).getLast?.getD interval → p.timeout = (if 0 < wanted then wanted else 30000000000) := by
  have key : ∀ (opts : List (Option Int)) (p : Periodic), applyTimeouts p opts =
      if ∀ o ∈ opts, o ≠ none then some { p with timeout := (opts.filterMap id).getLast?.getD p.timeout } else none := by
    intro opts
    induction opts with
    | nil => intro p; simp [applyTimeouts]
    | cons o os ih =>
      intro p
      cases o with
      | none => simp [applyTimeouts]
      | some d =>
        rw [applyTimeouts, ih]
        by_cases h : ∀ o ∈ os, o ≠ none
        · rw [if_pos h, if_pos (by simpa using h)]
          simp only [List.filterMap_cons, id_eq]
          cases h2 : (os.filterMap id).getLast? with
          | none => rw [List.getLast?_eq_none_iff] at h2; rw [h2]; rfl
          | some v =>
            rw [List.getLast?_cons, h2]; rfl
        · rw [if_neg h, if_neg (by simpa using h)]
  unfold newPeriodicReader
  rw [key]
  by_cases h : ∀ o ∈ opts, o ≠ none
  · rw [if_pos h]
    refine ⟨⟨fun _ => h, fun _ => rfl⟩, ?_⟩
    intro p hp
    simp only [Option.map_some, Option.some.injEq] at hp
    subst hp
    refine ⟨?_, ?_⟩
    · by_cases h1 : 0 < interval
      · have h3 : ¬ interval ≤ 0 := by omega
        simp only [h1, h3, if_true, if_false]; split <;> rfl
      · have h3 : interval ≤ 0 := by omega
        simp only [h1, h3, if_true, if_false]; split <;> rfl
    · intro w hw
      have h4 : ∀ b, (if interval ≤ 0 then (⟨b, w⟩ : Periodic) else ⟨interval, w⟩).timeout = w := by intro b; split <;> rfl
      rw [← hw]
      simp only [h4]
      by_cases h2 : w ≤ 0
      · have h5 : ¬ 0 < w := by omega
        simp only [h2, h5, if_true, if_false]; rfl
      · have h5 : 0 < w := by omega
        simp only [h2, h5, if_true, if_false]; exact h4 _
  · rw [if_neg h]
    refine ⟨⟨fun h' => by simp at h', fun h' => absurd h' h⟩, ?_⟩
    intro p hp; cases hp

/-- C84 (Prometheus exporter). Without options metrics are served on port 9090 of all addresses, kept for an hour, with the resource's attributes, and the
exporter reports its own metrics and spans. Nil options are ignored. Of several ports the last counts, and nothing else changes. -/
theorem C84_prometheus {R : Type} (zero : R) (opts : List (Option (Prom R → Prom R))) :
    promConfig zero [] =
      { selfMetrics := true
        selfSpans := true
        endpoint := "0.0.0.0:9090"
        expiration := 3600000000000
        resourceToTelemetry := true
        rest := zero } ∧
    promConfig zero opts = promConfig zero (opts.filter (·.isSome)) ∧
    ∀ (ports : List Int) (port : Int), promConfig zero ((ports ++ [port]).map (fun p => some (withPort p))) =
      { promConfig zero [] with endpoint := "0.0.0.0:" ++ toString port } := by
  refine ⟨rfl, ?_, ?_⟩
  · unfold promConfig
    generalize promDefault zero = c
    induction opts generalizing c with
    | nil => rfl
    | cons o os ih =>
      cases o with
      | none => exact ih c
      | some f => exact ih (f c)
  · intro ports port
    have : ∀ (ports : List Int) (c : Prom R), ∃ e, ((ports.map (fun p => some (withPort p))).foldl applyProm c) = { c with endpoint := e } := by
      intro ports
      induction ports with
      | nil => intro c; exact ⟨c.endpoint, rfl⟩
      | cons p ps ih =>
        intro c
        obtain ⟨e, he⟩ := ih (withPort p c)
        exact ⟨e, by rw [List.map_cons, List.foldl_cons]; exact he⟩
    unfold promConfig
    rw [List.map_append, List.foldl_append]
    obtain ⟨e, he⟩ := this ports (promDefault zero)
    rw [he]
    rfl

/-- C84 (Prometheus exporter, construction). An exporter is returned exactly when its component could be created and started; then it was started once. -/
theorem C84_prometheus_construction {P E : Type} (a : Client.Answers E) :
    ((newProm (P := P) a).2 = none ↔ a.self = none ∧ a.createExporter = none ∧ a.startExporter = none) ∧
    ((newProm (P := P) a).2 = none → (newProm (P := P) a).1 = [.startExporter none]) := by
  obtain ⟨h1, h2, h3, h4, h5⟩ := a
  unfold newProm
  cases h1 <;> cases h2 <;> cases h4 <;> simp

example : settings [⟨true, 0, 7, 0, some 5, 0⟩, ⟨false, 1, 0, 50, none, 100⟩] = ⟨false, 1, 3000, 50, (none : Option Nat), 100⟩ := by decide
example : newPeriodicReader 10000000000 [some 5, some 2000000000] = some ⟨10000000000, 2000000000⟩ ∧ newPeriodicReader 0 [some 5] = some ⟨30000000000, 5⟩ ∧
    newPeriodicReader 10000000000 [some 0] = some ⟨10000000000, 30000000000⟩ ∧ newPeriodicReader 1 [none] = none := by decide
example : (promConfig () [some (withPort 80), none, some (withPort 1234)]).endpoint = "0.0.0.0:1234" := by decide +kernel

/-! ## C85 requests for meters -/

/-- The value of the last option of a sort, empty without one. -/
def lastGiven (sort : MeterOpt → Option Str) (opts : List MeterOpt) : Str := (opts.filterMap sort).getLast?.getD []

def MeterOpt.version? : MeterOpt → Option Str | .version v => some v | _ => none
def MeterOpt.schema? : MeterOpt → Option Str | .schema s => some s | _ => none

theorem scopeOf_eq (name : Str) (opts : List MeterOpt) : scopeOf name opts = ⟨name, lastGiven MeterOpt.version? opts, lastGiven MeterOpt.schema? opts⟩ := by
  have key : ∀ (opts : List MeterOpt) (s : Scope), opts.foldl applyMeterOpt s =
      ⟨s.name, (opts.filterMap MeterOpt.version?).getLast?.getD s.version, (opts.filterMap MeterOpt.schema?).getLast?.getD s.schema⟩ := by
    intro opts
    induction opts with
    | nil => intro s; rfl
    | cons o os ih =>
      intro s
      rw [List.foldl_cons, ih]
      cases o <;> simp only [applyMeterOpt, List.filterMap_cons, MeterOpt.version?, MeterOpt.schema?, List.getLast?_cons, Option.getD_some]
  unfold scopeOf
  rw [key]
  rfl

section
variable {H ν : Type} [DecidableEq H]
open Verif.Provider (Call responses new collect run)

/-- C85 (identity). In any history, two requests answered before shutdown get the same meter exactly when name, last version and last schema URL
among their options agree. Missing: the attributes among the options (`C85_attributes_fails`) and the documented name of a meter without one
(`C85_empty_name_fails`). -/
theorem C85_identity_partial (x : Ext H) (views : List (Views H)) (cs : List (Call ν)) (i j : Nat) (name name' : Str) (opts opts' : List MeterOpt)
    (hi : cs[i]? = some (.meter (scopeOf name opts))) (hj : cs[j]? = some (.meter (scopeOf name' opts')))
    (hl : .shutdown ∉ cs.take i) (hl' : .shutdown ∉ cs.take j) :
    ∃ a b, (responses x (new views) cs)[i]? = some (.pointer (some a)) ∧ (responses x (new views) cs)[j]? = some (.pointer (some b)) ∧
      (a = b ↔ name = name' ∧ lastGiven MeterOpt.version? opts = lastGiven MeterOpt.version? opts' ∧
        lastGiven MeterOpt.schema? opts = lastGiven MeterOpt.schema? opts') := by
  obtain ⟨a, b, h1, h2, h3, h4, h5⟩ := Provider.C36_meters x views cs i j _ _ hi hj
  have ha : a ≠ none := fun e => hl (h3.1 e)
  have hb : b ≠ none := fun e => hl' (h4.1 e)
  have h6 := h5 ha hb
  obtain ⟨a, rfl⟩ := Option.ne_none_iff_exists'.1 ha
  obtain ⟨b, rfl⟩ := Option.ne_none_iff_exists'.1 hb
  refine ⟨a, b, h1, h2, ?_⟩
  rw [Option.some.injEq] at h6
  rw [h6, scopeOf_eq, scopeOf_eq]
  simp

/-- C85 fails for attributes: two requests which differ in the attributes of the scope only are answered with the same meter, whatever the provider, and the
attributes appear nowhere. -/
theorem C85_attributes_fails (x : Ext H) (views : List (Views H)) (name : Str) (opts : List MeterOpt) (kvs kvs' : List KV) :
    (responses x (new views : Provider.Provider H ν) [.meter (scopeOf name (opts ++ [.attributes kvs])), .meter (scopeOf name (opts ++ [.attributes kvs']))]) =
      [.pointer (some 0), .pointer (some 0)] ∧
    collect (run x (new views : Provider.Provider H ν) [.meter (scopeOf name (opts ++ [.attributes kvs]))]) =
      collect (run x (new views : Provider.Provider H ν) [.meter (scopeOf name opts)]) := by
  have h : ∀ kvs, scopeOf name (opts ++ [.attributes kvs]) = scopeOf name opts := by
    intro kvs
    unfold scopeOf
    rw [List.foldl_append]
    rfl
  rw [h, h]
  refine ⟨?_, rfl⟩
  simp [responses, Provider.step, Provider.meter, new, Provider.get]

/-- C85 fails for the empty name: the meter asked for without a name is reported without one, and not with the documented default name. -/
theorem C85_empty_name_fails (x : Ext H) (views : List (Views H)) :
    ((run x (new views : Provider.Provider H ν) [.meter (scopeOf [] [])]).ordered.map (fun m => m.scope.name)) = [[]] ∧
    (lit "go.opentelemetry.io/otel/sdk/meter") ≠ [] := by
  constructor
  · rfl
  · decide +kernel

end

example : scopeOf [97] [.version [49], .attributes [⟨[107], .bool true⟩], .version [50], .schema [117]] = ⟨[97], [50], [117]⟩ := by decide

end Verif.Props
