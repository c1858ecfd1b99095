import Verif.Spec.Client
import Verif.Proof.Last
import Verif.Proof.TraceExport

/-!
# C62-C65: the exporter clients
-/

namespace Verif.Props
open Verif Verif.Attr Verif.Export Verif.Client
variable {E : Type}

/-! ## C62 self-telemetry -/

theorem mapM_length {α β : Type} {f : α → Option β} : ∀ {l : List α} {l' : List β}, Export.mapM f l = some l' → l'.length = l.length := by
  intro l
  induction l with
  | nil => intro l' h; simp only [Export.mapM, Option.some.injEq] at h; subst h; rfl
  | cons a l ih =>
    intro l' h
    simp only [Export.mapM, Option.bind_eq_some_iff] at h
    obtain ⟨b, _, bs, h2, h3⟩ := h
    simp only [Option.some.injEq] at h3
    subst h3
    simp [ih h2]

theorem copyPoints_len {m : Mapping} {u : Bool} {p0 : Point} {ps : List Point} {d : PData} (h : copyPoints m u p0 ps = some d) :
    dataLen d = ps.length := by
  unfold copyPoints at h
  cases hp : p0.agg with
  | monotonic k v => simp only [hp, Option.map_eq_some_iff] at h; obtain ⟨l, h1, rfl⟩ := h; exact mapM_length h1
  | nonMonotonic k v => simp only [hp, Option.map_eq_some_iff] at h; obtain ⟨l, h1, rfl⟩ := h; exact mapM_length h1
  | gauge k v => simp only [hp, Option.map_eq_some_iff] at h; obtain ⟨l, h1, rfl⟩ := h; exact mapM_length h1
  | hist k v =>
    simp only [hp] at h
    cases u
    · simp only [Bool.false_eq_true, if_false, Option.map_eq_some_iff] at h; obtain ⟨l, h1, rfl⟩ := h; exact mapM_length h1
    · simp only [if_true, Option.map_eq_some_iff] at h; obtain ⟨l, h1, rfl⟩ := h; exact mapM_length h1
  | mmsc k v => simp only [hp, Option.map_eq_some_iff] at h; obtain ⟨l, h1, rfl⟩ := h; exact mapM_length h1

theorem copyInstruments_len {m : Mapping} {u : Bool} : ∀ {is : List Instrument} {ms : List PMetric}, copyInstruments m u is = some ms →
    (ms.map (fun m => dataLen m.data)).sum = (is.map (fun i => i.points.length)).sum := by
  intro is
  induction is with
  | nil => intro ms h; simp only [copyInstruments, Option.some.injEq] at h; subst h; rfl
  | cons i is ih =>
    intro ms h
    unfold copyInstruments at h
    cases hp : i.points with
    | nil => rw [hp] at h; simp only at h; rw [ih h]; simp [hp]
    | cons p0 ps =>
      rw [hp] at h
      simp only [Option.bind_eq_some_iff] at h
      obtain ⟨d, h1, ms', h2, h3⟩ := h
      simp only [Option.some.injEq] at h3
      subst h3
      simp only [List.map_cons, List.sum_cons, ih h2, copyPoints_len h1, hp]

theorem d2pd_points {m : Mapping} {rm : ResourceMap} {d : Metrics} {u : Bool} {p : Payload} (h : (Export.d2pd m rm d u).2 = some p) :
    dataPointCount p = points d := by
  simp only [Export.d2pd, Option.bind_eq_some_iff, Option.map_eq_some_iff] at h
  obtain ⟨res, _, ss, h2, rfl⟩ := h
  simp only [dataPointCount, points]
  have gen : ∀ (sc : List Scope) (ss : List PScope), Export.mapM (copyScope m u) sc = some ss →
      (ss.flatMap (fun s => s.metrics.map (fun m => dataLen m.data))).sum =
        (sc.flatMap (fun s => s.instruments.map (fun i => i.points.length))).sum := by
    intro sc
    induction sc with
    | nil => intro ss h; simp only [Export.mapM, Option.some.injEq] at h; subst h; rfl
    | cons s sc ih =>
      intro ss h
      simp only [Export.mapM, Option.bind_eq_some_iff] at h
      obtain ⟨b, h1, bs, h2, h3⟩ := h
      simp only [Option.some.injEq] at h3
      subst h3
      simp only [copyScope, Option.map_eq_some_iff] at h1
      obtain ⟨ms, h4, rfl⟩ := h1
      simp only [List.flatMap_cons, List.sum_append, ih _ h2, copyInstruments_len h4]
  exact gen _ _ h2

theorem stateOf_named (x : Errs E) (err : Option E) : Named x err (stateOf x err) := by
  cases err with
  | none => constructor <;> simp [stateOf]
  | some e =>
    simp only [stateOf]
    cases h1 : x.canceled e <;> cases h2 : x.deadline e <;> constructor <;> simp [h1, h2]

/-- **C62** (one export). An export that returns has handed exactly one payload to the next component, has then incremented
the self-telemetry counter exactly once, by the number of points produced by the reader, with `success` telling whether the
component accepted it and the right `state`; the span around it says the same; the component's error is returned
unchanged. The payload is the conversion of the data, which is the subject of C44-C46. OTLP, and Prometheus (`useExp` false). -/
theorem C62_export (m : Mapping) (x : Errs E) (useExp : Bool) (next : Payload → Option E) (rm : ResourceMap) (data : Metrics)
    (log : List (Ev Payload E)) (err : Option E) (h : (exportMetrics m x useExp next rm data).2 = some (log, err)) :
    ∃ p state, (Export.d2pd m rm data useExp).2 = some p ∧ err = next p ∧ Named x err state ∧
      log = [.consume p err, .count (points data) err.isNone state, .span (points data) err.isNone state err.isNone] := by
  simp only [exportMetrics, Option.map_eq_some_iff] at h
  obtain ⟨p, h1, h2⟩ := h
  simp only [Prod.mk.injEq] at h2
  obtain ⟨rfl, rfl⟩ := h2
  exact ⟨p, stateOf x (next p), h1, rfl, stateOf_named x _, by simp [account, d2pd_points h1]⟩

theorem appendSpan_len {p : TraceExport.PSpan} : ∀ {ss ss' : List TraceExport.PScopeSpans}, TraceExport.appendSpan p ss = some ss' →
    (ss'.map (fun s => s.spans.length)).sum = (ss.map (fun s => s.spans.length)).sum + 1 := by
  intro ss
  induction ss with
  | nil => intro ss' h; cases h
  | cons e es ih =>
    intro ss' h
    cases es with
    | nil => simp only [TraceExport.appendSpan, Option.some.injEq] at h; subst h; simp
    | cons f fs =>
      simp only [TraceExport.appendSpan, Option.map_eq_some_iff] at h
      obtain ⟨r, h1, rfl⟩ := h
      have := ih h1
      simp only [List.map_cons, List.sum_cons] at this ⊢
      omega

theorem loop_len : ∀ {l : List TraceExport.Span} {cur : Str} {ss ss' : List TraceExport.PScopeSpans},
    TraceExport.loop cur ss l = some ss' →
    (ss'.map (fun s => s.spans.length)).sum = (ss.map (fun s => s.spans.length)).sum + l.length := by
  intro l
  induction l with
  | nil => intro cur ss ss' h; simp only [TraceExport.loop, Option.some.injEq] at h; subst h; rfl
  | cons s l ih =>
    intro cur ss ss' h
    simp only [TraceExport.loop, Option.bind_eq_some_iff] at h
    obtain ⟨p, _, ss1, h2, h3⟩ := h
    have := appendSpan_len h2
    rw [ih h3, this]
    split <;> simp <;> omega

/-- **C62** (spans). The same for span export: the counter is incremented by the number of spans. -/
theorem C62_spans (x : Errs E) (next : TraceExport.Traces → Option E) (rm : ResourceMap) (spans : List TraceExport.Span)
    (log : List (Ev TraceExport.Traces E)) (err : Option E) (h : (exportSpans x next rm spans).2 = some (log, err)) :
    ∃ p state, (TraceExport.d2pd rm spans).2 = some p ∧ err = next p ∧ Named x err state ∧
      log = [.consume p err, .count spans.length err.isNone state, .span spans.length err.isNone state err.isNone] := by
  simp only [exportSpans, Option.map_eq_some_iff] at h
  obtain ⟨p, h1, h2⟩ := h
  simp only [Prod.mk.injEq] at h2
  obtain ⟨rfl, rfl⟩ := h2
  refine ⟨p, stateOf x (next p), h1, rfl, stateOf_named x _, ?_⟩
  have : spanCount p = spans.length := by
    cases spans with
    | nil => simp only [TraceExport.d2pd, Option.some.injEq] at h1; subst h1; rfl
    | cons s rest =>
      simp only [TraceExport.d2pd, Option.bind_eq_some_iff, Option.map_eq_some_iff] at h1
      obtain ⟨res, _, ss, h4, rfl⟩ := h1
      simpa [spanCount] using loop_len h4
  simp [account, this]

theorem accepted_append (l l' : List (Ev Payload E)) : accepted (l ++ l') = accepted l + accepted l' := by
  induction l with
  | nil => simp [accepted]
  | cons a l ih =>
    cases a with
    | consume p an => cases an <;> simp only [List.cons_append, accepted, ih] <;> omega
    | _ => simpa only [List.cons_append, accepted] using ih

theorem refused_append (l l' : List (Ev Payload E)) : refused (l ++ l') = refused l + refused l' := by
  induction l with
  | nil => simp [refused]
  | cons a l ih =>
    cases a with
    | consume p an => cases an <;> simp only [List.cons_append, refused, ih] <;> omega
    | _ => simpa only [List.cons_append, refused] using ih

theorem counted_append (b : Bool) (l l' : List (Ev Payload E)) : counted b (l ++ l') = counted b l + counted b l' := by
  induction l with
  | nil => simp [counted]
  | cons a l ih =>
    cases a with
    | count n s st => simp only [List.cons_append, counted, ih]; omega
    | _ => simpa only [List.cons_append, counted] using ih

theorem payloadPoints_eq (p : Payload) : dataPointCount p = payloadPoints p := rfl

theorem call_balance (m : Mapping) (x : Errs E) (rm : ResourceMap) (c : Call E) :
    counted true (call m x rm c).2 = accepted (call m x rm c).2 ∧ counted false (call m x rm c).2 = refused (call m x rm c).2 := by
  have hexp : ∀ (next : Payload → Option E) (d : Metrics) (log : List (Ev Payload E)) (err : Option E),
      (exportMetrics m x true next rm d).2 = some (log, err) →
      counted true log = accepted log ∧ counted false log = refused log := by
    intro next d log err h
    simp only [exportMetrics, Option.map_eq_some_iff] at h
    obtain ⟨p, _, h2⟩ := h
    simp only [Prod.mk.injEq] at h2
    obtain ⟨rfl, rfl⟩ := h2
    cases hn : next p <;> simp [account, counted, accepted, refused, payloadPoints_eq]
  cases c with
  | «export» d next =>
    simp only [call]
    cases h : (exportMetrics m x true next rm d).2 with
    | none => simp [counted, accepted, refused]
    | some r => exact hexp next d r.1 r.2 h
  | flush d next =>
    simp only [call]
    cases h : (exportMetrics m x true next rm d).2 with
    | none => simp [counted, accepted, refused]
    | some r => exact hexp next d r.1 r.2 h
  | shutdown d next bat exp =>
    simp only [call, shutdownOtlp]
    cases h : (exportMetrics m x true next rm d).2 with
    | none => simp [counted, accepted, refused]
    | some r =>
      have := hexp next d r.1 r.2 h
      simp only [Option.map_some, Option.getD_some, counted_append, accepted_append, refused_append, this]
      simp [counted, accepted, refused]

/-- **C62** (balance). After any sequence of exports, flushes and shutdowns, with any answers, the increments of the counter
with `success = true` add up to the points accepted, those with `success = false` to the points refused. -/
theorem C62_balance (m : Mapping) (x : Errs E) (rm : ResourceMap) (cs : List (Call E)) :
    counted true (calls m x rm cs) = accepted (calls m x rm cs) ∧ counted false (calls m x rm cs) = refused (calls m x rm cs) := by
  induction cs generalizing rm with
  | nil => simp [calls, counted, accepted, refused]
  | cons c cs ih =>
    simp only [calls, counted_append, accepted_append, refused_append, call_balance m x rm c, ih]
    simp

/-! ## C63 life of an exporter -/

/-- **C63** (shutdown, OTLP metrics). Unless the conversion of the final data panics, shutdown exports the final data, then
shuts down the batcher, then the exporter, each exactly once and whatever any of them answers. The error lists exactly the
errors of the three, so it is nil exactly if all succeeded. -/
theorem C63_shutdown_partial (m : Mapping) (x : Errs E) (next : Payload → Option E) (bat exp : Option E) (rm : ResourceMap) (data : Metrics)
    (log : List (Ev Payload E)) (errs : List E) (h : (shutdownOtlp m x next bat exp rm data).2 = some (log, errs)) :
    ∃ p state, (Export.d2pd m rm data true).2 = some p ∧
      log = [.consume p (next p), .count (points data) (next p).isNone state, .span (points data) (next p).isNone state (next p).isNone,
        .shutdownBatcher bat, .shutdownExporter exp] ∧
      errs = (next p).toList ++ bat.toList ++ exp.toList ∧ (errs = [] ↔ next p = none ∧ bat = none ∧ exp = none) := by
  simp only [shutdownOtlp, Option.map_eq_some_iff] at h
  obtain ⟨⟨l, e⟩, h1, h2⟩ := h
  simp only [Prod.mk.injEq] at h2
  obtain ⟨rfl, rfl⟩ := h2
  obtain ⟨p, st, hp, rfl, _, rfl⟩ := C62_export m x true next rm data l e h1
  refine ⟨p, st, hp, rfl, by simp [append], ?_⟩
  cases next p <;> cases bat <;> cases exp <;> simp [append]

/-- **C63** (shutdown, Prometheus). -/
theorem C63_shutdown_prom_partial (m : Mapping) (x : Errs E) (next : Payload → Option E) (exp : Option E) (rm : ResourceMap) (data : Metrics)
    (log : List (Ev Payload E)) (errs : List E) (h : (shutdownProm m x next exp rm data).2 = some (log, errs)) :
    ∃ p state, (Export.d2pd m rm data false).2 = some p ∧
      log = [.consume p (next p), .count (points data) (next p).isNone state, .span (points data) (next p).isNone state (next p).isNone,
        .shutdownExporter exp] ∧
      errs = (next p).toList ++ exp.toList ∧ (errs = [] ↔ next p = none ∧ exp = none) := by
  simp only [shutdownProm, Option.map_eq_some_iff] at h
  obtain ⟨⟨l, e⟩, h1, h2⟩ := h
  simp only [Prod.mk.injEq] at h2
  obtain ⟨rfl, rfl⟩ := h2
  obtain ⟨p, st, hp, rfl, _, rfl⟩ := C62_export m x false next rm data l e h1
  refine ⟨p, st, hp, rfl, by simp [append], ?_⟩
  cases next p <;> cases exp <;> simp [append]

/-- **C63** (shutdown, traces). -/
theorem C63_shutdown_trace (bat exp : Option E) :
    (shutdownTrace bat exp).1 = [.shutdownBatcher bat, .shutdownExporter exp] ∧
      (shutdownTrace bat exp).2 = bat.toList ++ exp.toList ∧ ((shutdownTrace bat exp).2 = [] ↔ bat = none ∧ exp = none) := by
  refine ⟨rfl, by simp [shutdownTrace, append], ?_⟩
  cases bat <;> cases exp <;> simp [shutdownTrace, append]

/-- A point with an attribute without a value. -/
def exInvalid : Metrics :=
  let p : Point := { attrs := [⟨[107], .invalid⟩], temporality := .delta, agg := .monotonic .int64 1, start := 0, stop := 1 }
  let i : Instrument := { name := [1], unit := [], description := [], points := [p] }
  { resource := [], scopes := [{ library := ⟨[97], [], []⟩, instruments := [i] }] }

/-- **C63** (fails in full). If the final data contains an attribute without a value (which no filter removes, C44), shutdown
panics, and neither the batcher nor the exporter is shut down, whatever they would answer. -/
theorem C63_shutdown_panics_fails : ∃ data : Metrics, ∀ (m : Mapping) (x : Errs E) (next : Payload → Option E) (bat exp : Option E),
    (shutdownOtlp m x next bat exp ResourceMap.new data).2 = none ∧
      calls m x ResourceMap.new [.shutdown data next bat exp] = [] := by
  refine ⟨exInvalid, ?_⟩
  intro m x next bat exp
  refine ⟨rfl, rfl⟩

/-- **C63** (construction). An exporter is returned exactly when all components could be created and started, and then they
were started once each, the exporter before the batcher that feeds it. -/
theorem C63_construction (a : Answers E) :
    ((newExporter (P := Payload) a).2 = none ↔
      a.self = none ∧ a.createExporter = none ∧ a.createBatcher = none ∧ a.startExporter = none ∧ a.startBatcher = none) ∧
    ((newExporter (P := Payload) a).2 = none → (newExporter (P := Payload) a).1 = [.startExporter none, .startBatcher none]) := by
  unfold newExporter
  cases a.self <;> cases a.createExporter <;> cases a.createBatcher <;> cases a.startExporter <;> cases a.startBatcher <;> simp

/-- **C63** (failed construction leaks). If the batcher cannot be started, an error is returned and the caller gets nothing to
shut down, but the exporter has been started and is not shut down. -/
theorem C63_failed_construction_fails (e : E) : ¬ ∀ a : Answers E, (newExporter (P := Payload) a).2 ≠ none →
    (.startExporter none ∈ (newExporter (P := Payload) a).1 → ∃ r, .shutdownExporter r ∈ (newExporter (P := Payload) a).1) := by
  intro h
  have := h ⟨none, none, none, none, some e⟩ (by simp [newExporter]) (by simp [newExporter])
  simp [newExporter] at this

/-! ## C64 configuration -/

section
variable {R : Type}

theorem newConfig_append (d : Config R) (a b : List (Option (Opt R))) : newConfig d (a ++ b) = newConfig (newConfig d a) b := by
  simp [newConfig]

/-- What an option says about the endpoint. -/
def setsEndpoint : Option (Opt R) → Option String
  | some (.endpoint a) => some a
  | _ => none

/-- What an option says about the compression. -/
def setsCompression : Option (Opt R) → Option String
  | some (.compressor a) => some a
  | _ => none

/-- The header entries an option sets. -/
def setsHeaders : Option (Opt R) → List (String × String)
  | some (.headers h) => h
  | _ => []

/-- **C64** (last one wins). The endpoint and the compression are those of the last option setting them, else the default; nil
options and all others make no difference. -/
theorem C64_last_wins (d : Config R) (opts : List (Option (Opt R))) :
    (newConfig d opts).endpoint = (lastSet setsEndpoint opts).getD d.endpoint ∧
    (newConfig d opts).compression = (lastSet setsCompression opts).getD d.compression := by
  induction opts using list_snoc_ind with
  | h0 => exact ⟨rfl, rfl⟩
  | h1 l a ih =>
    rw [newConfig_append, lastSet_snoc, lastSet_snoc]
    cases a with
    | none => exact ih
    | some o => cases o <;> simp_all [newConfig, Opt.apply, setsEndpoint, setsCompression]

theorem header_setHeader (m : List (String × String)) (e : String × String) (k : String) :
    header (setHeader m e) k = if e.1 = k then some e.2 else header m k := by
  simp only [header, setHeader, List.find?_append]
  by_cases h : e.1 = k
  · subst h
    have : List.find? (fun x => x.1 == e.1) (List.filter (fun x => !(x.1 == e.1)) m) = none := by
      rw [List.find?_eq_none]
      intro x hx
      have := (List.mem_filter.1 hx).2
      simpa using this
    simp [this]
  · have h1 : (e.1 == k) = false := by simpa using h
    have : List.find? (fun x => x.1 == k) (List.filter (fun x => !(x.1 == e.1)) m) = List.find? (fun x => x.1 == k) m := by
      rw [List.find?_filter]
      congr 1
      funext x
      by_cases hx : x.1 = k
      · have : ¬ x.1 = e.1 := fun h2 => h (by rw [← h2, hx])
        simp [hx, show ¬ k = e.1 from fun h2 => h h2.symm]
      · simp [hx]
    simp [this, h1, h]

theorem header_fold (hs m : List (String × String)) (k : String) :
    header (hs.foldl setHeader m) k = ((hs.filter (fun e => e.1 == k)).getLast?.map (·.2)).or (header m k) := by
  induction hs using list_snoc_ind with
  | h0 => simp
  | h1 l a ih =>
    rw [List.foldl_append, List.foldl_cons, List.foldl_nil, header_setHeader, ih, List.filter_append]
    by_cases h : a.1 = k
    · simp [h]
    · simp [h]

/-- **C64** (headers are merged). A header has the value set last, by any of the `WithHeaders` options; headers named by no
option keep their default. The default configurations have none. -/
theorem C64_headers (d : Config R) (opts : List (Option (Opt R))) (k : String) :
    header (newConfig d opts).headers k =
      (((opts.flatMap setsHeaders).filter (fun e => e.1 == k)).getLast?.map (·.2)).or (header d.headers k) := by
  induction opts using list_snoc_ind with
  | h0 => simp [newConfig]
  | h1 l a ih =>
    rw [newConfig_append, List.flatMap_append, List.filter_append]
    cases a with
    | none => simpa [newConfig, setsHeaders] using ih
    | some o =>
      cases o with
      | headers hs =>
        simp only [newConfig, List.foldl_cons, List.foldl_nil, Opt.apply, header_fold] at ih ⊢
        rw [ih]
        simp only [setsHeaders, List.flatMap_cons, List.flatMap_nil, List.append_nil, List.getLast?_append]
        cases (List.filter (fun e => e.1 == k) hs).getLast? <;> simp
      | _ => simpa [newConfig, setsHeaders, Opt.apply] using ih

def isTls : Option (Opt R) → Bool
  | some (.tls _) => true
  | _ => false

def isInsecure : Option (Opt R) → Bool
  | some .insecure => true
  | _ => false

/-- **C64** (transport security). With no TLS option the default settings are used, insecure exactly if `WithInsecure` occurs.
Otherwise the last TLS option replaces the settings entirely, whatever came before; a `WithInsecure` after it sets only the
flag. -/
theorem C64_tls (d : Config R) (opts : List (Option (Opt R))) :
    ((∀ o ∈ opts, isTls o = false) →
      (newConfig d opts).tls = ⟨d.tls.insecure || opts.any isInsecure, d.tls.rest⟩) ∧
    (∀ pre t post, opts = pre ++ some (.tls t) :: post → (∀ o ∈ post, isTls o = false) →
      (newConfig d opts).tls = ⟨t.insecure || post.any isInsecure, t.rest⟩) := by
  have gen : ∀ (opts : List (Option (Opt R))) (d : Config R), (∀ o ∈ opts, isTls o = false) →
      (newConfig d opts).tls = ⟨d.tls.insecure || opts.any isInsecure, d.tls.rest⟩ := by
    intro opts
    induction opts with
    | nil => intro d _; simp [newConfig]
    | cons o opts ih =>
      intro d h
      have h1 := h o (List.mem_cons_self ..)
      have h2 := fun d => ih d (fun x hx => h x (List.mem_cons_of_mem _ hx))
      cases o with
      | none => simpa [newConfig, isInsecure] using h2 d
      | some o =>
        cases o with
        | tls t => cases h1
        | insecure => have := h2 (Opt.insecure.apply d); simp only [newConfig, List.foldl_cons] at this ⊢; rw [this]; simp [Opt.apply, isInsecure]
        | endpoint a => have := h2 ((Opt.endpoint a).apply d); simp only [newConfig, List.foldl_cons] at this ⊢; rw [this]; simp [Opt.apply, isInsecure]
        | headers a => have := h2 ((Opt.headers a).apply d); simp only [newConfig, List.foldl_cons] at this ⊢; rw [this]; simp [Opt.apply, isInsecure]
        | compressor a => have := h2 ((Opt.compressor a).apply d); simp only [newConfig, List.foldl_cons] at this ⊢; rw [this]; simp [Opt.apply, isInsecure]
  refine ⟨gen opts d, ?_⟩
  intro pre t post hopts hpost
  subst hopts
  rw [newConfig_append]
  have := gen post (Opt.apply (newConfig d pre) (.tls t)) hpost
  simpa [newConfig, Opt.apply] using this

/-- **C64** (everything else). No option changes the other settings: self-telemetry on, batches of 1000 to 1500, a timeout of
15 seconds, no retries, no queue. -/
theorem C64_defaults (zero : R) (bt : Nat) (opts : List (Option (Opt R))) :
    let c := newConfig (defaultConfig zero bt) opts
    c.selfMetrics = true ∧ c.selfSpans = true ∧ c.batchTimeout = bt ∧ c.batchSize = 1000 ∧ c.batchMaxSize = 1500 ∧ c.timeout = 15 ∧
      c.retry = false ∧ c.queue = false ∧ c.arrowDisabled = true := by
  have gen : ∀ (opts : List (Option (Opt R))) (d : Config R), 
      (newConfig d opts).selfMetrics = d.selfMetrics ∧ (newConfig d opts).selfSpans = d.selfSpans ∧
      (newConfig d opts).batchTimeout = d.batchTimeout ∧ (newConfig d opts).batchSize = d.batchSize ∧
      (newConfig d opts).batchMaxSize = d.batchMaxSize ∧ (newConfig d opts).timeout = d.timeout ∧
      (newConfig d opts).retry = d.retry ∧ (newConfig d opts).queue = d.queue ∧ (newConfig d opts).arrowDisabled = d.arrowDisabled := by
    intro opts
    induction opts with
    | nil => intro d; simp [newConfig]
    | cons o opts ih =>
      intro d
      cases o with
      | none => exact ih d
      | some o =>
        have := ih (o.apply d)
        simp only [newConfig, List.foldl_cons] at this ⊢
        cases o <;> exact this
  exact gen opts _

/-- **C64** (without options). Without options, or with nil ones only, there is no endpoint and no headers, the compression is zstd
and the connection is secure. -/
theorem C64_no_options (zero : R) (bt : Nat) (opts : List (Option (Opt R))) (h : ∀ o ∈ opts, o = none) :
    let c := newConfig (defaultConfig zero bt) opts
    c.endpoint = "" ∧ c.headers = [] ∧ c.compression = "zstd" ∧ c.tls = ⟨false, zero⟩ := by
  have e : newConfig (defaultConfig zero bt) opts = defaultConfig zero bt := by
    induction opts with
    | nil => rfl
    | cons o opts ih =>
      rw [h o List.mem_cons_self]
      exact ih (fun o ho => h o (List.mem_cons_of_mem _ ho))
  rw [e]
  exact ⟨rfl, rfl, rfl, rfl⟩

/-- **C64** (pipelines). The launcher's pipelines connect to the configured endpoint with the configured headers, compressed
with gzip. The connection is insecure exactly if that was asked for, by the flag or in the TLS settings; unless the flag is
set, the given TLS settings are used, or the default ones. -/
theorem C64_pipeline (zero : R) (bt : Nat) (p : Pipeline R) (hu : p.headers.Pairwise (fun a b => a.1 ≠ b.1)) :
    let c := pipelineConfig zero bt p
    c.endpoint = p.endpoint ∧ c.compression = "gzip" ∧ (∀ k, header c.headers k = header p.headers k) ∧
      (c.tls.insecure = true ↔ p.insecure = true ∨ ∃ t, p.tls = some t ∧ t.insecure = true) ∧
      (p.insecure = false → c.tls = p.tls.getD ⟨false, zero⟩) := by
  have hh : ∀ k, ((p.headers.filter (fun e => e.1 == k)).getLast?.map (·.2)) = header p.headers k := by
    intro k
    generalize p.headers = l at hu
    induction l with
    | nil => rfl
    | cons a l ih =>
      rw [List.pairwise_cons] at hu
      by_cases h : a.1 = k
      · have : l.filter (fun e => e.1 == k) = [] := by
          rw [List.filter_eq_nil_iff]
          intro e he
          have := hu.1 e he
          simpa [← h] using this.symm
        simp [h, this, header]
      · have := ih hu.2
        simp [h, header] at this ⊢
        exact this
  have htls : (pipelineConfig zero bt p).tls = (if p.insecure then ⟨true, zero⟩ else p.tls.getD ⟨false, zero⟩) := by
    simp only [pipelineConfig, newConfig, List.foldl_cons, List.foldl_nil, secureOption]
    cases p.insecure with
    | true => simp [Opt.apply, defaultConfig]
    | false => cases p.tls <;> simp [Opt.apply]
  refine ⟨?_, ?_, ?_, ?_, ?_⟩
  · simp [pipelineConfig, newConfig, Opt.apply]
  · simp [pipelineConfig, newConfig, Opt.apply]
  · intro k
    rw [← hh k]
    rw [pipelineConfig, C64_headers]
    have : setsHeaders (some (secureOption zero p)) = [] := by
      unfold secureOption
      cases p.insecure <;> cases p.tls <;> rfl
    have h0 : header (defaultConfig zero bt).headers k = none := rfl
    simp only [List.flatMap_cons, List.flatMap_nil, this, List.nil_append, List.append_nil, h0]
    simp [setsHeaders]
  · rw [htls]
    cases p.insecure <;> cases p.tls <;> simp
  · intro h
    rw [htls, h]; rfl

/-- What an option says about the tracer provider. -/
def setsTracer : ExpOpt → Option (Option Prov)
  | .tracer p => some p
  | .meter _ => none

/-- What an option says about the meter provider. -/
def setsMeter : ExpOpt → Option (Option Prov)
  | .meter p => some p
  | .tracer _ => none

/-- **C64** (self-telemetry providers). The trace exporter reports about itself to the providers passed last, if not nil,
otherwise to the global ones, or to none at all if self-telemetry is off; as long as no option is nil. -/
theorem C64_providers_partial (cfg : Config R) (opts : List ExpOpt) :
    traceProviders cfg (opts.map some) = some
      ((lastSet setsTracer opts).join.getD (if cfg.selfSpans then .global else .noop),
       (lastSet setsMeter opts).join.getD (if cfg.selfMetrics then .global else .noop)) := by
  have gen : ∀ (opts : List ExpOpt) (o : ExpOpts), applyExpOpts o (opts.map some) =
      some { tracer := (lastSet setsTracer opts).getD o.tracer,
             meter := (lastSet setsMeter opts).getD o.meter } := by
    intro opts
    induction opts with
    | nil => intro o; rfl
    | cons f fs ih =>
      intro o
      simp only [List.map_cons, applyExpOpts]
      rw [ih]
      cases f with
      | tracer p => simp [ExpOpt.apply, lastSet, setsTracer, setsMeter, List.getLast?_cons]
      | meter p => simp [ExpOpt.apply, lastSet, setsTracer, setsMeter, List.getLast?_cons]
  simp only [traceProviders, gen, Option.map_some, Option.some.injEq, Prod.mk.injEq]
  constructor
  · cases lastSet setsTracer opts with
    | none => simp
    | some a => cases a <;> simp
  · cases lastSet setsMeter opts with
    | none => simp
    | some a => cases a <;> simp

/-- **C64** (metric exporters). They take no such options, and report to the providers to which the trace exporter reports without options: spans to the
global tracer provider exactly if spans are enabled, metrics to the global meter provider exactly if metrics are enabled. -/
theorem C64_metric_providers (cfg : Config R) : some (metricProviders cfg) = traceProviders cfg [] ∧
    ((metricProviders cfg).1 = .global ↔ cfg.selfSpans = true) ∧ ((metricProviders cfg).2 = .global ↔ cfg.selfMetrics = true) ∧
    ((metricProviders cfg).1 = .noop ↔ cfg.selfSpans = false) ∧ ((metricProviders cfg).2 = .noop ↔ cfg.selfMetrics = false) := by
  refine ⟨rfl, ?_⟩
  cases h1 : cfg.selfSpans <;> cases h2 : cfg.selfMetrics <;> simp [metricProviders, h1, h2]

/-- **C64** (fails for nil). `NewConfig` ignores nil options, but a nil option of the trace exporter panics. -/
theorem C64_nil_option_fails (cfg : Config R) (before after : List (Option ExpOpt)) : traceProviders cfg (before ++ none :: after) = none := by
  have gen : ∀ (before : List (Option ExpOpt)) (o : ExpOpts), applyExpOpts o (before ++ none :: after) = none := by
    intro before
    induction before with
    | nil => intro o; rfl
    | cons f fs ih => intro o; cases f with
      | none => rfl
      | some f => exact ih _
  simp [traceProviders, gen]

end

/-! ## C65 names of the components' metrics -/

/-- **C65.** The exporter components' own instruments are created with the same kind, and with the same name unless it begins
with `otelcol_`, which becomes `otelsdk_`. No instrument reaches the user's provider with a name beginning with `otelcol_`. -/
theorem C65_renamed (c : Ctor) (n : Str) :
    (renamed c n).1 = c ∧ (∀ rest, n = otelcol_ ++ rest → (renamed c n).2 = otelsdk_ ++ rest) ∧
    ((¬ ∃ rest, n = otelcol_ ++ rest) → (renamed c n).2 = n) ∧ ¬ ∃ rest, (renamed c n).2 = otelcol_ ++ rest := by
  have h1 : ∀ rest, fixName otelcol_ otelsdk_ (otelcol_ ++ rest) = otelsdk_ ++ rest := by
    intro rest
    rw [fixName, if_pos (by simp), show (8 : Nat) = otelcol_.length from rfl, List.drop_left]
  have h2 : (¬ ∃ rest, n = otelcol_ ++ rest) → fixName otelcol_ otelsdk_ n = n := by
    intro h
    rw [fixName, if_neg]
    intro hp
    rw [List.isPrefixOf_iff_prefix] at hp
    obtain ⟨t, ht⟩ := hp
    exact h ⟨t, ht.symm⟩
  have h3 : ¬ ∃ rest, fixName otelcol_ otelsdk_ n = otelcol_ ++ rest := by
    rintro ⟨rest, h⟩
    by_cases hp : ∃ rest, n = otelcol_ ++ rest
    · obtain ⟨r, rfl⟩ := hp
      rw [h1] at h
      simp [otelsdk_, otelcol_] at h
    · rw [h2 hp] at h
      exact hp ⟨rest, h⟩
  cases c <;> exact ⟨rfl, fun rest e => by subst e; exact h1 rest, h2, h3⟩

/-- **C65** (fails to keep instruments apart). Two different names may become one. -/
theorem C65_distinct_fails (c : Ctor) (rest : Str) : otelcol_ ++ rest ≠ otelsdk_ ++ rest ∧ renamed c (otelcol_ ++ rest) = renamed c (otelsdk_ ++ rest) := by
  constructor
  · simp [otelsdk_, otelcol_]
  · have h1 : fixName otelcol_ otelsdk_ (otelcol_ ++ rest) = otelsdk_ ++ rest := by
      rw [fixName, if_pos (by simp), show (8 : Nat) = otelcol_.length from rfl, List.drop_left]
    have h2 : fixName otelcol_ otelsdk_ (otelsdk_ ++ rest) = otelsdk_ ++ rest := by
      rw [fixName, if_neg]
      intro hp
      rw [List.isPrefixOf_iff_prefix] at hp
      obtain ⟨t, ht⟩ := hp
      simp [otelsdk_, otelcol_] at ht
    cases c <;> simp only [renamed, h1, h2]

/-! ## Concrete cases -/

/-- Errors: 0 is a cancellation, 1 a timeout. -/
def exErrs : Errs Nat := { canceled := fun e => e == 0, deadline := fun e => e == 1 }

def exPoint (k : Str) : Point := { attrs := [⟨k, .bool true⟩], temporality := .delta, agg := .monotonic .int64 7, start := 5, stop := 9 }

def exData : Metrics := { resource := [], scopes := [{ library := ⟨[97], [], []⟩, instruments := [
  { name := [1], unit := [], description := [], points := [exPoint [97], exPoint [98]] }, { name := [2], unit := [], description := [], points := [] }] },
  { library := ⟨[98], [], []⟩, instruments := [{ name := [3], unit := [], description := [], points := [exPoint [97]] }] }] }

example : points exData = 3 ∧ ((exportMetrics (fun _ => none) exErrs true (fun _ => some 1) ResourceMap.new exData).2.map
    (fun r => (r.1.drop 1, r.2)) = some ([.count 3 false "timeout", .span 3 false "timeout" false], some 1)) := by decide +kernel

/-- An export accepted, one cancelled, a shutdown whose batcher fails. -/
example : let log := calls (fun _ => none) exErrs ResourceMap.new [.export exData (fun _ => none),
      .flush exData (fun _ => some 0), .shutdown exData (fun _ => none) (some 2) none]
    accepted log = 6 ∧ refused log = 3 ∧ counted true log = 6 ∧ counted false log = 3 ∧
    log.drop 9 = [.shutdownBatcher (some 2), .shutdownExporter none] := by decide +kernel

example : (shutdownOtlp (fun _ => none) exErrs (fun _ => some 0) (some 2) none ResourceMap.new exData).2.map (·.2) = some [0, 2] := by
  decide +kernel

example : let c := newConfig (defaultConfig (0 : Nat) 0) [some .insecure, none, some (.headers [("a", "1"), ("b", "2")]), some (.endpoint "x"),
      some (.tls ⟨false, 7⟩), some (.headers [("b", "3")]), some (.endpoint "y")];
    c.endpoint = "y" ∧ header c.headers "a" = some "1" ∧ header c.headers "b" = some "3" ∧ header c.headers "c" = none ∧
    c.tls = ⟨false, 7⟩ ∧ c.compression = "zstd" := by decide +kernel

example : let p : Pipeline Nat := { endpoint := "h:1", insecure := true, headers := [("a", "1"), ("b", "2")], tls := some ⟨false, 7⟩ };
    p.headers.Pairwise (fun a b => a.1 ≠ b.1) ∧ (pipelineConfig 0 1 p).tls = ⟨true, 0⟩ := by decide +kernel

example : traceProviders (defaultConfig (0 : Nat) 1) [some (.tracer (some (.user 3))), some (.meter (some (.user 4))), some (.meter none)] =
    some (.user 3, .global) := by decide +kernel

/-- `otelcol_x` becomes `otelsdk_x`; `otelcolx` is left alone. -/
example : renamed .int64Gauge (otelcol_ ++ [0x78]) = (.int64Gauge, otelsdk_ ++ [0x78]) ∧
    (renamed .int64Gauge (otelcol_.dropLast ++ [0x78])).2 = otelcol_.dropLast ++ [0x78] := by decide +kernel

end Verif.Props
