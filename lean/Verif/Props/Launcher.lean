import Verif.Proof.Launcher

/-!
C47-C51, C56, C57: the launcher's configuration.
-/

namespace Verif.Launcher
open Verif.Attr Verif.Views Verif.Front

/-! ### A concrete environment used by the examples -/

/-- What `envconfig` reads from an empty environment, except for the given headers. -/
def defaultEnv (headers : HMap) : Config :=
  { spanEndpoint := lit "ingest.lightstep.com:443", spanInsecure := false, serviceName := [], serviceVersion := lit "unknown",
    headers := headers, metricEndpoint := lit "ingest.lightstep.com:443", metricInsecure := false, tempoPref := lit "cumulative",
    metricsEnabled := true, builtinsEnabled := true, builtinLibs := [lit "all:stable"], logLevel := lit "info",
    propagators := [lit "b3"], period := lit "30s", resourceAttrs := [], resource := [], logger := 0, errorHandler := none }

def exWorld (headers : HMap) (res : List KV) (token : Str) : World :=
  { env := defaultEnv headers, envError := false, envResource := res, hostname := some (lit "box"), lsToken := token,
    version := lit "1.2", defaultLogger := 0, defaultHandler := 0 }

theorem exOk (h : HMap) (t : Str) : EnvResourceOk (exWorld h [] t).envResource :=
  ⟨List.Pairwise.nil, (by intro _ h; cases h), (by intro _ h; cases h)⟩

def exExt : Ext :=
  { lower := fun s => s.map (fun b => if 65 ≤ b ∧ b ≤ 90 then b + 32 else b),
    parseDuration := fun s => if s = lit "30s" then some 30000000000 else none,
    traceExporter := fun _ => true, metricExporter := fun _ => true }

/-! ### C48: headers and options -/

/-- C48. Every setting is what the last option says about it, or what the environment says if no option does; every header is
what the last option naming it says, or what the environment says, except that the access token header falls back to
`LS_ACCESS_TOKEN` when it is absent or empty. Configuration never panics. -/
theorem C48_last_option_wins (x : Ext) (w : World) (opts : List Opt) : ∃ c eff, configure x w opts = some (c, eff) ∧
    (∀ k, k ≠ lit "lightstep-access-token" → c.header k = configuredHeader w opts k) ∧
    (c.header (lit "lightstep-access-token") =
      if (configuredHeader w opts (lit "lightstep-access-token")).getD [] = [] ∧ w.lsToken ≠ [] then some w.lsToken
      else configuredHeader w opts (lit "lightstep-access-token")) ∧
    c.serviceName = configuredName w opts ∧
    c.serviceVersion = configuredVersion w opts ∧
    c.spanEndpoint = (lastSet spanEndpointOf opts).getD w.env.spanEndpoint ∧
    c.metricEndpoint = (lastSet metricEndpointOf opts).getD w.env.metricEndpoint ∧
    c.spanInsecure = (lastSet spanInsecureOf opts).getD w.env.spanInsecure ∧
    c.metricInsecure = (lastSet metricInsecureOf opts).getD w.env.metricInsecure ∧
    c.tempoPref = (lastSet tempoPrefOf opts).getD w.env.tempoPref ∧
    c.metricsEnabled = (lastSet metricsEnabledOf opts).getD w.env.metricsEnabled ∧
    c.builtinsEnabled = (lastSet builtinsEnabledOf opts).getD w.env.builtinsEnabled ∧
    c.builtinLibs = (lastSet builtinLibsOf opts).getD w.env.builtinLibs ∧
    c.logLevel = (lastSet logLevelOf opts).getD w.env.logLevel ∧
    c.propagators = (lastSet propagatorsOf opts).getD w.env.propagators ∧
    c.period = (lastSet periodOf opts).getD w.env.period ∧
    c.resourceAttrs = configuredAttrs w opts ∧
    c.logger = (lastSet loggerOf opts).getD w.defaultLogger ∧
    c.errorHandler = (lastSet errorHandlerOf opts).getD (some w.defaultHandler) := by
  obtain ⟨c0, h, a, hh, e⟩ := configure_spec x w opts
  refine ⟨_, _, e, ?_, ?_, a.serviceName, a.serviceVersion, a.spanEndpoint, a.metricEndpoint, a.spanInsecure, a.metricInsecure,
    a.tempoPref, a.metricsEnabled, a.builtinsEnabled, a.builtinLibs, a.logLevel, a.propagators, a.period, a.resourceAttrs, a.logger,
    a.errorHandler⟩
  · intro k hk
    refine (hh k).trans ?_
    rw [if_neg (fun h' => hk h'.1)]
    exact a.headers k
  · refine (hh _).trans ?_
    have : c0.header tokenHeader = configuredHeader w opts tokenHeader := a.headers _
    show (if tokenHeader = tokenHeader ∧ w.lsToken ≠ [] ∧ (c0.header tokenHeader).getD [] = [] then some w.lsToken else c0.header tokenHeader) =
      if (configuredHeader w opts tokenHeader).getD [] = [] ∧ w.lsToken ≠ [] then some w.lsToken else configuredHeader w opts tokenHeader
    rw [this]
    by_cases h1 : (configuredHeader w opts tokenHeader).getD [] = [] <;> by_cases h2 : w.lsToken = [] <;> simp [h1, h2]

/-- C48 (part: non-empty tokens). A non-empty access token set by the last option naming the header, or by the headers of the environment, is
the one used, whatever `LS_ACCESS_TOKEN` says. Missing: an access token explicitly set to the empty text. -/
theorem C48_explicit_token_partial (x : Ext) (w : World) (opts : List Opt) (t : Str) (ht : t ≠ [])
    (h : configuredHeader w opts (lit "lightstep-access-token") = some t) :
    ∃ c eff, configure x w opts = some (c, eff) ∧ c.header (lit "lightstep-access-token") = some t := by
  obtain ⟨c, eff, h1, -, h2, -⟩ := C48_last_option_wins x w opts
  refine ⟨c, eff, h1, ?_⟩
  rw [h2, h]
  simp [ht]

/-- C48 (fails for an empty token). A program that explicitly removes the access token with `WithAccessToken("")` still sends the one of the environment. -/
theorem C48_empty_token_fails : ∃ (w : World) (opts : List Opt), lastSet (headerOf (lit "lightstep-access-token")) opts = some [] ∧
    ∀ x, ∃ c eff, configure x w opts = some (c, eff) ∧ c.header (lit "lightstep-access-token") = some (lit "secret") := by
  refine ⟨exWorld none [] (lit "secret"), [.accessToken []], by decide +kernel, fun x => ?_⟩
  obtain ⟨c, eff, h1, -, h2, -⟩ := C48_last_option_wins x (exWorld none [] (lit "secret")) [.accessToken []]
  refine ⟨c, eff, h1, ?_⟩
  rw [h2]
  decide +kernel

/-- Two options name a header, the environment another two: the last option wins, the rest is preserved, the token in the code beats `LS_ACCESS_TOKEN`. -/
example : ∃ c eff, configure exExt (exWorld (some (fun k => if k = lit "a" then some (lit "env-a") else if k = lit "b" then some (lit "env-b") else none)) []
      (lit "env-token"))
    [.headers [(lit "a", lit "1"), (lit "c", lit "2")], .accessToken (lit "code-token"), .serviceName (lit "s1"), .headers [(lit "a", lit "3")], .serviceName (lit "s2")] =
      some (c, eff) ∧
    c.header (lit "a") = some (lit "3") ∧ c.header (lit "b") = some (lit "env-b") ∧ c.header (lit "c") = some (lit "2") ∧
    c.header (lit "lightstep-access-token") = some (lit "code-token") ∧ c.serviceName = lit "s2" := by
  obtain ⟨c, eff, h1, h2, h3, h4, -⟩ := C48_last_option_wins exExt (exWorld (some (fun k => if k = lit "a" then some (lit "env-a") else if k = lit "b" then some (lit "env-b") else none)) []
      (lit "env-token"))
    [.headers [(lit "a", lit "1"), (lit "c", lit "2")], .accessToken (lit "code-token"), .serviceName (lit "s1"), .headers [(lit "a", lit "3")], .serviceName (lit "s2")]
  refine ⟨c, eff, h1, ?_, ?_, ?_, ?_, ?_⟩
  · rw [h2 _ (by decide +kernel)]; decide +kernel
  · rw [h2 _ (by decide +kernel)]; decide +kernel
  · rw [h2 _ (by decide +kernel)]; decide +kernel
  · rw [h3]; decide +kernel
  · rw [h4]; decide +kernel

/-! ### C49: the resource -/

/-- The resource of a configured launcher, key by key. -/
theorem resource_spec (x : Ext) (w : World) (opts : List Opt) (hw : EnvResourceOk w.envResource)
    (hd : (configuredAttrs w opts).Pairwise (fun a b => a.1 ≠ b.1)) :
    ∃ c eff, configure x w opts = some (c, eff) ∧ ∀ k, k ≠ [] → Attr.get k c.resource = (expectedAttr w opts k).map .str := by
  obtain ⟨c0, h, a, hh, e⟩ := configure_spec x w opts
  refine ⟨_, _, e, fun k hk => ?_⟩
  have ea : c0.resourceAttrs = configuredAttrs w opts := a.resourceAttrs
  have en : c0.serviceName = configuredName w opts := a.serviceName
  have ev : c0.serviceVersion = configuredVersion w opts := a.serviceVersion
  show Attr.get k (newResource w c0) = _
  rw [get_newResource w c0 hw (by rw [ea]; exact hd) k hk, ea, en, ev]
  congr 1
  unfold expectedAttr
  by_cases hk : k = lit "host.name"
  · subst hk
    have n1 := @lit_ne "host.name" "telemetry.sdk.name" (by decide +kernel)
    have n2 := @lit_ne "host.name" "telemetry.sdk.language" (by decide +kernel)
    have n3 := @lit_ne "host.name" "telemetry.sdk.version" (by decide +kernel)
    have n4 := @lit_ne "host.name" "telemetry.distro.name" (by decide +kernel)
    have n5 := @lit_ne "host.name" "telemetry.distro.version" (by decide +kernel)
    have n6 := @lit_ne "host.name" "service.name" (by decide +kernel)
    have n7 := @lit_ne "host.name" "service.version" (by decide +kernel)
    rw [if_pos rfl, if_neg n1, if_neg n2, if_neg n3, if_neg n4, if_neg n5, if_neg n6, if_neg n7]
    unfold hostKey
    have hg : ∀ o : Option Str, ∀ s, given o = some s → o = some s := by
      intro o s h
      cases o with
      | none => cases h
      | some t => unfold given at h; dsimp only at h; split at h <;> simp_all
    cases h1 : given (entry (lit "host.name") (configuredAttrs w opts)) with
    | some v => simp
    | none =>
      cases h2 : given (envAttr w (lit "host.name")) with
      | some v => simp [hg _ _ h2]
      | none => simp
  · rw [if_neg hk, if_neg (fun h' => hk h'.1)]
    rfl

/-- C49 (part: non-empty keys and values). Each attribute of the resource is the one given explicitly, else the launcher's own (telemetry, service), else
the environment's; the host name is added exactly when neither code nor environment gives one. Nothing else is in the resource (the theorem
determines every key). `hw`: the environment's resource is an attribute set of texts; `hd`: the attributes given in code are a Go map.
Missing: attributes given with an empty value or an empty key are dropped, see the theorems below. -/
theorem C49_precedence_partial (x : Ext) (w : World) (opts : List Opt) (hw : EnvResourceOk w.envResource)
    (hd : (configuredAttrs w opts).Pairwise (fun a b => a.1 ≠ b.1)) :
    ∃ c eff, configure x w opts = some (c, eff) ∧ ∀ k, k ≠ [] → Attr.get k c.resource = (expectedAttr w opts k).map .str :=
  resource_spec x w opts hw hd

/-- C49 (part). Every attribute given in code with a non-empty key and value is in the resource, with that value. -/
theorem C49_present_partial (x : Ext) (w : World) (opts : List Opt) (hw : EnvResourceOk w.envResource)
    (hd : (configuredAttrs w opts).Pairwise (fun a b => a.1 ≠ b.1)) (k v : Str) (hk : k ≠ []) (hv : v ≠ [])
    (h : (k, v) ∈ configuredAttrs w opts) :
    ∃ c eff, configure x w opts = some (c, eff) ∧ Attr.get k c.resource = some (.str v) := by
  obtain ⟨c, eff, h1, h2⟩ := resource_spec x w opts hw hd
  refine ⟨c, eff, h1, ?_⟩
  have hent : ∀ l : List (Str × Str), l.Pairwise (fun a b => a.1 ≠ b.1) → (k, v) ∈ l → entry k l = some v := by
    intro l
    induction l with
    | nil => intro _ h; cases h
    | cons e l ih =>
      intro hp hm
      rw [List.pairwise_cons] at hp
      rw [entry_cons]
      rcases List.mem_cons.1 hm with rfl | hm
      · rw [entry_none (fun y hy e' => hp.1 y hy e'.symm)]; simp
      · rw [ih hp.2 hm]; rfl
  have hg : given (entry k (configuredAttrs w opts)) = some v := by
    rw [hent _ hd h]
    cases v with
    | nil => exact absurd rfl hv
    | cons b l => rfl
  rw [h2 k hk]
  unfold expectedAttr
  split <;> rw [hg] <;> rfl

/-- C49 (fails for empty values). An attribute explicitly configured with an empty value does not override the environment's value. -/
theorem C49_empty_value_fails : ∃ (w : World) (opts : List Opt), EnvResourceOk w.envResource ∧ (lit "zone", []) ∈ configuredAttrs w opts ∧
    ∀ x, ∃ c eff, configure x w opts = some (c, eff) ∧ Attr.get (lit "zone") c.resource = some (.str (lit "a")) := by
  refine ⟨exWorld none [strKV (lit "zone") (lit "a")] [], [.resourceAttributes [(lit "zone", [])]], ?_, by decide +kernel, fun x => ?_⟩
  · exact ⟨List.pairwise_singleton _ _, by decide +kernel, fun kv h => by
      rw [show (exWorld none [strKV (lit "zone") (lit "a")] []).envResource = [strKV (lit "zone") (lit "a")] from rfl, List.mem_singleton] at h
      exact ⟨lit "a", by rw [h]; rfl⟩⟩
  · obtain ⟨c, eff, h1, h2⟩ := resource_spec x (exWorld none [strKV (lit "zone") (lit "a")] []) [.resourceAttributes [(lit "zone", [])]]
      ⟨List.pairwise_singleton _ _, by decide +kernel, fun kv h => by
        rw [show (exWorld none [strKV (lit "zone") (lit "a")] []).envResource = [strKV (lit "zone") (lit "a")] from rfl, List.mem_singleton] at h
        exact ⟨lit "a", by rw [h]; rfl⟩⟩ (List.pairwise_singleton _ _)
    exact ⟨c, eff, h1, by rw [h2 _ (by decide +kernel)]; decide +kernel⟩

/-- C49 (fails for the service version). A service version configured only in `OTEL_RESOURCE_ATTRIBUTES` is replaced by the built-in default "unknown",
although no service version was configured anywhere else. -/
theorem C49_version_fails : ∃ (w : World) (opts : List Opt), EnvResourceOk w.envResource ∧ w.env.serviceVersion = lit "unknown" ∧
    lastSet serviceVersionOf opts = none ∧ envAttr w (lit "service.version") = some (lit "7.1") ∧
    ∀ x, ∃ c eff, configure x w opts = some (c, eff) ∧ Attr.get (lit "service.version") c.resource = some (.str (lit "unknown")) := by
  have hok : EnvResourceOk (exWorld none [strKV (lit "service.version") (lit "7.1")] []).envResource :=
    ⟨List.pairwise_singleton _ _, by decide +kernel, fun kv h => by
      rw [show (exWorld none [strKV (lit "service.version") (lit "7.1")] []).envResource = [strKV (lit "service.version") (lit "7.1")] from rfl,
        List.mem_singleton] at h
      exact ⟨lit "7.1", by rw [h]; rfl⟩⟩
  refine ⟨exWorld none [strKV (lit "service.version") (lit "7.1")] [], [], hok, rfl, rfl, by decide +kernel, fun x => ?_⟩
  obtain ⟨c, eff, h1, h2⟩ := resource_spec x _ [] hok List.Pairwise.nil
  exact ⟨c, eff, h1, by rw [h2 _ (by decide +kernel)]; decide +kernel⟩

/-- The environment gives three attributes; two are overridden, one by the service name and one by code; the host name is added. -/
example : ∃ c eff, configure exExt (exWorld none [strKV (lit "a") (lit "env"), strKV (lit "b") (lit "env"), strKV (lit "service.name") (lit "env")] [])
      [.serviceName (lit "svc"), .resourceAttributes [(lit "b", lit "code")]] = some (c, eff) ∧
    Attr.get (lit "a") c.resource = some (.str (lit "env")) ∧ Attr.get (lit "b") c.resource = some (.str (lit "code")) ∧
    Attr.get (lit "service.name") c.resource = some (.str (lit "svc")) ∧ Attr.get (lit "host.name") c.resource = some (.str (lit "box")) := by
  have hok : EnvResourceOk (exWorld none [strKV (lit "a") (lit "env"), strKV (lit "b") (lit "env"), strKV (lit "service.name") (lit "env")] []).envResource := by
    refine ⟨by decide +kernel, by decide +kernel, fun kv h => ?_⟩
    have h' : kv ∈ [strKV (lit "a") (lit "env"), strKV (lit "b") (lit "env"), strKV (lit "service.name") (lit "env")] := h
    simp only [List.mem_cons, List.not_mem_nil, or_false] at h'
    rcases h' with rfl | rfl | rfl <;> exact ⟨_, rfl⟩
  obtain ⟨c, eff, h1, h2⟩ := C49_precedence_partial exExt _ [.serviceName (lit "svc"), .resourceAttributes [(lit "b", lit "code")]] hok (List.pairwise_singleton _ _)
  refine ⟨c, eff, h1, ?_, ?_, ?_, ?_⟩ <;> rw [h2 _ (by decide +kernel)] <;> decide +kernel

/-! ### C47: validation -/

/-- C47 (part: an endpoint counts as enabled when it is not empty). A configuration is rejected exactly when no service name is given by option, environment variable,
resource attributes in code or resource attributes in the environment, or the access token is missing while one of the two endpoints is the default one.
Missing: the check also covers the metric endpoint when metrics are disabled, see below. -/
theorem C47_rejected_partial (x : Ext) (w : World) (opts : List Opt) (hw : EnvResourceOk w.envResource)
    (hd : (configuredAttrs w opts).Pairwise (fun a b => a.1 ≠ b.1)) :
    ∃ c eff, configure x w opts = some (c, eff) ∧
      (Rejected eff ↔
        (configuredName w opts = [] ∧ given (entry (lit "service.name") (configuredAttrs w opts)) = none ∧
          given (envAttr w (lit "service.name")) = none) ∨
        ((configuredHeader w opts (lit "lightstep-access-token")).getD [] = [] ∧ w.lsToken = [] ∧
          ((lastSet spanEndpointOf opts).getD w.env.spanEndpoint = lit "ingest.lightstep.com:443" ∨
           (lastSet metricEndpointOf opts).getD w.env.metricEndpoint = lit "ingest.lightstep.com:443"))) := by
  obtain ⟨c0, h, a, hh, e⟩ := configure_spec x w opts
  refine ⟨_, _, e, ?_⟩
  have hrej : Rejected (effectsOf x w { c0 with resource := newResource w c0, headers := h }) ↔
      validateConfiguration { c0 with resource := newResource w c0, headers := h } ≠ none := by
    unfold Rejected effectsOf
    generalize validateConfiguration { c0 with resource := newResource w c0, headers := h } = v
    have hs : ∀ r e, Effect.fatal (.configuration e) ∉ setupEffect r := by
      intro r e
      unfold setupEffect
      split <;> simp
    have hv : ∀ e, Effect.fatal (.configuration e) ∉ (if w.envError then [Effect.fatal .environment] else []) := by
      intro e
      split <;> simp
    generalize hE : ({ c0 with resource := newResource w c0, headers := h } : Config).errorHandler = o
    cases v <;> cases o <;> simp [hs, hv]
  rw [hrej]
  have hname : c0.serviceName = configuredName w opts := a.serviceName
  have hattrs : c0.resourceAttrs = configuredAttrs w opts := a.resourceAttrs
  have hspan : c0.spanEndpoint = (lastSet spanEndpointOf opts).getD w.env.spanEndpoint := a.spanEndpoint
  have hmetric : c0.metricEndpoint = (lastSet metricEndpointOf opts).getD w.env.metricEndpoint := a.metricEndpoint
  have htok : c0.header tokenHeader = configuredHeader w opts (lit "lightstep-access-token") := a.headers _
  rw [← hname, ← hattrs, ← hspan, ← hmetric, ← htok]
  have hd' : c0.resourceAttrs.Pairwise (fun x y => x.1 ≠ y.1) := by rw [hattrs]; exact hd
  -- the token
  have htoken : (accessToken { c0 with resource := newResource w c0, headers := h }).isEmpty = true ↔
      ((c0.header tokenHeader).getD [] = [] ∧ w.lsToken = []) := by
    unfold accessToken
    rw [read_eq]
    show ((h.bind (fun f => f tokenHeader)).getD []).isEmpty = true ↔ _
    rw [hh tokenHeader]
    by_cases h1 : (c0.header tokenHeader).getD [] = [] <;> by_cases h2 : w.lsToken = [] <;> simp [h1, h2]
  -- the service name
  have hsn : serviceNameSet (newResource w c0) = false ∧ c0.serviceName = [] ↔
      c0.serviceName = [] ∧ given (entry (lit "service.name") c0.resourceAttrs) = none ∧ given (envAttr w (lit "service.name")) = none := by
    rw [serviceNameSet_eq]
    have n0 := @lit_ne "service.name" "host.name" (by decide +kernel)
    have n1 := @lit_ne "service.name" "telemetry.sdk.name" (by decide +kernel)
    have n2 := @lit_ne "service.name" "telemetry.sdk.language" (by decide +kernel)
    have n3 := @lit_ne "service.name" "telemetry.sdk.version" (by decide +kernel)
    have n4 := @lit_ne "service.name" "telemetry.distro.name" (by decide +kernel)
    have n5 := @lit_ne "service.name" "telemetry.distro.version" (by decide +kernel)
    have hne : lit "service.name" ≠ [] := by decide +kernel
    have hgg : ∀ o : Option Str, given (given o) = given o := by
      intro o
      cases o with
      | none => rfl
      | some t => unfold given; cases ht : t.isEmpty <;> simp [ht]
    unfold serviceNameKey
    rw [get_newResource w c0 hw hd' _ hne]
    rw [if_neg (fun h' => n0 h'.1), if_neg n1, if_neg n2, if_neg n3, if_neg n4, if_neg n5, if_pos rfl]
    by_cases hn : c0.serviceName = []
    · rw [hn]
      simp only [and_true, true_and, given, List.isEmpty_nil, if_true, Option.none_or, Option.map_map]
      have : ∀ o : Option Str, Option.map (asString ∘ Val.str) o = o := by intro o; cases o <;> rfl
      rw [this]
      have hcase : ∀ (p q : Option Str), (given ((given p).or q)).isSome = false ↔ given p = none ∧ given q = none := by
        intro p q
        cases hp : given p with
        | none => simp
        | some v =>
          have hv := hgg p
          rw [hp] at hv
          simp [hv]
      exact hcase _ _
    · simp [hn]
  unfold validateConfiguration
  have hep : ∀ s : Str, ∀ d : Str, d ≠ [] → (checkEndpointDefault s d ≠ none ↔ s = d) := by
    intro s d hd
    unfold checkEndpointDefault
    by_cases h1 : s = []
    · subst h1; simp [Ne.symm hd]
    · have : s.isEmpty = false := by cases s <;> simp_all
      rw [this]
      by_cases h2 : s = d <;> simp [h2]
  have hds : defaultSpanEndpoint ≠ [] := by decide +kernel
  have hdm : defaultMetricEndpoint ≠ [] := by decide +kernel
  have h1 := hep c0.spanEndpoint _ hds
  have h2 := hep c0.metricEndpoint _ hdm
  rw [← hsn, ← and_assoc, ← htoken]
  show (if (c0.serviceName.isEmpty && !serviceNameSet (newResource w c0)) = true then some ConfigError.serviceName
    else if (accessToken { c0 with resource := newResource w c0, headers := h }).isEmpty = true then _ else none) ≠ none ↔ _
  by_cases c1 : (c0.serviceName.isEmpty && !serviceNameSet (newResource w c0)) = true
  · rw [if_pos c1]
    have : serviceNameSet (newResource w c0) = false ∧ c0.serviceName = [] := by simpa [and_comm] using c1
    simp [this]
  · rw [if_neg c1]
    have c1' : ¬ (serviceNameSet (newResource w c0) = false ∧ c0.serviceName = []) := by
      intro hx; apply c1; simp [hx]
    by_cases c2 : (accessToken { c0 with resource := newResource w c0, headers := h }).isEmpty = true
    · rw [if_pos c2]
      simp only [c1', c2, false_or, true_and]
      show (match checkEndpointDefault c0.spanEndpoint defaultSpanEndpoint with
        | some e => some e
        | none => checkEndpointDefault c0.metricEndpoint defaultMetricEndpoint) ≠ none ↔ _
      cases hc : checkEndpointDefault c0.spanEndpoint defaultSpanEndpoint with
      | some e =>
        have : c0.spanEndpoint = lit "ingest.lightstep.com:443" := h1.1 (by rw [hc]; simp)
        simp [this]
      | none =>
        have : c0.spanEndpoint ≠ lit "ingest.lightstep.com:443" := fun hx => h1.2 hx hc
        simp only [this, false_or]
        exact h2
    · rw [if_neg c2]
      simp [c1', c2]

/-- C47 (fails when metrics are disabled). Metrics are switched off and tracing goes to the user's own collector: no default endpoint is in use, yet the
configuration is rejected for lack of an access token. -/
theorem C47_metrics_disabled_fails : ∃ (w : World) (opts : List Opt), EnvResourceOk w.envResource ∧
    ∀ x, ∃ c eff, configure x w opts = some (c, eff) ∧ c.metricsEnabled = false ∧ c.spanEndpoint = lit "collector:4317" ∧
      c.serviceName = lit "svc" ∧ Rejected eff := by
  refine ⟨exWorld none [] [], [.serviceName (lit "svc"), .metricsEnabled false, .spanEndpoint (lit "collector:4317")],
    (exOk _ _), fun x => ?_⟩
  obtain ⟨c, eff, h1, h2⟩ := C47_rejected_partial x (exWorld none [] []) [.serviceName (lit "svc"), .metricsEnabled false, .spanEndpoint (lit "collector:4317")]
    (exOk _ _) List.Pairwise.nil
  obtain ⟨c', eff', h1', -, -, h3, -, h4, -, -, -, -, h5, -⟩ := C48_last_option_wins x (exWorld none [] [])
    [.serviceName (lit "svc"), .metricsEnabled false, .spanEndpoint (lit "collector:4317")]
  rw [h1] at h1'
  cases h1'
  exact ⟨c, eff, h1, h5, h4, h3, h2.2 (Or.inr (by decide +kernel))⟩

/-- With a token in the environment and a service name among the resource attributes a default configuration is accepted; without the token it is not. -/
example : (∃ c eff, configure exExt (exWorld none [] (lit "t")) [.resourceAttributes [(lit "service.name", lit "svc")]] = some (c, eff) ∧ ¬ Rejected eff) ∧
    (∃ c eff, configure exExt (exWorld none [] []) [.resourceAttributes [(lit "service.name", lit "svc")]] = some (c, eff) ∧ Rejected eff) := by
  constructor
  · obtain ⟨c, eff, h1, h2⟩ := C47_rejected_partial exExt (exWorld none [] (lit "t")) [.resourceAttributes [(lit "service.name", lit "svc")]]
      (exOk _ _) (List.pairwise_singleton _ _)
    exact ⟨c, eff, h1, by rw [h2]; decide +kernel⟩
  · obtain ⟨c, eff, h1, h2⟩ := C47_rejected_partial exExt (exWorld none [] []) [.resourceAttributes [(lit "service.name", lit "svc")]]
      (exOk _ _) (List.pairwise_singleton _ _)
    exact ⟨c, eff, h1, by rw [h2]; decide +kernel⟩

/-! ### C50: temporality preferences -/

theorem tempoOptions_spec (lower : Str → Str) (s : Str) :
    match prefName (lower s) with
    | some p => ∃ t, tempoOptions lower s = some t ∧ ∀ k, t k = documented p k
    | none => tempoOptions lower s = none := by
  have n1 := @lit_ne "delta" "cumulative" (by decide +kernel)
  have n2 := @lit_ne "delta" "stateless" (by decide +kernel)
  have n3 := @lit_ne "delta" "lowmemory" (by decide +kernel)
  have n4 := @lit_ne "stateless" "cumulative" (by decide +kernel)
  have n5 := @lit_ne "lowmemory" "cumulative" (by decide +kernel)
  have e1 : lit "delta" ≠ [] := by decide +kernel
  have e2 : lit "stateless" ≠ [] := by decide +kernel
  have e3 : lit "lowmemory" ≠ [] := by decide +kernel
  unfold prefName tempoOptions
  generalize lower s = l
  dsimp only
  by_cases h1 : l = lit "delta"
  · subst h1
    rw [if_neg (fun h => h.elim n1 e1), if_pos rfl, if_pos rfl]
    exact ⟨_, rfl, fun k => by cases k <;> rfl⟩
  · rw [if_neg h1, if_neg h1]
    by_cases h2 : l = lit "stateless" ∨ l = lit "lowmemory"
    · have : ¬ (l = lit "cumulative" ∨ l = []) := by
        rcases h2 with h' | h' <;> rw [h']
        · exact fun h => h.elim n4 e2
        · exact fun h => h.elim n5 e3
      rw [if_neg this, if_pos (Or.symm h2), if_pos h2]
      exact ⟨_, rfl, fun k => by cases k <;> rfl⟩
    · rw [if_neg h2]
      by_cases h3 : l = lit "cumulative" ∨ l = []
      · rw [if_pos h3, if_pos (Or.symm h3)]
        exact ⟨_, rfl, fun k => by cases k <;> rfl⟩
      · rw [if_neg h3, if_neg (fun h => h2 (Or.symm h)), if_neg (fun h => h3 (Or.symm h))]

/-- C50. A metrics pipeline that starts chooses, for every instrument kind, the temporality documented for its preference, whose name is matched
after conversion to lower case; a pipeline with any other preference name does not start. -/
theorem C50_preferences (x : Ext) (c : PipelineConfig) :
    (∀ c' p t b, newMetricsPipeline x c = .ok (.metrics c' p t b) →
      ∃ pref, prefName (x.lower c.tempoPref) = some pref ∧ ∀ k, t k = documented pref k) ∧
    (prefName (x.lower c.tempoPref) = none → ∀ pl, newMetricsPipeline x c ≠ .ok pl) := by
  have hs := tempoOptions_spec x.lower c.tempoPref
  constructor
  · intro c' p t b h
    unfold newMetricsPipeline at h
    cases hp : prefName (x.lower c.tempoPref) with
    | none =>
      rw [hp] at hs
      dsimp only at hs
      rw [hs] at h
      split at h <;> cases h
    | some pref =>
      rw [hp] at hs
      obtain ⟨t', h1, h2⟩ := hs
      rw [h1] at h
      split at h
      · cases h
      · dsimp only at h
        split at h
        · cases h; exact ⟨pref, rfl, h2⟩
        · cases h
  · intro hp pl h
    rw [hp] at hs
    dsimp only at hs
    unfold newMetricsPipeline at h
    rw [hs] at h
    split at h <;> cases h

/-- C50. Whatever the preference, the temporality of every kind is cumulative or delta, and never delta for up-down counters. -/
theorem C50_defined (x : Ext) (c c' : PipelineConfig) (p : Int) (t : IKind → Tempo) (b : List BuiltinEvent)
    (h : newMetricsPipeline x c = .ok (.metrics c' p t b)) :
    (∀ k, t k = .cumulative ∨ t k = .delta) ∧ t .syncUpDownCounter = .cumulative ∧ t .asyncUpDownCounter = .cumulative := by
  obtain ⟨pref, -, hk⟩ := (C50_preferences x c).1 c' p t b h
  refine ⟨fun k => ?_, ?_, ?_⟩
  · rw [hk]; cases pref <;> cases k <;> simp [documented]
  · rw [hk]; cases pref <;> rfl
  · rw [hk]; cases pref <;> rfl

theorem asksPeriod_iff (x : Ext) (s : Str) (p : Int) : reportingPeriod x s = some p ↔ AsksPeriod x s p := by
  unfold reportingPeriod AsksPeriod
  by_cases hs : s = []
  · simp [hs, eq_comm]
  · rw [if_neg hs]
    cases hq : x.parseDuration s with
    | none => simp [hs]
    | some q =>
      dsimp only
      by_cases h0 : q ≤ 0
      · rw [if_pos h0]
        constructor
        · intro h; cases h
        · rintro (⟨h, -⟩ | ⟨-, h, h1⟩)
          · exact absurd h hs
          · cases h; omega
      · rw [if_neg h0]
        constructor
        · intro h; cases h; exact Or.inr ⟨hs, rfl, by omega⟩
        · rintro (⟨h, -⟩ | ⟨-, h, -⟩)
          · exact absurd h hs
          · exact h

/-- C50. The preference is the only thing about temporality that can stop a pipeline: with a known preference name, a valid period and an exporter it starts. -/
theorem C50_accepted (x : Ext) (c : PipelineConfig) (p : Int) (hp : prefName (x.lower c.tempoPref) ≠ none) (hd : AsksPeriod x c.period p)
    (he : x.metricExporter c = true) : ∃ t b, newMetricsPipeline x c = .ok (.metrics c p t b) := by
  have hs := tempoOptions_spec x.lower c.tempoPref
  cases hp' : prefName (x.lower c.tempoPref) with
  | none => exact absurd hp' hp
  | some pref =>
    rw [hp'] at hs
    obtain ⟨t, h1, -⟩ := hs
    refine ⟨t, builtinLoop c.builtinsEnabled c.builtinLibs, ?_⟩
    unfold newMetricsPipeline
    rw [(asksPeriod_iff x c.period p).2 hd, h1]
    dsimp only
    rw [if_pos he]

/-- "LowMemory" is recognised, "deltas" is not. -/
example : prefName (exExt.lower (lit "LowMemory")) = some .lowmemory ∧ prefName (exExt.lower (lit "deltas")) = none :=
  ⟨by unfold prefName; rw [if_neg (by decide +kernel), if_neg (by decide +kernel), if_pos (by decide +kernel)],
   by unfold prefName; rw [if_neg (by decide +kernel), if_neg (by decide +kernel), if_neg (by decide +kernel)]⟩

/-! ### C51: propagators -/

theorem propagatorsMap_spec (k : Str) : match propagatorsMap k with
    | some p => p.name = k ∧ k ∈ propagatorNames
    | none => k ∉ propagatorNames := by
  unfold propagatorsMap propagatorNames
  by_cases h1 : k = lit "b3"
  · rw [if_pos h1]; exact ⟨h1.symm, by rw [h1]; simp⟩
  by_cases h2 : k = lit "baggage"
  · rw [if_neg h1, if_pos h2]; exact ⟨h2.symm, by rw [h2]; simp⟩
  by_cases h3 : k = lit "tracecontext"
  · rw [if_neg h1, if_neg h2, if_pos h3]; exact ⟨h3.symm, by rw [h3]; simp⟩
  by_cases h4 : k = lit "ottrace"
  · rw [if_neg h1, if_neg h2, if_neg h3, if_pos h4]; exact ⟨h4.symm, by rw [h4]; simp⟩
  rw [if_neg h1, if_neg h2, if_neg h3, if_neg h4]
  simp [h1, h2, h3, h4]

theorem propLoop_spec (names : List Str) (acc : List Propagator) :
    (propLoop names acc).map Propagator.name = acc.map Propagator.name ++ names.filter (fun n => decide (n ∈ propagatorNames)) := by
  induction names generalizing acc with
  | nil => simp [propLoop]
  | cons n rest ih =>
    rw [propLoop]
    have := propagatorsMap_spec n
    cases hp : propagatorsMap n with
    | none =>
      rw [hp] at this
      dsimp only at this ⊢
      rw [ih, List.filter_cons, if_neg (by simpa using this)]
    | some p =>
      rw [hp] at this
      dsimp only at this ⊢
      rw [ih, List.filter_cons, if_pos (by simpa using this.2)]
      simp [this.1]

/-- C51. Configuring propagation fails exactly when no name of the list is known; otherwise the propagators installed are those of the known names,
in the order of the list. -/
theorem C51_propagators (names : List Str) :
    (configurePropagators names = none ↔ ∀ n ∈ names, n ∉ propagatorNames) ∧
    (∀ ps, configurePropagators names = some ps → ps.map Propagator.name = names.filter (fun n => decide (n ∈ propagatorNames))) := by
  have h := propLoop_spec names []
  simp only [List.map_nil, List.nil_append] at h
  unfold configurePropagators
  dsimp only
  constructor
  · have hl := congrArg List.length h
    rw [List.length_map] at hl
    rw [hl]
    by_cases hz : (names.filter (fun n => decide (n ∈ propagatorNames))).length = 0
    · rw [if_pos hz]
      simp only [true_iff]
      rw [List.length_eq_zero_iff, List.filter_eq_nil_iff] at hz
      intro n hn
      simpa using hz n hn
    · rw [if_neg hz]
      simp only [reduceCtorEq, false_iff]
      intro hall
      apply hz
      rw [List.length_eq_zero_iff, List.filter_eq_nil_iff]
      intro n hn
      simpa using hall n hn
  · intro ps hps
    split at hps
    · cases hps
    · cases hps; exact h

/-- C51. As seen by a user of the launcher with tracing enabled: setup reports unsupported propagators exactly when none is known, and a trace pipeline that starts
has installed the known ones in order. -/
theorem C51_launcher (x : Ext) (w : World) (opts : List Opt) : ∃ c eff, configure x w opts = some (c, eff) ∧
    c.propagators = (lastSet propagatorsOf opts).getD w.env.propagators ∧
    (∀ pc ps, Effect.started (.trace pc ps) ∈ eff → ps.map Propagator.name = c.propagators.filter (fun n => decide (n ∈ propagatorNames))) ∧
    (c.spanEndpoint ≠ [] → (∀ pc, TraceOf c pc → x.traceExporter pc = true) →
      (Effect.fatal (.setup .propagators) ∈ eff ↔ ∀ n ∈ c.propagators, n ∉ propagatorNames)) := by
  obtain ⟨c0, h, a, hh, e⟩ := configure_spec x w opts
  generalize hc : ({ c0 with resource := newResource w c0, headers := h } : Config) = c at e
  have hcp : c.propagators = c0.propagators := by rw [← hc]
  obtain ⟨h1, h2⟩ := C51_propagators c.propagators
  refine ⟨c, _, e, hcp.trans a.propagators, ?_, ?_⟩
  · intro pc ps hm
    have hM : Effect.started (.trace pc ps) ∉ setupEffect (setupMetrics x c) := by
      unfold setupMetrics newMetricsPipeline
      (repeat' split) <;> simp [setupEffect, Except.map]
    have hT : Effect.started (.trace pc ps) ∈ setupEffect (setupTracing x c) := by
      unfold effectsOf at hm
      generalize validateConfiguration c = v at hm
      generalize c.errorHandler = o at hm
      cases hw : w.envError <;> cases v <;> cases o <;> simpa [hw, hM] using hm
    unfold setupTracing newTracePipeline at hT
    split at hT
    · simp [setupEffect] at hT
    · split at hT
      · have hpp : (traceConfig c).propagators = c.propagators := rfl
        rw [hpp] at hT
        split at hT
        · simp [setupEffect, Except.map] at hT
        · rename_i ps' hps
          simp only [setupEffect, Except.map, List.mem_singleton, Effect.started.injEq, Pipeline.trace.injEq] at hT
          rw [hT.2]
          exact h2 _ hps
      · simp [setupEffect, Except.map] at hT
  · intro hs hx
    have hM : Effect.fatal (.setup .propagators) ∉ setupEffect (setupMetrics x c) := by
      unfold setupMetrics newMetricsPipeline
      (repeat' split) <;> simp [setupEffect, Except.map]
    rw [← h1]
    have hT : setupEffect (setupTracing x c) = match configurePropagators c.propagators with
        | none => [Effect.fatal (.setup .propagators)]
        | some ps => [Effect.started (.trace (traceConfig c) ps)] := by
      unfold setupTracing newTracePipeline
      rw [if_neg hs, if_pos (hx _ ⟨rfl, rfl, rfl, rfl, rfl⟩)]
      show setupEffect (Except.map some (match configurePropagators c.propagators with
        | none => _
        | some ps => _)) = _
      cases configurePropagators c.propagators <;> rfl
    unfold effectsOf
    rw [hT]
    generalize validateConfiguration c = v
    generalize c.errorHandler = o
    cases configurePropagators c.propagators <;> cases hw : w.envError <;> cases v <;> cases o <;> simp [hM]

/-- Known names are kept in order, unknown ones skipped; a list of unknown names is an error. -/
example : configurePropagators [lit "tracecontext", lit "w3c", lit "b3"] = some [.tracecontext, .b3] ∧ configurePropagators [lit "w3c", lit "B3"] = none := by
  decide +kernel

/-! ### C56: pipelines started and stopped -/

/-- C56 (part: an empty metric endpoint does not disable metrics). What `Shutdown` stops is exactly what was started, each pipeline once, tracing before metrics: the trace pipeline when the span endpoint is
set and its exporter and propagators are accepted, the metrics pipeline when metrics are enabled and its period, preference and exporter are accepted;
with the configured endpoint, headers and resource. -/
theorem C56_pipelines_partial (x : Ext) (w : World) (opts : List Opt) : ∃ c eff tr me, configure x w opts = some (c, eff) ∧
    shutdownCalls eff = tr ++ me ∧ (∀ pl, Effect.started pl ∈ eff ↔ pl ∈ tr ++ me) ∧
    (∃ pc, TraceOf c pc ∧
      ((∃ ps, tr = [.trace pc ps] ∧ c.spanEndpoint ≠ [] ∧ x.traceExporter pc = true ∧ ∃ n ∈ c.propagators, n ∈ propagatorNames) ∨
        tr = [] ∧ (c.spanEndpoint = [] ∨ x.traceExporter pc = false ∨ ∀ n ∈ c.propagators, n ∉ propagatorNames))) ∧
    (∃ pc, MetricsOf c pc ∧
      ((∃ p t b, me = [.metrics pc p t b] ∧ c.metricsEnabled = true ∧ x.metricExporter pc = true ∧ prefName (x.lower c.tempoPref) ≠ none ∧
          AsksPeriod x c.period p) ∨
        me = [] ∧ (c.metricsEnabled = false ∨ x.metricExporter pc = false ∨ prefName (x.lower c.tempoPref) = none ∨
          ∀ p, ¬ AsksPeriod x c.period p))) := by
  obtain ⟨c0, h, a, hh, e⟩ := configure_spec x w opts
  generalize hc : ({ c0 with resource := newResource w c0, headers := h } : Config) = c at e
  have hcalls : shutdownCalls (effectsOf x w c) = shutdownCalls (setupEffect (setupTracing x c)) ++ shutdownCalls (setupEffect (setupMetrics x c)) := by
    unfold effectsOf shutdownCalls
    generalize validateConfiguration c = v
    generalize c.errorHandler = o
    cases hw : w.envError <;> cases v <;> cases o <;> simp [List.filterMap_append]
  refine ⟨c, _, shutdownCalls (setupEffect (setupTracing x c)), shutdownCalls (setupEffect (setupMetrics x c)), e, hcalls, ?_,
    ⟨traceConfig c, ⟨rfl, rfl, rfl, rfl, rfl⟩, ?_⟩, ⟨metricsConfig c, ⟨rfl, rfl, rfl, rfl, rfl, rfl, rfl, rfl⟩, ?_⟩⟩
  · intro pl
    rw [← hcalls]
    unfold shutdownCalls
    rw [List.mem_filterMap]
    constructor
    · intro hm; exact ⟨_, hm, rfl⟩
    · rintro ⟨ef, hm, hp⟩
      cases ef with
      | started q => cases hp; exact hm
      | fatal f => cases hp
      | errorHandler n => cases hp
  · unfold setupTracing
    by_cases hs : c.spanEndpoint = []
    · rw [if_pos hs]; exact Or.inr ⟨rfl, Or.inl hs⟩
    · rw [if_neg hs]
      unfold newTracePipeline
      by_cases hx : x.traceExporter (traceConfig c) = true
      · rw [if_pos hx]
        have hp := (C51_propagators c.propagators).1
        show (∃ ps, shutdownCalls (setupEffect (Except.map some (match configurePropagators c.propagators with
          | none => _
          | some ps => _))) = _ ∧ _) ∨ shutdownCalls (setupEffect (Except.map some (match configurePropagators c.propagators with
          | none => _
          | some ps => _))) = [] ∧ _
        cases hq : configurePropagators c.propagators with
        | none => exact Or.inr ⟨rfl, Or.inr (Or.inr (hp.1 hq))⟩
        | some ps =>
          refine Or.inl ⟨ps, rfl, hs, hx, ?_⟩
          apply Classical.byContradiction
          intro hno
          have : configurePropagators c.propagators = none := hp.2 (fun n hn hm => hno ⟨n, hn, hm⟩)
          rw [hq] at this; cases this
      · rw [if_neg hx]; exact Or.inr ⟨rfl, Or.inr (Or.inl (by simpa using hx))⟩
  · unfold setupMetrics
    by_cases hm : c.metricsEnabled = true
    · rw [if_pos hm]
      unfold newMetricsPipeline
      have hs := tempoOptions_spec x.lower c.tempoPref
      rw [show (metricsConfig c).period = c.period from rfl, show (metricsConfig c).tempoPref = c.tempoPref from rfl]
      cases hr : reportingPeriod x c.period with
      | none =>
        refine Or.inr ⟨rfl, Or.inr (Or.inr (Or.inr fun p hp => ?_))⟩
        rw [(asksPeriod_iff x c.period p).2 hp] at hr; cases hr
      | some p =>
        dsimp only
        cases hq : prefName (x.lower c.tempoPref) with
        | none =>
          rw [hq] at hs
          dsimp only at hs
          rw [hs]
          exact Or.inr ⟨rfl, Or.inr (Or.inr (Or.inl rfl))⟩
        | some pref =>
          rw [hq] at hs
          obtain ⟨t, ht, -⟩ := hs
          rw [ht]
          dsimp only
          by_cases hx : x.metricExporter (metricsConfig c) = true
          · rw [if_pos hx]
            exact Or.inl ⟨p, t, _, rfl, hm, hx, (fun h => nomatch h), (asksPeriod_iff x c.period p).1 hr⟩
          · rw [if_neg hx]; exact Or.inr ⟨rfl, Or.inr (Or.inl (by simpa using hx))⟩
    · rw [if_neg hm]; exact Or.inr ⟨rfl, Or.inl (by simpa using hm)⟩

/-- C56 (fails for an empty metric endpoint). An empty endpoint means disabled for tracing and for validation, but a metrics pipeline with an empty endpoint is started. -/
theorem C56_empty_endpoint_fails : ∃ (w : World) (opts : List Opt) (x : Ext) (c : Config) (eff : List Effect) (pc : PipelineConfig) (p : Int) (t : IKind → Tempo)
    (b : List BuiltinEvent), configure x w opts = some (c, eff) ∧ ¬ Rejected eff ∧ Effect.started (.metrics pc p t b) ∈ eff ∧ pc.endpoint = [] := by
  obtain ⟨c, eff, h1, h2⟩ := C47_rejected_partial exExt (exWorld none [] (lit "t")) [.serviceName (lit "s"), .metricEndpoint []] (exOk _ _) List.Pairwise.nil
  obtain ⟨c', eff', tr, me, h3, -, h4, -, pc, hpc, h6⟩ := C56_pipelines_partial exExt (exWorld none [] (lit "t")) [.serviceName (lit "s"), .metricEndpoint []]
  rw [h1] at h3
  cases h3
  obtain ⟨c', eff', h3, -, -, -, -, -, hme, -, -, htp, hen, -, -, -, -, hpe, -⟩ := C48_last_option_wins exExt (exWorld none [] (lit "t")) [.serviceName (lit "s"), .metricEndpoint []]
  rw [h1] at h3
  cases h3
  rcases h6 with ⟨p, t, b, h7, -⟩ | ⟨-, h7⟩
  · exact ⟨_, _, exExt, c, eff, pc, p, t, b, h1, by rw [h2]; decide +kernel, (h4 _).2 (by rw [h7]; simp), hpc.endpoint.trans hme⟩
  · exfalso
    rcases h7 with h7 | h7 | h7 | h7
    · rw [hen] at h7; cases h7
    · cases h7
    · rw [htp] at h7
      unfold prefName at h7
      rw [if_pos (by decide +kernel)] at h7
      cases h7
    · have hpe : c.period = lit "30s" := hpe.trans (by decide +kernel)
      exact h7 30000000000 (Or.inr (by rw [hpe]; decide +kernel))

/-! ### C57: built-in instrumentation -/

theorem cutByte_none (sep : UInt8) (s : Str) (h : sep ∉ s) : cutByte sep s = (s, []) := by
  induction s with
  | nil => rfl
  | cons b l ih =>
    rw [cutByte, if_neg (fun e => h (by simp [e]))]
    rw [ih (fun hm => h (List.mem_cons_of_mem _ hm))]

theorem cutByte_some (sep : UInt8) (s t : Str) (h : sep ∉ s) : cutByte sep (s ++ sep :: t) = (s, t) := by
  induction s with
  | nil => rw [List.nil_append, cutByte, if_pos rfl]
  | cons b l ih =>
    rw [List.cons_append, cutByte, if_neg (fun e => h (by simp [e]))]
    rw [ih (fun hm => h (List.mem_cons_of_mem _ hm))]

/-- C57. Each entry of the built-in libraries is a name, optionally followed by ":" and a version. A known name with no version or version "stable" starts exactly its
libraries; an unknown name, or another version, is reported and starts nothing. -/
theorem C57_entry (name ver : Str) (h : (58 : UInt8) ∉ name) :
    builtinEntry (name ++ 58 :: lit "stable") = builtinEntry name ∧ builtinEntry (name ++ [58]) = builtinEntry name ∧
    (name = lit "all" → builtinEntry name = [.start .host, .start .runtime, .start .cputime]) ∧
    (name = lit "host" → builtinEntry name = [.start .host]) ∧
    (name = lit "runtime" → builtinEntry name = [.start .runtime]) ∧
    (name = lit "cputime" → builtinEntry name = [.start .cputime]) ∧
    (name ∈ [lit "all", lit "host", lit "runtime", lit "cputime"] → ver ≠ [] → ver ≠ lit "stable" →
      builtinEntry (name ++ 58 :: ver) = [.unknownVersion name ver]) ∧
    (name ∉ [lit "all", lit "host", lit "runtime", lit "cputime"] →
      builtinEntry (name ++ 58 :: ver) = [.unknownName name] ∧ builtinEntry name = [.unknownName name]) := by
  have e1 : cutByte 58 (name ++ 58 :: lit "stable") = (name, lit "stable") := cutByte_some _ _ _ h
  have e2 : cutByte 58 (name ++ [58]) = (name, []) := cutByte_some _ _ _ h
  have e3 : cutByte 58 name = (name, []) := cutByte_none _ _ h
  have e4 : cutByte 58 (name ++ 58 :: ver) = (name, ver) := cutByte_some _ _ _ h
  refine ⟨?_, ?_, ?_, ?_, ?_, ?_, ?_, ?_⟩
  · unfold builtinEntry
    rw [e1, e3]
    dsimp only
    rw [if_neg (by decide +kernel), if_pos rfl]
    rfl
  · unfold builtinEntry
    rw [e2, e3]
  · intro hn; subst hn; decide +kernel
  · intro hn; subst hn; decide +kernel
  · intro hn; subst hn; decide +kernel
  · intro hn; subst hn; decide +kernel
  · intro hn h1 h2
    unfold builtinEntry
    rw [e4]
    dsimp only
    rw [if_neg h1]
    have hk : ∃ fs, builtinNames name = some fs := by
      simp only [List.mem_cons, List.not_mem_nil, or_false] at hn
      rcases hn with rfl | rfl | rfl | rfl
      · exact ⟨[.host, .runtime, .cputime], by decide +kernel⟩
      · exact ⟨[.host], by decide +kernel⟩
      · exact ⟨[.runtime], by decide +kernel⟩
      · exact ⟨[.cputime], by decide +kernel⟩
    obtain ⟨fs, hf⟩ := hk
    rw [hf]
    dsimp only
    exact if_neg h2
  · intro hn
    simp only [List.mem_cons, List.not_mem_nil, or_false, not_or] at hn
    have : builtinNames name = none := by unfold builtinNames; rw [if_neg hn.1, if_neg hn.2.2.2, if_neg hn.2.1, if_neg hn.2.2.1]
    unfold builtinEntry
    rw [e4, e3]
    dsimp only
    rw [this]
    exact ⟨rfl, rfl⟩

/-- C57. Entries are handled one after the other in the order of the list, each on its own; nothing happens when built-in metrics are switched off. -/
theorem C57_order (a b : List Str) (e : Str) :
    builtinLoop true (a ++ e :: b) = builtinLoop true a ++ (builtinEntry e ++ builtinLoop true b) ∧
    builtinLoop true [] = [] ∧ ∀ libs, builtinLoop false libs = [] := by
  simp [builtinLoop]

/-- The default, a repeated library, an unknown name and an unknown version. -/
example : builtinLoop true [lit "all:stable", lit "host", lit "disk", lit "host:v9"] =
    [.start .host, .start .runtime, .start .cputime, .start .host, .unknownName (lit "disk"), .unknownVersion (lit "host") (lit "v9")] := by
  decide +kernel

end Verif.Launcher
