import Verif.Spec.Launcher
import Verif.Proof.Attr

/-!
Lemmas about the launcher's configuration.
-/

namespace Verif.Launcher
open Verif.Attr Verif.Views Verif.Front

theorem lastSet_nil {α : Type} (sel : Opt → Option α) : lastSet sel [] = none := rfl

theorem lastSet_cons {α : Type} (sel : Opt → Option α) (o : Opt) (r : List Opt) :
    lastSet sel (o :: r) = (lastSet sel r).or (sel o) := by
  unfold lastSet
  rw [List.reverse_cons, List.findSome?_append]
  cases hs : sel o <;> simp [hs]

theorem entry_cons (k : Str) (e : Str × Str) (l : List (Str × Str)) :
    entry k (e :: l) = (entry k l).or (if e.1 = k then some e.2 else none) := by
  unfold entry
  rw [List.reverse_cons, List.find?_append]
  cases hf : List.find? (fun x => x.1 == k) l.reverse with
  | some y => simp
  | none => by_cases h : e.1 = k <;> simp [h]

theorem writeAll_spec (f : Str → Option Str) (l : List (Str × Str)) :
    ∃ f', writeAll (some f) l = some (some f') ∧ ∀ k, f' k = (entry k l).or (f k) := by
  induction l generalizing f with
  | nil => exact ⟨f, rfl, fun k => by simp [entry]⟩
  | cons e l ih =>
    obtain ⟨k0, v0⟩ := e
    obtain ⟨f', h1, h2⟩ := ih (fun j => if j = k0 then some v0 else f j)
    refine ⟨f', h1, fun k => ?_⟩
    rw [h2 k, entry_cons]
    dsimp only
    by_cases h : k = k0
    · subst h; cases entry k l <;> simp
    · have : ¬ k0 = k := fun e => h e.symm
      cases entry k l <;> simp [h, this]

theorem header_ensure (m : HMap) : ∃ f, m.ensure = some f ∧ ∀ k, f k = m.bind (fun g => g k) := by
  cases m with
  | none => exact ⟨fun _ => none, rfl, fun _ => rfl⟩
  | some f => exact ⟨f, rfl, fun _ => rfl⟩

/-- What holds after applying options. -/
structure Applied (c c' : Config) (hdr : Str → Option Str) (sel : {α : Type} → (Opt → Option α) → Option α) : Prop where
  headers : ∀ k, c'.header k = (hdr k).or (c.header k)
  serviceName : c'.serviceName = (sel serviceNameOf).getD c.serviceName
  serviceVersion : c'.serviceVersion = (sel serviceVersionOf).getD c.serviceVersion
  spanEndpoint : c'.spanEndpoint = (sel spanEndpointOf).getD c.spanEndpoint
  metricEndpoint : c'.metricEndpoint = (sel metricEndpointOf).getD c.metricEndpoint
  spanInsecure : c'.spanInsecure = (sel spanInsecureOf).getD c.spanInsecure
  metricInsecure : c'.metricInsecure = (sel metricInsecureOf).getD c.metricInsecure
  tempoPref : c'.tempoPref = (sel tempoPrefOf).getD c.tempoPref
  metricsEnabled : c'.metricsEnabled = (sel metricsEnabledOf).getD c.metricsEnabled
  builtinsEnabled : c'.builtinsEnabled = (sel builtinsEnabledOf).getD c.builtinsEnabled
  builtinLibs : c'.builtinLibs = (sel builtinLibsOf).getD c.builtinLibs
  logLevel : c'.logLevel = (sel logLevelOf).getD c.logLevel
  propagators : c'.propagators = (sel propagatorsOf).getD c.propagators
  period : c'.period = (sel periodOf).getD c.period
  resourceAttrs : c'.resourceAttrs = (sel resourceAttrsOf).getD c.resourceAttrs
  logger : c'.logger = (sel loggerOf).getD c.logger
  errorHandler : c'.errorHandler = (sel errorHandlerOf).getD c.errorHandler

theorem apply_spec (o : Opt) (c : Config) : ∃ c', o.apply c = some c' ∧ Applied c c' (fun k => headerOf k o) (fun sel => sel o) := by
  cases o with
  | accessToken t =>
    obtain ⟨f, h1, h2⟩ := header_ensure c.headers
    refine ⟨_, by unfold Opt.apply; dsimp only; rw [h1]; exact rfl, ?_⟩
    constructor
    · intro k
      show (if k = tokenHeader then some t else f k) = _
      rw [h2]
      by_cases h : k = tokenHeader
      · have : headerOf k (.accessToken t) = some t := by unfold headerOf; exact if_pos h
        rw [this, if_pos h]; rfl
      · have : headerOf k (.accessToken t) = none := by unfold headerOf; exact if_neg h
        rw [this, if_neg h]; rfl
    all_goals rfl
  | headers l =>
    obtain ⟨f, h1, h2⟩ := header_ensure c.headers
    obtain ⟨f', h3, h4⟩ := writeAll_spec f l
    refine ⟨_, by unfold Opt.apply; dsimp only; rw [h1, h3]; exact rfl, ?_⟩
    constructor
    · intro k
      show f' k = _
      rw [h4, h2]
      rfl
    all_goals rfl
  | _ =>
    refine ⟨_, rfl, ?_⟩
    constructor
    all_goals first | rfl | (intro k; rfl)

theorem getD_or {α : Type} (a b : Option α) (x : α) : (a.or b).getD x = a.getD (b.getD x) := by cases a <;> rfl

theorem applyAll_spec (opts : List Opt) (c : Config) :
    ∃ c', applyAll c opts = some c' ∧ Applied c c' (fun k => lastSet (headerOf k) opts) (fun sel => lastSet sel opts) := by
  induction opts generalizing c with
  | nil => exact ⟨c, rfl, by constructor <;> first | rfl | (intro k; rfl)⟩
  | cons o r ih =>
    obtain ⟨c1, h1, a1⟩ := apply_spec o c
    obtain ⟨c2, h2, a2⟩ := ih c1
    refine ⟨c2, by rw [applyAll, h1]; exact h2, ?_⟩
    constructor
    · intro k; rw [a2.headers, a1.headers, lastSet_cons, Option.or_assoc]
    · rw [a2.serviceName, a1.serviceName, lastSet_cons, getD_or]
    · rw [a2.serviceVersion, a1.serviceVersion, lastSet_cons, getD_or]
    · rw [a2.spanEndpoint, a1.spanEndpoint, lastSet_cons, getD_or]
    · rw [a2.metricEndpoint, a1.metricEndpoint, lastSet_cons, getD_or]
    · rw [a2.spanInsecure, a1.spanInsecure, lastSet_cons, getD_or]
    · rw [a2.metricInsecure, a1.metricInsecure, lastSet_cons, getD_or]
    · rw [a2.tempoPref, a1.tempoPref, lastSet_cons, getD_or]
    · rw [a2.metricsEnabled, a1.metricsEnabled, lastSet_cons, getD_or]
    · rw [a2.builtinsEnabled, a1.builtinsEnabled, lastSet_cons, getD_or]
    · rw [a2.builtinLibs, a1.builtinLibs, lastSet_cons, getD_or]
    · rw [a2.logLevel, a1.logLevel, lastSet_cons, getD_or]
    · rw [a2.propagators, a1.propagators, lastSet_cons, getD_or]
    · rw [a2.period, a1.period, lastSet_cons, getD_or]
    · rw [a2.resourceAttrs, a1.resourceAttrs, lastSet_cons, getD_or]
    · rw [a2.logger, a1.logger, lastSet_cons, getD_or]
    · rw [a2.errorHandler, a1.errorHandler, lastSet_cons, getD_or]

/-! ### The resource -/

theorem explicitLoop_eq (l : List (Str × Str)) (attrs : List KV) (hs : Bool) :
    explicitLoop l (attrs, hs) =
      (attrs ++ (l.filter (fun e => !e.2.isEmpty)).map (fun e => strKV e.1 e.2),
       hs || l.any (fun e => !e.2.isEmpty && e.1 == hostKey)) := by
  induction l generalizing attrs hs with
  | nil => simp [explicitLoop]
  | cons e l ih =>
    obtain ⟨k, v⟩ := e
    rw [explicitLoop]
    by_cases h : v.isEmpty
    · rw [if_pos h, ih]; simp [h]
    · rw [if_neg h, ih]; simp [h, Bool.or_assoc]

theorem lastValue_append (k : Str) (a b : List KV) : lastValue k (a ++ b) = (lastValue k b).or (lastValue k a) := by
  unfold lastValue
  rw [List.reverse_append, List.find?_append]
  cases List.find? (fun kv => kv.key == k) b.reverse <;> rfl

theorem lastValue_nil (k : Str) : lastValue k [] = none := rfl

theorem lastValue_cons (k : Str) (x : KV) (l : List KV) :
    lastValue k (x :: l) = (lastValue k l).or (if x.key = k then some x.val else none) := by
  rw [show x :: l = [x] ++ l from rfl, lastValue_append]
  congr 1
  unfold lastValue
  by_cases h : x.key = k <;> simp [h]

theorem lastValue_eq_get (k : Str) (l : List KV) (hd : l.Pairwise (fun x y => x.key ≠ y.key)) : lastValue k l = Attr.get k l := by
  induction l with
  | nil => rfl
  | cons x l ih =>
    rw [List.pairwise_cons] at hd
    rw [lastValue_cons, ih hd.2]
    unfold Attr.get
    by_cases h : x.key = k
    · have : List.find? (fun kv => kv.key == k) l = none := by
        apply List.find?_eq_none.2
        intro y hy
        have := hd.1 y hy
        simp only [beq_iff_eq]
        intro e; exact this (h.trans e.symm)
      simp [this, h]
    · simp [h]

theorem lastValue_filter (k : Str) (l : List KV) (hk : k ≠ []) (hv : ∀ kv ∈ l, kv.val ≠ .invalid) :
    lastValue k (l.filter validKV) = lastValue k l := by
  induction l with
  | nil => rfl
  | cons x l ih =>
    have hx := hv x List.mem_cons_self
    have ih := ih (fun kv h => hv kv (List.mem_cons_of_mem _ h))
    rw [List.filter_cons]
    by_cases h : validKV x
    · rw [if_pos h, lastValue_cons, lastValue_cons, ih]
    · rw [if_neg h, lastValue_cons, ih]
      have : x.key ≠ k := by
        intro e
        apply h
        have hne : x.key ≠ [] := fun e' => hk (e ▸ e')
        simp [validKV, hx, hne]
      rw [if_neg this]; simp

theorem entry_none {k : Str} {l : List (Str × Str)} (h : ∀ e ∈ l, e.1 ≠ k) : entry k l = none := by
  unfold entry
  have : List.find? (fun e => e.1 == k) l.reverse = none :=
    List.find?_eq_none.2 (fun e he => by simp [h e (List.mem_reverse.1 he)])
  rw [this]; rfl

/-- Entries of a Go map: distinct keys. -/
theorem lastValue_explicit (k : Str) (l : List (Str × Str)) (hd : l.Pairwise (fun x y => x.1 ≠ y.1)) :
    lastValue k ((l.filter (fun e => !e.2.isEmpty)).map (fun e => strKV e.1 e.2)) = (given (entry k l)).map .str := by
  induction l with
  | nil => rfl
  | cons e l ih =>
    rw [List.pairwise_cons] at hd
    have ih := ih hd.2
    rw [entry_cons, List.filter_cons]
    by_cases hk : e.1 = k
    · have h0 : entry k l = none := entry_none (fun y hy => fun e' => hd.1 y hy (hk.trans e'.symm))
      rw [h0] at ih ⊢
      by_cases hv : e.2.isEmpty
      · have : (e.2.isEmpty = true) := hv
        simp only [this, Bool.not_true, Bool.false_eq_true, if_false]
        rw [ih]; simp [given, hk, this]
      · have hv' : e.2.isEmpty = false := by simpa using hv
        simp only [hv', Bool.not_false, if_true, List.map_cons]
        rw [lastValue_cons, ih]
        simp [given, strKV, hk, hv']
    · by_cases hv : e.2.isEmpty
      · simp only [hv, Bool.not_true, Bool.false_eq_true, if_false]
        rw [ih]; simp [hk]
      · have hv' : e.2.isEmpty = false := by simpa using hv
        simp only [hv', Bool.not_false, if_true, List.map_cons]
        rw [lastValue_cons, ih]
        simp [strKV, hk]

theorem envHostSet_eq {r : List KV} (h : EnvResourceOk r) :
    envHostSet r = (given ((Attr.get hostKey r).bind textOf)).isSome := by
  unfold envHostSet
  obtain ⟨hk, hn, ht⟩ := h
  induction r with
  | nil => rfl
  | cons x l ih =>
    rw [List.pairwise_cons] at hk
    have ih := ih hk.2 (fun kv h => hn kv (List.mem_cons_of_mem _ h)) (fun kv h => ht kv (List.mem_cons_of_mem _ h))
    obtain ⟨s, hs⟩ := ht x List.mem_cons_self
    rw [List.any_cons]
    by_cases h : x.key = hostKey
    · have hl : l.any (fun kv => kv.key == hostKey && !(emit kv.val).isEmpty) = false := by
        apply List.any_eq_false.2
        intro y hy
        have := hk.1 y hy
        rw [h] at this
        simp [this.symm]
      rw [hl]
      unfold Attr.get
      simp only [List.find?_cons, h, beq_self_eq_true, Option.map_some, Option.bind_some, hs, textOf, emit, given]
      cases s <;> rfl
    · rw [ih]
      unfold Attr.get
      have : (x.key == hostKey) = false := by simpa using h
      simp only [List.find?_cons, this, Bool.false_and, Bool.false_or]

theorem any_host (l : List (Str × Str)) (hd : l.Pairwise (fun x y => x.1 ≠ y.1)) (k : Str) :
    l.any (fun e => !e.2.isEmpty && e.1 == k) = (given (entry k l)).isSome := by
  induction l with
  | nil => rfl
  | cons e l ih =>
    rw [List.pairwise_cons] at hd
    rw [List.any_cons, ih hd.2, entry_cons]
    by_cases hk : e.1 = k
    · have h0 : entry k l = none := entry_none (fun y hy => fun e' => hd.1 y hy (hk.trans e'.symm))
      rw [h0, if_pos hk]
      cases hv : e.2.isEmpty <;> simp [given, hv, hk]
    · rw [if_neg hk]; simp [hk]

/-- Two literals that differ. -/
theorem lit_ne {a b : String} (h : (lit a == lit b) = false) : lit a ≠ lit b := by simpa using h

set_option linter.unusedSimpArgs false in
theorem lastValue_own (version name ver : Str) (k : Str) :
    lastValue k (telemetryAttrs version ++
      ((if name.isEmpty then [] else [strKV serviceNameKey name]) ++ (if ver.isEmpty then [] else [strKV serviceVersionKey ver]))) =
    (if k = lit "telemetry.sdk.name" then some (lit "launcher")
      else if k = lit "telemetry.sdk.language" then some (lit "go")
      else if k = lit "telemetry.sdk.version" then some version
      else if k = lit "telemetry.distro.name" then some (lit "lightstep")
      else if k = lit "telemetry.distro.version" then some version
      else if k = lit "service.name" then given (some name)
      else if k = lit "service.version" then given (some ver)
      else none).map .str := by
  have n12 := @lit_ne "telemetry.sdk.name" "telemetry.sdk.language" (by decide +kernel)
  have n13 := @lit_ne "telemetry.sdk.name" "telemetry.sdk.version" (by decide +kernel)
  have n14 := @lit_ne "telemetry.sdk.name" "telemetry.distro.name" (by decide +kernel)
  have n15 := @lit_ne "telemetry.sdk.name" "telemetry.distro.version" (by decide +kernel)
  have n16 := @lit_ne "telemetry.sdk.name" "service.name" (by decide +kernel)
  have n17 := @lit_ne "telemetry.sdk.name" "service.version" (by decide +kernel)
  have n23 := @lit_ne "telemetry.sdk.language" "telemetry.sdk.version" (by decide +kernel)
  have n24 := @lit_ne "telemetry.sdk.language" "telemetry.distro.name" (by decide +kernel)
  have n25 := @lit_ne "telemetry.sdk.language" "telemetry.distro.version" (by decide +kernel)
  have n26 := @lit_ne "telemetry.sdk.language" "service.name" (by decide +kernel)
  have n27 := @lit_ne "telemetry.sdk.language" "service.version" (by decide +kernel)
  have n34 := @lit_ne "telemetry.sdk.version" "telemetry.distro.name" (by decide +kernel)
  have n35 := @lit_ne "telemetry.sdk.version" "telemetry.distro.version" (by decide +kernel)
  have n36 := @lit_ne "telemetry.sdk.version" "service.name" (by decide +kernel)
  have n37 := @lit_ne "telemetry.sdk.version" "service.version" (by decide +kernel)
  have n45 := @lit_ne "telemetry.distro.name" "telemetry.distro.version" (by decide +kernel)
  have n46 := @lit_ne "telemetry.distro.name" "service.name" (by decide +kernel)
  have n47 := @lit_ne "telemetry.distro.name" "service.version" (by decide +kernel)
  have n56 := @lit_ne "telemetry.distro.version" "service.name" (by decide +kernel)
  have n57 := @lit_ne "telemetry.distro.version" "service.version" (by decide +kernel)
  have n67 := @lit_ne "service.name" "service.version" (by decide +kernel)
  unfold telemetryAttrs serviceNameKey serviceVersionKey
  rw [lastValue_append, lastValue_append]
  simp only [lastValue_cons, lastValue_nil, strKV]
  generalize lit "telemetry.sdk.name" = a1 at *
  generalize lit "telemetry.sdk.language" = a2 at *
  generalize lit "telemetry.sdk.version" = a3 at *
  generalize lit "telemetry.distro.name" = a4 at *
  generalize lit "telemetry.distro.version" = a5 at *
  generalize lit "service.name" = a6 at *
  generalize lit "service.version" = a7 at *
  have hs : ∀ (key v : Str), lastValue k (if v.isEmpty then [] else [{ key := key, val := .str v : KV }]) =
      if key = k then (given (some v)).map .str else none := by
    intro key v
    unfold given
    dsimp only
    by_cases hv : v.isEmpty
    · rw [if_pos hv, if_pos hv, lastValue_nil]; by_cases h : key = k <;> simp [h]
    · rw [if_neg hv, if_neg hv, lastValue_cons, lastValue_nil]; rfl
  rw [hs, hs]
  clear hs
  by_cases h1 : k = a1
  · subst h1; simp [n12, n13, n14, n15, n16, n17, Ne.symm n12, Ne.symm n13, Ne.symm n14, Ne.symm n15, Ne.symm n16, Ne.symm n17]
  by_cases h2 : k = a2
  · subst h2; simp [n23, n24, n25, n26, n27, Ne.symm n12, Ne.symm n23, Ne.symm n24, Ne.symm n25, Ne.symm n26, Ne.symm n27]
  by_cases h3 : k = a3
  · subst h3; simp [Ne.symm n13, Ne.symm n23, Ne.symm n34, Ne.symm n35, Ne.symm n36, Ne.symm n37, n34, n35, n36, n37]
  by_cases h4 : k = a4
  · subst h4; simp [Ne.symm n14, Ne.symm n24, Ne.symm n34, Ne.symm n45, Ne.symm n46, Ne.symm n47, n45, n46, n47]
  by_cases h5 : k = a5
  · subst h5; simp [Ne.symm n15, Ne.symm n25, Ne.symm n35, Ne.symm n45, Ne.symm n56, Ne.symm n57, n56, n57]
  by_cases h6 : k = a6
  · subst h6; simp [Ne.symm n16, Ne.symm n26, Ne.symm n36, Ne.symm n46, Ne.symm n56, Ne.symm n67, n67, n16, n26, n36, n46, n56]
  by_cases h7 : k = a7
  · subst h7; simp [Ne.symm n17, Ne.symm n27, Ne.symm n37, Ne.symm n47, Ne.symm n57, Ne.symm n67, n17, n27, n37, n47, n57, n67]
  simp [h1, h2, h3, h4, h5, h6, h7, Ne.symm h1, Ne.symm h2, Ne.symm h3, Ne.symm h4, Ne.symm h5, Ne.symm h6, Ne.symm h7]

/-- Everything known about a successful `newConfig`. -/
theorem newConfig_spec (w : World) (opts : List Opt) : ∃ c, newConfig w opts = some { c with resource := newResource w c } ∧
    Applied { w.env with logger := w.defaultLogger, errorHandler := some w.defaultHandler } c
      (fun k => lastSet (headerOf k) opts) (fun sel => lastSet sel opts) := by
  obtain ⟨c, h1, h2⟩ := applyAll_spec opts { w.env with logger := w.defaultLogger, errorHandler := some w.defaultHandler }
  exact ⟨c, by rw [newConfig, h1]; rfl, h2⟩

theorem read_eq (m : HMap) (k : Str) : m.read k = (m.bind (fun f => f k)).getD [] := by cases m <;> rfl

/-- The headers after considering the environment's token. -/
theorem tokenHeaders_spec (w : World) (m : HMap) : ∃ h, tokenHeaders w m = some h ∧
    ∀ k, h.bind (fun f => f k) =
      if k = tokenHeader ∧ w.lsToken ≠ [] ∧ (m.bind (fun f => f tokenHeader)).getD [] = [] then some w.lsToken
      else m.bind (fun f => f k) := by
  obtain ⟨f, h1, h2⟩ := header_ensure m
  unfold tokenHeaders
  rw [h1, read_eq, Option.bind_some, h2]
  by_cases h : w.lsToken ≠ [] ∧ (m.bind (fun f => f tokenHeader)).getD [] = []
  · rw [if_pos h]
    refine ⟨_, rfl, fun k => ?_⟩
    rw [Option.bind_some]
    dsimp only
    by_cases hk : k = tokenHeader
    · rw [if_pos hk, if_pos ⟨hk, h⟩]
    · rw [if_neg hk, if_neg (fun h' => hk h'.1)]; exact h2 k
  · rw [if_neg h]
    refine ⟨_, rfl, fun k => ?_⟩
    rw [Option.bind_some, if_neg (fun h' => h h'.2)]; exact h2 k

/-- The effects of a configuration. -/
def effectsOf (x : Ext) (w : World) (c : Config) : List Effect :=
  (if w.envError then [.fatal .environment] else []) ++
    (match validateConfiguration c with
      | some e => [.fatal (.configuration e)]
      | none => []) ++
    (match c.errorHandler with
      | some h => [.errorHandler h]
      | none => []) ++
    (setupEffect (setupTracing x c) ++ setupEffect (setupMetrics x c))

theorem configure_spec (x : Ext) (w : World) (opts : List Opt) : ∃ c0 h,
    Applied { w.env with logger := w.defaultLogger, errorHandler := some w.defaultHandler } c0
      (fun k => lastSet (headerOf k) opts) (fun sel => lastSet sel opts) ∧
    (∀ k, h.bind (fun f => f k) =
      if k = tokenHeader ∧ w.lsToken ≠ [] ∧ (c0.header tokenHeader).getD [] = [] then some w.lsToken
      else c0.header k) ∧
    configure x w opts = some ({ c0 with resource := newResource w c0, headers := h },
      effectsOf x w { c0 with resource := newResource w c0, headers := h }) := by
  obtain ⟨c, h1, h2⟩ := newConfig_spec w opts
  obtain ⟨h, h3, h4⟩ := tokenHeaders_spec w c.headers
  refine ⟨c, h, h2, h4, ?_⟩
  unfold configure
  rw [h1, Option.bind_some]
  dsimp only
  rw [h3]
  rfl

/-- The resource, key by key. -/
theorem get_newResource (w : World) (c : Config) (hw : EnvResourceOk w.envResource)
    (hd : c.resourceAttrs.Pairwise (fun x y => x.1 ≠ y.1)) (k : Str) (hk : k ≠ []) :
    Attr.get k (newResource w c) =
      ((if k = hostKey ∧ given (entry k c.resourceAttrs) = none ∧ given (envAttr w k) = none then w.hostname else none).or
        ((given (entry k c.resourceAttrs)).or
          ((if k = lit "telemetry.sdk.name" then some (lit "launcher")
            else if k = lit "telemetry.sdk.language" then some (lit "go")
            else if k = lit "telemetry.sdk.version" then some w.version
            else if k = lit "telemetry.distro.name" then some (lit "lightstep")
            else if k = lit "telemetry.distro.version" then some w.version
            else if k = lit "service.name" then given (some c.serviceName)
            else if k = lit "service.version" then given (some c.serviceVersion)
            else none).or (envAttr w k)))).map .str := by
  unfold newResource
  dsimp only
  rw [get_newSet, explicitLoop_eq]
  dsimp only
  rw [lastValue_filter k _ hk]
  · rw [lastValue_append, lastValue_append, lastValue_append, lastValue_explicit k _ hd]
    unfold serviceAttrs
    rw [lastValue_own, lastValue_eq_get k _ hw.keys, envHostSet_eq hw, any_host _ hd]
    have henv : Attr.get k w.envResource = (envAttr w k).map .str := by
      unfold envAttr
      cases hg : Attr.get k w.envResource with
      | none => rfl
      | some v =>
        unfold Attr.get at hg
        cases hf : List.find? (fun kv => kv.key == k) w.envResource with
        | none => rw [hf] at hg; cases hg
        | some kv =>
          rw [hf] at hg
          cases hg
          obtain ⟨s, hs⟩ := hw.text kv (List.mem_of_find?_eq_some hf)
          dsimp only; rw [hs]; rfl
    have hhost : lastValue k (hostAttrs ((given ((Attr.get hostKey w.envResource).bind textOf)).isSome ||
        (given (entry hostKey c.resourceAttrs)).isSome) w.hostname) =
        (if k = hostKey ∧ given (entry k c.resourceAttrs) = none ∧ given (envAttr w k) = none then w.hostname else none).map .str := by
      unfold hostAttrs
      by_cases hkh : k = hostKey
      · subst hkh
        show lastValue hostKey (if ((given (envAttr w hostKey)).isSome || (given (entry hostKey c.resourceAttrs)).isSome) = true then [] else _) = _
        cases given (envAttr w hostKey) with
        | some a => simp [lastValue_nil]
        | none =>
          cases given (entry hostKey c.resourceAttrs) with
          | some a => simp [lastValue_nil]
          | none =>
            cases w.hostname with
            | none => simp [lastValue_nil]
            | some n => simp [lastValue_cons, lastValue_nil, strKV]
      · have : ∀ (b : Bool), lastValue k (hostAttrs b w.hostname) = none := by
          intro b
          unfold hostAttrs
          cases b with
          | true => rfl
          | false =>
            cases w.hostname with
            | none => rfl
            | some n => simp [lastValue_cons, lastValue_nil, strKV, Ne.symm hkh]
        refine (this _).trans ?_
        simp [hkh]
    rw [hhost, henv]
    generalize (if k = hostKey ∧ given (entry k c.resourceAttrs) = none ∧ given (envAttr w k) = none then w.hostname else none) = a
    generalize given (entry k c.resourceAttrs) = b
    generalize (if k = lit "telemetry.sdk.name" then some (lit "launcher")
            else if k = lit "telemetry.sdk.language" then some (lit "go")
            else if k = lit "telemetry.sdk.version" then some w.version
            else if k = lit "telemetry.distro.name" then some (lit "lightstep")
            else if k = lit "telemetry.distro.version" then some w.version
            else if k = lit "service.name" then given (some c.serviceName)
            else if k = lit "service.version" then given (some c.serviceVersion)
            else none) = d
    generalize envAttr w k = e
    cases a <;> cases b <;> cases d <;> cases e <;> rfl
  · intro kv hkv
    simp only [List.mem_append, List.mem_map] at hkv
    rcases hkv with h | ⟨h | ⟨e, _, rfl⟩⟩ | h
    · obtain ⟨s, hs⟩ := hw.text kv h
      rw [hs]; exact fun h => by cases h
    · rcases h with h | h
      · unfold telemetryAttrs at h
        simp only [List.mem_cons, List.not_mem_nil, or_false] at h
        rcases h with rfl | rfl | rfl | rfl | rfl <;> exact fun h => by cases h
      · unfold serviceAttrs at h
        rcases List.mem_append.1 h with h | h <;> split at h <;> simp at h <;> subst h <;> exact fun h => by cases h
    · exact fun h => by cases h
    · unfold hostAttrs at h
      split at h
      · cases h
      · split at h
        · cases h
        · simp only [List.mem_singleton] at h; subst h; exact fun h => by cases h

theorem serviceNameSet_eq (r : List KV) : serviceNameSet r = (given ((Attr.get serviceNameKey r).map asString)).isSome := by
  induction r with
  | nil => rfl
  | cons x l ih =>
    rw [serviceNameSet]
    by_cases h : x.key = serviceNameKey
    · rw [if_pos h]
      unfold Attr.get
      simp only [List.find?_cons, h, beq_self_eq_true, Option.map_some, given]
      cases (asString x.val).isEmpty <;> rfl
    · rw [if_neg h, ih]
      unfold Attr.get
      have : (x.key == serviceNameKey) = false := by simpa using h
      simp only [List.find?_cons, this]

end Verif.Launcher
