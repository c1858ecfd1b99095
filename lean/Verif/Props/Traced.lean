import Verif.Proof.Traced
import Verif.Examples.LaunchedProgram

/-!
C108: what a program sends of its spans which starts the launcher.

`Traced.Starts …`: the launcher, configured by these options in this environment, starts the trace pipeline. `Traced.run x res cs`: the exporter of a provider with the resource `res` after any sequence
`cs` of batches, exported one after the other, and shutdowns; the components behind it answer whatever they like.
-/

namespace Verif.Props
open Verif Verif.Attr Verif.Export Verif.TraceExport Verif.Client Verif.Traced

variable {E : Type} {x : Errs E} {lx : Launcher.Ext} {lw : Launcher.World} {opts : List Launcher.Opt} {pc : Launcher.PipelineConfig}

/-- C108 (destination). Spans are sent to the endpoint the last option asks for, or the environment; insecurely exactly if these say so; with the headers asked for last and, when no access token is
given, that of `LS_ACCESS_TOKEN`. -/
theorem C108_destination (h : Starts lx lw opts pc) :
    pc.endpoint = (Launcher.lastSet Launcher.spanEndpointOf opts).getD lw.env.spanEndpoint ∧
    pc.insecure = (Launcher.lastSet Launcher.spanInsecureOf opts).getD lw.env.spanInsecure ∧
    ∀ k, pc.headers.bind (fun f => f k) =
      if k = Views.lit "lightstep-access-token" ∧ (Launcher.configuredHeader lw opts k).getD [] = [] ∧ lw.lsToken ≠ [] then some lw.lsToken
      else Launcher.configuredHeader lw opts k := by
  obtain ⟨c, eff, h1, h2⟩ := h.spec
  obtain ⟨c', eff', g1, g2, g3, -, -, g4, -, g5, -⟩ := Launcher.C48_last_option_wins lx lw opts
  rw [h1] at g1
  cases g1
  refine ⟨h2.endpoint.trans g4, h2.insecure.trans g5, fun k => ?_⟩
  rw [h2.headers]
  by_cases hk : k = Views.lit "lightstep-access-token"
  · subst hk
    refine Eq.trans g3 ?_
    simp
  · simp only [hk, false_and, if_false]
    exact g2 k hk

/-- C108 (resource). Every payload with spans has exactly the texts which the options and the environment give as resource attributes (see C49), whatever was exported before. -/
theorem C108_resource (h : Starts lx lw opts pc) (hw : Launcher.EnvResourceOk lw.envResource)
    (hd : (Launcher.configuredAttrs lw opts).Pairwise (fun a b => a.1 ≠ b.1)) (cs : List (Traced.Call E)) (r : PMap) (ss : List PScopeSpans) (a : Option E)
    (hp : (Traces.one r ss, a) ∈ sent (Traced.run x pc.resource cs).log) (key text : Str) (hk : key ≠ []) :
    (key, PVal.one (.str text)) ∈ r ↔ Launcher.expectedAttr lw opts key = some text := by
  obtain ⟨c, eff, h1, h2⟩ := h.spec
  obtain ⟨c', eff', g1, g2⟩ := Launcher.C49_precedence_partial lx lw opts hw hd
  rw [h1] at g1
  cases g1
  have hx := Launched.resource_exportable h1
  have hr := run_res cs _ hp r ss rfl
  rw [h2.resource] at hr
  obtain ⟨m, e1, e2⟩ := copyAttributes_ok hx
  rw [hr] at e1
  cases e1
  rw [Launched.text_exported hx e2, g2 key hk]
  cases Launcher.expectedAttr lw opts key <;> simp

/-- C108 (one resource). The spans and the metrics of a program have the same resource. -/
theorem C108_same_resource {pref : Launcher.Preference} {pcm : Launcher.PipelineConfig} {sel : Front.IKind → Views.Tempo} (h : Starts lx lw opts pc)
    (hm : Launched.Launch lx lw opts pref pcm sel) : pc.resource = pcm.resource := by
  obtain ⟨c, eff, h1, h2⟩ := h.spec
  obtain ⟨c', eff', g1, g2, -⟩ := hm.spec
  rw [h1] at g1
  cases g1
  rw [h2.resource, g2]

/-- C108 (spans). Each batch is sent once, in order, whatever the answers to the ones before; the payload has the spans of the batch, each once and in order, with everything they consist of. -/
theorem C108_spans (h : Starts lx lw opts pc) (cs : List (Traced.Call E)) (hb : ∀ l ∈ batches cs, Proper l) :
    (Traced.run x pc.resource cs).panicked = false ∧
      Pointwise (fun l p => Pointwise SpanOf l ((spansIn p.1).map (·.2))) (batches cs) (sent (Traced.run x pc.resource cs).log) := by
  obtain ⟨c, eff, h1, h2⟩ := h.spec
  obtain ⟨g1, g2⟩ := run_spans (x := x) (res := pc.resource) (by rw [h2.resource]; exact Launched.resource_exportable h1) cs hb
  exact ⟨g1, g2.1, fun i a b ha hb => (g2.2 i a b ha hb).1⟩

/-- C108 (scopes, part). In a batch in which neighbouring spans of tracers with the same name are of the same tracer, each span is under the scope of its tracer. Missing: tracers which differ only in
their version or schema URL, see `C108_version_fails`. -/
theorem C108_scopes_partial (h : Starts lx lw opts pc) (cs : List (Traced.Call E)) (hb : ∀ l ∈ batches cs, Proper l) (hs : ∀ l ∈ batches cs, SameNameSameScope l) :
    Pointwise (fun l p => Pointwise (fun s e => e.1 = s.scope ∧ SpanOf s e.2) l (spansIn p.1)) (batches cs) (sent (Traced.run x pc.resource cs).log) := by
  obtain ⟨c, eff, h1, h2⟩ := h.spec
  obtain ⟨-, g2⟩ := run_spans (x := x) (res := pc.resource) (by rw [h2.resource]; exact Launched.resource_exportable h1) cs hb
  exact ⟨g2.1, fun i a b ha hb => (g2.2 i a b ha hb).2 (hs a (List.mem_of_getElem? ha))⟩

/-- C108 (self-telemetry). The spans counted as exported are those in the payloads which were accepted, the spans counted as failed those in the payloads which were refused. -/
theorem C108_balance (res : List KV) (cs : List (Traced.Call E)) (ok : Bool) : Traced.counted ok (Traced.run x res cs).log = spansAnswered ok (Traced.run x res cs).log :=
  run_counts ok cs

section Examples
open Verif.Examples Verif.Views
open Verif.Launcher (exExt)

namespace TracedEx

def cfg : Launcher.PipelineConfig :=
  match Launcher.configure exExt Ln.lw (Ln.opts .delta) with
  | some r => Launcher.traceConfig r.1
  | none => { endpoint := [], insecure := false, headers := none, resource := [], period := [], propagators := [], builtinsEnabled := false, builtinLibs := [], tempoPref := [] }

theorem starts : Starts exExt Ln.lw (Ln.opts .delta) cfg := by
  obtain ⟨c, eff, tr, me, h1, -, h2, ⟨cfg', -, h4⟩, -⟩ := Launcher.C56_pipelines_partial exExt Ln.lw (Ln.opts .delta)
  obtain ⟨c', eff', g1, -, -, -, -, g2, -, -, -, -, -, -, -, -, g3, -⟩ := Launcher.C48_last_option_wins exExt Ln.lw (Ln.opts .delta)
  rw [h1] at g1
  cases g1
  obtain ⟨c0, hh, -, -, h5⟩ := Launcher.configure_spec exExt Ln.lw (Ln.opts .delta)
  rw [h1] at h5
  obtain ⟨e1, e2⟩ := Prod.mk.inj (Option.some.inj h5)
  have hpc : cfg = Launcher.traceConfig c := by unfold cfg; rw [h1]
  have hne : c.spanEndpoint ≠ [] := by rw [g2]; decide +kernel
  obtain ⟨ps, hps⟩ : ∃ ps, Launcher.configurePropagators c.propagators = some ps := by
    rw [g3]
    exact Option.isSome_iff_exists.1 (by decide +kernel)
  refine ⟨c, eff, ps, h1, ?_⟩
  rw [e2, ← e1]
  unfold Launcher.effectsOf
  refine List.mem_append_right _ (List.mem_append_left _ ?_)
  unfold Launcher.setupTracing
  rw [if_neg hne]
  unfold Launcher.newTracePipeline
  rw [if_pos (show exExt.traceExporter (Launcher.traceConfig c) = true from rfl), show (Launcher.traceConfig c).propagators = c.propagators from rfl, hps, hpc]
  exact List.mem_singleton.2 rfl

/-- What `errors.Is` says. -/
def errs : Errs Nat := { canceled := fun e => e == 1, deadline := fun e => e == 2 }

/-- Three batches; the second is refused, then the processor is shut down. -/
def calls : List (Traced.Call Nat) :=
  [.spans [SpanEx.span [97] [1] 1, SpanEx.span [97] [1] 2, SpanEx.span [98] [] 3] (fun _ => none), .spans [SpanEx.span [98] [] 4] (fun _ => some 2),
    .spans [SpanEx.span [97] [1] 5] (fun _ => none), .shutdown none none]

theorem typed (n v : Str) (i : Nat) : (SpanEx.span n v i).Typed :=
  ⟨by intro kv hkv; simp [SpanEx.span] at hkv; simp [hkv], by simp [SpanEx.span], by simp [SpanEx.span]⟩

theorem proper : ∀ l ∈ batches calls, Proper l := by
  intro l hl s hs
  simp [batches, calls] at hl
  rcases hl with rfl | rfl | rfl <;> simp at hs
  · rcases hs with rfl | rfl | rfl <;> exact ⟨typed .., by decide⟩
  · subst hs; exact ⟨typed .., by decide⟩
  · subst hs; exact ⟨typed .., by decide⟩

theorem same : ∀ l ∈ batches calls, SameNameSameScope l := by
  intro l hl i s t hs ht
  simp [batches, calls] at hl
  rcases hl with rfl | rfl | rfl
  · match i with
    | 0 => simp at hs ht; subst hs; subst ht; decide
    | 1 => simp at hs ht; subst hs; subst ht; decide
    | n + 2 => simp at ht
  · simp at ht
  · simp at ht

end TracedEx

open TracedEx in
/-- The hypotheses hold; all batches are sent, the second is refused, and four spans are counted as exported, one as failed. -/
example : Starts exExt Ln.lw (Ln.opts .delta) cfg ∧ Launcher.EnvResourceOk Ln.lw.envResource ∧
    (Launcher.configuredAttrs Ln.lw (Ln.opts .delta)).Pairwise (fun a b => a.1 ≠ b.1) ∧ (∀ l ∈ batches calls, Proper l) ∧ (∀ l ∈ batches calls, SameNameSameScope l) ∧
    (sent (Traced.run errs cfg.resource calls).log).map (fun e => ((spansIn e.1).map (fun s => (s.1.name, s.2.spanID)), e.2)) =
      [([([97], 1), ([97], 2), ([98], 3)], none), ([([98], 4)], some 2), ([([97], 5)], none)] ∧
    Traced.counted true (Traced.run errs cfg.resource calls).log = 4 ∧ Traced.counted false (Traced.run errs cfg.resource calls).log = 1 ∧
    Launcher.expectedAttr Ln.lw (Ln.opts .delta) (lit "zone") = some (lit "here") ∧
    ((sent (Traced.run errs cfg.resource calls).log).all (fun e => match e.1 with
      | .empty => false
      | .one r _ => r.contains (lit "zone", PVal.one (.str (lit "here"))) && r.contains (lit "service.name", PVal.one (.str (lit "svc"))))) = true :=
  ⟨starts, Launcher.exOk _ _, by decide +kernel, proper, same, by decide +kernel, by decide +kernel, by decide +kernel, by decide +kernel, by decide +kernel⟩

open TracedEx in
/-- The spans go where the environment says, with the token of the environment. -/
example : cfg.endpoint = Ln.lw.env.spanEndpoint ∧ cfg.endpoint ≠ [] ∧ cfg.headers.bind (fun f => f (lit "lightstep-access-token")) = some (lit "t") := by
  obtain ⟨h1, -, h3⟩ := C108_destination starts
  refine ⟨h1.trans (by decide +kernel), by rw [h1]; decide +kernel, ?_⟩
  rw [h3]
  decide +kernel

open TracedEx in
/-- C108 (fails for versions). Spans of two tracers with one name, of versions 1 and 2, end one after the other: both are sent under the version 1. -/
theorem C108_version_fails : ∃ (cfg : Launcher.PipelineConfig) (cs : List (Traced.Call Nat)), Starts exExt Ln.lw (Ln.opts .delta) cfg ∧ (∀ l ∈ batches cs, Proper l) ∧
    (batches cs).map (fun l => l.map (fun s => (s.scope.version, s.spanID))) = [[([1], 1), ([2], 2)]] ∧
    (sent (Traced.run errs cfg.resource cs).log).map (fun e => (spansIn e.1).map (fun s => (s.1.version, s.2.spanID))) = [[([1], 1), ([1], 2)]] := by
  refine ⟨cfg, [.spans [SpanEx.span [97] [1] 1, SpanEx.span [97] [2] 2] (fun _ => none)], starts, ?_, by decide, by decide +kernel⟩
  intro l hl s hs
  simp [batches] at hl
  subst hl
  simp at hs
  rcases hs with rfl | rfl <;> exact ⟨typed .., by decide⟩

end Examples

end Verif.Props
