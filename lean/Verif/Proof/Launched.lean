import Verif.Proof.Live
import Verif.Proof.TraceExport
import Verif.Props.Instruments
import Verif.Props.Launcher
import Verif.Spec.Launched

/-!
The reader of the installed provider shows every instrument once, under its name, in the documented way.
-/

namespace Verif.Launched
open Verif.Attr Verif.Number Verif.Aggr Verif.Assembly Verif.Instruments
open Verif.TraceExport (newSet_exportable)
open Verif.Front (IKind)
open Verif.Views (Views Tempo NoHint usualAgg readerViews)
open Verif.Provider (Provider Call Meter)
variable {C G ν : Type} [DecidableEq C]

/-- The views of the reader. -/
def view (e : Outside C G) (t : IKind → Tempo) : Views C := readerViews e.x e.zero e.readerName perf.aggregatorLimit [.tempoSelector t]

theorem view_clauses (e : Outside C G) (t : IKind → Tempo) : (view e t).clauses = [] :=
  List.length_eq_zero_iff.1 (Props.C66_clauses e.x e.zero e.readerName perf.aggregatorLimit [.tempoSelector t]).1

theorem view_agg (e : Outside C G) (t : IKind → Tempo) (k : IKind) : (view e t).defaults.agg k = usualAgg k := by
  have := (Props.C66_defaults e.x e.zero e.readerName perf.aggregatorLimit [.tempoSelector t] k).1
  rw [view, this]
  cases k <;> rfl

theorem view_acfg (e : Outside C G) (t : IKind → Tempo) (k : IKind) :
    (view e t).defaults.int64 k = ⟨e.x.validH e.zero, 2000⟩ ∧ (view e t).defaults.float64 k = ⟨e.x.validH e.zero, 2000⟩ := by
  have := (Props.C66_defaults e.x e.zero e.readerName perf.aggregatorLimit [.tempoSelector t] k).2.2
  exact ⟨this.1, this.2⟩

variable {lx : Launcher.Ext} {lw : Launcher.World} {opts : List Launcher.Opt} {pref : Launcher.Preference} {pc : Launcher.PipelineConfig} {t : IKind → Tempo}

theorem started_metrics {x : Launcher.Ext} {w : Launcher.World} {c : Launcher.Config} {per : Int} {bs : List Launcher.BuiltinEvent}
    (h : Launcher.Effect.started (.metrics pc per t bs) ∈ Launcher.effectsOf x w c) :
    Launcher.newMetricsPipeline x (Launcher.metricsConfig c) = .ok (.metrics pc per t bs) := by
  have h1 : Launcher.Effect.started (.metrics pc per t bs) ∈ Launcher.setupEffect (Launcher.setupMetrics x c) := by
    unfold Launcher.effectsOf at h
    simp only [List.mem_append] at h
    rcases h with ((h | h) | h) | (h | h)
    · split at h <;> simp at h
    · split at h <;> simp at h
    · split at h <;> simp at h
    · exfalso
      unfold Launcher.setupTracing Launcher.newTracePipeline at h
      (repeat' split at h) <;> simp [Launcher.setupEffect, Except.map] at h
    · exact h
  unfold Launcher.setupMetrics at h1
  split at h1
  · cases hm : Launcher.newMetricsPipeline x (Launcher.metricsConfig c) with
    | error e => rw [hm] at h1; simp [Launcher.setupEffect, Except.map] at h1
    | ok p =>
      rw [hm] at h1
      simp only [Launcher.setupEffect, Except.map, List.mem_singleton, Launcher.Effect.started.injEq] at h1
      rw [h1]
  · simp [Launcher.setupEffect] at h1

/-- What the launcher started. -/
theorem Launch.spec (h : Launch lx lw opts pref pc t) : ∃ c eff, Launcher.configure lx lw opts = some (c, eff) ∧ pc.resource = c.resource ∧
    ∀ k, t k = Launcher.documented pref k := by
  obtain ⟨c, eff, per, bs, h1, h2⟩ := h.started
  obtain ⟨c2, eff2, g1, -, -, -, -, -, -, -, -, g2, -⟩ := Launcher.C48_last_option_wins lx lw opts
  obtain ⟨c0, hh, a, hhd, e⟩ := Launcher.configure_spec lx lw opts
  rw [h1] at g1 e
  cases g1
  obtain ⟨ec, ee⟩ := Prod.mk.inj (Option.some.inj e)
  rw [ee, ← ec] at h2
  have hm := started_metrics h2
  refine ⟨c, eff, h1, ?_, ?_⟩
  · unfold Launcher.newMetricsPipeline at hm
    (repeat' split at hm) <;> simp only [reduceCtorEq, Except.ok.injEq, Launcher.Pipeline.metrics.injEq] at hm
    rw [← hm.1]
    rfl
  · obtain ⟨pref', hp', hd⟩ := (Launcher.C50_preferences lx (Launcher.metricsConfig c)).1 _ _ _ _ hm
    have : Launcher.prefName (lx.lower c.tempoPref) = some pref' := hp'
    rw [g2, h.pref] at this
    cases this
    exact hd

theorem view_tempo (e : Outside C G) (h : Launch lx lw opts pref pc t) (k : IKind) : (view e t).defaults.tempo k = Launcher.documented pref k := by
  obtain ⟨-, -, -, -, hd⟩ := h.spec
  have := (Props.C66_defaults e.x e.zero e.readerName perf.aggregatorLimit [.tempoSelector t] k).2.1
  rw [view, this, ← hd k]
  show (if (t k).Known then t k else .cumulative) = t k
  rw [hd k]
  cases pref <;> cases k <;> rfl

/-! ### One way -/

theorem ways_view (e : Outside C G) (t : IKind → Tempo) (sc : Views.Scope) (d : Views.Desc) (n : Str) :
    ways (view e t) sc d n = if d.name = n then [none] else [] := by
  unfold ways
  rw [view_clauses]
  rw [if_neg (by rintro ⟨_, h, _⟩; cases h)]
  have : (view e t).defaults.agg d.kind ≠ .drop := by rw [view_agg]; cases d.kind <;> simp [usualAgg]
  by_cases hn : d.name = n <;> simp [hn, this]

theorem called_iff {p : Provider C ν} {k : Nat} {n : Str} {id : Nat} (e : Outside C G) (t : IKind → Tempo) (sc : Views.Scope) :
    0 < times p k (view e t) sc n id ↔ Called p k n id := by
  constructor
  · intro h
    obtain ⟨m, i, o, h1, h2, h3, h4⟩ := times_pos h
    rw [ways_view] at h4
    by_cases hn : o.desc.name = n
    · exact ⟨m, i, o, h1, h2, hn, h3⟩
    · rw [if_neg hn] at h4; exact absurd rfl h4
  · rintro ⟨m, i, o, h1, h2, h3, rfl⟩
    rw [times_addr h1 _ _ _ h2, ways_view, if_pos h3]
    exact Nat.one_pos

theorem times_le {p : Provider C ν} {k : Nat} {n : Str} (e : Outside C G) (t : IKind → Tempo) (sc : Views.Scope) : ShownOnce p k (view e t) sc n := by
  intro id
  by_cases h : 0 < times p k (view e t) sc n id
  · obtain ⟨m, i, o, h1, h2, rfl, h4⟩ := times_pos h
    rw [times_addr h1 _ _ _ h2, ways_view]
    split <;> simp
  · omega

theorem feeds_eq {p : Provider C ν} {k : Nat} {n : Str} (e : Outside C G) (t : IKind → Tempo) (sc : Views.Scope) : Feeds p k (view e t) sc n = Called p k n := by
  funext id
  exact propext (called_iff e t sc)

open Classical in
theorem recorded_eq {p : Provider C ν} {k : Nat} {n : Str} (e : Outside C G) (t : IKind → Tempo) (sc : Views.Scope) (Q : List KV → Prop) (acts : List Pipeline.Act) :
    recordedVia p k (view e t) sc n Q acts = recordedBy p k n Q acts := by
  unfold recordedVia recordedBy
  induction Pipeline.calls acts with
  | nil => rfl
  | cons c cs ih =>
    rw [List.flatMap_cons, ih, List.filter_cons]
    by_cases hc : Called p k n c.1.id
    · have h1 : times p k (view e t) sc n c.1.id = 1 := Nat.le_antisymm (times_le e t sc _) ((called_iff e t sc).2 hc)
      rw [h1]
      by_cases hr : ¬ Props.Rejected c.1.num c.1.kind c.2.2 ∧ Q (c.1.attrs c.2.1)
      · rw [if_pos hr, if_pos (decide_eq_true ⟨hr.1, hr.2, hc⟩)]
        rfl
      · rw [if_neg hr, if_neg (fun h => hr (And.intro (of_decide_eq_true h).1 (of_decide_eq_true h).2.1))]
        rfl
    · have h1 : times p k (view e t) sc n c.1.id = 0 := by
        have := mt (called_iff e t sc).1 hc
        omega
      rw [h1]
      conv => rhs; rw [if_neg (fun h => hc (of_decide_eq_true h).2.2)]
      simp

theorem FewUpTo.via {lim : Nat} {p : Provider C ν} {k : Nat} {n : Str} {acts : List Pipeline.Act} (h : FewUpTo lim p k n acts) (e : Outside C G)
    (pc : Launcher.PipelineConfig) (t : IKind → Tempo) (sc : Views.Scope) : FewVia (world e pc) p k (view e t) sc n none lim acts := by
  obtain ⟨A, B, h1, h2, h3, h4⟩ := h
  exact ⟨A, B, fun id hid => h1 id ((called_iff e t sc).1 hid), h2, fun c hc hid => h3 c hc ((called_iff e t sc).1 hid), fun id hid => h4 id ((called_iff e t sc).1 hid)⟩

theorem Few.via {p : Provider C ν} {k : Nat} {n : Str} {acts : List Pipeline.Act} (h : Few p k n acts) (e : Outside C G) (pc : Launcher.PipelineConfig) (t : IKind → Tempo)
    (sc : Views.Scope) : FewVia (world e pc) p k (view e t) sc n none 2000 acts := FewUpTo.via h e pc t sc

theorem OneByOne.live {e : Outside C G} {p : Provider C ν} {k : Nat} {n : Str} {acts : List (Live.Act ν)} (h : OneByOne e pc t p k n acts) (sc : Views.Scope) :
    Live.OneByOne e.farm (world e pc) e.fsub e.x (views e t) p 0 k (view e t) sc n acts := by
  intro before i kvs b after y h1 h2 h3 j hj h4
  exact h before i kvs b after y h1 h2 ((called_iff e t sc).1 h3) j hj ((called_iff e t sc).1 h4)

/-- How the metric of a constructor looks. -/
def look (e : Outside C G) (pref : Launcher.Preference) (c : Ctor) (unit : Str) : Look C where
  sync := c.kinds.2.synchronous
  kind := usualAgg c.kinds.2
  num := c.kinds.1
  unit := unit
  keys := none
  acfg := ⟨e.x.validH e.zero, 2000⟩
  delta := decide (Launcher.documented pref c.kinds.2 = .delta) && decide (c.kinds.2 ≠ .asyncGauge)

theorem Named.viewed {e : Outside C G} {cs : List (Call ν)} {p : Provider C ν} {k : Nat} {sc : Views.Scope} {c : Ctor} {n unit : Str} (hl : Launch lx lw opts pref pc t)
    (hm : p = Provider.run e.x (Provider.new (views e t)) cs) (h : Named cs p k sc c n unit) :
    Viewed e.x (views e t) cs p 0 k (view e t) sc n (look e pref c unit) := by
  refine ⟨hm, rfl, ?_, ?_⟩
  · obtain ⟨m, o, h1, h2, h3, h4⟩ := h.inst
    exact ⟨m, o, h1, h2, h3, by rw [ways_view, if_pos h4]; simp⟩
  · intro d hd hout
    have hn : d.name = n := by
      rcases hout with ⟨cl, hcl, -⟩ | ⟨-, h⟩
      · rw [view_clauses] at hcl; cases hcl
      · exact h.symm
    obtain ⟨hh, text, rfl⟩ := h.plain d hd hn
    refine .inl ⟨hh.unhinted e.x, fun way hway => ?_⟩
    rw [ways_view, if_pos hn, List.mem_singleton] at hway
    subst hway
    refine ⟨rfl, ?_, rfl, rfl, trivial, ?_, ?_⟩
    · unfold asked
      rw [view_agg]
      cases c <;> simp [Views.resolved, look, Ctor.desc, Ctor.kinds, usualAgg, Views.Legal]
    · unfold config
      rw [(view_acfg e t _).1, (view_acfg e t _).2]
      simp [look]
    · rw [view_tempo e hl]
      cases pref <;> cases c <;> simp [look, Ctor.desc, Ctor.kinds, Launcher.documented, Front.IKind.synchronous, usualAgg]

/-! ### The resource -/

theorem resource_exportable {x : Launcher.Ext} {w : Launcher.World} {c : Launcher.Config} {eff : List Launcher.Effect} (h : Launcher.configure x w opts = some (c, eff)) :
    Export.Exportable c.resource := by
  obtain ⟨c0, hh, a, hhd, e⟩ := Launcher.configure_spec x w opts
  rw [h] at e
  obtain ⟨ec, -⟩ := Prod.mk.inj (Option.some.inj e)
  rw [ec]
  dsimp only
  unfold Launcher.newResource
  refine newSet_exportable (fun kv hkv => ?_)
  have := (List.mem_filter.1 hkv).2
  unfold Launcher.validKV at this
  simp only [Bool.and_eq_true, bne_iff_ne] at this
  exact this.2

/-- A text is exported under a key exactly if it is the value of the key. -/
theorem text_exported {r : List KV} {m : Export.PMap} (hr : Export.Exportable r) (h : Export.AttrsOf r m) (key s : Str) :
    (key, Export.PVal.one (.str s)) ∈ m ↔ get key r = some (.str s) := by
  have hget : ∀ {l : List KV}, l.Pairwise (fun x y => x.key ≠ y.key) → (get key l = some (.str s) ↔ (⟨key, .str s⟩ : KV) ∈ l) := by
    intro l
    induction l with
    | nil => intro _; simp [Attr.get]
    | cons a l ih =>
      intro hp
      rw [List.pairwise_cons] at hp
      rw [get_cons, List.mem_cons]
      by_cases hk : a.key = key
      · rw [if_pos hk]
        constructor
        · intro hv
          left
          cases a
          simp only [Option.some.injEq] at hk hv
          rw [hk, hv]
        · rintro (rfl | hm)
          · rfl
          · exact absurd hk (hp.1 _ hm)
      · rw [if_neg hk, ih hp.2]
        constructor
        · exact Or.inr
        · rintro (rfl | hm)
          · exact absurd rfl hk
          · exact hm
  rw [hget hr.2]
  constructor
  · intro hm
    obtain ⟨i, hi⟩ := List.getElem?_of_mem hm
    have hlt : i < r.length := by rw [h.1]; exact (List.getElem?_eq_some_iff.1 hi).1
    have := h.2 i _ _ (List.getElem?_eq_getElem hlt) hi
    have hv : ∀ v : Val, Export.ValueOf v (.one (.str s)) → v = .str s := by
      intro v hv
      cases v <;> simp only [Export.ValueOf] at hv
      rw [hv]
    have e : r[i] = ⟨key, .str s⟩ := by
      cases hri : r[i] with
      | mk k v =>
        rw [hri] at this
        obtain ⟨t1, t2⟩ := this
        dsimp only at t1
        rw [hv v t2, t1]
    rw [← e]
    exact List.getElem_mem hlt
  · intro hm
    obtain ⟨i, hi⟩ := List.getElem?_of_mem hm
    have hlt : i < m.length := by rw [← h.1]; exact (List.getElem?_eq_some_iff.1 hi).1
    have := h.2 i _ _ hi (List.getElem?_eq_getElem hlt)
    have e : m[i] = (key, .one (.str s)) := by
      cases hmi : m[i] with
      | mk k v =>
        rw [hmi] at this
        obtain ⟨t1, t2⟩ := this
        dsimp only at t1 t2
        rw [t1]
        cases v with
        | one q => cases q <;> simp only [Export.ValueOf] at t2; rw [t2]
        | slice l => simp only [Export.ValueOf] at t2
    rw [← e]
    exact List.getElem_mem hlt

end Verif.Launched
