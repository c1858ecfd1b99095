import Verif.Proof.AsyncAssembly
import Verif.Props.AsyncPipeline
import Verif.Examples.AssemblyProgram

/-!
C90: from the constructor of an observable instrument to the payloads.

`Observable x views cs p pipe k v sc c n unit`: the calls `cs` made a provider with a meter (the `k`th, with scope `sc`) in which the constructor `c` made an observable
instrument named `n` with this unit; reader number `pipe` has the views `v`, which do not concern the name. `Observing w fsub p pipe acts s`: with this provider callbacks
observe, and collections of the reader are exported. `seenIn s` are the observations which counted. Temporality and aggregation are those which the reader has by default for
the kind of the instrument.
-/

namespace Verif.Props
open Verif Verif.Attr Verif.Number Verif.Export Verif.Assembly
open Verif.AsyncPipeline (collections)
open Verif.Pipeline (numbers pointsIn sentPoints ints NoEmptyList)
open Verif.Views (Views Ext)
open Verif.Provider (Provider Call)
open Verif.Instruments (Ctor)

variable {C G ν : Type} [DecidableEq C] {w : World C G} {fsub : Bits → Bits → Bits} {p : Provider C ν} {x : Ext C} {views : List (Views C)} {cs : List (Call ν)}
  {pipe k : Nat} {v : Views C} {sc : Views.Scope} {c : Ctor} {n unit : Str} {acts : List AsyncPipeline.Act} {s : AsyncPipeline.Sys}

/-! ### All views and instruments -/

/-- C90 (no panic in an aggregator). Whatever views, hints and instruments: the output metric of an asynchronous instrument is a sum or a gauge, and one which reports
differences is a sum. (The subtraction of gauges, histograms and summaries panics: gauge.go:169, histogram.go:167, minmaxsumcount.go:179.) -/
theorem C90_subtract (hmade : p = Provider.run x (Provider.new views) cs) (m : Provider.Meter C ν) (hm : m ∈ p.ordered) (st : Views.State C) (hst : st ∈ m.comps)
    (f : Views.Leaf C) (hf : f ∈ st.collectors) (ha : f.desc.kind.synchronous = false) :
    (f.kind = .monoSum ∨ f.kind = .nonMonoSum ∨ f.kind = .gauge) ∧ (f.delta = true → f.kind = .monoSum ∨ f.kind = .nonMonoSum) := by
  have has : Assembled x views cs p := by rw [hmade]; exact assembled x views cs
  obtain ⟨k, hk⟩ := List.getElem?_of_mem hm
  obtain ⟨pipe, hp⟩ := List.getElem?_of_mem hst
  have h := has.asyncKind hk hp f hf
  refine ⟨h.kind ha, fun hd => ?_⟩
  have h1 := h.kind ha
  have h2 := h.delta ha hd
  rcases h1 with h1 | h1 | h1
  · exact .inl h1
  · exact .inr h1
  · exact absurd h1 h2

/-- C90 (payloads). Whatever views, hints and instruments: every collection sends exactly one payload, in order; it has the resource's attributes, all scopes in order, and
metrics for some of the reader's output metrics in order, with name, unit, description, sort of data, temporality, number type and times as compiled. -/
theorem C90_payloads (hmade : p = Provider.run x (Provider.new views) cs) (hp : Observing w fsub p pipe acts s) :
    Pointwise (Pipeline.PayloadFor (asyncReader w p pipe) (fun l => ((leafAt p l).map (·.delta)).getD false)) (collections acts) s.sent := by
  have has : Assembled x views cs p := by rw [hmade]; exact assembled x views cs
  exact C75_payloads hp.resource hp.typed hp.orderly hp.runs (async_agrees w fsub has pipe)

/-! ### The metric of a name -/

/-- The metric of a payload with the name is for the only output metric with it. -/
theorem payload_metric {H : Type} {R : Pipeline.Reader H} {delta : Nat → Bool} {q : Times.Seq} {pl : Payload} (h : Pipeline.PayloadFor R delta q pl) {lib : Library}
    {n : Str} {o : Pipeline.Out} (ho : Pipeline.Only R lib n o) {e : PScope} (he : e ∈ pl.scopes) (hl : e.library = lib) {m : PMetric} (hm : m ∈ e.metrics)
    (hn : m.name = n) : Pipeline.MetricFor delta q o m := by
  obtain ⟨hlen, hpt⟩ := h.2
  obtain ⟨i, hi⟩ := List.getElem?_of_mem he
  have hlt : i < R.scopes.length := by rw [hlen]; exact (List.getElem?_eq_some_iff.1 hi).1
  obtain ⟨h1, os, h2, h3⟩ := hpt i _ e (List.getElem?_eq_getElem hlt) hi
  obtain ⟨hlen', hpt'⟩ := h3
  obtain ⟨j, hj⟩ := List.getElem?_of_mem hm
  have hlt' : j < os.length := by rw [hlen']; exact (List.getElem?_eq_some_iff.1 hj).1
  have h4 := hpt' j _ m (List.getElem?_eq_getElem hlt') hj
  have hmem : os[j] ∈ R.scopes.flatMap (fun sc => sc.2.filter (fun o => sc.1 = lib ∧ o.name = n)) := by
    refine List.mem_flatMap.2 ⟨R.scopes[i], List.getElem_mem hlt, List.mem_filter.2 ⟨h2.subset (List.getElem_mem hlt'), ?_⟩⟩
    rw [decide_eq_true_eq]
    exact ⟨h1.symm.trans hl, h4.1.symm.trans hn⟩
  unfold Pipeline.Only at ho
  rw [ho, List.mem_singleton] at hmem
  rw [hmem] at h4
  exact h4

/-- The legal aggregations of asynchronous instruments. -/
theorem async_legal {ik : Front.IKind} {a : Views.AggKind} (hs : ik.synchronous = false) (hl : Views.Legal ik a) : a = .monoSum ∨ a = .nonMonoSum ∨ a = .gauge := by
  revert hl
  cases ik <;> cases hs <;> cases a <;> simp [Views.Legal]

/-- C90 (unit, kind and times). In the payload of every collection, a metric of the scope with the name has the unit of the instrument, and is of the kind and temporality
which the reader has for the kind of the instrument. Its points are numbers of the type of the instrument and end with the collection; those of sums start with the
provider or, for delta temporality, with the collection before. -/
theorem C90_metric (h : Observable x views cs p pipe k v sc c n unit) (hp : Observing w fsub p pipe acts s) {t : Nat} {q : Times.Seq} {pl : Payload}
    (hq : (collections acts)[t]? = some q) (hpl : s.sent[t]? = some pl) (e : PScope) (he : e ∈ pl.scopes) (hl : e.library = sentScope sc) (m : PMetric) (hm : m ∈ e.metrics)
    (hn : m.name = n) :
    m.unit = unit ∧ DataFor (v.defaults.agg c.kinds.2) (if v.defaults.tempo c.kinds.2 = .delta then .delta else .cumulative) m.data ∧
      ∃ ds : List PNumber, ds ≠ [] ∧ numbers m.data = ds ∧ ∀ d ∈ ds, d.time = stamp q.now ∧ Pipeline.OfKind c.kinds.1 d.value ∧
        d.start = if v.defaults.agg c.kinds.2 = .gauge then none
          else some (stamp (if v.defaults.tempo c.kinds.2 = .delta then q.last else q.start)) := by
  obtain ⟨o, hw⟩ := async_wired w fsub h
  obtain ⟨-, hpt⟩ := C90_payloads h.made hp
  have hmf := payload_metric (hpt t q pl hq hpl) hw.only he hl hm hn
  obtain ⟨-, h2, -, h4⟩ := hmf
  have hd : ((leafAt p o.leaf).map (·.delta)).getD false = deltaFor v c := hw.delta
  dsimp only at h4
  rw [hd] at h4
  refine ⟨h2.trans hw.unit, ?_⟩
  have hnum : o.num = c.kinds.1 := hw.num
  rw [← hnum]
  have hsh := hw.shape
  have hdel : v.defaults.agg c.kinds.2 ≠ .gauge → deltaFor v c = decide (v.defaults.tempo c.kinds.2 = .delta) := by
    intro hg
    unfold deltaFor
    simp [hg]
  have hcases := async_legal h.async h.legal
  revert h4
  cases hdata : m.data with
  | sum mono tm ps =>
    rintro ⟨h5, h6, h7, h8⟩
    have hg : v.defaults.agg c.kinds.2 ≠ .gauge := by
      intro hg
      rw [hg] at hsh
      rw [hsh] at h5
      simp [shapeOf] at h5
    rw [hdel hg] at h6 h8
    refine ⟨⟨?_, ?_⟩, ps, h7, rfl, ?_⟩
    · rcases hcases with h0 | h0 | h0
      · rw [h0] at hsh ⊢
        rw [hsh] at h5
        simpa [shapeOf] using h5
      · rw [h0] at hsh ⊢
        rw [hsh] at h5
        simpa [shapeOf] using h5
      · exact absurd h0 hg
    · rw [h6]
      unfold Pipeline.tempoFor
      simp only [decide_eq_true_eq]
    · intro d hd
      obtain ⟨h9, h10, h11⟩ := h8 d hd
      refine ⟨h10, h11, ?_⟩
      rw [h9, if_neg hg]
      unfold Pipeline.startFor
      simp only [decide_eq_true_eq]
  | gauge ps =>
    rintro ⟨h5, h7, h8⟩
    have hg : v.defaults.agg c.kinds.2 = .gauge := by
      rcases hcases with h0 | h0 | h0
      · rw [h0] at hsh; rw [hsh] at h5; cases h5
      · rw [h0] at hsh; rw [hsh] at h5; cases h5
      · exact h0
    refine ⟨hg, ps, h7, rfl, fun d hd => ?_⟩
    obtain ⟨h9, h10, h11⟩ := h8 d hd
    exact ⟨h10, h11, by rw [h9, if_pos hg]⟩
  | exp tm ps =>
    rintro ⟨h5, -⟩
    rw [hsh] at h5
    rcases hcases with h0 | h0 | h0 <;> rw [h0] at h5 <;> cases h5
  | hist tm ps =>
    rintro ⟨h5, -⟩
    rw [hsh] at h5
    rcases hcases with h0 | h0 | h0 <;> rw [h0] at h5 <;> cases h5

/-! ### Cumulative sums and gauges -/

/-- C90 (cumulative sums and gauges). For every collection in which the observed sets fit: the payload has exactly one point for each attribute set shown for an
observation of this collection by an instrument with the name, with exactly these attributes, and its value is made of the last values observed. -/
theorem C90_cumulative (h : Observable x views cs p pipe k v sc c n unit) (hp : Observing w fsub p pipe acts s)
    (ht : v.defaults.tempo c.kinds.2 ≠ .delta ∨ v.defaults.agg c.kinds.2 = .gauge) {t : Nat} (htl : t < (collections acts).length)
    (hf : FewSets (Called p k n) none (v.defaults.acfg c.kinds.2 c.kinds.1).limit (seenIn s) t) :
    ∃ pl, s.sent[t]? = some pl ∧ ∃ as : List (List KV), as.Nodup ∧ (∀ a, a ∈ as ↔ Shows (Called p k n) none (seenIn s) t a) ∧
      Pointwise (fun a d => AttrsOf a d.attrs ∧ ∃ y, Amount w (Called p k n) none (v.defaults.agg c.kinds.2) c.kinds.1 (seenIn s) t a y ∧ NumOf c.kinds.1 y d.value) as
        (pointsIn numbers (sentScope sc) n pl) := by
  obtain ⟨o, hw⟩ := async_wired w fsub h
  have := C75_cumulative hp.resource hp.typed hp.orderly hp.runs hw.once hw.only hw.agrees (by
    rw [hw.delta, hw.gauge]
    rcases ht with ht | ht
    · left; unfold deltaFor; simp [ht]
    · right; simp [ht]) htl (hw.fits hf)
  simpa only [sentScope_eq, hw.observed, hw.amount, hw.num] using this

/-! ### Delta sums -/

/-- C90 (integer delta sums). When the sets of all collections fit: the payload of every collection has exactly one point for each attribute set shown for an observation
of this collection whose value changed since the collection before or which was not observed in that one; its value is the difference, or the whole value. -/
theorem C90_delta (h : Observable x views cs p pipe k v sc c n unit) (hp : Observing w fsub p pipe acts s) (hn : c.kinds.1 = .int64)
    (ht : v.defaults.tempo c.kinds.2 = .delta) (hg : v.defaults.agg c.kinds.2 ≠ .gauge)
    (hf : ∀ t, t < (collections acts).length → FewSets (Called p k n) none (v.defaults.acfg c.kinds.2 c.kinds.1).limit (seenIn s) t)
    (hov : ∀ e ∈ seenIn s, Called p k n e.2.1 → shown none e.2.2.1 ≠ overflowSet) {t : Nat} (htl : t < (collections acts).length) :
    ∃ pl, s.sent[t]? = some pl ∧ ∃ as : List (List KV), as.Nodup ∧
      (∀ a, a ∈ as ↔ ∃ y, Amount w (Called p k n) none (v.defaults.agg c.kinds.2) .int64 (seenIn s) t a y ∧
        ¬ AmountBefore w (Called p k n) none (v.defaults.agg c.kinds.2) .int64 (seenIn s) t a y) ∧
      Pointwise (fun a d => AttrsOf a d.attrs ∧ ∃ y, Amount w (Called p k n) none (v.defaults.agg c.kinds.2) .int64 (seenIn s) t a y ∧
        ((∃ b, AmountBefore w (Called p k n) none (v.defaults.agg c.kinds.2) .int64 (seenIn s) t a b ∧ d.value = .int (y - b)) ∨
          ((∀ b, ¬ AmountBefore w (Called p k n) none (v.defaults.agg c.kinds.2) .int64 (seenIn s) t a b) ∧ d.value = .int y)))
        as (pointsIn numbers (sentScope sc) n pl) := by
  obtain ⟨o, hw⟩ := async_wired w fsub h
  have := C75_delta hp.resource hp.typed hp.orderly hp.runs hw.once hw.only hw.agrees (by rw [hw.delta]; unfold deltaFor; simp [ht, hg])
    (by rw [hw.gauge]; exact decide_eq_false hg) (hw.num.trans hn) (fun t ht => hw.fits (hf t ht))
    (fun e he hl => by rw [hw.keys, shown_eq]; exact hov _ (List.mem_map_of_mem he) ((hw.feeds _).1 hl)) htl
  simpa only [sentScope_eq, hw.amount, hw.before, hn] using this

/-- C90 (float delta sums). When the sets of all collections fit: each point of the payload is for an attribute set shown for an observation of this collection; its value is
the float difference of its cumulative value and the one in the collection before, and is not zero, or its whole value when it was not observed in that one; an attribute
set shown without a point has a zero difference. -/
theorem C90_delta_float (h : Observable x views cs p pipe k v sc c n unit) (hp : Observing w fsub p pipe acts s) (hn : c.kinds.1 = .float64)
    (ht : v.defaults.tempo c.kinds.2 = .delta) (hg : v.defaults.agg c.kinds.2 ≠ .gauge)
    (hf : ∀ t, t < (collections acts).length → FewSets (Called p k n) none (v.defaults.acfg c.kinds.2 c.kinds.1).limit (seenIn s) t)
    (hov : ∀ e ∈ seenIn s, Called p k n e.2.1 → shown none e.2.2.1 ≠ overflowSet) {t : Nat} (htl : t < (collections acts).length) :
    ∃ pl, s.sent[t]? = some pl ∧ ∃ as : List (List KV), as.Nodup ∧ (∀ a ∈ as, Shows (Called p k n) none (seenIn s) t a) ∧
      (∀ a, Shows (Called p k n) none (seenIn s) t a → a ∉ as → ∃ y b, Amount w (Called p k n) none (v.defaults.agg c.kinds.2) .float64 (seenIn s) t a y ∧
        AmountBefore w (Called p k n) none (v.defaults.agg c.kinds.2) .float64 (seenIn s) t a b ∧ FloatZero (fsub y b)) ∧
      Pointwise (fun a d => AttrsOf a d.attrs ∧ ∃ y, Amount w (Called p k n) none (v.defaults.agg c.kinds.2) .float64 (seenIn s) t a y ∧
        ((∃ b, AmountBefore w (Called p k n) none (v.defaults.agg c.kinds.2) .float64 (seenIn s) t a b ∧ ¬ FloatZero (fsub y b) ∧ d.value = .double (fsub y b)) ∨
          ((∀ b, ¬ AmountBefore w (Called p k n) none (v.defaults.agg c.kinds.2) .float64 (seenIn s) t a b) ∧ d.value = .double y)))
        as (pointsIn numbers (sentScope sc) n pl) := by
  obtain ⟨o, hw⟩ := async_wired w fsub h
  have := C75_delta_float hp.resource hp.typed hp.orderly hp.runs hw.once hw.only hw.agrees (by rw [hw.delta]; unfold deltaFor; simp [ht, hg])
    (by rw [hw.gauge]; exact decide_eq_false hg) (hw.num.trans hn) (fun t ht => hw.fits (hf t ht))
    (fun e he hl => by rw [hw.keys, shown_eq]; exact hov _ (List.mem_map_of_mem he) ((hw.feeds _).1 hl)) htl
  have hfs : (asyncSetup w fsub p pipe).fsub = fsub := rfl
  simpa only [sentScope_eq, hw.amount, hw.before, hw.observed, hn, hfs] using this

/-- C90 (integer delta totals). If moreover something shown as `a` was observed in every collection since the first such one, all values sent with the attributes `a` add
up to their last cumulative value. -/
theorem C90_delta_total (h : Observable x views cs p pipe k v sc c n unit) (hp : Observing w fsub p pipe acts s) (hn : c.kinds.1 = .int64)
    (ht : v.defaults.tempo c.kinds.2 = .delta) (hg : v.defaults.agg c.kinds.2 ≠ .gauge)
    (hf : ∀ t, t < (collections acts).length → FewSets (Called p k n) none (v.defaults.acfg c.kinds.2 c.kinds.1).limit (seenIn s) t)
    (hov : ∀ e ∈ seenIn s, Called p k n e.2.1 → shown none e.2.2.1 ≠ overflowSet) {a : List KV} (hne : NoEmptyList a) {first last : Nat}
    (hlast : (collections acts).length = last + 1) (hle : first ≤ last) (hno : ∀ t, t < first → ¬ Shows (Called p k n) none (seenIn s) t a)
    (hobs : ∀ t, first ≤ t → t ≤ last → Shows (Called p k n) none (seenIn s) t a) {y : Bits}
    (hy : Amount w (Called p k n) none (v.defaults.agg c.kinds.2) .int64 (seenIn s) last a y) :
    Spec.total64 (ints ((sentPoints numbers (sentScope sc) n s.sent).filter (fun d => @decide (AttrsOf a d.attrs) (Classical.propDecidable _)))) = y := by
  obtain ⟨o, hw⟩ := async_wired w fsub h
  exact C75_delta_total hp.resource hp.typed hp.orderly hp.runs hw.once hw.only hw.agrees (by rw [hw.delta]; unfold deltaFor; simp [ht, hg])
    (by rw [hw.gauge]; exact decide_eq_false hg) (hw.num.trans hn) (fun t ht => hw.fits (hf t ht))
    (fun e he hl => by rw [hw.keys, shown_eq]; exact hov _ (List.mem_map_of_mem he) ((hw.feeds _).1 hl)) hne hlast hle
    (fun t ht hs => hno t ht ((hw.observed _ _ _).1 hs)) (fun t h1 h2 => (hw.observed _ _ _).2 (hobs t h1 h2))
    ((hw.amount _ _ _ _).2 (by rw [hn]; exact hy))

/-! ### One instrument -/

theorem total64_single (y : Bits) : Spec.total64 [y] = y := by
  simp [Spec.total64, Spec.total]

omit [DecidableEq C] in
/-- C90 (one instrument). When only one instrument of the meter has the name, and no attribute has an empty key, the value of a gauge or an integer sum is the last value
observed. -/
theorem C90_single {agg : Views.AggKind} {num : Kind} {obs : List Seen} {i : Nat} (hc : ∀ id, Called p k n id ↔ id = i)
    (hkeys : ∀ e ∈ obs, ∀ kv ∈ e.2.2.1, kv.key ≠ []) (hk : agg = .gauge ∨ num = .int64) {t : Nat} {a : List KV} {y : Bits} :
    Amount w (Called p k n) none agg num obs t a y ↔ lastSeen obs t i a = some y := by
  have hsh : ∀ id set y, lastSeen obs t id set = some y → shown none set = set := by
    intro id set y h
    unfold lastSeen at h
    rw [Option.map_eq_some_iff] at h
    obtain ⟨e, he, -⟩ := h
    have hm := List.mem_of_getLast? he
    obtain ⟨h1, h2⟩ := List.mem_filter.1 hm
    rw [decide_eq_true_eq] at h2
    rw [← h2.2.2]
    exact List.filter_eq_self.2 (fun kv hkv => by simpa using hkeys e h1 kv hkv)
  have hval : ∀ z, Combined w agg num [z] y ↔ y = z := by
    intro z
    unfold Combined
    by_cases hg : agg = .gauge
    · rw [if_pos hg, List.mem_singleton]
    · rw [if_neg hg, hk.resolve_left hg]
      dsimp only
      rw [total64_single]
  constructor
  · rintro ⟨ps, hne, ⟨hnd, hps⟩, hcomb⟩
    have hall : ∀ e ∈ ps, e.1 = i ∧ e.2.1 = a := by
      rintro ⟨id, set, z⟩ he
      obtain ⟨h1, h2, h3⟩ := (hps id set z).1 he
      exact ⟨(hc id).1 h1, (hsh id set z h3).symm.trans h2⟩
    match ps, hne with
    | [e], _ =>
      obtain ⟨e1, e2⟩ := hall e (List.mem_singleton.2 rfl)
      have h3 := ((hps e.1 e.2.1 e.2.2).1 (List.mem_singleton.2 rfl)).2.2
      rw [e1, e2] at h3
      rw [h3, (hval e.2.2).1 hcomb]
    | e :: e' :: es, _ =>
      exfalso
      obtain ⟨e1, e2⟩ := hall e (by simp)
      obtain ⟨f1, f2⟩ := hall e' (by simp)
      rw [List.map_cons, List.map_cons, List.nodup_cons] at hnd
      exact hnd.1 (by rw [e1, e2, f1, f2]; exact List.mem_cons_self)
  · intro h
    refine ⟨[(i, a, y)], by simp, ⟨by simp, ?_⟩, (hval y).2 rfl⟩
    intro id set z
    rw [List.mem_singleton]
    constructor
    · intro e
      cases e
      exact ⟨(hc i).2 rfl, hsh i a y h, h⟩
    · rintro ⟨h1, h2, h3⟩
      have e1 := (hc id).1 h1
      have e2 := (hsh id set z h3).symm.trans h2
      subst e1
      subst e2
      rw [h] at h3
      cases h3
      rfl

/-! ### Programs -/

theorem obs_typed {u : AsyncPipeline.Setup} {cb : Nat} {insts : List Nat} {os : List (Nat × List KV × Bits)} (h : ∀ o ∈ os, ∀ kv ∈ o.2.1, kv.val ≠ .invalid) (i : Nat) :
    AsyncPipeline.Typed (AsyncPipeline.obsListActs u cb insts i os) := by
  induction os generalizing i with
  | nil => intro _ _ _ _ h; simp [AsyncPipeline.obsListActs] at h
  | cons o os ih =>
    intro cb' o' as v hm
    simp only [AsyncPipeline.obsListActs, AsyncPipeline.obsActs, List.cons_append, List.mem_cons, List.mem_append, List.mem_replicate] at hm
    rcases hm with hm | ⟨-, hm⟩ | hm
    · cases hm
      exact h o List.mem_cons_self
    · cases hm
    · exact ih (fun o ho => h o (List.mem_cons_of_mem _ ho)) (i + 1) _ _ _ _ hm

theorem cb_typed {u : AsyncPipeline.Setup} {rs : List AsyncPipeline.CbRun} (h : ∀ r ∈ rs, ∀ o ∈ r.obs, ∀ kv ∈ o.2.1, kv.val ≠ .invalid) (cb i : Nat) :
    AsyncPipeline.Typed (AsyncPipeline.cbActs u cb i rs) := by
  induction rs generalizing cb i with
  | nil => intro _ _ _ _ h; simp [AsyncPipeline.cbActs] at h
  | cons r rs ih =>
    intro cb' o' as v hm
    simp only [AsyncPipeline.cbActs, List.cons_append, List.mem_cons, List.mem_append] at hm
    rcases hm with hm | hm | hm | hm
    · cases hm
    · exact obs_typed (h r List.mem_cons_self) i _ _ _ _ hm
    · cases hm
    · exact ih (fun r hr => h r (List.mem_cons_of_mem _ hr)) _ _ _ _ _ _ hm

theorem prog_typed {u : AsyncPipeline.Setup} {prog : AsyncPipeline.Program} (h : ∀ c ∈ prog, ∀ r ∈ c.1, ∀ o ∈ r.obs, ∀ kv ∈ o.2.1, kv.val ≠ .invalid) (cb i : Nat) :
    AsyncPipeline.Typed (AsyncPipeline.progActs u cb i prog) := by
  induction prog generalizing cb i with
  | nil => intro _ _ _ _ h; simp [AsyncPipeline.progActs] at h
  | cons c prog ih =>
    intro cb' o' as v hm
    simp only [AsyncPipeline.progActs, List.mem_cons, List.mem_append] at hm
    rcases hm with hm | hm | hm
    · exact cb_typed (h c List.mem_cons_self) _ _ _ _ _ _ hm
    · cases hm
    · exact ih (fun c hc => h c (List.mem_cons_of_mem _ hc)) _ _ _ _ _ _ hm

omit [DecidableEq C] in
/-- C90 (programs). Callbacks which observe one after the other may do so freely: each such program runs, for some order in which the results of each collection are
taken; and whenever it runs, it is as the theorems above ask for, its collections are the given ones, and what counted is what the callbacks observed with declared, enabled
instruments and values in range. -/
theorem C90_programs (hres : Exportable w.resource) :
    (∀ todo : List (List AsyncPipeline.CbRun × Times.Seq), ∃ prog : AsyncPipeline.Program, prog.map (fun c => (c.1, c.2.2)) = todo ∧
      ∃ s, AsyncPipeline.run (asyncSetup w fsub p pipe) (asyncReader w p pipe) (AsyncPipeline.initial (asyncSetup w fsub p pipe))
        (AsyncPipeline.progActs (asyncSetup w fsub p pipe) 0 0 prog) = some s) ∧
    ∀ (prog : AsyncPipeline.Program) (s : AsyncPipeline.Sys),
      (∀ c ∈ prog, ∀ r ∈ c.1, ∀ o ∈ r.obs, ∀ kv ∈ o.2.1, kv.val ≠ .invalid) →
      AsyncPipeline.run (asyncSetup w fsub p pipe) (asyncReader w p pipe) (AsyncPipeline.initial (asyncSetup w fsub p pipe))
        (AsyncPipeline.progActs (asyncSetup w fsub p pipe) 0 0 prog) = some s →
      Observing w fsub p pipe (AsyncPipeline.progActs (asyncSetup w fsub p pipe) 0 0 prog) s ∧
        collections (AsyncPipeline.progActs (asyncSetup w fsub p pipe) 0 0 prog) = prog.map (fun c => c.2.2) ∧
        seenIn s = AsyncPipeline.made (asyncSetup w fsub p pipe) 0 prog := by
  obtain ⟨h1, h2⟩ := C75_programs (u := asyncSetup w fsub p pipe) (R := asyncReader w p pipe)
  refine ⟨h1, fun prog s ht hr => ?_⟩
  obtain ⟨h3, h4, h5⟩ := h2 prog s hr
  exact ⟨⟨hres, prog_typed ht 0 0, h3, hr⟩, h4, h5⟩

section Examples
open Verif.Examples Verif.Examples.Asm
open Verif.Examples.Pipe (kvb)
open Verif.Views (lit Tempo)
open Verif.AsyncPipeline (CbRun Program progActs)

/-- Two meters; the second has an observable counter asked for twice with different descriptions, a gauge, an instrument which a clause of the first reader renames, and a
counter which is not observable. -/
def c90Calls : List (Provider.Call Nat) :=
  [.meter scB, .meter scA, .instrument 1 (Ctor.int64ObservableCounter.desc (lit "n") (lit "B") (lit "s")), .instrument 0 (Ctor.int64ObservableCounter.desc (lit "n") [] []),
   .instrument 1 (Ctor.float64ObservableGauge.desc (lit "g") [] []), .instrument 1 (Ctor.int64ObservableCounter.desc (lit "n") (lit "A") (lit "s")),
   .instrument 1 (Ctor.float64ObservableUpDownCounter.desc (lit "z") [] []), .instrument 1 (Ctor.int64Counter.desc (lit "c") [] []),
   .instrument 1 (Ctor.float64ObservableCounter.desc (lit "f") [] (lit "s"))]

def c90P (t : Tempo) : Provider Nat Nat := Provider.run ViewEx.x (Provider.new (Asm.views t .cumulative .histogram)) c90Calls

/-- Some subtraction. -/
def c90Sub (a b : Bits) : Bits := a - b

/-- Three collections. Instruments 1 and 9 are the counter `n`, 5 is the gauge, 21 is the float counter. An observation replaces an earlier one with the same attributes; an
infinite value does not count. -/
def c90Prog : Program :=
  [([⟨[1, 9, 5], [(1, ka, 3), (1, ka, 7), (9, ka, 5), (9, kb, 2), (5, [], one), (5, [], 0x7ff0000000000000)]⟩, ⟨[21], [(21, ka, one)]⟩],
      [c75E 9 kb [(1, kb)] 2, c75E 1 ka [(1, ka)] 7, c75E 21 ka [(33, ka)] one, c75E 9 ka [(1, ka)] 5, c75E 5 [] [(9, [])] one], ⟨1, 1, 2⟩),
    ([⟨[1, 9], [(1, ka, 10), (9, ka, 5), (9, kb, 2)]⟩, ⟨[21], [(21, ka, two)]⟩],
      [c75E 1 ka [(1, ka)] 10, c75E 9 ka [(1, ka)] 5, c75E 9 kb [(1, kb)] 2, c75E 21 ka [(33, ka)] two], ⟨1, 2, 3⟩),
    ([⟨[1, 9, 5], [(1, ka, 11), (9, ka, 5), (5, [], two), (9, kb, 6)]⟩, ⟨[21], [(21, ka, two)]⟩],
      [c75E 1 ka [(1, ka)] 11, c75E 9 kb [(1, kb)] 6, c75E 9 ka [(1, ka)] 5, c75E 5 [] [(9, [])] two, c75E 21 ka [(33, ka)] two], ⟨1, 3, 4⟩)]

def c90Acts (t : Tempo) : List AsyncPipeline.Act := progActs (asyncSetup Asm.w c90Sub (c90P t) 0) 0 0 c90Prog

def c90Run (t : Tempo) : Option AsyncPipeline.Sys :=
  AsyncPipeline.run (asyncSetup Asm.w c90Sub (c90P t) 0) (asyncReader Asm.w (c90P t) 0) (AsyncPipeline.initial (asyncSetup Asm.w c90Sub (c90P t) 0)) (c90Acts t)

/-- What is sent for a name in the second meter. -/
def c90Sent (s : AsyncPipeline.Sys) (n : Str) : List (List PNum) := s.sent.map (fun pl => (pointsIn numbers (sentScope scA) n pl).map (·.value))

/-- What counted. -/
def c90Seen : List Seen :=
  [(0, 1, ka, 3), (0, 1, ka, 7), (0, 9, ka, 5), (0, 9, kb, 2), (0, 5, [], one), (0, 21, ka, one), (1, 1, ka, 10), (1, 9, ka, 5), (1, 9, kb, 2), (1, 21, ka, two),
   (2, 1, ka, 11), (2, 9, ka, 5), (2, 5, [], two), (2, 9, kb, 6), (2, 21, ka, two)]

theorem c90_observing {t : Tempo} {s : AsyncPipeline.Sys} (h : c90Run t = some s) : Observing Asm.w c90Sub (c90P t) 0 (c90Acts t) s := by
  refine ((C90_programs (w := Asm.w) (fsub := c90Sub) (p := c90P t) (pipe := 0) (by unfold Exportable; decide)).2 c90Prog s ?_ h).1
  have hd : ∀ c ∈ c90Prog, (c.1.all fun r => r.obs.all fun o => o.2.1.all fun kv => decide (kv.val ≠ .invalid)) = true := by decide
  intro c hc r hr o ho kv hkv
  have h1 := hd c hc
  simp only [List.all_eq_true, decide_eq_true_eq] at h1
  exact h1 r hr o ho kv hkv

theorem c90_observable {t : Tempo} {c : Ctor} {n unit : Str} (ha : c.kinds.2.synchronous = false)
    (h : (match (c90P t).ordered[1]? with | none => false | some m => decide (m.scope = scA) && m.insts.any (fun o => o.desc.name = n)) = true)
    (hp : plainB Asm.clauses scA (requests 1 c90Calls) c n unit = true)
    (hl : Views.Legal c.kinds.2 ((v0 t .cumulative .histogram).defaults.agg c.kinds.2)) :
    Observable ViewEx.x (Asm.views t .cumulative .histogram) c90Calls (c90P t) 0 1 (v0 t .cumulative .histogram) scA c n unit := by
  refine ⟨rfl, rfl, ?_, ha, plainB_spec hp, hl⟩
  cases hm : (c90P t).ordered[1]? with
  | none => rw [hm] at h; cases h
  | some m =>
    rw [hm] at h
    simp only [Bool.and_eq_true, decide_eq_true_eq, List.any_eq_true] at h
    obtain ⟨h1, o, h2, h3⟩ := h
    exact ⟨m, o, rfl, h1, h2, h3⟩

theorem c90_few {t : Tempo} {n : Str} {s : AsyncPipeline.Sys} (h : seenIn s = c90Seen) (i : Nat) :
    FewSets (Called (c90P t) 1 n) none 4 (seenIn s) i ∧ (∀ e ∈ seenIn s, Called (c90P t) 1 n e.2.1 → shown none e.2.2.1 ≠ overflowSet) ∧
      ∀ e ∈ seenIn s, ∀ kv ∈ e.2.2.1, kv.key ≠ [] := by
  rw [h]
  refine ⟨⟨[ka, kb, []], by decide, fun e he _ _ => ?_⟩, fun e he _ => ?_, ?_⟩
  · have : ∀ e ∈ c90Seen, shown none e.2.2.1 ∈ [ka, kb, []] := by decide
    exact this e he
  · have : ∀ e ∈ c90Seen, shown none e.2.2.1 ≠ overflowSet := by decide +kernel
    exact this e he
  · decide

/-- Cumulative: the counter is 2 and 12, then 2 and 15, then 6 and 16; the float counter is what was observed. The theorems' conditions hold. -/
example : ∃ s, c90Run .cumulative = some s ∧ Observing Asm.w c90Sub (c90P .cumulative) 0 (c90Acts .cumulative) s ∧
    Observable ViewEx.x (Asm.views .cumulative .cumulative .histogram) c90Calls (c90P .cumulative) 0 1 (v0 .cumulative .cumulative .histogram) scA .int64ObservableCounter
      (lit "n") (lit "s") ∧
    Observable ViewEx.x (Asm.views .cumulative .cumulative .histogram) c90Calls (c90P .cumulative) 0 1 (v0 .cumulative .cumulative .histogram) scA .float64ObservableCounter
      (lit "f") (lit "s") ∧
    (v0 .cumulative .cumulative .histogram).defaults.tempo .asyncCounter ≠ .delta ∧
    (∀ i, FewSets (Called (c90P .cumulative) 1 (lit "n")) none 4 (seenIn s) i ∧ FewSets (Called (c90P .cumulative) 1 (lit "f")) none 4 (seenIn s) i) ∧
    seenIn s = c90Seen ∧ (collections (c90Acts .cumulative)).length = 3 ∧
    c90Sent s (lit "n") = [[.int 2, .int 12], [.int 2, .int 15], [.int 6, .int 16]] ∧ c90Sent s (lit "f") = [[.double one], [.double two], [.double two]] := by
  obtain ⟨s, h1, h2, h3, h4, h5⟩ : ∃ s, c90Run .cumulative = some s ∧ (seenIn s = c90Seen ∧ (collections (c90Acts .cumulative)).length = 3 ∧
      c90Sent s (lit "n") = [[.int 2, .int 12], [.int 2, .int 15], [.int 6, .int 16]] ∧ c90Sent s (lit "f") = [[.double one], [.double two], [.double two]]) :=
    exists_of_eval (by decide +kernel)
  exact ⟨s, h1, c90_observing h1, c90_observable rfl (by decide +kernel) (by decide +kernel) (Or.inl rfl), c90_observable rfl (by decide +kernel) (by decide +kernel) (Or.inl rfl),
    by decide, fun i => ⟨(c90_few h2 i).1, (c90_few h2 i).1⟩, h2, h3, h4, h5⟩

/-- Delta: the counter is 2 and 12, then 3, then 4 and 1; the float counter is a difference where there is one. The gauge is not a difference. -/
example : ∃ s, c90Run .delta = some s ∧ Observing Asm.w c90Sub (c90P .delta) 0 (c90Acts .delta) s ∧
    Observable ViewEx.x (Asm.views .delta .cumulative .histogram) c90Calls (c90P .delta) 0 1 (v0 .delta .cumulative .histogram) scA .int64ObservableCounter
      (lit "n") (lit "s") ∧
    Observable ViewEx.x (Asm.views .delta .cumulative .histogram) c90Calls (c90P .delta) 0 1 (v0 .delta .cumulative .histogram) scA .float64ObservableCounter
      (lit "f") (lit "s") ∧
    Observable ViewEx.x (Asm.views .delta .cumulative .histogram) c90Calls (c90P .delta) 0 1 (v0 .delta .cumulative .histogram) scA .float64ObservableGauge (lit "g") [] ∧
    (v0 .delta .cumulative .histogram).defaults.tempo .asyncCounter = .delta ∧ (v0 .delta .cumulative .histogram).defaults.agg .asyncCounter ≠ .gauge ∧
    (v0 .delta .cumulative .histogram).defaults.agg .asyncGauge = .gauge ∧
    (∀ i, FewSets (Called (c90P .delta) 1 (lit "n")) none 4 (seenIn s) i) ∧ (∀ e ∈ seenIn s, Called (c90P .delta) 1 (lit "n") e.2.1 → shown none e.2.2.1 ≠ overflowSet) ∧
    seenIn s = c90Seen ∧ (collections (c90Acts .delta)).length = 3 ∧
    (∀ i, i ≤ 2 → Shows (Called (c90P .delta) 1 (lit "n")) none (seenIn s) i kb) ∧ NoEmptyList kb ∧
    Amount Asm.w (Called (c90P .delta) 1 (lit "n")) none .monoSum .int64 (seenIn s) 2 kb 6 ∧
    c90Sent s (lit "n") = [[.int 2, .int 12], [.int 3], [.int 4, .int 1]] ∧
    c90Sent s (lit "f") = [[.double one], [.double (two - one)], []] ∧ c90Sent s (lit "g") = [[.double one], [], [.double two]] := by
  obtain ⟨s, h1, h2, h3, h4, h5, h6⟩ : ∃ s, c90Run .delta = some s ∧ (seenIn s = c90Seen ∧ (collections (c90Acts .delta)).length = 3 ∧
      c90Sent s (lit "n") = [[.int 2, .int 12], [.int 3], [.int 4, .int 1]] ∧ c90Sent s (lit "f") = [[.double one], [.double (two - one)], []] ∧
      c90Sent s (lit "g") = [[.double one], [], [.double two]]) :=
    exists_of_eval (by decide +kernel)
  have hc : ∀ id, id = 9 → Called (c90P .delta) 1 (lit "n") id := by
    rintro id rfl
    have hd : (match (c90P .delta).ordered[1]? with | none => false | some m => match m.insts[2]? with | none => false | some o => decide (o.desc.name = lit "n")) = true := by
      decide +kernel
    cases hm : (c90P .delta).ordered[1]? with
    | none => rw [hm] at hd; cases hd
    | some m =>
      rw [hm] at hd
      dsimp only at hd
      cases ho : m.insts[2]? with
      | none => rw [ho] at hd; cases hd
      | some o =>
        rw [ho] at hd
        exact ⟨m, 2, o, hm, ho, of_decide_eq_true hd, rfl⟩
  refine ⟨s, h1, c90_observing h1, c90_observable rfl (by decide +kernel) (by decide +kernel) (Or.inl rfl), c90_observable rfl (by decide +kernel) (by decide +kernel) (Or.inl rfl),
    c90_observable rfl (by decide +kernel) (by decide +kernel) rfl, rfl, by decide, rfl, fun i => (c90_few h2 i).1, (c90_few h2 0).2.1, h2, h3, ?_, ?_, ?_, h4, h5, h6⟩
  · intro i hi
    rw [h2]
    have : i = 0 ∨ i = 1 ∨ i = 2 := by omega
    rcases this with rfl | rfl | rfl
    · exact ⟨(0, 9, kb, 2), by decide, rfl, hc 9 rfl, by decide⟩
    · exact ⟨(1, 9, kb, 2), by decide, rfl, hc 9 rfl, by decide⟩
    · exact ⟨(2, 9, kb, 6), by decide, rfl, hc 9 rfl, by decide⟩
  · intro kv hkv
    simp only [kb, List.mem_singleton] at hkv
    subst hkv
    decide
  · rw [h2]
    refine ⟨[(9, kb, 6)], by simp, ⟨by simp, fun id set y => ?_⟩, by simp [Combined, total64_single]⟩
    rw [List.mem_singleton]
    constructor
    · intro e
      cases e
      exact ⟨hc 9 rfl, by decide, by decide⟩
    · rintro ⟨-, g2, g3⟩
      have hh : ∃ e ∈ c90Seen, (e.1 = 2 ∧ e.2.1 = id ∧ e.2.2.1 = set) ∧ e.2.2.2 = y := by
        unfold lastSeen at g3
        rw [Option.map_eq_some_iff] at g3
        obtain ⟨e, he, hy⟩ := g3
        obtain ⟨g4, g5⟩ := List.mem_filter.1 (List.mem_of_getLast? he)
        exact ⟨e, g4, of_decide_eq_true g5, hy⟩
      obtain ⟨e, g4, ⟨g5, g6, g7⟩, g8⟩ := hh
      have hall : ∀ e ∈ c90Seen, e.1 = 2 → shown none e.2.2.1 = kb → e.2 = (9, kb, 6) := by decide
      have := hall e g4 g5 (by rw [g7]; exact g2)
      rw [← g6, ← g7, ← g8, this]

end Examples

end Verif.Props
