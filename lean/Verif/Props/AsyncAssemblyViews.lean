import Verif.Proof.AsyncAssemblyViews
import Verif.Props.AsyncAssembly
import Verif.Examples.AssemblyViewsProgram

/-!
C91: what is sent of observable instruments shown through views.

`Viewed x views cs p pipe k v sc n L`: see Props/AssemblyViews.lean. `Feeds p k v sc n` are the instruments of the `k`th meter shown under the name. `Shows`, `Amount` and
`AmountBefore` are as for C90, for these instruments and the keys selected.
-/

namespace Verif.Props
open Verif Verif.Attr Verif.Number Verif.Export Verif.Assembly
open Verif.AsyncPipeline (collections)
open Verif.Pipeline (numbers pointsIn sentPoints ints NoEmptyList)
open Verif.Views (Views Ext)
open Verif.Provider (Provider Call)

variable {C G ν : Type} [DecidableEq C] {w : World C G} {fsub : Bits → Bits → Bits} {p : Provider C ν} {x : Ext C} {views : List (Views C)} {cs : List (Call ν)}
  {pipe k : Nat} {v : Views C} {sc : Views.Scope} {n : Str} {L : Look C} {acts : List AsyncPipeline.Act} {s : AsyncPipeline.Sys}

/-- C91 (observable instruments, unit, kind and times). In the payload of every collection, a metric of the scope with the name has the unit, kind and temporality
of the look. Its points are numbers of the type of the look and end with the collection; those of sums start with the provider or, for delta temporality, with the
collection before. -/
theorem C91_async_metric (h : Viewed x views cs p pipe k v sc n L) (hasy : L.sync = false) (hp : Observing w fsub p pipe acts s) {t : Nat} {q : Times.Seq} {pl : Payload}
    (hq : (collections acts)[t]? = some q) (hpl : s.sent[t]? = some pl) (e : PScope) (he : e ∈ pl.scopes) (hl : e.library = sentScope sc) (m : PMetric) (hm : m ∈ e.metrics)
    (hn : m.name = n) :
    m.unit = L.unit ∧ DataFor L.kind (if L.delta = true then .delta else .cumulative) m.data ∧
      ∃ ds : List PNumber, ds ≠ [] ∧ numbers m.data = ds ∧ ∀ d ∈ ds, d.time = stamp q.now ∧ Pipeline.OfKind L.num d.value ∧
        d.start = if L.kind = .gauge then none
          else some (stamp (if L.delta = true then q.last else q.start)) := by
  obtain ⟨o, hw⟩ := async_fed w fsub h hasy
  obtain ⟨-, hpt⟩ := C90_payloads h.made hp
  have hmf := payload_metric (hpt t q pl hq hpl) hw.only he hl hm hn
  obtain ⟨-, h2, -, h4⟩ := hmf
  have hd : ((leafAt p o.leaf).map (·.delta)).getD false = L.delta := hw.delta
  dsimp only at h4
  rw [hd] at h4
  refine ⟨h2.trans hw.unit, ?_⟩
  have hnum : o.num = L.num := hw.num
  rw [← hnum]
  have hsh := hw.shape
  obtain ⟨ik, hleg, hiks⟩ := h.implemented
  have hcases : L.kind = .monoSum ∨ L.kind = .nonMonoSum ∨ L.kind = .gauge := by
    unfold Views.Implemented at hleg
    rw [hiks.trans hasy] at hleg
    exact hleg
  revert h4
  cases hdata : m.data with
  | sum mono tm ps =>
    rintro ⟨h5, h6, h7, h8⟩
    have hg : L.kind ≠ .gauge := by
      intro hg
      rw [hg] at hsh
      rw [hsh] at h5
      simp [shapeOf] at h5
    refine ⟨⟨?_, ?_⟩, ps, h7, rfl, ?_⟩
    · rcases hcases with h0 | h0 | h0
      · rw [h0] at hsh ⊢
        rw [hsh] at h5
        simpa [shapeOf] using h5
      · rw [h0] at hsh ⊢
        rw [hsh] at h5
        simpa [shapeOf] using h5
      · exact absurd h0 hg
    · rw [h6]
      rfl
    · intro d hd
      obtain ⟨h9, h10, h11⟩ := h8 d hd
      refine ⟨h10, h11, ?_⟩
      rw [h9, if_neg hg]
      rfl
  | gauge ps =>
    rintro ⟨h5, h7, h8⟩
    have hg : L.kind = .gauge := by
      rcases hcases with h0 | h0 | h0
      · rw [h0] at hsh; rw [hsh] at h5; cases h5
      · rw [h0] at hsh; rw [hsh] at h5; cases h5
      · exact h0
    refine ⟨hg, ps, h7, rfl, fun d hd => ?_⟩
    obtain ⟨h9, h10, h11⟩ := h8 d hd
    exact ⟨h10, h11, by rw [h9, if_pos hg]⟩
  | exp tm ps =>
    rintro ⟨h5, -⟩
    rw [hsh] at h5
    rcases hcases with h0 | h0 | h0 <;> rw [h0] at h5 <;> cases h5
  | hist tm ps =>
    rintro ⟨h5, -⟩
    rw [hsh] at h5
    rcases hcases with h0 | h0 | h0 <;> rw [h0] at h5 <;> cases h5

/-! ### Cumulative sums and gauges -/

/-- C91 (observable instruments, cumulative sums and gauges). For every collection in which the observed sets fit: the payload has exactly one point for each
attribute set which remains, after the selection of keys, of an observation of this collection by an instrument shown under the name, with exactly these
attributes, and its value is made of the last values observed. -/
theorem C91_async_cumulative (h : Viewed x views cs p pipe k v sc n L) (hasy : L.sync = false) (hp : Observing w fsub p pipe acts s) (hone : ShownOnce p k v sc n)
    (ht : L.delta = false ∨ L.kind = .gauge) {t : Nat} (htl : t < (collections acts).length)
    (hf : FewSets (Feeds p k v sc n) L.keys L.acfg.limit (seenIn s) t) :
    ∃ pl, s.sent[t]? = some pl ∧ ∃ as : List (List KV), as.Nodup ∧ (∀ a, a ∈ as ↔ Shows (Feeds p k v sc n) L.keys (seenIn s) t a) ∧
      Pointwise (fun a d => AttrsOf a d.attrs ∧ ∃ y, Amount w (Feeds p k v sc n) L.keys L.kind L.num (seenIn s) t a y ∧ NumOf L.num y d.value) as
        (pointsIn numbers (sentScope sc) n pl) := by
  obtain ⟨o, hw⟩ := async_fed w fsub h hasy
  have := C75_cumulative hp.resource hp.typed hp.orderly hp.runs (hw.once hone) hw.only hw.agrees (by
    rw [hw.delta, hw.gauge]
    rcases ht with ht | ht
    · exact .inl ht
    · right; simp [ht]) htl (hw.fits hf)
  simpa only [hw.observed, hw.amount, hw.num] using this

/-! ### Delta sums -/

/-- C91 (observable instruments, integer delta sums). When the sets of all collections fit: the payload of every collection has exactly one point for each
attribute set shown for an observation of this collection whose value changed since the collection before or which was not observed in that one; its value is the
difference, or the whole value. -/
theorem C91_async_delta (h : Viewed x views cs p pipe k v sc n L) (hasy : L.sync = false) (hp : Observing w fsub p pipe acts s) (hone : ShownOnce p k v sc n) (hn : L.num = .int64)
    (ht : L.delta = true) (hg : L.kind ≠ .gauge)
    (hf : ∀ t, t < (collections acts).length → FewSets (Feeds p k v sc n) L.keys L.acfg.limit (seenIn s) t)
    (hov : ∀ e ∈ seenIn s, Feeds p k v sc n e.2.1 → shown L.keys e.2.2.1 ≠ overflowSet) {t : Nat} (htl : t < (collections acts).length) :
    ∃ pl, s.sent[t]? = some pl ∧ ∃ as : List (List KV), as.Nodup ∧
      (∀ a, a ∈ as ↔ ∃ y, Amount w (Feeds p k v sc n) L.keys L.kind .int64 (seenIn s) t a y ∧
        ¬ AmountBefore w (Feeds p k v sc n) L.keys L.kind .int64 (seenIn s) t a y) ∧
      Pointwise (fun a d => AttrsOf a d.attrs ∧ ∃ y, Amount w (Feeds p k v sc n) L.keys L.kind .int64 (seenIn s) t a y ∧
        ((∃ b, AmountBefore w (Feeds p k v sc n) L.keys L.kind .int64 (seenIn s) t a b ∧ d.value = .int (y - b)) ∨
          ((∀ b, ¬ AmountBefore w (Feeds p k v sc n) L.keys L.kind .int64 (seenIn s) t a b) ∧ d.value = .int y)))
        as (pointsIn numbers (sentScope sc) n pl) := by
  obtain ⟨o, hw⟩ := async_fed w fsub h hasy
  have := C75_delta hp.resource hp.typed hp.orderly hp.runs (hw.once hone) hw.only hw.agrees (by rw [hw.delta]; exact ht)
    (by rw [hw.gauge]; exact decide_eq_false hg) (hw.num.trans hn) (fun t ht => hw.fits (hf t ht))
    (fun e he hl => by rw [hw.filter]; exact hov _ (List.mem_map_of_mem he) ((hw.feeds _).1 hl)) htl
  simpa only [hw.amount, hw.before, hn] using this

/-- C91 (observable instruments, float delta sums). When the sets of all collections fit: each point of the payload is for an attribute set shown for an
observation of this collection; its value is the float difference of its cumulative value and the one in the collection before, and is not zero, or its whole value
when it was not observed in that one; an attribute set shown without a point has a zero difference. -/
theorem C91_async_delta_float (h : Viewed x views cs p pipe k v sc n L) (hasy : L.sync = false) (hp : Observing w fsub p pipe acts s) (hone : ShownOnce p k v sc n) (hn : L.num = .float64)
    (ht : L.delta = true) (hg : L.kind ≠ .gauge)
    (hf : ∀ t, t < (collections acts).length → FewSets (Feeds p k v sc n) L.keys L.acfg.limit (seenIn s) t)
    (hov : ∀ e ∈ seenIn s, Feeds p k v sc n e.2.1 → shown L.keys e.2.2.1 ≠ overflowSet) {t : Nat} (htl : t < (collections acts).length) :
    ∃ pl, s.sent[t]? = some pl ∧ ∃ as : List (List KV), as.Nodup ∧ (∀ a ∈ as, Shows (Feeds p k v sc n) L.keys (seenIn s) t a) ∧
      (∀ a, Shows (Feeds p k v sc n) L.keys (seenIn s) t a → a ∉ as → ∃ y b, Amount w (Feeds p k v sc n) L.keys L.kind .float64 (seenIn s) t a y ∧
        AmountBefore w (Feeds p k v sc n) L.keys L.kind .float64 (seenIn s) t a b ∧ FloatZero (fsub y b)) ∧
      Pointwise (fun a d => AttrsOf a d.attrs ∧ ∃ y, Amount w (Feeds p k v sc n) L.keys L.kind .float64 (seenIn s) t a y ∧
        ((∃ b, AmountBefore w (Feeds p k v sc n) L.keys L.kind .float64 (seenIn s) t a b ∧ ¬ FloatZero (fsub y b) ∧ d.value = .double (fsub y b)) ∨
          ((∀ b, ¬ AmountBefore w (Feeds p k v sc n) L.keys L.kind .float64 (seenIn s) t a b) ∧ d.value = .double y)))
        as (pointsIn numbers (sentScope sc) n pl) := by
  obtain ⟨o, hw⟩ := async_fed w fsub h hasy
  have := C75_delta_float hp.resource hp.typed hp.orderly hp.runs (hw.once hone) hw.only hw.agrees (by rw [hw.delta]; exact ht)
    (by rw [hw.gauge]; exact decide_eq_false hg) (hw.num.trans hn) (fun t ht => hw.fits (hf t ht))
    (fun e he hl => by rw [hw.filter]; exact hov _ (List.mem_map_of_mem he) ((hw.feeds _).1 hl)) htl
  have hfs : (asyncSetup w fsub p pipe).fsub = fsub := rfl
  simpa only [hw.amount, hw.before, hw.observed, hn, hfs] using this

/-- C91 (observable instruments, integer delta totals). If moreover something shown as `a` was observed in every collection since the first such one, all
values sent with the attributes `a` add up to their last cumulative value. -/
theorem C91_async_delta_total (h : Viewed x views cs p pipe k v sc n L) (hasy : L.sync = false) (hp : Observing w fsub p pipe acts s) (hone : ShownOnce p k v sc n) (hn : L.num = .int64)
    (ht : L.delta = true) (hg : L.kind ≠ .gauge)
    (hf : ∀ t, t < (collections acts).length → FewSets (Feeds p k v sc n) L.keys L.acfg.limit (seenIn s) t)
    (hov : ∀ e ∈ seenIn s, Feeds p k v sc n e.2.1 → shown L.keys e.2.2.1 ≠ overflowSet) {a : List KV} (hne : NoEmptyList a) {first last : Nat}
    (hlast : (collections acts).length = last + 1) (hle : first ≤ last) (hno : ∀ t, t < first → ¬ Shows (Feeds p k v sc n) L.keys (seenIn s) t a)
    (hobs : ∀ t, first ≤ t → t ≤ last → Shows (Feeds p k v sc n) L.keys (seenIn s) t a) {y : Bits}
    (hy : Amount w (Feeds p k v sc n) L.keys L.kind .int64 (seenIn s) last a y) :
    Spec.total64 (ints ((sentPoints numbers (sentScope sc) n s.sent).filter (fun d => @decide (AttrsOf a d.attrs) (Classical.propDecidable _)))) = y := by
  obtain ⟨o, hw⟩ := async_fed w fsub h hasy
  exact C75_delta_total hp.resource hp.typed hp.orderly hp.runs (hw.once hone) hw.only hw.agrees (by rw [hw.delta]; exact ht)
    (by rw [hw.gauge]; exact decide_eq_false hg) (hw.num.trans hn) (fun t ht => hw.fits (hf t ht))
    (fun e he hl => by rw [hw.filter]; exact hov _ (List.mem_map_of_mem he) ((hw.feeds _).1 hl)) hne hlast hle
    (fun t ht hs => hno t ht ((hw.observed _ _ _).1 hs)) (fun t h1 h2 => (hw.observed _ _ _).2 (hobs t h1 h2))
    ((hw.amount _ _ _ _).2 (by rw [hn]; exact hy))

/-! ### A concrete program -/

section Examples
open Verif.Examples Verif.Examples.Asm Verif.Examples.AsmV
open Verif.Examples.Pipe (kvb)
open Verif.Views (lit Tempo AggKind)
open Verif.Instruments (Ctor)
open Verif.AsyncPipeline (CbRun Program progActs)

/-- The reader shows two counters as `y`, keeping the attribute `a`, and all gauges without attributes. -/
def c91V (t : Tempo) : Views Nat where
  name := lit "reader"
  clauses := [{ ViewEx.any with name := lit "m", rename := some (fun _ => lit "y"), keys := some [lit "a"], acfg := ⟨0, 4⟩ },
    { ViewEx.any with name := lit "n", rename := some (fun _ => lit "y"), keys := some [lit "a"], acfg := ⟨0, 4⟩ },
    { ViewEx.any with ikind := some .asyncGauge, keys := some [], acfg := ⟨0, 3⟩ }]
  defaults := { agg := Views.standardAgg, tempo := fun _ => t, int64 := fun _ => ⟨0, 4⟩, float64 := fun _ => ⟨0, 4⟩ }
  perfLimit := 4

def c91Calls : List (Provider.Call Nat) :=
  [.meter scA, .instrument 0 (Ctor.int64ObservableCounter.desc (lit "m") (lit "B") (lit "s")), .instrument 0 (Ctor.int64ObservableCounter.desc (lit "n") [] (lit "s")),
   .instrument 0 (Ctor.float64ObservableGauge.desc (lit "g") [] []), .instrument 0 (Ctor.float64ObservableUpDownCounter.desc (lit "f") [] [])]

def c91P (t : Tempo) : Provider Nat Nat := Provider.run ViewEx.x (Provider.new [c91V t]) c91Calls

/-- Three collections. Instruments 0 and 2 are the counters, 4 is the gauge, 6 the float counter, which no clause matches. -/
def c91Prog : Program :=
  [([⟨[0, 2, 4], [(0, kab, 3), (0, kab, 7), (2, ka, 5), (0, kb, 1), (4, ka, one)]⟩, ⟨[6], [(6, ka, one)]⟩],
      [c75E 2 ka [(0, ka)] 5, c75E 0 kab [(0, ka)] 7, c75E 0 kb [(0, [])] 1, c75E 4 ka [(4, [])] one, c75E 6 ka [(8, ka)] one], ⟨1, 1, 2⟩),
    ([⟨[0, 2], [(0, kab, 10), (2, ka, 5)]⟩, ⟨[6], [(6, ka, two)]⟩], [c75E 0 kab [(0, ka)] 10, c75E 2 ka [(0, ka)] 5, c75E 6 ka [(8, ka)] two], ⟨1, 2, 3⟩),
    ([⟨[0, 2, 4], [(0, kab, 10), (2, ka, 5), (2, kab, 6), (4, kb, two)]⟩, ⟨[6], [(6, ka, two)]⟩],
      [c75E 0 kab [(0, ka)] 10, c75E 2 ka [(0, ka)] 5, c75E 2 kab [(0, ka)] 6, c75E 4 kb [(4, [])] two, c75E 6 ka [(8, ka)] two], ⟨1, 3, 4⟩)]

def c91Acts (t : Tempo) : List AsyncPipeline.Act := progActs (asyncSetup Asm.w c90Sub (c91P t) 0) 0 0 c91Prog

def c91Run (t : Tempo) : Option AsyncPipeline.Sys :=
  AsyncPipeline.run (asyncSetup Asm.w c90Sub (c91P t) 0) (asyncReader Asm.w (c91P t) 0) (AsyncPipeline.initial (asyncSetup Asm.w c90Sub (c91P t) 0)) (c91Acts t)

/-- What counted. -/
def c91Seen : List Seen :=
  [(0, 0, kab, 3), (0, 0, kab, 7), (0, 2, ka, 5), (0, 0, kb, 1), (0, 4, ka, one), (0, 6, ka, one), (1, 0, kab, 10), (1, 2, ka, 5), (1, 6, ka, two),
   (2, 0, kab, 10), (2, 2, ka, 5), (2, 2, kab, 6), (2, 4, kb, two), (2, 6, ka, two)]

def c91Y (t : Tempo) : Look Nat :=
  { sync := false, kind := .monoSum, num := .int64, unit := lit "s", keys := some [lit "a"], acfg := ⟨0, 4⟩, delta := decide (t = .delta) }
def c91G : Look Nat := { sync := false, kind := .gauge, num := .float64, unit := [], keys := some [], acfg := ⟨0, 3⟩, delta := false }
def c91F (t : Tempo) : Look Nat := { sync := false, kind := .nonMonoSum, num := .float64, unit := [], keys := none, acfg := ⟨0, 4⟩, delta := decide (t = .delta) }

theorem c91_observing {t : Tempo} {s : AsyncPipeline.Sys} (h : c91Run t = some s) : Observing Asm.w c90Sub (c91P t) 0 (c91Acts t) s := by
  refine ((C90_programs (w := Asm.w) (fsub := c90Sub) (p := c91P t) (pipe := 0) (by unfold Exportable; decide)).2 c91Prog s ?_ h).1
  have hd : ∀ c ∈ c91Prog, (c.1.all fun r => r.obs.all fun o => o.2.1.all fun kv => decide (kv.val ≠ .invalid)) = true := by decide
  intro c hc r hr o ho kv hkv
  have h1 := hd c hc
  simp only [List.all_eq_true, decide_eq_true_eq] at h1
  exact h1 r hr o ho kv hkv

theorem c91_viewed {t : Tempo} {n : Str} {L : Look Nat} (h : viewedB (c91P t) 0 (c91V t) scA n (requests 0 c91Calls) L = true) :
    Viewed ViewEx.x [c91V t] c91Calls (c91P t) 0 0 (c91V t) scA n L :=
  viewedB_spec rfl rfl h

theorem c91_once {t : Tempo} {n : Str} {ids : List (Nat × Nat)} (h : fedBy (c91P t) 0 (c91V t) scA n ids = true) (hi : ∀ e ∈ ids, e.2 = 1) :
    ShownOnce (c91P t) 0 (c91V t) scA n := by
  intro id
  rcases Nat.eq_zero_or_pos (times (c91P t) 0 (c91V t) scA n id) with h0 | h0
  · omega
  · exact Nat.le_of_eq (hi _ (fedBy_spec h h0))

theorem c91_few {t : Tempo} {n : Str} {s : AsyncPipeline.Sys} (h : seenIn s = c91Seen) (i : Nat) :
    FewSets (Feeds (c91P t) 0 (c91V t) scA n) (some [lit "a"]) 4 (seenIn s) i ∧ FewSets (Feeds (c91P t) 0 (c91V t) scA n) (some []) 3 (seenIn s) i ∧
      FewSets (Feeds (c91P t) 0 (c91V t) scA n) none 4 (seenIn s) i ∧
      (∀ keys ∈ [some [lit "a"], none], ∀ e ∈ seenIn s, Feeds (c91P t) 0 (c91V t) scA n e.2.1 → shown keys e.2.2.1 ≠ overflowSet) := by
  rw [h]
  refine ⟨⟨[ka, []], by decide, fun e he _ _ => ?_⟩, ⟨[[]], by decide, fun e he _ _ => ?_⟩, ⟨[ka, kb, kab], by decide, fun e he _ _ => ?_⟩, fun keys hk e he _ => ?_⟩
  · have : ∀ e ∈ c91Seen, shown (some [lit "a"]) e.2.2.1 ∈ [ka, []] := by
      have hl : lit "a" = [97] := by decide +kernel
      rw [hl]
      simp only [shown, Option.some.injEq, forall_eq']
      decide
    exact this e he
  · rw [List.mem_singleton]
    unfold shown
    rw [List.filter_eq_nil_iff]
    intro kv _
    rw [decide_eq_true_eq]
    exact fun h => absurd (h.2 [] rfl) (by simp)
  · have : ∀ e ∈ c91Seen, shown none e.2.2.1 ∈ [ka, kb, kab] := by decide
    exact this e he
  · have : ∀ e ∈ c91Seen, ∀ kv ∈ overflowSet, kv ∉ e.2.2.1 := by decide +kernel
    intro hov
    have hne : overflowSet ≠ [] := by decide +kernel
    obtain ⟨kv, hkv⟩ := List.exists_mem_of_ne_nil _ hne
    refine this e he kv hkv ?_
    rw [← hov] at hkv
    exact (List.mem_filter.1 hkv).1

/-- Cumulative: `y` is 12 for the attribute `a` and 1 without attributes, then 15, then 21. -/
example : ∃ s, c91Run .cumulative = some s ∧ Observing Asm.w c90Sub (c91P .cumulative) 0 (c91Acts .cumulative) s ∧
    Viewed ViewEx.x [c91V .cumulative] c91Calls (c91P .cumulative) 0 0 (c91V .cumulative) scA (lit "y") (c91Y .cumulative) ∧
    Viewed ViewEx.x [c91V .cumulative] c91Calls (c91P .cumulative) 0 0 (c91V .cumulative) scA (lit "g") c91G ∧
    ShownOnce (c91P .cumulative) 0 (c91V .cumulative) scA (lit "y") ∧ ShownOnce (c91P .cumulative) 0 (c91V .cumulative) scA (lit "g") ∧
    (∀ i, FewSets (Feeds (c91P .cumulative) 0 (c91V .cumulative) scA (lit "y")) (c91Y .cumulative).keys (c91Y .cumulative).acfg.limit (seenIn s) i ∧
      FewSets (Feeds (c91P .cumulative) 0 (c91V .cumulative) scA (lit "g")) c91G.keys c91G.acfg.limit (seenIn s) i) ∧
    seenIn s = c91Seen ∧ (collections (c91Acts .cumulative)).length = 3 ∧
    c90Sent s (lit "y") = [[.int 1, .int 12], [.int 15], [.int 21]] ∧ c90Sent s (lit "g") = [[.double one], [], [.double two]] := by
  obtain ⟨s, h1, h2, h3, h4, h5⟩ : ∃ s, c91Run .cumulative = some s ∧ (seenIn s = c91Seen ∧ (collections (c91Acts .cumulative)).length = 3 ∧
      c90Sent s (lit "y") = [[.int 1, .int 12], [.int 15], [.int 21]] ∧ c90Sent s (lit "g") = [[.double one], [], [.double two]]) :=
    exists_of_eval (by decide +kernel)
  exact ⟨s, h1, c91_observing h1, c91_viewed (by decide +kernel), c91_viewed (by decide +kernel), c91_once (ids := [(0, 1), (2, 1)]) (by decide +kernel) (by decide),
    c91_once (ids := [(4, 1)]) (by decide +kernel) (by decide), fun i => ⟨(c91_few h2 i).1, (c91_few h2 i).2.1⟩, h2, h3, h4, h5⟩

/-- Delta: `y` is 12 for the attribute `a` and 1 without attributes, then 3, then 6; altogether 21 for the attribute `a`, which is its last cumulative value. -/
example : ∃ s, c91Run .delta = some s ∧ Observing Asm.w c90Sub (c91P .delta) 0 (c91Acts .delta) s ∧
    Viewed ViewEx.x [c91V .delta] c91Calls (c91P .delta) 0 0 (c91V .delta) scA (lit "y") (c91Y .delta) ∧
    Viewed ViewEx.x [c91V .delta] c91Calls (c91P .delta) 0 0 (c91V .delta) scA (lit "f") (c91F .delta) ∧
    ShownOnce (c91P .delta) 0 (c91V .delta) scA (lit "y") ∧ ShownOnce (c91P .delta) 0 (c91V .delta) scA (lit "f") ∧
    (∀ i, FewSets (Feeds (c91P .delta) 0 (c91V .delta) scA (lit "y")) (c91Y .delta).keys (c91Y .delta).acfg.limit (seenIn s) i ∧
      FewSets (Feeds (c91P .delta) 0 (c91V .delta) scA (lit "f")) (c91F .delta).keys (c91F .delta).acfg.limit (seenIn s) i) ∧
    (∀ e ∈ seenIn s, Feeds (c91P .delta) 0 (c91V .delta) scA (lit "y") e.2.1 → shown (c91Y .delta).keys e.2.2.1 ≠ overflowSet) ∧
    (∀ i, i ≤ 2 → Shows (Feeds (c91P .delta) 0 (c91V .delta) scA (lit "y")) (c91Y .delta).keys (seenIn s) i ka) ∧ NoEmptyList ka ∧
    Amount Asm.w (Feeds (c91P .delta) 0 (c91V .delta) scA (lit "y")) (c91Y .delta).keys .monoSum .int64 (seenIn s) 2 ka 21 ∧
    seenIn s = c91Seen ∧ (collections (c91Acts .delta)).length = 3 ∧
    c90Sent s (lit "y") = [[.int 1, .int 12], [.int 3], [.int 6]] ∧ c90Sent s (lit "f") = [[.double one], [.double (two - one)], []] := by
  obtain ⟨s, h1, h2, h3, h4, h5⟩ : ∃ s, c91Run .delta = some s ∧ (seenIn s = c91Seen ∧ (collections (c91Acts .delta)).length = 3 ∧
      c90Sent s (lit "y") = [[.int 1, .int 12], [.int 3], [.int 6]] ∧ c90Sent s (lit "f") = [[.double one], [.double (two - one)], []]) :=
    exists_of_eval (by decide +kernel)
  have hl : lit "a" = [97] := by decide +kernel
  have hk : (c91Y .delta).keys = some [[97]] := by rw [← hl]; rfl
  have hsh : ∀ a, shown (some [[97]]) a = a.filter (fun kv => decide (kv.key ≠ [] ∧ kv.key ∈ [[97]])) := by
    intro a
    simp only [shown, Option.some.injEq, forall_eq']
  have hf : ∀ id, id ∈ [0, 2] ↔ Feeds (c91P .delta) 0 (c91V .delta) scA (lit "y") id := by
    intro id
    constructor
    · intro h
      unfold Feeds
      rw [times_eq]
      have : ∀ id ∈ [0, 2], 0 < timesB (c91P .delta) 0 (c91V .delta) scA (lit "y") id := by decide +kernel
      exact this id h
    · intro h
      have := fedBy_spec (ids := [(0, 1), (2, 1)]) (by decide +kernel) h
      simp only [List.mem_cons, Prod.mk.injEq, List.not_mem_nil, or_false] at this ⊢
      rcases this with h | h
      · exact Or.inl h.1
      · exact Or.inr h.1
  refine ⟨s, h1, c91_observing h1, c91_viewed (by decide +kernel), c91_viewed (by decide +kernel), c91_once (ids := [(0, 1), (2, 1)]) (by decide +kernel) (by decide),
    c91_once (ids := [(6, 1)]) (by decide +kernel) (by decide), fun i => ⟨(c91_few h2 i).1, (c91_few h2 i).2.2.1⟩, (c91_few h2 0).2.2.2 _ (by simp [c91Y]), ?_, ?_, ?_, h2, h3, h4, h5⟩
  · intro i hi
    rw [h2, hk]
    have : i = 0 ∨ i = 1 ∨ i = 2 := by omega
    rcases this with rfl | rfl | rfl
    · exact ⟨(0, 2, ka, 5), by decide, rfl, (hf 2).1 (by decide), by rw [hsh]; decide⟩
    · exact ⟨(1, 2, ka, 5), by decide, rfl, (hf 2).1 (by decide), by rw [hsh]; decide⟩
    · exact ⟨(2, 2, ka, 5), by decide, rfl, (hf 2).1 (by decide), by rw [hsh]; decide⟩
  · intro kv hkv
    simp only [ka, List.mem_singleton] at hkv
    subst hkv
    decide
  · rw [h2, hk]
    refine ⟨[(0, kab, 10), (2, ka, 5), (2, kab, 6)], by simp, ⟨by decide, fun id set y => ?_⟩, by simp only [Combined]; decide⟩
    rw [← hf, hsh]
    constructor
    · intro e
      have : ∀ e ∈ [(0, kab, (10 : Bits)), (2, ka, 5), (2, kab, 6)], e.1 ∈ [0, 2] ∧ e.2.1.filter (fun kv => decide (kv.key ≠ [] ∧ kv.key ∈ [[97]])) = ka ∧
          lastSeen c91Seen 2 e.1 e.2.1 = some e.2.2 := by decide
      exact this _ e
    · rintro ⟨g1, g2, g3⟩
      have hh : ∃ e ∈ c91Seen, (e.1 = 2 ∧ e.2.1 = id ∧ e.2.2.1 = set) ∧ e.2.2.2 = y := by
        unfold lastSeen at g3
        rw [Option.map_eq_some_iff] at g3
        obtain ⟨e, he, hy⟩ := g3
        obtain ⟨g4, g5⟩ := List.mem_filter.1 (List.mem_of_getLast? he)
        exact ⟨e, g4, of_decide_eq_true g5, hy⟩
      obtain ⟨e, g4, ⟨g5, g6, g7⟩, g8⟩ := hh
      have hall : ∀ e ∈ c91Seen, e.1 = 2 → e.2.1 ∈ [0, 2] → e.2 ∈ [(0, kab, (10 : Bits)), (2, ka, 5), (2, kab, 6)] := by decide
      have := hall e g4 g5 (by rw [g6]; exact g1)
      rw [← g6, ← g7, ← g8]
      exact this

end Examples

end Verif.Props
