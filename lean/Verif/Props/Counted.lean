import Verif.Examples.CountedProgram
import Verif.Props.Hinted

/-!
C96: which calls and observations count, in programs which start the launcher.

C94 and C95 say what is sent in terms of the values recorded (`recordedBy`) and of the observations which counted (`Whole.seenIn`). Here these are tied to what the program
does: `recordedOn` is made of the calls, `observedOn` of the observations of the program, and both of the constructor by which the instruments were made. `Waits`: callbacks return
after the observations they started. `InTurn`: observations of the instruments with the name do not overlap. `Finished`: none is going on at the end.
-/

namespace Verif.Props
open Verif Verif.Attr Verif.Number Verif.Aggr Verif.Export Verif.Spec Verif.Assembly Verif.Instruments Verif.Launched
open Verif.Pipeline (numbers expPoints histPoints pointsIn sentPoints ints NoEmptyList Describes Grouped)
open Verif.Whole (syncActs metricsIn)
open Verif.Live (makes rest)
open Verif.Front (IKind)
open Verif.Views (Tempo usualAgg)
open Verif.Launcher (documented)

variable {C G ν : Type} [DecidableEq C] {lx : Launcher.Ext} {lw : Launcher.World} {opts : List Launcher.Opt} {pref : Launcher.Preference} {pc : Launcher.PipelineConfig}
  {sel : IKind → Tempo} {e : Outside C G} {k : Nat} {sc : Views.Scope} {c : Ctor} {n unit : Str} {L : Look C} {acts : List (Live.Act ν)} {coll : List Whole.Act}
  {z z' : Live.Sys C G ν}

/-! ### Calls -/

omit [DecidableEq C] in
theorem made_named {cs : List (Provider.Call ν)} {p : Provider.Provider C ν} (h : Named cs p k sc c n unit) : MadeBy cs k c n := fun d hd hn => by
  obtain ⟨-, text, h1⟩ := h.plain d hd hn
  exact ⟨text, unit, h1⟩

omit [DecidableEq C] in
theorem made_hints {cs : List (Provider.Call ν)} {p : Provider.Provider C ν} (h : Hints e pref cs p k sc c n L) : MadeBy cs k c n := fun d hd hn => by
  obtain ⟨⟨text, h1⟩, -⟩ := h.hinted d hd hn
  exact ⟨text, L.unit, h1⟩

/-- C96 (attributes of calls). The attributes used for a call are those given, texts cut off after 8192 bytes, then changed by the measurement processor, if there is one. -/
theorem C96_attrs (hp : Runs e pc sel acts z) : ∀ a ∈ Whole.calls (rest acts), a.1.attrs a.2.1 = usedAttrs a.1.proc a.2.1 := attrs_used rfl hp.held

/-- C96 (values recorded). Of the calls on instruments made by the constructor, those count whose value it accepts. -/
theorem C96_recorded (hm : MadeBy (makes acts) k c n) (hp : Runs e pc sel acts z) (Q : List KV → Prop) :
    recordedBy z.p k n Q (syncActs (rest acts)) = recordedOn z.p k c n Q (rest acts) :=
  recorded_on (w := world e pc) rfl hp.held (fun _ hc => called_made (Live.run_prov hp.runs) hm hc) Q

/-- C96 (values recorded, for a program which ends with a collection). -/
theorem C96_recorded_end (hm : MadeBy (makes acts) k c n) (hp : Ends e pc sel acts coll z z') (Q : List KV → Prop) :
    recordedBy z'.p k n Q (syncActs (rest acts)) = recordedOn z'.p k c n Q (rest acts) := by
  refine recorded_on (w := world e pc) rfl (fun a ha => hp.running.held a ?_) (fun _ hc => called_made (made_end hp) hm hc) Q
  rw [Live.rest_append]
  unfold Whole.calls
  rw [List.filterMap_append]
  exact List.mem_append_left _ ha

/-! ### Observations -/

theorem lastValue_sorted {l : List KV} (h : Sorted l) (key : Str) : lastValue key l = Attr.get key l := by
  unfold lastValue
  cases hf : l.reverse.find? (fun kv => kv.key == key) with
  | some kv =>
    have h1 := List.mem_reverse.1 (List.mem_of_find?_eq_some hf)
    have h2 : kv.key = key := by simpa using List.find?_some hf
    rw [← h2, get_of_mem h h1]
    rfl
  | none =>
    have h1 : ∀ kv ∈ l, ¬ kv.key = key := by simpa using List.find?_eq_none.1 hf
    have h2 : l.find? (fun kv => kv.key == key) = none := List.find?_eq_none.2 (by simpa using h1)
    unfold Attr.get
    rw [h2]

/-- C96 (set of an observation). The set used has each key at most once, in increasing order. When no text is longer than 8192 bytes, the value of a key is the last one given
for it. (The value is the canonical one: negative zeros inside float slices count as zeros.) -/
theorem C96_set (as : List KV) : (usedSet as).Pairwise (fun a b => a.key < b.key) ∧
    ((∀ kv ∈ newSet as, kv.key.length ≤ 8192 ∧ ∀ s ∈ strings kv.val, s.length ≤ 8192) → ∀ key, Attr.get key (usedSet as) = (lastValue key as).map canonVal) := by
  refine ⟨sorted_pairwise (newSet_sorted _), fun h key => ?_⟩
  unfold usedSet
  rw [C18_short_unchanged 8192 _ h, set_ext (newSet_sorted (newSet as)) (newSet_sorted as) (fun key => ?_), get_newSet]
  rw [get_newSet, lastValue_sorted (newSet_sorted as), get_newSet, Option.map_map]
  congr 1
  funext v
  exact canon_idem v

/-- C96 (observations which count). When callbacks return after their observations, and all observations have returned: the observations which counted are, in some order, those which
the program made, on the observer of a callback which had been started and had not returned, of an instrument declared for it, with an accepted value. -/
theorem C96_observed (hl : Launch lx lw opts pref pc sel) (h : Named (makes acts) z.p k sc c n unit) (hasy : (promise c).observed = true) (hp : Runs e pc sel acts z)
    (hw : Waits e pc sel z.p acts) (hd : Finished z.p k n z) :
    ((Whole.seenIn z.s).filter (fun v => open Classical in decide (Called z.p k n v.2.1))).Perm (observedOn z.p k c n (rest acts)) :=
  (observed_core hp (made_named h) (connected (pc := pc) (h.viewed hl (Live.run_prov hp.runs)) (look_async hasy)) hw hd).1

/-- C96 (order of observations). When moreover they do not overlap, they counted in the order in which they were made. -/
theorem C96_observed_order (hl : Launch lx lw opts pref pc sel) (h : Named (makes acts) z.p k sc c n unit) (hasy : (promise c).observed = true) (hp : Runs e pc sel acts z)
    (hw : Waits e pc sel z.p acts) (hin : InTurn e pc sel z.p k n acts) (hd : Finished z.p k n z) :
    (Whole.seenIn z.s).filter (fun v => open Classical in decide (Called z.p k n v.2.1)) = observedOn z.p k c n (rest acts) :=
  (observed_core hp (made_named h) (connected (pc := pc) (h.viewed hl (Live.run_prov hp.runs)) (look_async hasy)) hw hd).2 hin

/-- C96 (with a hint; observations which count). -/
theorem C96_hinted_observed (hl : Launch lx lw opts pref pc sel) (h : Hints e pref (makes acts) z.p k sc c n L) (hasy : L.sync = false) (hp : Runs e pc sel acts z)
    (hw : Waits e pc sel z.p acts) (hd : Finished z.p k n z) :
    ((Whole.seenIn z.s).filter (fun v => open Classical in decide (Called z.p k n v.2.1))).Perm (observedOn z.p k c n (rest acts)) :=
  (observed_core hp (made_hints h) (connected (pc := pc) (h.viewed hl (Live.run_prov hp.runs)) hasy) hw hd).1

/-- C96 (with a hint; order of observations). -/
theorem C96_hinted_observed_order (hl : Launch lx lw opts pref pc sel) (h : Hints e pref (makes acts) z.p k sc c n L) (hasy : L.sync = false) (hp : Runs e pc sel acts z)
    (hw : Waits e pc sel z.p acts) (hin : InTurn e pc sel z.p k n acts) (hd : Finished z.p k n z) :
    (Whole.seenIn z.s).filter (fun v => open Classical in decide (Called z.p k n v.2.1)) = observedOn z.p k c n (rest acts) :=
  (observed_core hp (made_hints h) (connected (pc := pc) (h.viewed hl (Live.run_prov hp.runs)) hasy) hw hd).2 hin

/-! ### What is sent -/

/-- C96 (observable instruments, cumulative, and observable gauges). For every collection with fewer than 2000 attribute sets: the payload has exactly one point for each attribute set observed in this collection by an instrument with the name, with exactly these attributes, and its value is made of the last values observed. -/
theorem C96_async_cumulative (hl : Launch lx lw opts pref pc sel) (h : Named (makes acts) z.p k sc c n unit) (hp : Runs e pc sel acts z) (hasy : (promise c).observed = true) (hw : Waits e pc sel z.p acts) (hin : InTurn e pc sel z.p k n acts)
    (hd : Finished z.p k n z) (ht : documented pref c.kinds.2 = .cumulative ∨ (promise c).output = .gauge) {t : Nat} (htl : t < (Whole.collections (rest acts)).length) (hf : FewSets (Called z.p k n) none 2000 (observedOn z.p k c n (rest acts)) t) :
    
    ∃ pl, z.s.sent[t]? = some pl ∧ ∃ as : List (List KV), as.Nodup ∧ (∀ a, a ∈ as ↔ Shows (Called z.p k n) none (observedOn z.p k c n (rest acts)) t a) ∧
      Pointwise (fun a d => AttrsOf a d.attrs ∧ ∃ y, Amount (world e pc) (Called z.p k n) none (usualAgg c.kinds.2) (promise c).num (observedOn z.p k c n (rest acts)) t a y ∧
        NumOf (promise c).num y d.value) as (pointsIn numbers (sentScope sc) n pl) := by
  have hs := same_part (C96_observed_order hl h hasy hp hw hin hd)
  have := C94_async_cumulative hl h hp hasy ht htl (by simp only [hs.few]; exact hf)
  simp only [hs.shows, hs.amount] at this
  exact this

/-- C96 (observable counters and up-down counters of integers, delta). When the sets of all collections fit: the payload of every collection has exactly one point for each attribute set observed in this collection whose value changed since the collection before or which was not observed in that one; its value is the difference, or the whole value. -/
theorem C96_async_delta (hl : Launch lx lw opts pref pc sel) (h : Named (makes acts) z.p k sc c n unit) (hp : Runs e pc sel acts z) (hasy : (promise c).observed = true) (hw : Waits e pc sel z.p acts) (hin : InTurn e pc sel z.p k n acts)
    (hd : Finished z.p k n z) (ht : documented pref c.kinds.2 = .delta) (hn : (promise c).num = .int64) (hg : (promise c).output ≠ .gauge) (hf : ∀ t, t < (Whole.collections (rest acts)).length → FewSets (Called z.p k n) none 2000 (observedOn z.p k c n (rest acts)) t) (hov : ∀ o ∈ observedOn z.p k c n (rest acts), Called z.p k n o.2.1 → shown none o.2.2.1 ≠ overflowSet) {t : Nat} (htl : t < (Whole.collections (rest acts)).length) :
    
    ∃ pl, z.s.sent[t]? = some pl ∧ ∃ as : List (List KV), as.Nodup ∧
      (∀ a, a ∈ as ↔ ∃ y, Amount (world e pc) (Called z.p k n) none (usualAgg c.kinds.2) .int64 (observedOn z.p k c n (rest acts)) t a y ∧
        ¬ AmountBefore (world e pc) (Called z.p k n) none (usualAgg c.kinds.2) .int64 (observedOn z.p k c n (rest acts)) t a y) ∧
      Pointwise (fun a d => AttrsOf a d.attrs ∧ ∃ y, Amount (world e pc) (Called z.p k n) none (usualAgg c.kinds.2) .int64 (observedOn z.p k c n (rest acts)) t a y ∧
        ((∃ b, AmountBefore (world e pc) (Called z.p k n) none (usualAgg c.kinds.2) .int64 (observedOn z.p k c n (rest acts)) t a b ∧ d.value = .int (y - b)) ∨
          ((∀ b, ¬ AmountBefore (world e pc) (Called z.p k n) none (usualAgg c.kinds.2) .int64 (observedOn z.p k c n (rest acts)) t a b) ∧ d.value = .int y)))
        as (pointsIn numbers (sentScope sc) n pl) := by
  have hs := same_part (C96_observed_order hl h hasy hp hw hin hd)
  have := C94_async_delta hl h hp hasy ht hn hg (by simp only [hs.few]; exact hf) (hs.all hov) htl
  simp only [hs.amount, hs.before] at this
  exact this

/-- C96 (observable counters and up-down counters of floats, delta). When the sets of all collections fit: each point of the payload is for an attribute set observed in this collection; its value is the float difference of its cumulative value and the one in the collection before, and is not zero, or its whole value when it was not observed in that one; an attribute set observed without a point has a zero difference. -/
theorem C96_async_delta_float (hl : Launch lx lw opts pref pc sel) (h : Named (makes acts) z.p k sc c n unit) (hp : Runs e pc sel acts z) (hasy : (promise c).observed = true) (hw : Waits e pc sel z.p acts) (hin : InTurn e pc sel z.p k n acts)
    (hd : Finished z.p k n z) (ht : documented pref c.kinds.2 = .delta) (hn : (promise c).num = .float64) (hg : (promise c).output ≠ .gauge) (hf : ∀ t, t < (Whole.collections (rest acts)).length → FewSets (Called z.p k n) none 2000 (observedOn z.p k c n (rest acts)) t) (hov : ∀ o ∈ observedOn z.p k c n (rest acts), Called z.p k n o.2.1 → shown none o.2.2.1 ≠ overflowSet) {t : Nat} (htl : t < (Whole.collections (rest acts)).length) :
    
    ∃ pl, z.s.sent[t]? = some pl ∧ ∃ as : List (List KV), as.Nodup ∧ (∀ a ∈ as, Shows (Called z.p k n) none (observedOn z.p k c n (rest acts)) t a) ∧
      (∀ a, Shows (Called z.p k n) none (observedOn z.p k c n (rest acts)) t a → a ∉ as → ∃ y b, Amount (world e pc) (Called z.p k n) none (usualAgg c.kinds.2) .float64 (observedOn z.p k c n (rest acts)) t a y ∧
        AmountBefore (world e pc) (Called z.p k n) none (usualAgg c.kinds.2) .float64 (observedOn z.p k c n (rest acts)) t a b ∧ FloatZero (e.fsub y b)) ∧
      Pointwise (fun a d => AttrsOf a d.attrs ∧ ∃ y, Amount (world e pc) (Called z.p k n) none (usualAgg c.kinds.2) .float64 (observedOn z.p k c n (rest acts)) t a y ∧
        ((∃ b, AmountBefore (world e pc) (Called z.p k n) none (usualAgg c.kinds.2) .float64 (observedOn z.p k c n (rest acts)) t a b ∧ ¬ FloatZero (e.fsub y b) ∧ d.value = .double (e.fsub y b)) ∨
          ((∀ b, ¬ AmountBefore (world e pc) (Called z.p k n) none (usualAgg c.kinds.2) .float64 (observedOn z.p k c n (rest acts)) t a b) ∧ d.value = .double y)))
        as (pointsIn numbers (sentScope sc) n pl) := by
  have hs := same_part (C96_observed_order hl h hasy hp hw hin hd)
  have := C94_async_delta_float hl h hp hasy ht hn hg (by simp only [hs.few]; exact hf) (hs.all hov) htl
  simp only [hs.shows, hs.amount, hs.before] at this
  exact this

/-- C96 (observable counters and up-down counters of integers, delta, totals). If moreover the attributes `a` were observed in every collection since the first such one, all values sent with the attributes `a` add up to their last cumulative value. -/
theorem C96_async_delta_total (hl : Launch lx lw opts pref pc sel) (h : Named (makes acts) z.p k sc c n unit) (hp : Runs e pc sel acts z) (hasy : (promise c).observed = true) (hw : Waits e pc sel z.p acts) (hin : InTurn e pc sel z.p k n acts)
    (hd : Finished z.p k n z) (ht : documented pref c.kinds.2 = .delta) (hn : (promise c).num = .int64) (hg : (promise c).output ≠ .gauge) (hf : ∀ t, t < (Whole.collections (rest acts)).length → FewSets (Called z.p k n) none 2000 (observedOn z.p k c n (rest acts)) t) (hov : ∀ o ∈ observedOn z.p k c n (rest acts), Called z.p k n o.2.1 → shown none o.2.2.1 ≠ overflowSet) {a : List KV} (hne : NoEmptyList a) {first last : Nat} (hlast : (Whole.collections (rest acts)).length = last + 1) (hle : first ≤ last) (hno : ∀ t, t < first → ¬ Shows (Called z.p k n) none (observedOn z.p k c n (rest acts)) t a) (hobs : ∀ t, first ≤ t → t ≤ last → Shows (Called z.p k n) none (observedOn z.p k c n (rest acts)) t a) {y : Bits} (hy : Amount (world e pc) (Called z.p k n) none (usualAgg c.kinds.2) .int64 (observedOn z.p k c n (rest acts)) last a y) :
    
    total64 (ints ((sentPoints numbers (sentScope sc) n z.s.sent).filter (fun d => @decide (AttrsOf a d.attrs) (Classical.propDecidable _)))) = y := by
  have hs := same_part (C96_observed_order hl h hasy hp hw hin hd)
  have := C94_async_delta_total hl h hp hasy ht hn hg (by simp only [hs.few]; exact hf) (hs.all hov) hne hlast hle (by simp only [hs.shows]; exact hno) (by simp only [hs.shows]; exact hobs) (by rw [hs.amount]; exact hy)
  exact this

/-- C96 (with a hint; observable instruments, cumulative sums and gauges). For every collection in which the observed sets fit: the payload has exactly one point for each
attribute set of an observation of this collection by an instrument with the name, with exactly these
attributes, and its value is made of the last values observed. -/
theorem C96_hinted_async_cumulative (hl : Launch lx lw opts pref pc sel) (h : Hints e pref (makes acts) z.p k sc c n L) (hasy : L.sync = false) (hp : Runs e pc sel acts z) (hw : Waits e pc sel z.p acts) (hin : InTurn e pc sel z.p k n acts)
    (hd : Finished z.p k n z) (ht : L.delta = false ∨ L.kind = .gauge) {t : Nat} (htl : t < (Whole.collections (rest acts)).length) (hf : FewSets (Called z.p k n) none L.acfg.limit (observedOn z.p k c n (rest acts)) t) :
    
    ∃ pl, z.s.sent[t]? = some pl ∧ ∃ as : List (List KV), as.Nodup ∧ (∀ a, a ∈ as ↔ Shows (Called z.p k n) none (observedOn z.p k c n (rest acts)) t a) ∧
      Pointwise (fun a d => AttrsOf a d.attrs ∧ ∃ y, Amount (world e pc) (Called z.p k n) none L.kind L.num (observedOn z.p k c n (rest acts)) t a y ∧ NumOf L.num y d.value) as
        (pointsIn numbers (sentScope sc) n pl) := by
  have hs := same_part (C96_hinted_observed_order hl h hasy hp hw hin hd)
  have := C95_async_cumulative hl h hasy hp ht htl (by simp only [hs.few]; exact hf)
  simp only [hs.shows, hs.amount] at this
  exact this

/-- C96 (with a hint; observable instruments, integer delta sums). When the sets of all collections fit: the payload of every collection has exactly one point for each
attribute set shown for an observation of this collection whose value changed since the collection before or which was not observed in that one; its value is the
difference, or the whole value. -/
theorem C96_hinted_async_delta (hl : Launch lx lw opts pref pc sel) (h : Hints e pref (makes acts) z.p k sc c n L) (hasy : L.sync = false) (hp : Runs e pc sel acts z) (hw : Waits e pc sel z.p acts) (hin : InTurn e pc sel z.p k n acts)
    (hd : Finished z.p k n z) (hn : L.num = .int64) (ht : L.delta = true) (hg : L.kind ≠ .gauge) (hf : ∀ t, t < (Whole.collections (rest acts)).length → FewSets (Called z.p k n) none L.acfg.limit (observedOn z.p k c n (rest acts)) t) (hov : ∀ o ∈ observedOn z.p k c n (rest acts), Called z.p k n o.2.1 → shown none o.2.2.1 ≠ overflowSet) {t : Nat} (htl : t < (Whole.collections (rest acts)).length) :
    
    ∃ pl, z.s.sent[t]? = some pl ∧ ∃ as : List (List KV), as.Nodup ∧
      (∀ a, a ∈ as ↔ ∃ y, Amount (world e pc) (Called z.p k n) none L.kind .int64 (observedOn z.p k c n (rest acts)) t a y ∧
        ¬ AmountBefore (world e pc) (Called z.p k n) none L.kind .int64 (observedOn z.p k c n (rest acts)) t a y) ∧
      Pointwise (fun a d => AttrsOf a d.attrs ∧ ∃ y, Amount (world e pc) (Called z.p k n) none L.kind .int64 (observedOn z.p k c n (rest acts)) t a y ∧
        ((∃ b, AmountBefore (world e pc) (Called z.p k n) none L.kind .int64 (observedOn z.p k c n (rest acts)) t a b ∧ d.value = .int (y - b)) ∨
          ((∀ b, ¬ AmountBefore (world e pc) (Called z.p k n) none L.kind .int64 (observedOn z.p k c n (rest acts)) t a b) ∧ d.value = .int y)))
        as (pointsIn numbers (sentScope sc) n pl) := by
  have hs := same_part (C96_hinted_observed_order hl h hasy hp hw hin hd)
  have := C95_async_delta hl h hasy hp hn ht hg (by simp only [hs.few]; exact hf) (hs.all hov) htl
  simp only [hs.amount, hs.before] at this
  exact this

/-- C96 (with a hint; observable instruments, float delta sums). When the sets of all collections fit: each point of the payload is for an attribute set shown for an
observation of this collection; its value is the float difference of its cumulative value and the one in the collection before, and is not zero, or its whole value
when it was not observed in that one; an attribute set shown without a point has a zero difference. -/
theorem C96_hinted_async_delta_float (hl : Launch lx lw opts pref pc sel) (h : Hints e pref (makes acts) z.p k sc c n L) (hasy : L.sync = false) (hp : Runs e pc sel acts z) (hw : Waits e pc sel z.p acts) (hin : InTurn e pc sel z.p k n acts)
    (hd : Finished z.p k n z) (hn : L.num = .float64) (ht : L.delta = true) (hg : L.kind ≠ .gauge) (hf : ∀ t, t < (Whole.collections (rest acts)).length → FewSets (Called z.p k n) none L.acfg.limit (observedOn z.p k c n (rest acts)) t) (hov : ∀ o ∈ observedOn z.p k c n (rest acts), Called z.p k n o.2.1 → shown none o.2.2.1 ≠ overflowSet) {t : Nat} (htl : t < (Whole.collections (rest acts)).length) :
    
    ∃ pl, z.s.sent[t]? = some pl ∧ ∃ as : List (List KV), as.Nodup ∧ (∀ a ∈ as, Shows (Called z.p k n) none (observedOn z.p k c n (rest acts)) t a) ∧
      (∀ a, Shows (Called z.p k n) none (observedOn z.p k c n (rest acts)) t a → a ∉ as → ∃ y b, Amount (world e pc) (Called z.p k n) none L.kind .float64 (observedOn z.p k c n (rest acts)) t a y ∧
        AmountBefore (world e pc) (Called z.p k n) none L.kind .float64 (observedOn z.p k c n (rest acts)) t a b ∧ FloatZero (e.fsub y b)) ∧
      Pointwise (fun a d => AttrsOf a d.attrs ∧ ∃ y, Amount (world e pc) (Called z.p k n) none L.kind .float64 (observedOn z.p k c n (rest acts)) t a y ∧
        ((∃ b, AmountBefore (world e pc) (Called z.p k n) none L.kind .float64 (observedOn z.p k c n (rest acts)) t a b ∧ ¬ FloatZero (e.fsub y b) ∧ d.value = .double (e.fsub y b)) ∨
          ((∀ b, ¬ AmountBefore (world e pc) (Called z.p k n) none L.kind .float64 (observedOn z.p k c n (rest acts)) t a b) ∧ d.value = .double y)))
        as (pointsIn numbers (sentScope sc) n pl) := by
  have hs := same_part (C96_hinted_observed_order hl h hasy hp hw hin hd)
  have := C95_async_delta_float hl h hasy hp hn ht hg (by simp only [hs.few]; exact hf) (hs.all hov) htl
  simp only [hs.shows, hs.amount, hs.before] at this
  exact this

/-- C96 (with a hint; observable instruments, integer delta totals). If moreover something shown as `a` was observed in every collection since the first such one, all
values sent with the attributes `a` add up to their last cumulative value. -/
theorem C96_hinted_async_delta_total (hl : Launch lx lw opts pref pc sel) (h : Hints e pref (makes acts) z.p k sc c n L) (hasy : L.sync = false) (hp : Runs e pc sel acts z) (hw : Waits e pc sel z.p acts) (hin : InTurn e pc sel z.p k n acts)
    (hd : Finished z.p k n z) (hn : L.num = .int64) (ht : L.delta = true) (hg : L.kind ≠ .gauge) (hf : ∀ t, t < (Whole.collections (rest acts)).length → FewSets (Called z.p k n) none L.acfg.limit (observedOn z.p k c n (rest acts)) t) (hov : ∀ o ∈ observedOn z.p k c n (rest acts), Called z.p k n o.2.1 → shown none o.2.2.1 ≠ overflowSet) {a : List KV} (hne : NoEmptyList a) {first last : Nat} (hlast : (Whole.collections (rest acts)).length = last + 1) (hle : first ≤ last) (hno : ∀ t, t < first → ¬ Shows (Called z.p k n) none (observedOn z.p k c n (rest acts)) t a) (hobs : ∀ t, first ≤ t → t ≤ last → Shows (Called z.p k n) none (observedOn z.p k c n (rest acts)) t a) {y : Bits} (hy : Amount (world e pc) (Called z.p k n) none L.kind .int64 (observedOn z.p k c n (rest acts)) last a y) :
    
    Spec.total64 (ints ((sentPoints numbers (sentScope sc) n z.s.sent).filter (fun d => @decide (AttrsOf a d.attrs) (Classical.propDecidable _)))) = y := by
  have hs := same_part (C96_hinted_observed_order hl h hasy hp hw hin hd)
  have := C95_async_delta_total hl h hasy hp hn ht hg (by simp only [hs.few]; exact hf) (hs.all hov) hne hlast hle (by simp only [hs.shows]; exact hno) (by simp only [hs.shows]; exact hobs) (by rw [hs.amount]; exact hy)
  exact this

/-! ### Concrete programs -/

section Examples
open Verif.Examples Verif.Examples.Asm
open Verif.Views (lit)

theorem c96_called {p : Provider.Provider Nat Nat} {nm : Str} {i : Nat} (h : ((p.ordered[0]?).bind (fun m => m.insts[i]?)).map (·.desc.name) = some nm) :
    Called p 0 nm (instAddr 0 i) := by
  obtain ⟨o, h1, h2⟩ := Option.map_eq_some_iff.1 h
  obtain ⟨m, h3, h4⟩ := Option.bind_eq_some_iff.1 h1
  exact ⟨m, i, o, h3, h4, h2, rfl⟩

theorem c96_requests (ct : Cn.Made) :
    (∀ d ∈ requests 0 (Cn.cs ct), d.name = lit "y" → d = ct.1.desc (lit "y") ct.2 (lit "s")) ∧
      ∀ d ∈ requests 0 (Cn.cs ct), d.name = lit "n" → d = Ctor.int64Counter.desc (lit "n") [] (lit "s") := by
  have hb : (lit "n" : Str) ≠ lit "y" := by decide +kernel
  have hz : (lit "z" : Str) ≠ lit "y" := by decide +kernel
  have hnz : (lit "z" : Str) ≠ lit "n" := by decide +kernel
  constructor <;> intro d hd hn <;>
    simp only [Cn.cs, requests, List.filterMap_cons, List.filterMap_nil, if_true, List.mem_cons, List.not_mem_nil, or_false] at hd
  · rcases hd with rfl | rfl | rfl
    · rfl
    · exact absurd hn hb
    · exact absurd hn hz
  · rcases hd with rfl | rfl | rfl
    · exact absurd hn.symm hb
    · rfl
    · exact absurd hn hnz

/-- The accepted observations of the program: not the NaN, not the one too late, not the one of an instrument which was not declared. -/
def c96Seen : List Seen := [(0, 0, AsmV.kab, 5), (0, 0, AsmV.kab, 7), (0, 0, kb, 1), (1, 0, AsmV.kab, 12)]

theorem c96_observed {p : Provider.Provider Nat Nat} (h : Called p 0 (lit "y") 0) : observedOn p 0 .float64ObservableCounter (lit "y") Cn.body = c96Seen := by
  unfold observedOn
  have hall : ∀ v ∈ Whole.observations Cn.body, v.2.1 = 0 := by decide +kernel
  rw [List.filter_congr (q := fun v => Front.rangeTest .float64 v.2.2.2 .asyncCounter) (fun v hv => ?_)]
  · have : (((Whole.observations Cn.body).filter (fun v => Front.rangeTest .float64 v.2.2.2 .asyncCounter)).map
      (fun v => ((v.1, v.2.1, usedSet v.2.2.1, v.2.2.2) : Seen))) = c96Seen := by decide +kernel
    exact this
  · rw [hall v hv]
    cases hr : Front.rangeTest .float64 v.2.2.2 .asyncCounter with
    | true => simp only [decide_eq_true_eq]; exact ⟨h, (rangeTest_iff .float64ObservableCounter _).1 hr⟩
    | false =>
      rw [← Bool.not_eq_true]; simp only [decide_eq_true_eq]; intro hc
      have h2 : Front.rangeTest .float64 v.2.2.2 .asyncCounter = true := (rangeTest_iff .float64ObservableCounter _).2 hc.2
      rw [hr] at h2
      cases h2

/-- "cumulative": an observable counter of floats. 5 and 7 are observed for the same set (the first time with a key given twice), NaN, 1 for another set; observations on the observer
after the callback returned, and of an instrument not declared, do not count. 7 and 1 are sent, then 12. A counter is called with 3 and with -1: only the first counts. -/
example : ∃ z, Cn.last .cumulative (.float64ObservableCounter, []) = some z ∧
    Runs Ln.out (Ln.pc .cumulative) (documented .cumulative) (Cn.acts (.float64ObservableCounter, [])) z ∧
    Waits Ln.out (Ln.pc .cumulative) (documented .cumulative) z.p (Cn.acts (.float64ObservableCounter, [])) ∧
    InTurn Ln.out (Ln.pc .cumulative) (documented .cumulative) z.p 0 (lit "y") (Cn.acts (.float64ObservableCounter, [])) ∧ Finished z.p 0 (lit "y") z ∧
    Named (makes (Cn.acts (.float64ObservableCounter, []))) z.p 0 scA .float64ObservableCounter (lit "y") (lit "s") ∧
    MadeBy (makes (Cn.acts (.float64ObservableCounter, []))) 0 .int64Counter (lit "n") ∧
    observedOn z.p 0 .float64ObservableCounter (lit "y") (rest (Cn.acts (.float64ObservableCounter, []))) = c96Seen ∧
    recordedOn z.p 0 .int64Counter (lit "n") (fun _ => True) (rest (Cn.acts (.float64ObservableCounter, []))) = [3] ∧
    c92Sent z.s (lit "y") = [[.double 1, .double 7], [.double 12]] := by
  obtain ⟨z, e1, e2, e3, e4, e5, e6⟩ := Cn.of_evaluated (a := .cumulative) (ct := (.float64ObservableCounter, [])) (by decide +kernel)
  obtain ⟨z', e7, e8⟩ : ∃ z, Cn.last .cumulative (.float64ObservableCounter, []) = some z ∧ c92Sent z.s (lit "y") = [[.double 1, .double 7], [.double 12]] :=
    exists_of_eval (by decide +kernel)
  obtain rfl : z = z' := by rw [e1] at e7; exact Option.some.inj e7
  have hy : Called z.p 0 (lit "y") 0 := by rw [e2]; exact c96_called (i := 0) (by decide +kernel)
  have hn : Called z.p 0 (lit "n") 2 := by rw [e2]; exact c96_called (i := 1) (by decide +kernel)
  refine ⟨z, e1, e3, e4, e5 _ _, e6 _ _, ⟨?_, ?_⟩, ?_, c96_observed hy, ?_, e8⟩
  · rw [e2]
    exact Cn.hasB_spec (by decide +kernel)
  · intro d hd h1
    have h2 := (c96_requests _).1 d hd h1
    refine ⟨?_, [], h2⟩
    rw [h2]
    unfold Views.NoHint
    simp [Ctor.desc]
  · intro d hd h1
    exact ⟨[], lit "s", (c96_requests _).2 d hd h1⟩
  · rw [Cn.rest_acts]
    unfold recordedOn
    have hall : ∀ v ∈ Whole.calls Cn.body, v.1.id = 2 := by decide +kernel
    rw [List.filter_congr (q := fun v => Front.rangeTest .int64 v.2.2 .syncCounter) (fun v hv => ?_)]
    · decide +kernel
    · rw [hall v hv]
      cases hr : Front.rangeTest .int64 v.2.2 .syncCounter with
      | true => simp only [decide_eq_true_eq]; exact ⟨hn, (rangeTest_iff .int64Counter _).1 hr, trivial⟩
      | false =>
        rw [← Bool.not_eq_true]; simp only [decide_eq_true_eq]; intro hc
        have h2 : Front.rangeTest .int64 v.2.2 .syncCounter = true := (rangeTest_iff .int64Counter _).2 hc.2.1
        rw [hr] at h2
        cases h2

/-- "Delta": the same, with a hint for a gauge: the values are sent as they are. -/
example : ∃ z, Cn.last .delta (.float64ObservableCounter, lit "{gauge") = some z ∧
    Runs Ln.out (Ln.pc .delta) (documented .delta) (Cn.acts (.float64ObservableCounter, lit "{gauge")) z ∧
    Waits Ln.out (Ln.pc .delta) (documented .delta) z.p (Cn.acts (.float64ObservableCounter, lit "{gauge")) ∧
    InTurn Ln.out (Ln.pc .delta) (documented .delta) z.p 0 (lit "y") (Cn.acts (.float64ObservableCounter, lit "{gauge")) ∧ Finished z.p 0 (lit "y") z ∧
    Hints Ln.out .delta (makes (Cn.acts (.float64ObservableCounter, lit "{gauge"))) z.p 0 scA .float64ObservableCounter (lit "y")
      (c95Look .float64ObservableCounter .gauge false ⟨160, 2000⟩) ∧
    observedOn z.p 0 .float64ObservableCounter (lit "y") (rest (Cn.acts (.float64ObservableCounter, lit "{gauge"))) = c96Seen ∧
    c92Sent z.s (lit "y") = [[.double 1, .double 7], [.double 12]] := by
  obtain ⟨z, e1, e2, e3, e4, e5, e6⟩ := Cn.of_evaluated (a := .delta) (ct := (.float64ObservableCounter, lit "{gauge")) (by decide +kernel)
  obtain ⟨z', e7, e8⟩ : ∃ z, Cn.last .delta (.float64ObservableCounter, lit "{gauge") = some z ∧ c92Sent z.s (lit "y") = [[.double 1, .double 7], [.double 12]] :=
    exists_of_eval (by decide +kernel)
  obtain rfl : z = z' := by rw [e1] at e7; exact Option.some.inj e7
  have hy : Called z.p 0 (lit "y") 0 := by rw [e2]; exact c96_called (i := 0) (by decide +kernel)
  refine ⟨z, e1, e3, e4, e5 _ _, e6 _ _, ⟨?_, rfl, ?_⟩, c96_observed hy, e8⟩
  · rw [e2]
    exact Cn.hasB_spec (by decide +kernel)
  · intro d hd h1
    have h2 := (c96_requests _).1 d hd h1
    refine ⟨⟨_, h2⟩, c95Hint (lit "gauge"), ?_, c95_wants (show lit "gauge" ≠ [] by decide +kernel) (show (lit "gauge", _) ∈ _ by decide +kernel)
      (by simp [Views.Implemented, Ctor.kinds, Front.IKind.synchronous]) (.inl rfl) (by decide) rfl rfl⟩
    rw [h2]
    unfold Views.hintIn
    exact (if_pos (show (123 : UInt8) ∈ lit "{gauge" by decide +kernel)).trans c95_gauge

/-- "Delta": the observable counter, as deltas: 7 and 1, then 5; the set of the value 1 is not sent again. -/
example : ∃ z, Cn.last .delta (.float64ObservableCounter, []) = some z ∧
    Runs Ln.out (Ln.pc .delta) (documented .delta) (Cn.acts (.float64ObservableCounter, [])) z ∧ documented .delta (Ctor.kinds .float64ObservableCounter).2 = .delta ∧
    observedOn z.p 0 .float64ObservableCounter (lit "y") (rest (Cn.acts (.float64ObservableCounter, []))) = c96Seen ∧
    c92Sent z.s (lit "y") = [[.double 1, .double 7], [.double 5]] := by
  obtain ⟨z, e1, e2, e3, -⟩ := Cn.of_evaluated (a := .delta) (ct := (.float64ObservableCounter, [])) (by decide +kernel)
  obtain ⟨z', e7, e8⟩ : ∃ z, Cn.last .delta (.float64ObservableCounter, []) = some z ∧ c92Sent z.s (lit "y") = [[.double 1, .double 7], [.double 5]] :=
    exists_of_eval (by decide +kernel)
  obtain rfl : z = z' := by rw [e1] at e7; exact Option.some.inj e7
  exact ⟨z, e1, e3, by decide, c96_observed (by rw [e2]; exact c96_called (i := 0) (by decide +kernel)), e8⟩

end Examples

end Verif.Props
