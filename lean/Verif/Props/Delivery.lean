import Verif.Props.Launched
import Verif.Proof.DeliveryEnds
import Verif.Examples.DeliveryProgram

/-!
C97: what has been sent when `ForceFlush` or `Shutdown` returns.

`Runs e pc sel start acts s`: a program which uses the provider installed by the launcher, together with its periodic reader (see C38) and the collections which this makes. `Closes e pc sel
start acts after s s'`: such a program until all calls on synchronous instruments have returned; then the reader is flushed or shut down, which returns in `s'`. Collections may be in progress
at any time, and other goroutines go on.
-/

namespace Verif.Props
open Verif Verif.Attr Verif.Number Verif.Aggr Verif.Export Verif.Spec Verif.Assembly Verif.Instruments Verif.Delivery
open Verif.Launched (Named Few Launch world views Outside)
open Verif.Pipeline (numbers expPoints sentPoints ints NoEmptyList Describes Grouped)
open Verif.Front (IKind)
open Verif.Views (Tempo)
open Verif.Launcher (documented)

variable {C G ν : Type} [DecidableEq C] {lx : Launcher.Ext} {lw : Launcher.World} {opts : List Launcher.Opt} {pref : Launcher.Preference} {pc : Launcher.PipelineConfig}
  {sel : IKind → Tempo} {e : Outside C G} {k : Nat} {sc : Views.Scope} {c : Ctor} {n unit : Str} {start : Int} {acts after : List (Delivery.Act ν)}
  {s s' : Delivery.Sys C G ν}

section General
variable {farm : Str → UInt64} {w : World C G} {fsub : Bits → Bits → Bits} {x : Views.Ext C} {pipe : Nat} {vs : List (Views.Views C)}

/-- C97 (programs). The program is one of those of C93, with the same calls, and the payloads handed to the exporter are the same; so what C93, C94 and C95 say of programs holds of it. -/
theorem C97_program (h : Running farm w fsub x vs pipe start acts s) :
    ∃ lacts, Live.Running farm w fsub x vs pipe lacts s.z ∧ Live.makes lacts = makes acts ∧ Whole.calls (Live.rest lacts) = Pipeline.calls (measured acts) :=
  ⟨_, h.live, lives_makes h.runs, lives_calls h.runs⟩

/-- C97 (the reader). The reader behaves as in C38, and one payload is handed to the exporter for each of its collections. -/
theorem C97_reader (h : Running farm w fsub x vs pipe start acts s) :
    s.r = Periodic.run Periodic.new (readerActs acts) ∧ s.z.s.sent.length = (s.r.log.filter (fun a => decide (a.2 = .collect))).length := by
  refine ⟨run_reader h.runs, ?_⟩
  have h1 := run_collects h.runs
  rw [(C93_payloads h.live).1]
  have h2 : ∀ log : List (Nat × Periodic.What), (collectsOf log).length = (log.filter (fun a => decide (a.2 = .collect))).length := by
    intro log
    induction log with
    | nil => rfl
    | cons a log ih =>
      obtain ⟨t, a⟩ := a
      cases a
      · simp [collectsOf] at ih ⊢; exact ih
      · simp [collectsOf] at ih ⊢; exact ih
      · simp [collectsOf] at ih ⊢; exact ih
  rw [← h2, h1]
  show _ = 0 + _
  rw [Nat.zero_add]

/-- C97 (the end). When `ForceFlush` or `Shutdown` returns, the payloads handed to the exporter are those of a program as for C93 which ends with a collection, with the same calls. -/
theorem C97_ends (h : Closing farm w fsub x vs pipe start acts after s s') :
    ∃ lacts coll z z', Live.Ending farm w fsub x vs pipe lacts coll z z' ∧ z'.p = s'.z.p ∧ z'.s.sent = s'.z.s.sent ∧ Live.makes lacts = makes acts ∧
      Whole.calls (Live.rest lacts) = Pipeline.calls (measured acts) := by
  obtain ⟨lacts, coll, z, z', h1, h2, h3, h4, h5, -⟩ := h.ends
  exact ⟨lacts, coll, z, z', h1, h2, h3, h4, h5⟩

/-- C97 (silence). When `Shutdown` has returned and every other call of `ForceFlush` and `Shutdown` too, nothing more is handed to the exporter, whatever the program does, unless one of these
is called again. -/
theorem C97_silent {more : List (Delivery.Act ν)} {t : Nat} (h : Running farm w fsub x vs pipe start acts s) (ht : s.r.threads[t]? = some ⟨.shutdown, .done⟩)
    (hall : ∀ (u : Nat) (th : Periodic.Thread), u ≠ 0 → s.r.threads[u]? = some th → th.pos = .done) (hmore : ∀ a ∈ readerActs more, a ≠ .callFlush ∧ a ≠ .callShutdown)
    (hrun : Delivery.run farm w fsub x pipe s more = some s') : s'.z.s.sent = s.z.s.sent := by
  refine silent (fun u th hu => ?_) hmore hrun
  by_cases h0 : u = 0
  · subst h0
    have hinv := (Periodic.run_all (readerActs acts)).1
    rw [← (C97_reader h).1] at hinv
    obtain ⟨-, hd⟩ := Periodic.returned_done hinv ht
    obtain ⟨th', h1, h2⟩ := (Periodic.loopDone_iff _).1 hd
    rw [hu] at h1
    cases h1
    exact h2
  · exact hall u th h0 hu

end General

/-! ### Synchronous instruments -/

omit [DecidableEq C] in
theorem recordedBy_same {p : Provider.Provider C ν} {as bs : List Pipeline.Act} (h : Pipeline.calls as = Pipeline.calls bs) (Q : List KV → Prop) :
    recordedBy p k n Q as = recordedBy p k n Q bs := by
  unfold recordedBy
  rw [h]

omit [DecidableEq C] in
theorem few_same {p : Provider.Provider C ν} {as bs : List Pipeline.Act} (h : Pipeline.calls as = Pipeline.calls bs) (hf : Few p k n bs) : Few p k n as := by
  unfold Few Launched.FewUpTo at hf ⊢
  rw [h]
  exact hf

/-- C97 (counters and up-down counters of integers, cumulative). When the preference says cumulative: the last point sent with the attributes `m`, if something was recorded with these, is the sum of all integers recorded with them on the instruments with the name. -/
theorem C97_sum_last (hl : Launch lx lw opts pref pc sel) (h : Named (makes acts) s'.z.p k sc c n unit) (hp : Closes e pc sel start acts after s s')
    (hsy : (promise c).observed = false) (hn : (promise c).num = .int64) (ho : (promise c).output = .monotonicSum ∨ (promise c).output = .sum)
    (ht : documented pref c.kinds.2 = .cumulative) (hf : Few s'.z.p k n (measured acts)) (hne : ∀ a ∈ Pipeline.calls (measured acts), NoEmptyList (a.1.attrs a.2.1)) (m : PMap)
    (hrec : recordedBy s'.z.p k n (fun as => Describes none as m) (measured acts) ≠ []) :
    ((sentPoints numbers (sentScope sc) n s'.z.s.sent).filter (fun d => d.attrs = m)).getLast?.map (·.value) =
      some (.int (total64 (recordedBy s'.z.p k n (fun as => Describes none as m) (measured acts)))) := by
  obtain ⟨lacts, coll, z, z', h1, h2, h3, h4, h5⟩ := C97_ends hp
  have h6 : Pipeline.calls (Whole.syncActs (Live.rest lacts)) = Pipeline.calls (measured acts) := (Whole.calls_sync _).trans h5
  rw [← h2, ← recordedBy_same h6] at hrec ⊢
  rw [← h2, ← h4] at h
  rw [← h2] at hf
  rw [← h3]
  exact C94_sum_last hl h h1 hsy hn ho ht (few_same h6 hf) (by rw [h5]; exact hne) m hrec

theorem _root_.Verif.Delivery.OneByOne.live {p : Provider.Provider C ν} {lacts : List (Live.Act ν)} {ls : List Whole.Act} (h : Delivery.OneByOne e pc sel start p k n acts)
    (h1 : lacts = lives e.farm (world e pc) e.fsub e.x 0 (Delivery.initial e.farm (world e pc) e.fsub p (views e sel) 0 start) acts ++ ls.map .run) (h2 : Whole.calls ls = []) :
    Launched.OneByOne e pc sel p k n lacts := by
  intro before i kvs b af y e1 e2 hc j hj ho
  rw [h1] at e1
  rcases List.append_eq_append_iff.1 e1 with ⟨l, g1, g2⟩ | ⟨l, g1, g2⟩
  · exfalso
    have hmem : Live.Act.run (.call i kvs b) ∈ ls.map (Live.Act.run : Whole.Act → Live.Act ν) := by rw [g2]; simp
    obtain ⟨a, ha, h3⟩ := List.mem_map.1 hmem
    cases h3
    have : (i, kvs, b) ∈ Whole.calls ls := List.mem_filterMap.2 ⟨_, ha, rfl⟩
    rw [h2] at this
    cases this
  · cases l with
    | nil =>
      exfalso
      have hmem : Live.Act.run (.call i kvs b) ∈ ls.map (Live.Act.run : Whole.Act → Live.Act ν) := by
        rw [List.nil_append] at g2
        rw [← g2]
        simp
      obtain ⟨a, ha, h3⟩ := List.mem_map.1 hmem
      cases h3
      have : (i, kvs, b) ∈ Whole.calls ls := List.mem_filterMap.2 ⟨_, ha, rfl⟩
      rw [h2] at this
      cases this
    | cons a l =>
      obtain ⟨rfl, -⟩ := List.cons.inj g2
      obtain ⟨before', af', y', g3, g4, rfl⟩ := lives_call g1 e2
      exact h before' i kvs b af' y' g3 g4 hc j hj ho

/-- C97 (counters and up-down counters of integers, delta). When the preference says delta: the integers sent in points with exactly the attributes `m` add up to the integers recorded with them. -/
theorem C97_sum_sent (hl : Launch lx lw opts pref pc sel) (h : Named (makes acts) s'.z.p k sc c n unit) (hp : Closes e pc sel start acts after s s')
    (hsy : (promise c).observed = false) (hn : (promise c).num = .int64) (ho : (promise c).output = .monotonicSum ∨ (promise c).output = .sum)
    (ht : documented pref c.kinds.2 = .delta) (hf : Few s'.z.p k n (measured acts)) (m : PMap) :
    total64 (ints ((sentPoints numbers (sentScope sc) n s'.z.s.sent).filter (fun d => d.attrs = m))) =
      total64 (recordedBy s'.z.p k n (fun as => Describes none as m) (measured acts)) := by
  obtain ⟨lacts, coll, z, z', h1, h2, h3, h4, h5⟩ := C97_ends hp
  have h6 : Pipeline.calls (Whole.syncActs (Live.rest lacts)) = Pipeline.calls (measured acts) := (Whole.calls_sync _).trans h5
  have h' := h
  rw [← h2, ← h4] at h'
  rw [← h2] at hf
  have := C94_sum_sent hl h' h1 hsy hn ho ht (few_same h6 hf) m
  rw [h2, h3, recordedBy_same h6] at this
  exact this

/-- C97 (counters and up-down counters of integers, delta, total). Whatever the attributes and their number, the integers sent add up to the integers recorded. -/
theorem C97_sum_total (hl : Launch lx lw opts pref pc sel) (h : Named (makes acts) s'.z.p k sc c n unit) (hp : Closes e pc sel start acts after s s')
    (hsy : (promise c).observed = false) (hn : (promise c).num = .int64) (ho : (promise c).output = .monotonicSum ∨ (promise c).output = .sum)
    (ht : documented pref c.kinds.2 = .delta) :
    total64 (ints (sentPoints numbers (sentScope sc) n s'.z.s.sent)) = total64 (recordedBy s'.z.p k n (fun _ => True) (measured acts)) := by
  obtain ⟨lacts, coll, z, z', h1, h2, h3, h4, h5⟩ := C97_ends hp
  have h6 : Pipeline.calls (Whole.syncActs (Live.rest lacts)) = Pipeline.calls (measured acts) := (Whole.calls_sync _).trans h5
  have h' := h
  rw [← h2, ← h4] at h'
  have := C94_sum_total hl h' h1 hsy hn ho ht
  rw [h2, h3, recordedBy_same h6] at this
  exact this

/-- C97 (counters and up-down counters of floats, cumulative). The last point sent with the attributes `m` is the result of adding up, in some order, all floats recorded with them. -/
theorem C97_float_last (hl : Launch lx lw opts pref pc sel) (h : Named (makes acts) s'.z.p k sc c n unit) (hp : Closes e pc sel start acts after s s')
    (hsy : (promise c).observed = false) (hn : (promise c).num = .float64) (ho : (promise c).output = .monotonicSum ∨ (promise c).output = .sum)
    (ht : documented pref c.kinds.2 = .cumulative) (hf : Few s'.z.p k n (measured acts))
    (hne : ∀ a ∈ Pipeline.calls (measured acts), NoEmptyList (a.1.attrs a.2.1)) (m : PMap)
    (hrec : recordedBy s'.z.p k n (fun as => Describes none as m) (measured acts) ≠ []) :
    ∃ b vals, ((sentPoints numbers (sentScope sc) n s'.z.s.sent).filter (fun d => d.attrs = m)).getLast?.map (·.value) = some (.double b) ∧
      vals.Perm (recordedBy s'.z.p k n (fun as => Describes none as m) (measured acts)) ∧ SumOf 0 e.fadd b vals := by
  obtain ⟨lacts, coll, z, z', h1, h2, h3, h4, h5⟩ := C97_ends hp
  have h6 : Pipeline.calls (Whole.syncActs (Live.rest lacts)) = Pipeline.calls (measured acts) := (Whole.calls_sync _).trans h5
  have h' := h
  rw [← h2, ← h4] at h'
  rw [← h2] at hf
  have := C94_float_last hl h' h1 hsy hn ho ht (few_same h6 hf) (by rw [h5]; exact hne) m (by rw [h2, recordedBy_same h6]; exact hrec)
  rw [h2, h3, recordedBy_same h6] at this
  exact this

/-- C97 (counters and up-down counters of floats, delta). The floats recorded with the attributes `m` are divided into groups; the points sent with the attributes `m` are the sums, in some order, of the groups, except for groups whose sum is zero, which are not sent. -/
theorem C97_float_sent (hl : Launch lx lw opts pref pc sel) (h : Named (makes acts) s'.z.p k sc c n unit) (hp : Closes e pc sel start acts after s s')
    (hsy : (promise c).observed = false) (hn : (promise c).num = .float64) (ho : (promise c).output = .monotonicSum ∨ (promise c).output = .sum)
    (ht : documented pref c.kinds.2 = .delta) (hf : Few s'.z.p k n (measured acts)) (m : PMap) :
    ∃ gs zs : List (List Bits), (gs ++ zs).flatten.Perm (recordedBy s'.z.p k n (fun as => Describes none as m) (measured acts)) ∧
      Pointwise (fun g d => ∃ b, SumOf 0 e.fadd b g ∧ d.value = .double b ∧ scaled b ≠ 0) gs
        ((sentPoints numbers (sentScope sc) n s'.z.s.sent).filter (fun d => d.attrs = m)) ∧
      ∀ g ∈ zs, ∃ b, SumOf 0 e.fadd b g ∧ scaled b = 0 := by
  obtain ⟨lacts, coll, z, z', h1, h2, h3, h4, h5⟩ := C97_ends hp
  have h6 : Pipeline.calls (Whole.syncActs (Live.rest lacts)) = Pipeline.calls (measured acts) := (Whole.calls_sync _).trans h5
  have h' := h
  rw [← h2, ← h4] at h'
  rw [← h2] at hf
  have := C94_float_sent hl h' h1 hsy hn ho ht (few_same h6 hf) m
  rw [h2, h3, recordedBy_same h6] at this
  exact this

/-- C97 (gauges, cumulative). When calls on the instruments with the name do not overlap: the last point sent with the attributes `m` carries the value of the last call with them. -/
theorem C97_gauge_last (hl : Launch lx lw opts pref pc sel) (h : Named (makes acts) s'.z.p k sc c n unit) (hp : Closes e pc sel start acts after s s')
    (hsy : (promise c).observed = false) (ho : (promise c).output = .gauge)
    (ht : documented pref c.kinds.2 = .cumulative) (hq : Delivery.OneByOne e pc sel start s'.z.p k n acts) (hf : Few s'.z.p k n (measured acts))
    (hne : ∀ a ∈ Pipeline.calls (measured acts), NoEmptyList (a.1.attrs a.2.1)) (m : PMap)
    (hrec : recordedBy s'.z.p k n (fun as => Describes none as m) (measured acts) ≠ []) :
    ∃ d b, ((sentPoints numbers (sentScope sc) n s'.z.s.sent).filter (fun d => d.attrs = m)).getLast? = some d ∧
      (recordedBy s'.z.p k n (fun as => Describes none as m) (measured acts)).getLast? = some b ∧ NumOf (promise c).num b d.value := by
  obtain ⟨lacts, coll, z, z', h1, h2, h3, h4, h5, ls, h7, hz⟩ := hp.ends
  have h6 : Pipeline.calls (Whole.syncActs (Live.rest lacts)) = Pipeline.calls (measured acts) := (Whole.calls_sync _).trans h5
  have h' := h
  rw [← h2, ← h4] at h'
  rw [← h2] at hf
  rw [← h2] at h7 hq
  have := C94_gauge_last hl h' h1 hsy ho ht (hq.live h7 hz) (few_same h6 hf) (by rw [h5]; exact hne) m (by rw [h2, recordedBy_same h6]; exact hrec)
  rw [h2, h3, recordedBy_same h6] at this
  exact this

/-- C97 (gauges, delta). When calls on the instruments with the name do not overlap: the values recorded with the attributes `m` are divided into groups, each in the order of the calls, one for each point sent with these attributes; the point carries the last value of its group. -/
theorem C97_gauge_sent (hl : Launch lx lw opts pref pc sel) (h : Named (makes acts) s'.z.p k sc c n unit) (hp : Closes e pc sel start acts after s s')
    (hsy : (promise c).observed = false) (ho : (promise c).output = .gauge)
    (ht : documented pref c.kinds.2 = .delta) (hq : Delivery.OneByOne e pc sel start s'.z.p k n acts) (hf : Few s'.z.p k n (measured acts)) (m : PMap) :
    ∃ gs : List (List Bits), gs.flatten.Perm (recordedBy s'.z.p k n (fun as => Describes none as m) (measured acts)) ∧
      (∀ g ∈ gs, g.Sublist (recordedBy s'.z.p k n (fun as => Describes none as m) (measured acts))) ∧
      Pointwise (fun g d => ∃ b, g.getLast? = some b ∧ NumOf (promise c).num b d.value) gs
        ((sentPoints numbers (sentScope sc) n s'.z.s.sent).filter (fun d => d.attrs = m)) := by
  obtain ⟨lacts, coll, z, z', h1, h2, h3, h4, h5, ls, h7, hz⟩ := hp.ends
  have h6 : Pipeline.calls (Whole.syncActs (Live.rest lacts)) = Pipeline.calls (measured acts) := (Whole.calls_sync _).trans h5
  have h' := h
  rw [← h2, ← h4] at h'
  rw [← h2] at hf
  rw [← h2] at h7 hq
  have := C94_gauge_sent hl h' h1 hsy ho ht (hq.live h7 hz) (few_same h6 hf) m
  rw [h2, h3, recordedBy_same h6] at this
  exact this

/-- C97 (histograms, cumulative). The last point sent with the attributes `m` has the content of an exponential histogram with the default configuration, made of exactly the values recorded with them. -/
theorem C97_hist_last (hl : Launch lx lw opts pref pc sel) (h : Named (makes acts) s'.z.p k sc c n unit) (hp : Closes e pc sel start acts after s s')
    (hsy : (promise c).observed = false) (ho : (promise c).output = .histogram)
    (ht : documented pref c.kinds.2 = .cumulative) (hf : Few s'.z.p k n (measured acts))
    (hne : ∀ a ∈ Pipeline.calls (measured acts), NoEmptyList (a.1.attrs a.2.1)) (m : PMap)
    (hrec : recordedBy s'.z.p k n (fun as => Describes none as m) (measured acts) ≠ []) :
    ∃ d vals, ((sentPoints expPoints (sentScope sc) n s'.z.s.sent).filter (fun d => d.attrs = m)).getLast? = some d ∧
      vals.Perm (recordedBy s'.z.p k n (fun as => Describes none as m) (measured acts)) ∧
      ShowsHist (reader (world e pc) s'.z.p 0) (e.hist (promise c).num (e.x.validH e.zero)) (promise c).num vals d := by
  obtain ⟨lacts, coll, z, z', h1, h2, h3, h4, h5⟩ := C97_ends hp
  have h6 : Pipeline.calls (Whole.syncActs (Live.rest lacts)) = Pipeline.calls (measured acts) := (Whole.calls_sync _).trans h5
  have h' := h
  rw [← h2, ← h4] at h'
  rw [← h2] at hf
  have := C94_hist_last hl h' h1 hsy ho ht (few_same h6 hf) (by rw [h5]; exact hne) m (by rw [h2, recordedBy_same h6]; exact hrec)
  rw [h2, h3, recordedBy_same h6] at this
  exact this

/-- C97 (histograms, delta). The values recorded with the attributes `m` are divided into groups, one for each point sent with these attributes, which has the content of an exponential histogram with the default configuration made of exactly its group. -/
theorem C97_hist_sent (hl : Launch lx lw opts pref pc sel) (h : Named (makes acts) s'.z.p k sc c n unit) (hp : Closes e pc sel start acts after s s')
    (hsy : (promise c).observed = false) (ho : (promise c).output = .histogram)
    (ht : documented pref c.kinds.2 = .delta) (hc : Counts (e.hist (promise c).num (e.x.validH e.zero)))
    (hf : Few s'.z.p k n (measured acts)) (m : PMap) :
    Grouped (ShowsHist (reader (world e pc) s'.z.p 0) (e.hist (promise c).num (e.x.validH e.zero)) (promise c).num)
      (recordedBy s'.z.p k n (fun as => Describes none as m) (measured acts)) ((sentPoints expPoints (sentScope sc) n s'.z.s.sent).filter (fun d => d.attrs = m)) := by
  obtain ⟨lacts, coll, z, z', h1, h2, h3, h4, h5⟩ := C97_ends hp
  have h6 : Pipeline.calls (Whole.syncActs (Live.rest lacts)) = Pipeline.calls (measured acts) := (Whole.calls_sync _).trans h5
  have h' := h
  rw [← h2, ← h4] at h'
  rw [← h2] at hf
  have := C94_hist_sent hl h' h1 hsy ho ht hc (few_same h6 hf) m
  rw [h2, h3, recordedBy_same h6] at this
  exact this

/-- C97 (nothing else is sent, numbers). Every number point sent under the name of a counter, up-down counter or gauge has attributes with which something was recorded. -/
theorem C97_known (hl : Launch lx lw opts pref pc sel) (h : Named (makes acts) s'.z.p k sc c n unit) (hp : Closes e pc sel start acts after s s')
    (hsy : (promise c).observed = false) (ho : (promise c).output ≠ .histogram)
    (hf : Few s'.z.p k n (measured acts)) (d : PNumber) (hd : d ∈ sentPoints numbers (sentScope sc) n s'.z.s.sent) :
    recordedBy s'.z.p k n (fun as => Describes none as d.attrs) (measured acts) ≠ [] := by
  obtain ⟨lacts, coll, z, z', h1, h2, h3, h4, h5⟩ := C97_ends hp
  have h6 : Pipeline.calls (Whole.syncActs (Live.rest lacts)) = Pipeline.calls (measured acts) := (Whole.calls_sync _).trans h5
  have h' := h
  rw [← h2, ← h4] at h'
  rw [← h2] at hf
  have := C94_known hl h' h1 hsy ho (few_same h6 hf) d (by rw [h3]; exact hd)
  rw [h2, recordedBy_same h6] at this
  exact this

/-- C97 (nothing else is sent, histograms). Every point sent under the name of a histogram has attributes with which something was recorded. -/
theorem C97_hist_known (hl : Launch lx lw opts pref pc sel) (h : Named (makes acts) s'.z.p k sc c n unit) (hp : Closes e pc sel start acts after s s')
    (hsy : (promise c).observed = false) (ho : (promise c).output = .histogram)
    (hf : Few s'.z.p k n (measured acts)) (d : PExp) (hd : d ∈ sentPoints expPoints (sentScope sc) n s'.z.s.sent) :
    recordedBy s'.z.p k n (fun as => Describes none as d.attrs) (measured acts) ≠ [] := by
  obtain ⟨lacts, coll, z, z', h1, h2, h3, h4, h5⟩ := C97_ends hp
  have h6 : Pipeline.calls (Whole.syncActs (Live.rest lacts)) = Pipeline.calls (measured acts) := (Whole.calls_sync _).trans h5
  have h' := h
  rw [← h2, ← h4] at h'
  rw [← h2] at hf
  have := C94_hist_known hl h' h1 hsy ho (few_same h6 hf) d (by rw [h3]; exact hd)
  rw [h2, recordedBy_same h6] at this
  exact this

/-! ### Examples -/

section Examples
open Verif.Examples Verif.Examples.Asm
open Verif.Views (lit)
open Verif.Pipeline (pointsIn)

/-- What is known of a concrete program of `Verif.Examples.Dl`, with the constructor `ct` for the instrument `n`; `a` is the preference, `l` the call at the end. -/
theorem c97_case {a : Launcher.Preference} {ct : Ln.Made} {l : Dl.Last} (h0 : ct.2 = .none) (h : Dl.evaluated a ct l = true) (h1 : Dl.hasB a ct l (lit "n") = true)
    (hq : Dl.quietB a (Dl.initial a ct l) (Dl.acts ct l) = true) :
    ∃ s s', Dl.stages a ct l = some (s, s') ∧ Launch Launcher.exExt Ln.lw (Ln.opts a) a (Ln.pc a) (documented a) ∧
      Closes Ln.out (Ln.pc a) (documented a) 1 (Dl.acts ct l) (Dl.after a ct l) s s' ∧ s'.r.threads[1]? = some ⟨l.kind, .done⟩ ∧
      Named (makes (Dl.acts ct l)) s'.z.p 0 scA ct.1 (lit "n") (lit "s") ∧ Few s'.z.p 0 (lit "n") (measured (Dl.acts ct l)) ∧
      Delivery.OneByOne Ln.out (Ln.pc a) (documented a) 1 s'.z.p 0 (lit "n") (Dl.acts ct l) ∧
      ∀ e ∈ Pipeline.calls (measured (Dl.acts ct l)), NoEmptyList (e.1.attrs e.2.1) := by
  obtain ⟨s, s', e1, e2, e3, e4⟩ := Dl.of_evaluated h
  have hb : (lit "n" : Str) ≠ lit "y" := by decide +kernel
  refine ⟨s, s', e1, Ln.launch a, e4, e3, ?_, by rw [e2]; exact Dl.few, by rw [e2]; exact Dl.oneByOne hq, Dl.noEmpty⟩
  rw [e2]
  refine Dl.named h1 (fun d hd hn => ?_)
  have hd' : d = ct.1.desc (lit "n") ct.2.text (lit "s") ∨ d = Ctor.int64ObservableCounter.desc (lit "y") [] (lit "s") := by
    cases l <;> simpa [Dl.cs, Dl.Last.mark, requests] using hd
  rcases hd' with rfl | rfl
  · rw [h0]; rfl
  · exact absurd hn.symm hb

/-- The values sent under a name, payload by payload. -/
def c97Sent (s : Delivery.Sys Nat (List Bits) Nat) (n : Str) : List (List PNum) := s.z.s.sent.map (fun pl => (pointsIn numbers (sentScope scA) n pl).map (·.value))

/-- "lowMemory", `Shutdown` while the reader collects: 5 and 7 are sent by the collection in progress, and 2, recorded after its snapshot, by that of `Shutdown`; the observable counter `y`,
asked for meanwhile, is 5 and 10. -/
example : ∃ s s', Dl.stages .lowmemory (.int64Counter, .none) .shutdown = some (s, s') ∧
    Closes Ln.out (Ln.pc .lowmemory) (documented .lowmemory) 1 (Dl.acts (.int64Counter, .none) .shutdown) (Dl.after .lowmemory (.int64Counter, .none) .shutdown) s s' ∧
    documented .lowmemory (Ctor.kinds .int64Counter).2 = .delta ∧ s.z.s.sent.length = 0 ∧ s.pos ≠ .out ∧
    c97Sent s' (lit "n") = [[.int 5, .int 7], [.int 2]] ∧ c97Sent s' (lit "y") = [[], [.int 5, .int 10]] := by
  obtain ⟨s, s', h1, -, h2, -⟩ := c97_case (a := .lowmemory) (ct := (.int64Counter, .none)) (l := .shutdown) rfl (by decide +kernel) (by decide +kernel) (by decide +kernel)
  obtain ⟨q, e1, e2⟩ : ∃ q, Dl.stages .lowmemory (.int64Counter, .none) .shutdown = some q ∧ (q.1.z.s.sent.length = 0 ∧ q.1.pos ≠ .out ∧
      c97Sent q.2 (lit "n") = [[.int 5, .int 7], [.int 2]] ∧ c97Sent q.2 (lit "y") = [[], [.int 5, .int 10]]) := exists_of_eval (by decide +kernel)
  obtain rfl : (s, s') = q := by rw [h1] at e1; exact Option.some.inj e1
  exact ⟨s, s', h1, h2, by decide, e2⟩

/-- "cumulative", `ForceFlush`: 5 and 7, then 5 and 9. -/
example : ∃ s s', Dl.stages .cumulative (.int64Counter, .none) .flush = some (s, s') ∧
    Closes Ln.out (Ln.pc .cumulative) (documented .cumulative) 1 (Dl.acts (.int64Counter, .none) .flush) (Dl.after .cumulative (.int64Counter, .none) .flush) s s' ∧
    documented .cumulative (Ctor.kinds .int64Counter).2 = .cumulative ∧ c97Sent s' (lit "n") = [[.int 5, .int 7], [.int 5, .int 9]] := by
  obtain ⟨s, s', h1, -, h2, -⟩ := c97_case (a := .cumulative) (ct := (.int64Counter, .none)) (l := .flush) rfl (by decide +kernel) (by decide +kernel) (by decide +kernel)
  obtain ⟨q, e1, e2⟩ : ∃ q, Dl.stages .cumulative (.int64Counter, .none) .flush = some q ∧ c97Sent q.2 (lit "n") = [[.int 5, .int 7], [.int 5, .int 9]] := exists_of_eval (by decide +kernel)
  obtain rfl : (s, s') = q := by rw [h1] at e1; exact Option.some.inj e1
  exact ⟨s, s', h1, h2, by decide, e2⟩

/-- "delta", `Shutdown`: floats. -/
example : ∃ s s', Dl.stages .delta (.float64Counter, .none) .shutdown = some (s, s') ∧
    Closes Ln.out (Ln.pc .delta) (documented .delta) 1 (Dl.acts (.float64Counter, .none) .shutdown) (Dl.after .delta (.float64Counter, .none) .shutdown) s s' ∧
    documented .delta (Ctor.kinds .float64Counter).2 = .delta ∧ c97Sent s' (lit "n") = [[.double 5, .double 7], [.double 2]] := by
  obtain ⟨s, s', h1, -, h2, -⟩ := c97_case (a := .delta) (ct := (.float64Counter, .none)) (l := .shutdown) rfl (by decide +kernel) (by decide +kernel) (by decide +kernel)
  obtain ⟨q, e1, e2⟩ : ∃ q, Dl.stages .delta (.float64Counter, .none) .shutdown = some q ∧ c97Sent q.2 (lit "n") = [[.double 5, .double 7], [.double 2]] := exists_of_eval (by decide +kernel)
  obtain rfl : (s, s') = q := by rw [h1] at e1; exact Option.some.inj e1
  exact ⟨s, s', h1, h2, by decide, e2⟩

/-- "delta": an up-down counter of floats is still cumulative. -/
example : ∃ s s', Dl.stages .delta (.float64UpDownCounter, .none) .flush = some (s, s') ∧
    Closes Ln.out (Ln.pc .delta) (documented .delta) 1 (Dl.acts (.float64UpDownCounter, .none) .flush) (Dl.after .delta (.float64UpDownCounter, .none) .flush) s s' ∧
    documented .delta (Ctor.kinds .float64UpDownCounter).2 = .cumulative ∧ c97Sent s' (lit "n") = [[.double 5, .double 7], [.double 5, .double 9]] := by
  obtain ⟨s, s', h1, -, h2, -⟩ := c97_case (a := .delta) (ct := (.float64UpDownCounter, .none)) (l := .flush) rfl (by decide +kernel) (by decide +kernel) (by decide +kernel)
  obtain ⟨q, e1, e2⟩ : ∃ q, Dl.stages .delta (.float64UpDownCounter, .none) .flush = some q ∧ c97Sent q.2 (lit "n") = [[.double 5, .double 7], [.double 5, .double 9]] :=
    exists_of_eval (by decide +kernel)
  obtain rfl : (s, s') = q := by rw [h1] at e1; exact Option.some.inj e1
  exact ⟨s, s', h1, h2, by decide, e2⟩

/-- "cumulative": a gauge. -/
example : ∃ s s', Dl.stages .cumulative (.int64Gauge, .none) .shutdown = some (s, s') ∧
    Closes Ln.out (Ln.pc .cumulative) (documented .cumulative) 1 (Dl.acts (.int64Gauge, .none) .shutdown) (Dl.after .cumulative (.int64Gauge, .none) .shutdown) s s' ∧
    documented .cumulative (Ctor.kinds .int64Gauge).2 = .cumulative ∧ c97Sent s' (lit "n") = [[.int 5, .int 7], [.int 5, .int 2]] := by
  obtain ⟨s, s', h1, -, h2, -⟩ := c97_case (a := .cumulative) (ct := (.int64Gauge, .none)) (l := .shutdown) rfl (by decide +kernel) (by decide +kernel) (by decide +kernel)
  obtain ⟨q, e1, e2⟩ : ∃ q, Dl.stages .cumulative (.int64Gauge, .none) .shutdown = some q ∧ c97Sent q.2 (lit "n") = [[.int 5, .int 7], [.int 5, .int 2]] := exists_of_eval (by decide +kernel)
  obtain rfl : (s, s') = q := by rw [h1] at e1; exact Option.some.inj e1
  exact ⟨s, s', h1, h2, by decide, e2⟩

/-- "delta": a gauge. -/
example : ∃ s s', Dl.stages .delta (.float64Gauge, .none) .shutdown = some (s, s') ∧
    Closes Ln.out (Ln.pc .delta) (documented .delta) 1 (Dl.acts (.float64Gauge, .none) .shutdown) (Dl.after .delta (.float64Gauge, .none) .shutdown) s s' ∧
    documented .delta (Ctor.kinds .float64Gauge).2 = .delta ∧ c97Sent s' (lit "n") = [[.double 5, .double 7], [.double 2]] := by
  obtain ⟨s, s', h1, -, h2, -⟩ := c97_case (a := .delta) (ct := (.float64Gauge, .none)) (l := .shutdown) rfl (by decide +kernel) (by decide +kernel) (by decide +kernel)
  obtain ⟨q, e1, e2⟩ : ∃ q, Dl.stages .delta (.float64Gauge, .none) .shutdown = some q ∧ c97Sent q.2 (lit "n") = [[.double 5, .double 7], [.double 2]] := exists_of_eval (by decide +kernel)
  obtain rfl : (s, s') = q := by rw [h1] at e1; exact Option.some.inj e1
  exact ⟨s, s', h1, h2, by decide, e2⟩

/-- "lowMemory": a histogram; the second payload has one value. -/
example : ∃ s s', Dl.stages .lowmemory (.float64Histogram, .none) .shutdown = some (s, s') ∧
    Closes Ln.out (Ln.pc .lowmemory) (documented .lowmemory) 1 (Dl.acts (.float64Histogram, .none) .shutdown) (Dl.after .lowmemory (.float64Histogram, .none) .shutdown) s s' ∧
    documented .lowmemory (Ctor.kinds .float64Histogram).2 = .delta ∧
    s'.z.s.sent.map (fun pl => (pointsIn expPoints (sentScope scA) (lit "n") pl).map (·.count)) = [[1, 1], [1]] := by
  obtain ⟨s, s', h1, -, h2, -⟩ := c97_case (a := .lowmemory) (ct := (.float64Histogram, .none)) (l := .shutdown) rfl (by decide +kernel) (by decide +kernel) (by decide +kernel)
  obtain ⟨q, e1, e2⟩ : ∃ q, Dl.stages .lowmemory (.float64Histogram, .none) .shutdown = some q ∧
      q.2.z.s.sent.map (fun pl => (pointsIn expPoints (sentScope scA) (lit "n") pl).map (·.count)) = [[1, 1], [1]] := exists_of_eval (by decide +kernel)
  obtain rfl : (s, s') = q := by rw [h1] at e1; exact Option.some.inj e1
  exact ⟨s, s', h1, h2, by decide, e2⟩

/-- "cumulative": a histogram; the second payload has all values. -/
example : ∃ s s', Dl.stages .cumulative (.int64Histogram, .none) .flush = some (s, s') ∧
    Closes Ln.out (Ln.pc .cumulative) (documented .cumulative) 1 (Dl.acts (.int64Histogram, .none) .flush) (Dl.after .cumulative (.int64Histogram, .none) .flush) s s' ∧
    documented .cumulative (Ctor.kinds .int64Histogram).2 = .cumulative ∧
    s'.z.s.sent.map (fun pl => (pointsIn expPoints (sentScope scA) (lit "n") pl).map (·.count)) = [[1, 1], [1, 2]] := by
  obtain ⟨s, s', h1, -, h2, -⟩ := c97_case (a := .cumulative) (ct := (.int64Histogram, .none)) (l := .flush) rfl (by decide +kernel) (by decide +kernel) (by decide +kernel)
  obtain ⟨q, e1, e2⟩ : ∃ q, Dl.stages .cumulative (.int64Histogram, .none) .flush = some q ∧
      q.2.z.s.sent.map (fun pl => (pointsIn expPoints (sentScope scA) (lit "n") pl).map (·.count)) = [[1, 1], [1, 2]] := exists_of_eval (by decide +kernel)
  obtain rfl : (s, s') = q := by rw [h1] at e1; exact Option.some.inj e1
  exact ⟨s, s', h1, h2, by decide, e2⟩

/-- After the `Shutdown` of the first example: all goroutines of the reader are done; a further call on the counter, made and begun, ticks, and steps of the reader's goroutines send nothing. -/
example : ∃ s s' s'', Dl.stages .lowmemory (.int64Counter, .none) .shutdown = some (s, s') ∧ s'.r.threads = [⟨.tick, .done⟩, ⟨.shutdown, .done⟩] ∧
    Dl.runIn .lowmemory s' ([.call (Dl.n (.int64Counter, .none)) ka 4] ++ Dl.ops 3 4 ++ [.reader .tick [], Dl.go 0, .reader (.go 0 true) [], Dl.go 1]) = some s'' ∧ s''.z.s.sent = s'.z.s.sent := by
  obtain ⟨s, s', h1, -, h2, -⟩ := c97_case (a := .lowmemory) (ct := (.int64Counter, .none)) (l := .shutdown) rfl (by decide +kernel) (by decide +kernel) (by decide +kernel)
  obtain ⟨q, e1, e2, e3⟩ : ∃ q, Dl.stages .lowmemory (.int64Counter, .none) .shutdown = some q ∧ (q.2.r.threads = [⟨.tick, .done⟩, ⟨.shutdown, .done⟩] ∧
      (Dl.runIn .lowmemory q.2 ([.call (Dl.n (.int64Counter, .none)) ka 4] ++ Dl.ops 3 4 ++ [.reader .tick [], Dl.go 0, .reader (.go 0 true) [], Dl.go 1])).isSome = true) :=
    exists_of_eval (by decide +kernel)
  obtain rfl : (s, s') = q := by rw [h1] at e1; exact Option.some.inj e1
  obtain ⟨s'', e4⟩ := Option.isSome_iff_exists.1 e3
  dsimp only at e2
  refine ⟨s, s', s'', h1, e2, e4, C97_silent h2.running (t := 1) (by rw [e2]; rfl) (fun u th hu hth => ?_) ?_ e4⟩
  · rw [e2] at hth
    match u, hth with
    | 0, hth => exact absurd rfl hu
    | 1, hth => cases hth; rfl
  · intro a ha
    simp [readerActs, Dl.ops, Dl.go] at ha
    rcases ha with rfl | rfl | rfl | rfl <;> simp

end Examples

end Verif.Props
