import Verif.Proof.HostProgram
import Verif.Examples.HostProgram
import Verif.Props.RuntimeProgram
import Verif.Props.HostMetrics

/-!
C105: the metrics of host and process, from what the operating system answers to what is sent.

`Started`: the instrumentation was started, and has a meter for itself. `Made`: its callback ran once in the collection, and made these observations. `Gives`: one of them, which is
accepted.
-/

namespace Verif.Props
open Verif Verif.Attr Verif.Number Verif.Export Verif.Assembly Verif.Instruments Verif.Launched Verif.HostMetrics
open Verif.Pipeline (numbers pointsIn)
open Verif.Live (makes rest)
open Verif.Front (IKind)
open Verif.Views (Tempo lit)
open Verif.Launcher (documented)

variable {C G ν E : Type} [DecidableEq C] {lx : Launcher.Ext} {lw : Launcher.World} {opts : List Launcher.Opt} {pref : Launcher.Preference} {pc : Launcher.PipelineConfig}
  {sel : IKind → Tempo} {e : Outside C G} {k : Nat} {sc : Views.Scope} {acts : List (Live.Act ν)} {z : Live.Sys C G ν} {id : Want → Nat} {asked : List (Want × Str)}

/-- For all instrumentations of this form. -/
theorem sent_whole (hl : Launch lx lw opts pref pc sel) (hp : Runs e pc sel acts z) (ha : AsksFor asked) (hs : Started z.p k sc asked id acts) {x : Want × Str} (hx : x ∈ asked)
    (hw : Waits e pc sel z.p acts) (hin : InTurn e pc sel z.p k x.1.name acts) (hd : Finished z.p k x.1.name z)
    (ht : documented pref x.1.ctor.kinds.2 = .cumulative ∨ (promise x.1.ctor).output = .gauge)
    {t : Nat} (htl : t < (Whole.collections (rest acts)).length) {obs : List Obs} (hm : Made z.p k id (rest acts) t obs) (hf : Fits asked obs) :
    ∃ pl, z.s.sent[t]? = some pl ∧ SentWhole e x.1 obs (pointsIn numbers (sentScope sc) x.1.name pl) := by
  obtain ⟨pl, h1, as, h2, h3, h4⟩ := once_cumulative hl (hs.named ha hx) hp (ha.observed x hx) hw hin hd ht htl (hm.few ha hs hx hf) (hm.once ha hs hx hf)
  refine ⟨pl, h1, as, h2, h3, h4.1, fun i a p hi hp' => ?_⟩
  obtain ⟨g1, g2⟩ := h4.2 i a p hi hp'
  obtain ⟨y, hg⟩ := (h3 a).1 (List.mem_of_getElem? hi)
  rw [hf.gives hg] at g2
  exact ⟨(hf.short _ hg.1).has g1, y, hg, g2⟩

theorem sent_change (hl : Launch lx lw opts pref pc sel) (hp : Runs e pc sel acts z) (ha : AsksFor asked) (hs : Started z.p k sc asked id acts) {x : Want × Str} (hx : x ∈ asked)
    (hw : Waits e pc sel z.p acts) (hin : InTurn e pc sel z.p k x.1.name acts) (hd : Finished z.p k x.1.name z) (ht : documented pref x.1.ctor.kinds.2 = .delta)
    (hg : (promise x.1.ctor).output ≠ .gauge) {obs : Nat → List Obs} (hm : ∀ t, t < (Whole.collections (rest acts)).length → Made z.p k id (rest acts) t (obs t))
    (hf : ∀ t, Fits asked (obs t))
    (hend : ∀ o ∈ observedOn z.p k x.1.ctor x.1.name (rest acts), (Whole.collections (rest acts)).length ≤ o.1 → shown none o.2.2.1 ≠ overflowSet)
    {t : Nat} (htl : t < (Whole.collections (rest acts)).length) :
    ∃ pl, z.s.sent[t]? = some pl ∧ SentChange e x.1 obs t (pointsIn numbers (sentScope sc) x.1.name pl) := by
  have hov : ∀ o ∈ observedOn z.p k x.1.ctor x.1.name (rest acts), Called z.p k x.1.name o.2.1 → shown none o.2.2.1 ≠ overflowSet := by
    intro o ho' hc
    by_cases hlt : o.1 < (Whole.collections (rest acts)).length
    · have hon := (hm o.1 hlt).once ha hs hx (hf _)
      obtain ⟨a, ⟨y, hg⟩, h3⟩ := hon.only o ho' rfl hc
      rw [h3, shown_all (hon.keys a ⟨y, hg⟩)]
      exact ((hf _).short _ hg.1).overflow
    · exact hend o ho' (by omega)
  obtain ⟨pl, h1, as, h2, h3, h4⟩ := once_delta hl (hs.named ha hx) hp (ha.observed x hx) hw hin hd ht hg (fun t ht => (hm t ht).few ha hs hx (hf t)) hov htl
    (P := fun t a => ∃ y, Gives (obs t) x.1 a y) (f := fun a => usedSet (textAttrs a)) (v := fun t => valueOf (obs t) x.1)
    (fun t ht => (hm t ht).once ha hs hx (hf t)) (by
      rintro t t' a a' ⟨y, hy⟩ ⟨y', hy'⟩ he
      exact perm_single ((hf t).single _ hy.1) (texts_inj ((hf t).short _ hy.1) ((hf t').short _ hy'.1) he))
  refine ⟨pl, h1, as, h2, fun a => (h3 a).trans ?_, h4.1, fun i a p hi hp' => ?_⟩
  · constructor
    · rintro ⟨⟨y, hy⟩, hm'⟩
      refine ⟨y, hy, fun t' b ht' hb => ?_⟩
      have := hm' t' ht' ⟨b, hb⟩
      rw [(hf _).gives hy, (hf _).gives hb] at this
      exact this
    · rintro ⟨y, hy, hm'⟩
      refine ⟨⟨y, hy⟩, fun t' ht' ⟨b, hb⟩ => ?_⟩
      rw [(hf _).gives hy, (hf _).gives hb]
      exact hm' t' b ht' hb
  · obtain ⟨g1, g2⟩ := h4.2 i a p hi hp'
    obtain ⟨⟨y, hy⟩, -⟩ := (h3 a).1 (List.mem_of_getElem? hi)
    refine ⟨((hf _).short _ hy.1).has g1, y, hy, ?_⟩
    rw [(hf _).gives hy] at g2
    rcases g2 with ⟨t', g2, ⟨b, hb⟩, g4⟩ | ⟨g2, g3⟩
    · rw [(hf _).gives hb] at g4
      exact .inl ⟨t', b, g2, hb, g4⟩
    · exact .inr ⟨fun t' b ht' hb => g2 t' ht' ⟨b, hb⟩, g3⟩

/-- A monotonic sum, delta only under the preference "delta". -/
def CounterData (pref : Launcher.Preference) : PData → Prop
  | .sum mono t _ => mono = true ∧ (pref = .delta ∧ t = .delta ∨ pref ≠ .delta ∧ t = .cumulative)
  | _ => False

/-- A sum which is not monotonic, cumulative. -/
def UpDownData : PData → Prop
  | .sum mono t _ => mono = false ∧ t = .cumulative
  | _ => False

theorem counterData {c : Ctor} (hc : c = .int64ObservableCounter ∨ c = .float64ObservableCounter) {d : PData}
    (h : outputOf c (if documented pref c.kinds.2 = .delta then .delta else .cumulative) d) : CounterData pref d := by
  rcases hc with rfl | rfl <;> cases pref <;> cases d <;> simp [outputOf, promise, Ctor.kinds, documented, CounterData] at h ⊢ <;> exact h

theorem upDownData {c : Ctor} (hc : c = .int64ObservableUpDownCounter ∨ c = .float64ObservableUpDownCounter) {d : PData}
    (h : outputOf c (if documented pref c.kinds.2 = .delta then .delta else .cumulative) d) : UpDownData d := by
  rcases hc with rfl | rfl <;> cases pref <;> cases d <;> simp [outputOf, promise, Ctor.kinds, documented, UpDownData] at h ⊢ <;> exact h

/-- C105 (unit, kind and temporality, host). In every payload sent, whatever was observed: CPU time is a monotonic sum of seconds, memory a sum of bytes which is not monotonic, its
utilization a gauge without unit, network traffic a monotonic sum of bytes. -/
theorem C105_host_metric (hl : Launch lx lw opts pref pc sel) (hp : Runs e pc sel acts z) (hs : Started z.p k sc hostAsked id acts) (pl : Payload) (hpl : pl ∈ z.s.sent)
    (s : PScope) (hin : s ∈ pl.scopes) (hlib : s.library = sentScope sc) (m : PMetric) (hm : m ∈ s.metrics) :
    (m.name = lit "system.cpu.time" → m.unit = lit "s" ∧ CounterData pref m.data) ∧
    (m.name = lit "system.memory.usage" → m.unit = lit "By" ∧ UpDownData m.data) ∧
    (m.name = lit "system.memory.utilization" → m.unit = [] ∧ ∃ ps, m.data = .gauge ps) ∧
    (m.name = lit "system.network.io" → m.unit = lit "By" ∧ CounterData pref m.data) := by
  have key : ∀ w ∈ hostWants, m.name = w.name → m.unit = w.unit ∧ outputOf w.ctor (if documented pref w.ctor.kinds.2 = .delta then .delta else .cumulative) m.data := by
    intro w hw hn
    obtain ⟨x, h1, rfl⟩ := host_wants hw
    exact C94_metric hl (hs.named host_asks h1) hp pl hpl s hin hlib m hm hn
  refine ⟨fun hn => ?_, fun hn => ?_, fun hn => ?_, fun hn => ?_⟩
  · obtain ⟨h1, h2⟩ := key hostCPUTime (by simp [hostWants]) hn
    exact ⟨h1, counterData (.inr rfl) h2⟩
  · obtain ⟨h1, h2⟩ := key hostMemoryUsage (by simp [hostWants]) hn
    exact ⟨h1, upDownData (.inl rfl) h2⟩
  · obtain ⟨h1, h2⟩ := key hostMemoryUtilization (by simp [hostWants]) hn
    refine ⟨h1, ?_⟩
    generalize m.data = dd at h2
    cases dd <;> simp [hostMemoryUtilization, outputOf, promise] at h2 ⊢
  · obtain ⟨h1, h2⟩ := key networkIOUsage (by simp [hostWants]) hn
    exact ⟨h1, counterData (.inl rfl) h2⟩

/-- C105 (unit, kind and temporality, process). CPU time is a monotonic sum of seconds, the time since the start a sum of seconds which is not monotonic. -/
theorem C105_process_metric (hl : Launch lx lw opts pref pc sel) (hp : Runs e pc sel acts z) (hs : Started z.p k sc processAsked id acts) (pl : Payload) (hpl : pl ∈ z.s.sent)
    (s : PScope) (hin : s ∈ pl.scopes) (hlib : s.library = sentScope sc) (m : PMetric) (hm : m ∈ s.metrics) :
    (m.name = lit "process.cpu.time" → m.unit = lit "s" ∧ CounterData pref m.data) ∧
    (m.name = lit "process.uptime" → m.unit = lit "s" ∧ UpDownData m.data) := by
  have key : ∀ w ∈ processWants, m.name = w.name → m.unit = w.unit ∧ outputOf w.ctor (if documented pref w.ctor.kinds.2 = .delta then .delta else .cumulative) m.data := by
    intro w hw hn
    obtain ⟨x, h1, rfl⟩ := process_wants hw
    exact C94_metric hl (hs.named process_asks h1) hp pl hpl s hin hlib m hm hn
  refine ⟨fun hn => ?_, fun hn => ?_⟩
  · obtain ⟨h1, h2⟩ := key processCPUTime (by simp [processWants]) hn
    exact ⟨h1, counterData (.inr rfl) h2⟩
  · obtain ⟨h1, h2⟩ := key processUptime (by simp [processWants]) hn
    exact ⟨h1, upDownData (.inr rfl) h2⟩

/-- C105 (host: gauges, and sums which are reported as cumulative ones). For each instrument, every payload of a collection in which the callback ran with these answers has exactly one
point for each value observed and accepted. -/
theorem C105_host_sent (hl : Launch lx lw opts pref pc sel) (hp : Runs e pc sel acts z) (hs : Started z.p k sc hostAsked id acts) {w : Want} (hx : w ∈ hostWants)
    (hw : Waits e pc sel z.p acts) (hin : InTurn e pc sel z.p k w.name acts) (hd : Finished z.p k w.name z)
    (ht : documented pref w.ctor.kinds.2 = .cumulative ∨ (promise w.ctor).output = .gauge) {t : Nat} (htl : t < (Whole.collections (rest acts)).length)
    {fdiv : Bits → Bits → Bits} {cpu : Except E (List CpuTimes)} {mem : Except E Memory} {net : Except E (List NetIO)}
    (hm : Made z.p k id (rest acts) t (hostCallback e.fadd fdiv cpu mem net).1) :
    ∃ pl, z.s.sent[t]? = some pl ∧ SentWhole e w (hostCallback e.fadd fdiv cpu mem net).1 (pointsIn numbers (sentScope sc) w.name pl) := by
  obtain ⟨x, h1, rfl⟩ := host_wants hx
  exact sent_whole hl hp host_asks hs h1 hw hin hd ht htl hm (host_fits _ _ _ _ _)

/-- C105 (host: sums which are reported as deltas). When the callback ran in every collection. (`hend`: what is observed after the last collection does not have the attributes for
overflow.) -/
theorem C105_host_delta (hl : Launch lx lw opts pref pc sel) (hp : Runs e pc sel acts z) (hs : Started z.p k sc hostAsked id acts) {w : Want} (hx : w ∈ hostWants)
    (hw : Waits e pc sel z.p acts) (hin : InTurn e pc sel z.p k w.name acts) (hd : Finished z.p k w.name z) (ht : documented pref w.ctor.kinds.2 = .delta)
    (hg : (promise w.ctor).output ≠ .gauge) {fdiv : Bits → Bits → Bits} {cpu : Nat → Except E (List CpuTimes)} {mem : Nat → Except E Memory} {net : Nat → Except E (List NetIO)}
    (hm : ∀ t, t < (Whole.collections (rest acts)).length → Made z.p k id (rest acts) t (hostCallback e.fadd fdiv (cpu t) (mem t) (net t)).1)
    (hend : ∀ o ∈ observedOn z.p k w.ctor w.name (rest acts), (Whole.collections (rest acts)).length ≤ o.1 → shown none o.2.2.1 ≠ overflowSet)
    {t : Nat} (htl : t < (Whole.collections (rest acts)).length) :
    ∃ pl, z.s.sent[t]? = some pl ∧ SentChange e w (fun t => (hostCallback e.fadd fdiv (cpu t) (mem t) (net t)).1) t (pointsIn numbers (sentScope sc) w.name pl) := by
  obtain ⟨x, h1, rfl⟩ := host_wants hx
  exact sent_change hl hp host_asks hs h1 hw hin hd ht hg hm (fun t => host_fits _ _ _ _ _) hend htl

/-- C105 (process: sums which are reported as cumulative ones). -/
theorem C105_process_sent (hl : Launch lx lw opts pref pc sel) (hp : Runs e pc sel acts z) (hs : Started z.p k sc processAsked id acts) {w : Want} (hx : w ∈ processWants)
    (hw : Waits e pc sel z.p acts) (hin : InTurn e pc sel z.p k w.name acts) (hd : Finished z.p k w.name z) (ht : documented pref w.ctor.kinds.2 = .cumulative)
    {t : Nat} (htl : t < (Whole.collections (rest acts)).length) {fdiv : Bits → Bits → Bits} {up : Bits} {ru : Except E Rusage}
    (hm : Made z.p k id (rest acts) t (processCallback e.fadd fdiv up ru)) :
    ∃ pl, z.s.sent[t]? = some pl ∧ SentWhole e w (processCallback e.fadd fdiv up ru) (pointsIn numbers (sentScope sc) w.name pl) := by
  obtain ⟨x, h1, rfl⟩ := process_wants hx
  exact sent_whole hl hp process_asks hs h1 hw hin hd (.inl ht) htl hm (process_fits _ _ _ _)

/-- C105 (process: sums which are reported as deltas). When the callback ran in every collection. -/
theorem C105_process_delta (hl : Launch lx lw opts pref pc sel) (hp : Runs e pc sel acts z) (hs : Started z.p k sc processAsked id acts) {w : Want} (hx : w ∈ processWants)
    (hw : Waits e pc sel z.p acts) (hin : InTurn e pc sel z.p k w.name acts) (hd : Finished z.p k w.name z) (ht : documented pref w.ctor.kinds.2 = .delta)
    {fdiv : Bits → Bits → Bits} {up : Nat → Bits} {ru : Nat → Except E Rusage}
    (hm : ∀ t, t < (Whole.collections (rest acts)).length → Made z.p k id (rest acts) t (processCallback e.fadd fdiv (up t) (ru t)))
    (hend : ∀ o ∈ observedOn z.p k w.ctor w.name (rest acts), (Whole.collections (rest acts)).length ≤ o.1 → shown none o.2.2.1 ≠ overflowSet)
    {t : Nat} (htl : t < (Whole.collections (rest acts)).length) :
    ∃ pl, z.s.sent[t]? = some pl ∧ SentChange e w (fun t => processCallback e.fadd fdiv (up t) (ru t)) t (pointsIn numbers (sentScope sc) w.name pl) := by
  have hg : ∀ w ∈ processWants, (promise w.ctor).output ≠ .gauge := by decide +kernel
  have hg := hg w hx
  obtain ⟨x, h1, rfl⟩ := process_wants hx
  exact sent_change hl hp process_asks hs h1 hw hin hd ht hg hm (fun t => process_fits _ _ _ _) hend htl

/-- C105 (which values of the host). With one summary of each kind: the CPU time in each state, as far as it is a finite number; used and available memory, in bytes and
relative to the total; bytes sent and received. -/
theorem C105_host_gives (fadd fdiv : Bits → Bits → Bits) (c : CpuTimes) (m : Memory) (n : NetIO) (a : List (Str × Str)) (y : Bits) :
    let obs := (hostCallback (E := E) fadd fdiv (.ok [c]) (.ok m) (.ok [n])).1
    (Gives obs hostCPUTime a y ↔ Finite y ∧
      ((a = [(lit "state", lit "user")] ∧ y = c.user) ∨ (a = [(lit "state", lit "system")] ∧ y = c.system) ∨
        (a = [(lit "state", lit "other")] ∧ y = [c.iowait, c.irq, c.softirq, c.steal, c.guest, c.guestNice].foldl fadd c.nice) ∨ (a = [(lit "state", lit "idle")] ∧ y = c.idle))) ∧
    (Gives obs hostMemoryUsage a y ↔ (a = [(lit "state", lit "used")] ∧ y = m.used) ∨ (a = [(lit "state", lit "available")] ∧ y = m.available)) ∧
    (Gives obs hostMemoryUtilization a y ↔ Finite y ∧ ((a = [(lit "state", lit "used")] ∧ y = fdiv (natToFloat m.used.toNat) (natToFloat m.total.toNat)) ∨
      (a = [(lit "state", lit "available")] ∧ y = fdiv (natToFloat m.available.toNat) (natToFloat m.total.toNat)))) ∧
    (Gives obs networkIOUsage a y ↔ (a = [(lit "direction", lit "transmit")] ∧ y = n.sent) ∨ (a = [(lit "direction", lit "receive")] ∧ y = n.recv)) := by
  have d : hostCPUTime ≠ hostMemoryUsage ∧ hostCPUTime ≠ hostMemoryUtilization ∧ hostCPUTime ≠ networkIOUsage ∧ hostMemoryUsage ≠ hostMemoryUtilization ∧
      hostMemoryUsage ≠ networkIOUsage ∧ hostMemoryUtilization ≠ networkIOUsage := by decide +kernel
  obtain ⟨d1, d2, d3, d4, d5, d6⟩ := d
  refine ⟨?_, ?_, ?_, ?_⟩
  all_goals
    simp only [Gives, hostCallback, hostObs, List.mem_cons, List.not_mem_nil, or_false, Obs.mk.injEq, d1, d2, d3, d4, d5, d6, d1.symm, d2.symm, d3.symm, d4.symm, d5.symm, d6.symm, false_and,
      true_and, false_or]
  · have h : Accepts hostCPUTime.ctor y ↔ Finite y := ⟨fun h => h.1 rfl, fun h => ⟨fun _ => h, fun h => by cases h⟩⟩
    rw [h]
    exact and_comm
  · have h : Accepts hostMemoryUsage.ctor y := ⟨(fun h => by cases h), (fun h => by cases h)⟩
    exact ⟨fun g => g.1, fun g => ⟨g, h⟩⟩
  · have h : Accepts hostMemoryUtilization.ctor y ↔ Finite y := ⟨fun h => h.1 rfl, fun h => ⟨fun _ => h, fun h => by cases h⟩⟩
    rw [h]
    exact and_comm
  · have h : Accepts networkIOUsage.ctor y := ⟨(fun h => by cases h), (fun h => by cases h)⟩
    exact ⟨fun g => g.1, fun g => ⟨g, h⟩⟩

omit [DecidableEq C] in
/-- C105 (no values of the host). Otherwise none of them, so that nothing is sent under any of the names. -/
theorem C105_host_silent (fadd fdiv : Bits → Bits → Bits) (cpu : Except E (List CpuTimes)) (mem : Except E Memory) (net : Except E (List NetIO))
    (h : ¬ ∃ c m n, cpu = .ok [c] ∧ mem = .ok m ∧ net = .ok [n]) (e : Outside C G) (w : Want) (ps : List PNumber)
    (hs : SentWhole e w (hostCallback fadd fdiv cpu mem net).1 ps) : ps = [] := by
  have h1 : (hostCallback fadd fdiv cpu mem net).1 = [] := by
    by_cases h2 : (hostCallback fadd fdiv cpu mem net).1 = []
    · exact h2
    · exact absurd (((C70_host_all_or_none fadd fdiv cpu mem net).2).1 h2) h
  obtain ⟨as, -, h3, h4⟩ := hs
  rw [h1] at h3
  cases as with
  | nil => exact List.length_eq_zero_iff.1 h4.1.symm
  | cons a as =>
    obtain ⟨y, hy, -⟩ := (h3 a).1 List.mem_cons_self
    cases hy

/-- C105 (which values of the process). The CPU time in user and system mode, as far as finite, when the operating system answers, and the time since the start in any case. -/
theorem C105_process_gives (fadd fdiv : Bits → Bits → Bits) (up : Bits) (ru : Except E Rusage) (a : List (Str × Str)) (y : Bits) :
    let obs := processCallback fadd fdiv up ru
    (Gives obs processUptime a y ↔ Finite y ∧ a = [] ∧ y = seconds fadd fdiv up) ∧
    (Gives obs processCPUTime a y ↔ Finite y ∧ ∃ r, ru = .ok r ∧
      ((a = [(lit "state", lit "user")] ∧ y = seconds fadd fdiv (duration r.utime)) ∨ (a = [(lit "state", lit "system")] ∧ y = seconds fadd fdiv (duration r.stime)))) := by
  have d1 : processUptime ≠ processCPUTime := by decide +kernel
  have hc : Accepts processCPUTime.ctor y ↔ Finite y := ⟨fun h => h.1 rfl, fun h => ⟨fun _ => h, fun h => by cases h⟩⟩
  have hu : Accepts processUptime.ctor y ↔ Finite y := ⟨fun h => h.1 rfl, fun h => ⟨fun _ => h, fun h => by cases h⟩⟩
  have hn : ¬ Finite nan := by decide +kernel
  cases ru with
  | error e =>
    simp only [Gives, processCallback, getProcessTimes, List.mem_cons, List.not_mem_nil, or_false, Obs.mk.injEq, d1, d1.symm, false_and, true_and, false_or, hc, hu]
    refine ⟨and_comm, ?_, ?_⟩
    · rintro ⟨h1, h2⟩
      rcases h1 with ⟨-, rfl⟩ | ⟨-, rfl⟩ <;> exact absurd h2 hn
    · rintro ⟨-, r, h, -⟩
      cases h
  | ok r =>
    simp only [Gives, processCallback, getProcessTimes, List.mem_cons, List.not_mem_nil, or_false, Obs.mk.injEq, d1, d1.symm, false_and, true_and, false_or, hc, hu]
    refine ⟨and_comm, ?_, ?_⟩
    · rintro ⟨h1, h2⟩
      exact ⟨h2, r, rfl, h1⟩
    · rintro ⟨h2, r', h, h1⟩
      cases h
      exact ⟨h1, h2⟩

/-! ### Concrete programs -/

section Examples
open Verif.Examples
open Verif.Examples.Asm (scA)

theorem c105_called {a : Launcher.Preference} {asked : List (Want × Str)} {z : Live.Sys Nat (List Bits) Nat} (hz : z.p = Rt.p a (Ho.cs asked))
    (h : ((Rt.p a (Ho.cs asked)).ordered[0]?).map (fun m => m.insts.map (·.desc.name)) = some (asked.map (fun x => x.1.name))) {x : Want × Str} (hx : x ∈ asked) :
    Called z.p 0 x.1.name (Ho.id asked x.1) := by
  obtain ⟨m, h1, h2⟩ := Option.map_eq_some_iff.1 h
  have h3 : Ho.place asked x.1 < asked.length := List.findIdx_lt_length_of_exists ⟨x, hx, by simp⟩
  have h4 : (asked[Ho.place asked x.1]'h3).1 = x.1 := of_decide_eq_true (List.findIdx_getElem (p := fun y : Want × Str => decide (y.1 = x.1)) (w := h3))
  have h5 : (m.insts.map (·.desc.name))[Ho.place asked x.1]? = some x.1.name := by
    rw [h2, List.getElem?_map, List.getElem?_eq_getElem h3, Option.map_some, h4]
  rw [List.getElem?_map] at h5
  obtain ⟨o, h6, h7⟩ := Option.map_eq_some_iff.1 h5
  exact ⟨m, _, o, by rw [hz]; exact h1, h6, h7, rfl⟩

theorem c105_started {a : Launcher.Preference} {asked : List (Want × Str)} {z : Live.Sys Nat (List Bits) Nat} {body : List Whole.Act} (hz : z.p = Rt.p a (Ho.cs asked))
    (h : ((Rt.p a (Ho.cs asked)).ordered[0]?).map (fun m => m.insts.map (·.desc.name)) = some (asked.map (fun x => x.1.name)))
    (hs : ((Rt.p a (Ho.cs asked)).ordered[0]?).map (·.scope) = some scA) : Started z.p 0 scA asked (Ho.id asked) (Rt.acts (Ho.cs asked) body) := by
  refine ⟨?_, fun d hd => ?_, fun x hx => c105_called hz h hx⟩
  · obtain ⟨m, g1, g2⟩ := Option.map_eq_some_iff.1 hs
    exact ⟨m, by rw [hz]; exact g1, g2⟩
  · rw [Rt.makes_acts] at hd
    simp only [Ho.cs, requests, List.filterMap_cons, List.filterMap_map, List.mem_filterMap] at hd
    obtain ⟨x, hx, h1⟩ := hd
    simp at h1
    exact ⟨x, hx, h1.symm⟩

theorem c105_made {a : Launcher.Preference} {asked : List (Want × Str)} {z : Live.Sys Nat (List Bits) Nat} {body : List Whole.Act} (hz : z.p = Rt.p a (Ho.cs asked))
    (h : ((Rt.p a (Ho.cs asked)).ordered[0]?).map (fun m => m.insts.map (·.desc.name)) = some (asked.map (fun x => x.1.name)))
    (hall : ∀ e ∈ Whole.observations body, ∃ x ∈ asked, Ho.id asked x.1 = e.2.1) {t : Nat} {obs : List Obs}
    (ho : ((Whole.observations body).filter (fun e => decide (e.1 = t))).map (·.2) = obs.map (fun o => (Ho.id asked o.inst, textAttrs o.attrs, o.value))) :
    Made z.p 0 (Ho.id asked) (rest (Rt.acts (Ho.cs asked) body)) t obs := by
  have key : ∀ (inst : ∀ e : Nat × Nat × List KV × Bits, Decidable (e.1 = t ∧ ∃ n, Called z.p 0 n e.2.1)),
      (Whole.observations body).filter (fun e => @decide (e.1 = t ∧ ∃ n, Called z.p 0 n e.2.1) (inst e)) = (Whole.observations body).filter (fun e => decide (e.1 = t)) := by
    intro inst
    refine List.filter_congr (fun e he => ?_)
    rw [Bool.eq_iff_iff, decide_eq_true_iff, decide_eq_true_iff]
    refine ⟨fun h => h.1, fun h' => ⟨h', ?_⟩⟩
    obtain ⟨x, hx, h1⟩ := hall e he
    rw [← h1]
    exact ⟨_, c105_called hz h hx⟩
  unfold Made
  rw [Rt.rest_acts, key]
  exact ho

instance c105Dec : DecidableEq (Nat × List KV × Bits) := inferInstance

/-- "Delta", two collections of host metrics: CPU time and bytes sent are differences, memory is as it is. -/
example : ∃ z, Rt.last .delta (Ho.cs hostAsked) (Ho.body hostAsked (Ho.host 10 100 7) (Ho.host 12 90 9)) = some z ∧
    let acts := Rt.acts (Ho.cs hostAsked) (Ho.body hostAsked (Ho.host 10 100 7) (Ho.host 12 90 9))
    Runs Ln.out (Ln.pc .delta) (documented .delta) acts z ∧ Started z.p 0 scA hostAsked (Ho.id hostAsked) acts ∧ Waits Ln.out (Ln.pc .delta) (documented .delta) z.p acts ∧
    (∀ n, InTurn Ln.out (Ln.pc .delta) (documented .delta) z.p 0 n acts ∧ Finished z.p 0 n z) ∧
    documented .delta hostMemoryUsage.ctor.kinds.2 = .cumulative ∧ documented .delta hostCPUTime.ctor.kinds.2 = .delta ∧ documented .delta networkIOUsage.ctor.kinds.2 = .delta ∧
    Made z.p 0 (Ho.id hostAsked) (rest acts) 0 (Ho.host 10 100 7) ∧ Made z.p 0 (Ho.id hostAsked) (rest acts) 1 (Ho.host 12 90 9) ∧
    (∀ o ∈ Whole.observations (rest acts), o.1 < (Whole.collections (rest acts)).length) ∧
    c92Sent z.s hostCPUTime.name = [[.double 3, .double 4, .double 2, .double 10], [.double 2]] ∧ c92Sent z.s hostMemoryUsage.name = [[.int 5, .int 100], [.int 5, .int 90]] ∧
    c92Sent z.s hostMemoryUtilization.name = [[.double 0x4014000000000000, .double 0x4059000000000000], [.double 0x4014000000000000, .double 0x4056800000000000]] ∧
    c92Sent z.s networkIOUsage.name = [[.int 6, .int 7], [.int 2]] := by
  obtain ⟨z, e1, e2, e3, e4, e5, e6⟩ := Rt.of_evaluated (a := .delta) (cs := Ho.cs hostAsked) (body := Ho.body hostAsked (Ho.host 10 100 7) (Ho.host 12 90 9)) (by decide +kernel)
  obtain ⟨z', e7, e8⟩ : ∃ z, Rt.last .delta (Ho.cs hostAsked) (Ho.body hostAsked (Ho.host 10 100 7) (Ho.host 12 90 9)) = some z ∧
      c92Sent z.s hostCPUTime.name = [[.double 3, .double 4, .double 2, .double 10], [.double 2]] ∧ c92Sent z.s hostMemoryUsage.name = [[.int 5, .int 100], [.int 5, .int 90]] ∧
      c92Sent z.s hostMemoryUtilization.name = [[.double 0x4014000000000000, .double 0x4059000000000000], [.double 0x4014000000000000, .double 0x4056800000000000]] ∧
      c92Sent z.s networkIOUsage.name = [[.int 6, .int 7], [.int 2]] := exists_of_eval (by decide +kernel)
  obtain rfl : z = z' := by rw [e1] at e7; exact Option.some.inj e7
  have hn : ((Rt.p .delta (Ho.cs hostAsked)).ordered[0]?).map (fun m => m.insts.map (·.desc.name)) = some (hostAsked.map (fun x => x.1.name)) := by decide +kernel
  refine ⟨z, e1, e3, c105_started e2 hn (by decide +kernel), e4, fun n => ⟨e5 _ _, e6 _ _⟩, by decide, by decide, by decide, ?_, ?_, ?_, e8⟩
  · exact c105_made e2 hn (by decide +kernel) (by decide +kernel)
  · exact c105_made e2 hn (by decide +kernel) (by decide +kernel)
  · rw [Rt.rest_acts]; decide +kernel

/-- "Delta", two collections of process metrics: five and nine seconds after the start, with three and four seconds of CPU time in user mode. (Bits of floats; the difference is the one of
the example.) -/
example : ∃ z, Rt.last .delta (Ho.cs processAsked) (Ho.body processAsked (Ho.process 5000000000 3) (Ho.process 9000000000 4)) = some z ∧
    let acts := Rt.acts (Ho.cs processAsked) (Ho.body processAsked (Ho.process 5000000000 3) (Ho.process 9000000000 4))
    Runs Ln.out (Ln.pc .delta) (documented .delta) acts z ∧ Started z.p 0 scA processAsked (Ho.id processAsked) acts ∧ Waits Ln.out (Ln.pc .delta) (documented .delta) z.p acts ∧
    (∀ n, InTurn Ln.out (Ln.pc .delta) (documented .delta) z.p 0 n acts ∧ Finished z.p 0 n z) ∧
    documented .delta processUptime.ctor.kinds.2 = .cumulative ∧ documented .delta processCPUTime.ctor.kinds.2 = .delta ∧
    Made z.p 0 (Ho.id processAsked) (rest acts) 0 (Ho.process 5000000000 3) ∧ Made z.p 0 (Ho.id processAsked) (rest acts) 1 (Ho.process 9000000000 4) ∧
    (∀ o ∈ Whole.observations (rest acts), o.1 < (Whole.collections (rest acts)).length) ∧
    c92Sent z.s processCPUTime.name = [[.double 0x3ff0000000000000, .double 0x4008000000000000], [.double 0x0008000000000000]] ∧
    c92Sent z.s processUptime.name = [[.double 0x4014000000000000], [.double 0x4022000000000000]] := by
  obtain ⟨z, e1, e2, e3, e4, e5, e6⟩ := Rt.of_evaluated (a := .delta) (cs := Ho.cs processAsked)
    (body := Ho.body processAsked (Ho.process 5000000000 3) (Ho.process 9000000000 4)) (by decide +kernel)
  obtain ⟨z', e7, e8⟩ : ∃ z, Rt.last .delta (Ho.cs processAsked) (Ho.body processAsked (Ho.process 5000000000 3) (Ho.process 9000000000 4)) = some z ∧
      c92Sent z.s processCPUTime.name = [[.double 0x3ff0000000000000, .double 0x4008000000000000], [.double 0x0008000000000000]] ∧
      c92Sent z.s processUptime.name = [[.double 0x4014000000000000], [.double 0x4022000000000000]] := exists_of_eval (by decide +kernel)
  obtain rfl : z = z' := by rw [e1] at e7; exact Option.some.inj e7
  have hn : ((Rt.p .delta (Ho.cs processAsked)).ordered[0]?).map (fun m => m.insts.map (·.desc.name)) = some (processAsked.map (fun x => x.1.name)) := by decide +kernel
  refine ⟨z, e1, e3, c105_started e2 hn (by decide +kernel), e4, fun n => ⟨e5 _ _, e6 _ _⟩, by decide, by decide, ?_, ?_, ?_, e8⟩
  · exact c105_made e2 hn (by decide +kernel) (by decide +kernel)
  · exact c105_made e2 hn (by decide +kernel) (by decide +kernel)
  · rw [Rt.rest_acts]; decide +kernel

end Examples

end Verif.Props
