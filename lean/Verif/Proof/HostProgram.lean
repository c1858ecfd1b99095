import Verif.Proof.RuntimeProgram
import Verif.Spec.HostProgram

/-!
The observations made by the host and process instrumentations.
-/

namespace Verif.HostMetrics
open Verif Verif.Attr Verif.Number Verif.Export Verif.Assembly Verif.Instruments Verif.Launched Verif.Props
open Verif.Views (lit)
open Verif.Live (makes rest)

/-- Instruments with different names, without hints, which are observed. -/
structure AsksFor (asked : List (Want × Str)) : Prop where
  names : ∀ x ∈ asked, ∀ y ∈ asked, x.1.name = y.1.name → x.1 = y.1
  plain : ∀ x ∈ asked, (123 : UInt8) ∉ x.2
  observed : ∀ x ∈ asked, (promise x.1.ctor).observed = true

/-- The observations are of these instruments, one for each attribute set. -/
structure Fits (asked : List (Want × Str)) (obs : List Obs) : Prop where
  known : ∀ o ∈ obs, ∃ x ∈ asked, x.1 = o.inst
  short : ∀ o ∈ obs, Short o.attrs
  once : obs.Pairwise (fun o o' => o.inst = o'.inst → ¬ o.attrs.Perm o'.attrs)
  few : obs.length < 2000
  single : ∀ o ∈ obs, o.attrs.length ≤ 1

/-- The value observed. -/
def valueOf (obs : List Obs) (w : Want) (a : List (Str × Str)) : Bits :=
  match obs.find? (fun o => decide (o.inst = w ∧ o.attrs = a)) with | some o => o.value | none => 0

section
variable {C ν : Type} {p : Provider.Provider C ν} {k : Nat} {sc : Views.Scope} {asked : List (Want × Str)} {id : Want → Nat} {acts : List (Live.Act ν)} {obs : List Obs}

theorem pairwise_mem {α : Type} {R : α → α → Prop} {l : List α} (h : l.Pairwise R) (hs : ∀ a b, R a b → R b a) {a b : α} (ha : a ∈ l) (hb : b ∈ l) (hne : a ≠ b) : R a b := by
  induction l with
  | nil => cases ha
  | cons x l ih =>
    obtain ⟨h1, h2⟩ := List.pairwise_cons.1 h
    rcases List.mem_cons.1 ha with rfl | ha' <;> rcases List.mem_cons.1 hb with rfl | hb'
    · exact absurd rfl hne
    · exact h1 _ hb'
    · exact hs _ _ (h1 _ ha')
    · exact ih h2 ha' hb'

theorem Fits.unique (h : Fits asked obs) {o o' : Obs} (ho : o ∈ obs) (ho' : o' ∈ obs) (h1 : o.inst = o'.inst) (h2 : o.attrs.Perm o'.attrs) : o = o' := by
  by_cases he : o = o'
  · exact he
  · exact absurd h2 (pairwise_mem h.once (fun a b hab hi hp => hab hi.symm hp.symm) ho ho' he h1)

theorem perm_single {a b : List (Str × Str)} (h : a.length ≤ 1) (hp : a.Perm b) : a = b := by
  cases a with
  | nil => exact (List.nil_perm.1 hp).symm
  | cons x l =>
    cases l with
    | nil => exact List.singleton_perm.1 hp
    | cons y l => simp only [List.length_cons] at h; omega

theorem Fits.value (h : Fits asked obs) {o : Obs} (ho : o ∈ obs) : valueOf obs o.inst o.attrs = o.value := by
  unfold valueOf
  cases hf : obs.find? (fun o' => decide (o'.inst = o.inst ∧ o'.attrs = o.attrs)) with
  | none => exact absurd (by simp) (List.find?_eq_none.1 hf o ho)
  | some o' =>
    have h1 := List.find?_some hf
    rw [decide_eq_true_eq] at h1
    rw [h.unique (List.mem_of_find?_eq_some hf) ho h1.1 (h1.2 ▸ List.Perm.refl _)]

theorem Fits.gives (h : Fits asked obs) {w : Want} {a : List (Str × Str)} {y : Bits} (hg : Gives obs w a y) : valueOf obs w a = y := h.value hg.1

theorem Started.named (ha : AsksFor asked) (hs : Started p k sc asked id acts) {x : Want × Str} (hx : x ∈ asked) : Named (makes acts) p k sc x.1.ctor x.1.name x.1.unit := by
  refine ⟨?_, fun d hd hn => ?_⟩
  · obtain ⟨m, i, o, h1, h2, h3, -⟩ := hs.given x hx
    obtain ⟨m', h4, h5⟩ := hs.scope
    rw [h1] at h4
    cases h4
    exact ⟨m, o, h1, h5, List.mem_of_getElem? h2, h3⟩
  · obtain ⟨y, hy, rfl⟩ := hs.requested d hd
    have he : y.1 = x.1 := ha.names y hy x hx hn
    refine ⟨ha.plain y hy, y.2, ?_⟩
    rw [he]
    rfl

/-- The observations of one instrument. -/
theorem Made.once (ha : AsksFor asked) (hs : Started p k sc asked id acts) {x : Want × Str} (hx : x ∈ asked) {t : Nat} (h : Made p k id (rest acts) t obs) (hf : Fits asked obs) :
    Once (observedOn p k x.1.ctor x.1.name (rest acts)) (Called p k x.1.name) t (fun a => ∃ y, Gives obs x.1 a y) (fun a => usedSet (textAttrs a)) (valueOf obs x.1) := by
  classical
  have inst : ∀ o ∈ obs, Called p k x.1.name (id o.inst) → o.inst = x.1 := by
    intro o ho hc
    obtain ⟨y, hy, h1⟩ := hf.known o ho
    have h2 := hs.given y hy
    rw [h1] at h2
    have h3 := called_unique h2 hc
    rw [← h1] at h3 ⊢
    exact ha.names y hy x hx h3
  refine ⟨?_, ?_, ?_, ?_, ?_⟩
  · rintro e he rfl hc
    unfold observedOn at he
    obtain ⟨u, hu, rfl⟩ := List.mem_map.1 he
    obtain ⟨hu, hq⟩ := List.mem_filter.1 hu
    rw [decide_eq_true_iff] at hq
    have h1 : u.2 ∈ ((Whole.observations (rest acts)).filter (fun e => open Classical in decide (e.1 = u.1 ∧ ∃ n, Called p k n e.2.1))).map (·.2) :=
      List.mem_map.2 ⟨u, List.mem_filter.2 ⟨hu, by rw [decide_eq_true_iff]; exact ⟨rfl, _, hq.1⟩⟩, rfl⟩
    rw [show _ = _ from h] at h1
    obtain ⟨o, ho, h3⟩ := List.mem_map.1 h1
    rw [← h3] at hq ⊢
    have h4 := inst o ho hq.1
    refine ⟨o.attrs, ⟨o.value, ?_, ?_⟩, ?_⟩
    · rw [← h4]; exact ho
    · exact hq.2
    · rw [← h4, hf.value ho]
  · rintro a ⟨y, hg⟩
    have hc := hs.given x hx
    refine ⟨id x.1, hc, ?_⟩
    have h1 : (id x.1, textAttrs a, y) ∈ obs.map (fun o => (id o.inst, textAttrs o.attrs, o.value)) := List.mem_map.2 ⟨_, hg.1, rfl⟩
    rw [← show _ = _ from h] at h1
    obtain ⟨u, h2, h3⟩ := List.mem_map.1 h1
    obtain ⟨h2, h4⟩ := List.mem_filter.1 h2
    rw [decide_eq_true_iff] at h4
    unfold observedOn
    refine List.mem_map.2 ⟨u, List.mem_filter.2 ⟨h2, ?_⟩, ?_⟩
    · rw [decide_eq_true_iff, h3]
      exact ⟨hc, hg.2⟩
    · rw [h3, h4.1, hf.gives hg]
  · have h1 : (((Whole.observations (rest acts)).filter (fun e => open Classical in decide (e.1 = t ∧ ∃ n, Called p k n e.2.1))).map (·.2)).Pairwise
        (fun u v => Called p k x.1.name u.1 → Called p k x.1.name v.1 → usedSet u.2.1 ≠ usedSet v.2.1) := by
      rw [show _ = _ from h, List.pairwise_map]
      refine hf.once.imp_of_mem (fun {o o'} ho ho' hne hc hc' he => ?_)
      exact hne (by rw [inst o ho hc, inst o' ho' hc']) (texts_inj (hf.short o ho) (hf.short o' ho') he)
    rw [List.pairwise_map, List.pairwise_filter] at h1
    unfold observedOn
    rw [List.pairwise_filter, List.pairwise_map, List.pairwise_filter]
    refine h1.imp (fun {u v} huv hu hv htu htv => ?_)
    rw [decide_eq_true_iff] at hu hv
    rw [decide_eq_true_eq] at htu htv
    exact huv (by rw [decide_eq_true_iff]; exact ⟨htu, _, hu.1⟩) (by rw [decide_eq_true_iff]; exact ⟨htv, _, hv.1⟩) hu.1 hv.1
  · rintro a a' ⟨y, hg⟩ ⟨y', hg'⟩ he
    have := hf.unique hg.1 hg'.1 rfl (texts_inj (hf.short _ hg.1) (hf.short _ hg'.1) he)
    injection this
  · rintro a ⟨y, hg⟩
    exact (hf.short _ hg.1).named'

theorem Made.few (ha : AsksFor asked) (hs : Started p k sc asked id acts) {x : Want × Str} (hx : x ∈ asked) {t : Nat} (h : Made p k id (rest acts) t obs) (hf : Fits asked obs) :
    FewSets (Called p k x.1.name) none 2000 (observedOn p k x.1.ctor x.1.name (rest acts)) t := by
  have hon := h.once ha hs hx hf
  refine ⟨obs.map (fun o => usedSet (textAttrs o.attrs)), by rw [List.length_map]; exact hf.few, fun e he h1 h2 => ?_⟩
  obtain ⟨a, hd, h3⟩ := hon.only e he h1 h2
  rw [h3, shown_all (hon.keys a hd)]
  obtain ⟨y, hg⟩ := hd
  exact List.mem_map.2 ⟨_, hg.1, rfl⟩

end

/-! ### The two instrumentations -/

theorem host_asks : AsksFor hostAsked := ⟨by decide +kernel, by decide +kernel, by decide +kernel⟩

theorem process_asks : AsksFor processAsked := ⟨by decide +kernel, by decide +kernel, by decide +kernel⟩

theorem host_wants {w : Want} (h : w ∈ hostWants) : ∃ x ∈ hostAsked, x.1 = w := by
  have : ∀ w ∈ hostWants, ∃ x ∈ hostAsked, x.1 = w := by decide +kernel
  exact this w h

theorem process_wants {w : Want} (h : w ∈ processWants) : ∃ x ∈ processAsked, x.1 = w := by
  have : ∀ w ∈ processWants, ∃ x ∈ processAsked, x.1 = w := by decide +kernel
  exact this w h

theorem short_one {key v : Str} (h : key ≠ [] ∧ key.length ≤ 8192 ∧ v.length ≤ 8192) : Short [(key, v)] := by
  refine ⟨by simp, ?_, ?_⟩ <;> intro e he <;> rw [List.mem_singleton.1 he]
  · exact h.1
  · exact h.2

theorem fits_of {asked : List (Want × Str)} {obs : List Obs} (ss : List (Want × List (Str × Str))) (h : obs.map (fun o => (o.inst, o.attrs)) = ss)
    (h1 : ∀ s ∈ ss, ∃ x ∈ asked, x.1 = s.1) (h2 : ∀ s ∈ ss, Short s.2) (h3 : ss.Pairwise (fun s s' => s.1 = s'.1 → ¬ s.2.Perm s'.2)) (h4 : ss.length < 2000) (h5 : ∀ s ∈ ss, s.2.length ≤ 1) : Fits asked obs := by
  subst h
  refine ⟨fun o ho => h1 _ (List.mem_map.2 ⟨o, ho, rfl⟩), fun o ho => h2 _ (List.mem_map.2 ⟨o, ho, rfl⟩), List.pairwise_map.1 h3, by rw [List.length_map] at h4; exact h4, fun o ho => h5 _ (List.mem_map.2 ⟨o, ho, rfl⟩)⟩

def short? (a : List (Str × Str)) : Bool :=
  decide (a.Pairwise (fun e e' => e.1 ≠ e'.1)) && a.all (fun e => decide (e.1 ≠ [] ∧ e.1.length ≤ 8192 ∧ e.2.length ≤ 8192))

theorem short?_spec {a : List (Str × Str)} (h : short? a = true) : Short a := by
  unfold short? at h
  rw [Bool.and_eq_true, decide_eq_true_eq, List.all_eq_true] at h
  exact ⟨h.1, fun e he => (of_decide_eq_true (h.2 e he)).1, fun e he => (of_decide_eq_true (h.2 e he)).2⟩

theorem fits_none {asked : List (Want × Str)} : Fits asked [] := ⟨by simp, by simp, by simp, by simp, by simp⟩

def hostSeries : List (Want × List (Str × Str)) := (hostObs (fun a _ => a) (fun a _ => a) ⟨0, 0, 0, 0, 0, 0, 0, 0, 0, 0⟩ ⟨0, 0, 0⟩ ⟨0, 0⟩).map (fun o => (o.inst, o.attrs))

def processSeries : List (Want × List (Str × Str)) := (processCallback (E := Unit) (fun a _ => a) (fun a _ => a) 0 (.error ())).map (fun o => (o.inst, o.attrs))

theorem host_obs_fits (fadd fdiv : Bits → Bits → Bits) (t : CpuTimes) (m : Memory) (n : NetIO) : Fits hostAsked (hostObs fadd fdiv t m n) := by
  refine fits_of hostSeries rfl ?_ (fun s hs => short?_spec ?_) ?_ ?_ ?_
  · decide +kernel
  · revert s
    decide +kernel
  · decide +kernel
  · decide +kernel
  · decide +kernel

theorem host_fits {E : Type} (fadd fdiv : Bits → Bits → Bits) (cpu : Except E (List CpuTimes)) (mem : Except E Memory) (net : Except E (List NetIO)) :
    Fits hostAsked (hostCallback fadd fdiv cpu mem net).1 := by
  unfold hostCallback
  split
  · exact fits_none
  · split
    · exact fits_none
    · split
      · exact fits_none
      · exact host_obs_fits _ _ _ _ _
      · exact fits_none
  · exact fits_none

theorem process_fits {E : Type} (fadd fdiv : Bits → Bits → Bits) (up : Bits) (ru : Except E Rusage) : Fits processAsked (processCallback fadd fdiv up ru) := by
  refine fits_of processSeries rfl ?_ (fun s hs => short?_spec ?_) ?_ ?_ ?_
  · decide +kernel
  · revert s
    decide +kernel
  · decide +kernel
  · decide +kernel
  · decide +kernel

end Verif.HostMetrics
