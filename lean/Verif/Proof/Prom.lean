import Verif.Spec.Prom
import Verif.Proof.Export
import Verif.Proof.DeliveryEnds
import Verif.Proof.Live

/-!
Helper file: the Prometheus exporter.
-/

namespace Verif.Prom
open Verif.Attr Verif.Number Verif.Export Verif.Assembly

/-! ### Conversion -/

/-- The point for Prometheus, from the one for OTLP. -/
def pointTo (m : Mapping) (d : PExp) : Option PHist :=
  if d.pos.2.isEmpty then
    some { start := d.start, time := d.time, attrs := d.attrs, sum := d.sum, count := d.count, min := d.min, max := d.max, bounds := [fzero], counts := [d.zeroCount, 0] }
  else (m d.scale).map fun lower =>
    { start := d.start, time := d.time, attrs := d.attrs, sum := d.sum, count := d.count, min := d.min, max := d.max
      bounds := fzero :: (List.range (d.pos.2.length + 1)).map (fun (i : Nat) => lower (d.pos.1 + i)), counts := d.zeroCount :: 0 :: d.pos.2 ++ [0] }

def dataTo (m : Mapping) : PData → Option PData
  | .exp t ds => (mapM (pointTo m) ds).map (.hist t)
  | d => some d

def metricTo (m : Mapping) (a : PMetric) : Option PMetric :=
  (dataTo m a.data).map fun d => { name := a.name, unit := a.unit, description := a.description, data := d }

def scopeTo (m : Mapping) (a : PScope) : Option PScope := (mapM (metricTo m) a.metrics).map fun ms => { library := a.library, metrics := ms }

def payloadTo (m : Mapping) (a : Payload) : Option Payload := (mapM (scopeTo m) a.scopes).map fun ss => { resource := a.resource, scopes := ss }

theorem mapM_bind {α β γ : Type} (f : α → Option β) (g : β → Option γ) (l : List α) :
    mapM (fun a => (f a).bind g) l = (mapM f l).bind (mapM g) := by
  induction l with
  | nil => rfl
  | cons a l ih =>
    simp only [mapM]
    cases hf : f a with
    | none => rfl
    | some b =>
      simp only [Option.bind_some]
      rw [ih]
      cases mapM f l with
      | none => cases g b <;> rfl
      | some bs => simp [mapM]

theorem mapM_same {α β : Type} {f g : α → Option β} {l : List α} (h : ∀ a ∈ l, f a = g a) : mapM f l = mapM g l := by
  induction l with
  | nil => rfl
  | cons a l ih =>
    simp only [mapM]
    rw [h a List.mem_cons_self, ih (fun b hb => h b (List.mem_cons_of_mem _ hb))]

theorem explicitBuckets_none {m : Mapping} {h : ExpHist} (hp : h.pos ≠ []) (hm : m h.scale = none) : explicitBuckets m h = none := by
  unfold explicitBuckets
  cases hl : h.pos with
  | nil => exact absurd hl hp
  | cons c l =>
    simp only [List.isEmpty_cons, Bool.false_eq_true, if_false]
    rw [hm]

theorem explicitPoint_eq (m : Mapping) (p : Point) : explicitPoint m p = (expPoint p).bind (pointTo m) := by
  unfold explicitPoint expPoint
  cases copyAttributes [] p.attrs with
  | none => rfl
  | some attrs =>
    simp only [Option.bind_some]
    cases p.agg with
    | hist k h =>
      simp only [Option.bind_some]
      by_cases hp : h.pos = []
      · simp [pointTo, expBuckets, hp, explicitBuckets]
      · have he : h.pos.isEmpty = false := by simpa using hp
        cases hm : m h.scale with
        | none => rw [explicitBuckets_none hp hm]; simp [pointTo, expBuckets, he, hm]
        | some lower => rw [explicitBuckets_eq hp hm]; simp [pointTo, expBuckets, he, hm]
    | _ => rfl

theorem copyPoints_eq (m : Mapping) (p0 : Point) (ps : List Point) : copyPoints m false p0 ps = (copyPoints m true p0 ps).bind (dataTo m) := by
  unfold copyPoints
  dsimp only
  cases p0.agg with
  | hist k h =>
    simp only [Bool.false_eq_true, if_false, if_true]
    rw [mapM_same (g := fun p => (expPoint p).bind (pointTo m)) (fun p _ => explicitPoint_eq m p), mapM_bind]
    cases mapM expPoint ps <;> rfl
  | monotonic _ _ => simp only []; cases mapM sumPoint ps <;> rfl
  | nonMonotonic _ _ => simp only []; cases mapM sumPoint ps <;> rfl
  | gauge _ _ => simp only []; cases mapM gaugePoint ps <;> rfl
  | mmsc _ _ => simp only []; cases mapM mmscPoint ps <;> rfl

theorem copyInstruments_eq (m : Mapping) (is : List Instrument) : copyInstruments m false is = (copyInstruments m true is).bind (mapM (metricTo m)) := by
  induction is with
  | nil => rfl
  | cons i is ih =>
    unfold copyInstruments
    cases hp : i.points with
    | nil => exact ih
    | cons p0 ps =>
      dsimp only
      rw [copyPoints_eq, ih]
      cases copyPoints m true p0 (p0 :: ps) with
      | none => rfl
      | some d =>
        simp only [Option.bind_some]
        cases copyInstruments m true is with
        | none => cases dataTo m d <;> rfl
        | some ms =>
          simp only [Option.bind_some, mapM, metricTo]
          cases dataTo m d <;> rfl

theorem d2pd_eq (m : Mapping) (rm : ResourceMap) (M : Metrics) : (d2pd m rm M false).2 = (d2pd m rm M true).2.bind (payloadTo m) := by
  unfold d2pd
  dsimp only
  cases (rm.get M.resource).2 with
  | none => rfl
  | some r =>
    simp only [Option.bind_some]
    have hs : mapM (copyScope m false) M.scopes = (mapM (copyScope m true) M.scopes).bind (mapM (scopeTo m)) := by
      rw [← mapM_bind]
      refine mapM_same (fun s _ => ?_)
      unfold copyScope
      rw [copyInstruments_eq]
      cases copyInstruments m true s.instruments <;> rfl
    rw [hs]
    cases mapM (copyScope m true) M.scopes with
    | none => rfl
    | some ss => simp only [Option.bind_some, Option.map_some, payloadTo]

theorem d2pd_rm (m : Mapping) (rm : ResourceMap) (M : Metrics) : (d2pd m rm M false).1 = (d2pd m rm M true).1 := rfl

theorem mapM_some {α β : Type} {f : α → Option β} {l : List α} {l' : List β} (h : mapM f l = some l') : Pointwise (fun a b => f a = some b) l l' := by
  induction l generalizing l' with
  | nil => cases h; exact pointwise_nil _
  | cons a l ih =>
    simp only [mapM, Option.bind_eq_some_iff] at h
    obtain ⟨b, h1, bs, h2, h3⟩ := h
    injection h3 with h3
    subst h3
    exact pointwise_cons h1 (ih h2)

theorem mapM_isSome {α β : Type} {f : α → Option β} {l : List α} : (mapM f l).isSome = true ↔ ∀ a ∈ l, (f a).isSome = true := by
  induction l with
  | nil => simp [mapM]
  | cons a l ih =>
    simp only [mapM, List.forall_mem_cons]
    cases hf : f a with
    | none => simp
    | some b =>
      simp only [Option.bind_some, Option.isSome_some, true_and]
      rw [← ih]
      cases mapM f l <;> simp

theorem pointTo_in {m : Mapping} {d : PExp} {d' : PHist} (h : pointTo m d = some d') : PointIn m d d' := by
  unfold pointTo at h
  by_cases hp : d.pos.2 = []
  · rw [if_pos (by simp [hp])] at h
    cases h
    exact ⟨rfl, rfl, rfl, rfl, rfl, rfl, rfl, fun _ => ⟨rfl, rfl⟩, fun h => absurd hp h⟩
  · rw [if_neg (by simp [hp])] at h
    obtain ⟨lower, h1, rfl⟩ := Option.map_eq_some_iff.1 h
    exact ⟨rfl, rfl, rfl, rfl, rfl, rfl, rfl, fun h => absurd h hp, fun _ => ⟨lower, h1, rfl, rfl⟩⟩

theorem dataTo_in {m : Mapping} {a b : PData} (h : dataTo m a = some b) : DataIn m a b := by
  cases a with
  | exp t ds =>
    obtain ⟨ds', h1, rfl⟩ := Option.map_eq_some_iff.1 h
    exact ⟨ds', rfl, Pipeline.pointwise_imp (mapM_some h1) (fun _ _ _ => pointTo_in)⟩
  | _ => cases h; rfl

theorem payloadTo_in {m : Mapping} {a b : Payload} (h : payloadTo m a = some b) : PayloadIn m a b := by
  obtain ⟨ss, h1, rfl⟩ := Option.map_eq_some_iff.1 h
  refine ⟨rfl, Pipeline.pointwise_imp (mapM_some h1) (fun s s' _ h2 => ?_)⟩
  obtain ⟨ms, h3, rfl⟩ := Option.map_eq_some_iff.1 h2
  refine ⟨rfl, Pipeline.pointwise_imp (mapM_some h3) (fun a b _ h4 => ?_)⟩
  obtain ⟨d, h5, rfl⟩ := Option.map_eq_some_iff.1 h4
  exact ⟨rfl, rfl, rfl, dataTo_in h5⟩

theorem pointTo_some {m : Mapping} {d : PExp} : (pointTo m d).isSome = true ↔ Bounded m d := by
  unfold pointTo Bounded
  by_cases hp : d.pos.2 = []
  · rw [if_pos (by simp [hp])]; simp [hp]
  · rw [if_neg (by simp [hp])]
    cases hm : m d.scale <;> simp [hp]

theorem payloadTo_some {m : Mapping} {a : Payload} : (payloadTo m a).isSome = true ↔ ∀ d ∈ allExp a, Bounded m d := by
  have h1 : ∀ a : PMetric, (metricTo m a).isSome = true ↔ ∀ d ∈ Pipeline.expPoints a.data, Bounded m d := by
    intro a
    unfold metricTo
    cases a.data with
    | exp t ds =>
      simp only [dataTo, Pipeline.expPoints, Option.isSome_map]
      rw [mapM_isSome]
      exact ⟨fun h d hd => pointTo_some.1 (h d hd), fun h d hd => pointTo_some.2 (h d hd)⟩
    | _ => simp [dataTo, Pipeline.expPoints]
  unfold payloadTo allExp
  rw [Option.isSome_map, mapM_isSome]
  simp only [scopeTo, Option.isSome_map, mapM_isSome, h1, List.mem_flatMap]
  constructor
  · rintro h d ⟨s, hs, x, hx, hd⟩
    exact h s hs x hx d hd
  · intro h s hs x hx d hd
    exact h d ⟨s, hs, x, hx, hd⟩

/-! ### The program -/

variable {C G ν : Type} [DecidableEq C] {farm : Str → UInt64} {w : World C G} {fsub : Bits → Bits → Bits} {x : Views.Ext C} {pipe : Nat}

theorem live_keeps {z z' : Live.Sys C G ν} {a : Live.Act ν} (h : Live.step farm w fsub x pipe z a = some z') (ha : ∀ o q, a ≠ .run (.collect o q)) :
    z'.s.sent = z.s.sent ∧ z'.s.rm = z.s.rm := by
  cases a with
  | make c => cases h; exact ⟨rfl, rfl⟩
  | run a =>
    simp only [Live.step] at h
    split at h
    · obtain ⟨s, h1, rfl⟩ := Option.map_eq_some_iff.1 h
      cases a with
      | call i as n => cases h1; exact ⟨rfl, rfl⟩
      | sched a =>
        simp only [Whole.step] at h1
        split at h1
        · cases h1
        · obtain ⟨t, -, rfl⟩ := Option.map_eq_some_iff.1 h1
          exact ⟨rfl, rfl⟩
      | cb a =>
        simp only [Whole.step] at h1
        split at h1
        · cases h1
        · obtain ⟨t, -, rfl⟩ := Option.map_eq_some_iff.1 h1
          exact ⟨rfl, rfl⟩
      | collect o q => exact absurd rfl (ha o q)
    · cases h

theorem produce_keeps {s s' : Delivery.Sys C G ν} {now : Int} (h : Delivery.produce farm w fsub x pipe now s = some s') :
    s'.z.s.sent = s.z.s.sent ∧ s'.z.s.rm = s.z.s.rm := by
  have one : ∀ {b : Live.Act ν} {f : Live.Sys C G ν → Delivery.Sys C G ν}, (∀ z, (f z).z = z) → (∀ o q, b ≠ .run (.collect o q)) →
      (Live.step farm w fsub x pipe s.z b).map f = some s' → s'.z.s.sent = s.z.s.sent ∧ s'.z.s.rm = s.z.s.rm := by
    intro b f hf hb hs
    obtain ⟨z, h1, rfl⟩ := Option.map_eq_some_iff.1 hs
    rw [hf]
    exact live_keeps h1 hb
  unfold Delivery.produce at h
  split at h
  · split at h <;> cases h
    exact ⟨rfl, rfl⟩
  · cases h
  · split at h <;> cases h
    exact ⟨rfl, rfl⟩
  · split at h <;> cases h
    exact ⟨rfl, rfl⟩
  · split at h <;> cases h
    exact ⟨rfl, rfl⟩
  · exact one (fun _ => rfl) (fun _ _ e => by cases e) h
  · cases h
  · split at h <;> cases h
    exact ⟨rfl, rfl⟩
  · split at h <;> cases h
    exact ⟨rfl, rfl⟩
  · split at h
    · exact one (fun _ => rfl) (fun _ _ e => by cases e) h
    · cases h
      exact ⟨rfl, rfl⟩
  · cases h
    exact ⟨rfl, rfl⟩

/-- What an OTLP exporter is handed at a step. -/
theorem step_sent {s s' : Delivery.Sys C G ν} {a : Delivery.Act ν} (h : Delivery.step farm w fsub x pipe s a = some s') :
    (handed farm w fsub pipe s a = none ∧ s'.z.s.sent = s.z.s.sent ∧ s'.z.s.rm = s.z.s.rm) ∨
      ∃ d, handed farm w fsub pipe s a = some d ∧ s'.z.s.sent = s.z.s.sent ++ (d2pd w.mapping s.z.s.rm d true).2.toList ∧ s'.z.s.rm = (d2pd w.mapping s.z.s.rm d true).1 := by
  have one : ∀ {b : Live.Act ν} {f : Live.Sys C G ν → Delivery.Sys C G ν}, (∀ z, (f z).z = z) → (∀ o q, b ≠ .run (.collect o q)) →
      (Live.step farm w fsub x pipe s.z b).map f = some s' → s'.z.s.sent = s.z.s.sent ∧ s'.z.s.rm = s.z.s.rm := by
    intro b f hf hb hs
    obtain ⟨z, h1, rfl⟩ := Option.map_eq_some_iff.1 hs
    rw [hf]
    exact live_keeps h1 hb
  cases a with
  | make c =>
    simp only [Delivery.step] at h
    exact .inl ⟨rfl, one (fun _ => rfl) (fun _ _ e => by cases e) h⟩
  | call i as n =>
    simp only [Delivery.step] at h
    exact .inl ⟨rfl, one (fun _ => rfl) (fun _ _ e => by cases e) h⟩
  | op i =>
    simp only [Delivery.step] at h
    exact .inl ⟨rfl, one (fun _ => rfl) (fun _ _ e => by cases e) h⟩
  | task t c =>
    simp only [Delivery.step] at h
    exact .inl ⟨rfl, one (fun _ => rfl) (fun _ _ e => by cases e) h⟩
  | cb a =>
    simp only [Delivery.step] at h
    split at h
    · exact .inl ⟨rfl, one (fun _ => rfl) (fun _ _ e => by cases e) h⟩
    · cases h
  | other a =>
    simp only [Delivery.step] at h
    split at h
    · exact .inl ⟨rfl, one (fun _ => rfl) (fun _ _ e => by cases e) h⟩
    · cases h
  | produce now => exact .inl ⟨rfl, produce_keeps h⟩
  | reader a order =>
    simp only [Delivery.step] at h
    by_cases hr : Delivery.returns s.r a = true
    · rw [if_pos hr] at h
      right
      split at h
      · rename_i q hpos
        obtain ⟨z, h1, rfl⟩ := Option.map_eq_some_iff.1 h
        simp only [Live.step, Live.possible, if_true] at h1
        obtain ⟨t, h2, rfl⟩ := Option.map_eq_some_iff.1 h1
        obtain ⟨u, h3, rfl⟩ := Option.map_eq_some_iff.1 h2
        refine ⟨_, ?_, rfl, rfl⟩
        simp only [handed]
        rw [if_pos hr, hpos]
        dsimp only
        rw [h3]
        rfl
      · cases h
    · rw [if_neg hr] at h
      cases h
      refine .inl ⟨?_, rfl, rfl⟩
      simp only [handed]
      rw [if_neg hr]

omit [DecidableEq C] in
theorem push_prog (m : Mapping) (y : Sys C G ν) (d : Metrics) : (push m y d).prog = y.prog := by
  unfold push
  split <;> rfl

theorem step_prog {y y' : Sys C G ν} {a : Delivery.Act ν} (h : step farm w fsub x pipe y a = some y') :
    y.panicked = false ∧ Delivery.step farm w fsub x pipe y.prog a = some y'.prog := by
  unfold step at h
  split at h
  · cases h
  · rename_i hp
    obtain ⟨s, h1, rfl⟩ := Option.map_eq_some_iff.1 h
    refine ⟨by simpa using hp, ?_⟩
    split
    · exact h1
    · rw [push_prog]; exact h1

theorem run_prog {y y' : Sys C G ν} {acts : List (Delivery.Act ν)} (h : run farm w fsub x pipe y acts = some y') :
    Delivery.run farm w fsub x pipe y.prog acts = some y'.prog := by
  induction acts generalizing y with
  | nil => cases h; rfl
  | cons a as ih =>
    simp only [run, Option.bind_eq_some_iff] at h
    obtain ⟨y1, h1, h2⟩ := h
    simp only [Delivery.run, (step_prog h1).2, Option.bind_some]
    exact ih h2

/-- What the two exporters have been handed. -/
structure Agree (w : World C G) (y : Sys C G ν) : Prop where
  rm : y.rm = y.prog.z.s.rm
  same : y.panicked = false → Pointwise (PayloadIn w.mapping) y.prog.z.s.sent y.sent
  first : ∃ l more, y.prog.z.s.sent = l ++ more ∧ more.length ≤ 1 ∧ Pointwise (PayloadIn w.mapping) l y.sent

theorem step_agree {y y' : Sys C G ν} {a : Delivery.Act ν} (hy : Agree w y) (h : step farm w fsub x pipe y a = some y') : Agree w y' := by
  obtain ⟨hp, hs⟩ := step_prog h
  unfold step at h
  rw [if_neg (by simp [hp])] at h
  rw [hs] at h
  simp only [Option.map_some, Option.some.injEq] at h
  rcases step_sent hs with ⟨h1, h2, h3⟩ | ⟨d, h1, h2, h3⟩
  · rw [h1] at h
    dsimp only at h
    rw [← h]
    exact ⟨by dsimp only; rw [h3]; exact hy.rm, fun _ => by dsimp only; rw [h2]; exact hy.same hp, by dsimp only; rw [h2]; exact hy.first⟩
  · rw [h1] at h
    simp only [push] at h
    have hrm : y.rm = y.prog.z.s.rm := hy.rm
    split at h
    · rw [← h]
      refine ⟨by dsimp only; rw [h3, hrm]; rfl, fun e => (by cases e), ?_⟩
      dsimp only
      rw [h2]
      refine ⟨_, _, rfl, ?_, hy.same hp⟩
      cases (d2pd w.mapping y.prog.z.s.rm d true).2 <;> simp
    · rename_i p hd
      rw [← h]
      rw [d2pd_eq, hrm] at hd
      obtain ⟨p', h4, h5⟩ := Option.bind_eq_some_iff.1 hd
      have hin := payloadTo_in h5
      rw [h4] at h2
      refine ⟨by dsimp only; rw [h3, hrm]; rfl, fun _ => ?_, ?_⟩
      · dsimp only
        rw [h2]
        exact Pipeline.pointwise_append (hy.same hp) (pointwise_cons hin (pointwise_nil _))
      · dsimp only
        rw [h2]
        exact ⟨_, [], (List.append_nil _).symm, by simp, Pipeline.pointwise_append (hy.same hp) (pointwise_cons hin (pointwise_nil _))⟩

theorem run_agree {y y' : Sys C G ν} {acts : List (Delivery.Act ν)} (hy : Agree w y) (h : run farm w fsub x pipe y acts = some y') : Agree w y' := by
  induction acts generalizing y with
  | nil => cases h; exact hy
  | cons a as ih =>
    simp only [run, Option.bind_eq_some_iff] at h
    obtain ⟨y1, h1, h2⟩ := h
    exact ih (step_agree hy h1) h2

omit [DecidableEq C] in
theorem initial_agree (fill : Provider.Provider C ν) (views : List (Views.Views C)) (start : Int) : Agree w (initial farm w fsub fill views pipe start) :=
  ⟨rfl, fun _ => pointwise_nil _, [], [], rfl, by simp, pointwise_nil _⟩

/-! ### Panics -/

/-- How many collections the reader has made. -/
def made (s : Delivery.Sys C G ν) : Nat := (Delivery.collectsOf s.r.log).length

theorem step_made {s s' : Delivery.Sys C G ν} {a : Delivery.Act ν} (h : Delivery.step farm w fsub x pipe s a = some s') :
    made s' = made s + (handed farm w fsub pipe s a).toList.length := by
  have hr := Delivery.step_reader h
  cases a with
  | reader a order =>
    have h1 := Delivery.collects_step s.r a
    have h2 : s'.r = Periodic.step s.r a := hr
    unfold made
    rw [h2, h1]
    rcases step_sent h with ⟨h3, -⟩ | ⟨d, h3, -⟩
    · rw [h3]
      simp only [handed] at h3
      simp only [Delivery.step] at h
      by_cases hret : Delivery.returns s.r a = true
      · rw [if_pos hret] at h h3
        split at h
        · rename_i q hpos
          rw [hpos] at h3
          obtain ⟨z, h4, -⟩ := Option.map_eq_some_iff.1 h
          simp only [Live.step, Live.possible, if_true] at h4
          obtain ⟨t, h5, -⟩ := Option.map_eq_some_iff.1 h4
          obtain ⟨u, h6, -⟩ := Option.map_eq_some_iff.1 h5
          dsimp only at h3
          rw [h6] at h3
          cases h3
        · cases h
      · simp [hret]
    · rw [h3]
      simp only [handed] at h3
      split at h3
      · rename_i hret; simp [hret]
      · cases h3
  | _ => unfold made; rw [hr]; rfl

/-- An OTLP exporter is handed at most one payload for each collection. -/
theorem step_slack {s s' : Delivery.Sys C G ν} {a : Delivery.Act ν} (h : Delivery.step farm w fsub x pipe s a = some s') :
    s'.z.s.sent.length + made s ≤ s.z.s.sent.length + made s' ∧
      ∀ d, handed farm w fsub pipe s a = some d → (d2pd w.mapping s.z.s.rm d true).2 = none → s'.z.s.sent.length + made s < s.z.s.sent.length + made s' := by
  have h1 := step_made h
  rcases step_sent h with ⟨h2, h3, -⟩ | ⟨d, h2, h3, -⟩
  · rw [h2] at h1
    rw [h1, h3]
    refine ⟨Nat.le_refl _, fun d hd => ?_⟩
    rw [h2] at hd
    cases hd
  · rw [h2] at h1
    rw [h1, h3, List.length_append]
    have h4 : ∀ o : Option Payload, o.toList.length ≤ 1 := by intro o; cases o <;> simp
    refine ⟨by have := h4 (d2pd w.mapping s.z.s.rm d true).2; simp only [Option.toList_some, List.length_singleton]; omega, fun d' hd hn => ?_⟩
    rw [h2] at hd
    cases hd
    rw [hn]
    simp only [Option.toList_some, Option.toList_none, List.length_singleton, List.length_nil]
    omega

theorem run_slack {s s' : Delivery.Sys C G ν} {acts : List (Delivery.Act ν)} (h : Delivery.run farm w fsub x pipe s acts = some s') :
    s'.z.s.sent.length + made s ≤ s.z.s.sent.length + made s' := by
  induction acts generalizing s with
  | nil => cases h; exact Nat.le_refl _
  | cons a as ih =>
    simp only [Delivery.run, Option.bind_eq_some_iff] at h
    obtain ⟨t, h1, h2⟩ := h
    have := ih h2
    have := (step_slack h1).1
    omega

theorem run_grows {s s' : Delivery.Sys C G ν} {acts : List (Delivery.Act ν)} (h : Delivery.run farm w fsub x pipe s acts = some s') :
    ∃ l, s'.z.s.sent = s.z.s.sent ++ l := by
  induction acts generalizing s with
  | nil => cases h; exact ⟨[], (List.append_nil _).symm⟩
  | cons a as ih =>
    simp only [Delivery.run, Option.bind_eq_some_iff] at h
    obtain ⟨t, h1, h2⟩ := h
    obtain ⟨l, hl⟩ := ih h2
    rcases step_sent h1 with ⟨-, h3, -⟩ | ⟨d, -, h3, -⟩
    · exact ⟨l, by rw [hl, h3]⟩
    · exact ⟨(d2pd w.mapping s.z.s.rm d true).2.toList ++ l, by rw [hl, h3, List.append_assoc]⟩

/-- The program goes on as long as boundaries are available. -/
theorem run_goes {s' : Delivery.Sys C G ν} {acts : List (Delivery.Act ν)} {y : Sys C G ν} (hy : Agree w y) (hp : y.panicked = false)
    (h : Delivery.run farm w fsub x pipe y.prog acts = some s') (hs : y.prog.z.s.sent.length + made s' ≤ s'.z.s.sent.length + made y.prog)
    (hb : ∀ p ∈ s'.z.s.sent, ∀ d ∈ allExp p, Bounded w.mapping d) :
    ∃ y', run farm w fsub x pipe y acts = some y' ∧ y'.prog = s' ∧ y'.panicked = false := by
  induction acts generalizing y with
  | nil => cases h; exact ⟨y, rfl, rfl, hp⟩
  | cons a as ih =>
    simp only [Delivery.run, Option.bind_eq_some_iff] at h
    obtain ⟨t, h1, h2⟩ := h
    have hsl := run_slack h2
    have hst := step_slack h1
    have key : ∃ y1, step farm w fsub x pipe y a = some y1 ∧ y1.prog = t ∧ y1.panicked = false := by
      unfold step
      rw [if_neg (by simp [hp]), h1]
      simp only [Option.map_some, Option.some.injEq, exists_eq_left']
      rcases step_sent h1 with ⟨h3, -, -⟩ | ⟨d, h3, h4, -⟩
      · rw [h3]
        exact ⟨rfl, hp⟩
      · rw [h3]
        dsimp only
        refine ⟨push_prog _ _ _, ?_⟩
        unfold push
        dsimp only
        cases hd : (d2pd w.mapping y.prog.z.s.rm d true).2 with
        | none => have := hst.2 d h3 hd; omega
        | some p =>
          rw [d2pd_eq, hy.rm, hd, Option.bind_some]
          have hmem : p ∈ s'.z.s.sent := by
            obtain ⟨l, hl⟩ := run_grows h2
            rw [hl, h4, hd]
            simp
          have := payloadTo_some.2 (hb p hmem)
          cases hq : payloadTo w.mapping p with
          | none => rw [hq] at this; cases this
          | some q => exact hp
    obtain ⟨y1, h3, rfl, h5⟩ := key
    obtain ⟨y', h6, h7⟩ := ih (step_agree hy h3) h5 h2 (by omega)
    exact ⟨y', by simp only [run, h3, Option.bind_some]; exact h6, h7⟩

/-- A panic has its reason. -/
theorem step_panic {y y' : Sys C G ν} {a : Delivery.Act ν} (hy : Agree w y) (h : step farm w fsub x pipe y a = some y') (hp : y'.panicked = true) :
    ∃ d, handed farm w fsub pipe y.prog a = some d ∧
      ∀ p, (d2pd w.mapping y.prog.z.s.rm d true).2 = some p → p ∈ y'.prog.z.s.sent ∧ ∃ e ∈ allExp p, ¬ Bounded w.mapping e := by
  obtain ⟨hq, hs⟩ := step_prog h
  unfold step at h
  rw [if_neg (by simp [hq]), hs] at h
  simp only [Option.map_some, Option.some.injEq] at h
  rcases step_sent hs with ⟨h1, -, -⟩ | ⟨d, h1, h2, -⟩
  · rw [h1] at h
    dsimp only at h
    rw [← h] at hp
    rw [hq] at hp
    cases hp
  · refine ⟨d, h1, fun p hd => ⟨by rw [h2, hd]; simp, ?_⟩⟩
    rw [h1] at h
    simp only [push] at h
    rw [d2pd_eq, hy.rm, hd, Option.bind_some] at h
    cases hpt : payloadTo w.mapping p with
    | some q =>
      rw [hpt] at h
      dsimp only at h
      rw [← h] at hp
      rw [hq] at hp
      cases hp
    | none =>
      refine Classical.byContradiction fun hne => ?_
      have : (payloadTo w.mapping p).isSome = true := payloadTo_some.2 (fun e he => Classical.byContradiction fun hb => hne ⟨e, he, hb⟩)
      rw [hpt] at this
      cases this

theorem run_panic {y y' : Sys C G ν} {acts : List (Delivery.Act ν)} (hy : Agree w y) (h : run farm w fsub x pipe y acts = some y') (hp : y.panicked = false)
    (hp' : y'.panicked = true) (hs : y.prog.z.s.sent.length + made y'.prog ≤ y'.prog.z.s.sent.length + made y.prog) :
    ∃ p ∈ y'.prog.z.s.sent, ∃ e ∈ allExp p, ¬ Bounded w.mapping e := by
  induction acts generalizing y with
  | nil => cases h; rw [hp] at hp'; cases hp'
  | cons a as ih =>
    simp only [run, Option.bind_eq_some_iff] at h
    obtain ⟨y1, h1, h2⟩ := h
    have hr := run_prog h2
    have hsl := run_slack hr
    have hst := step_slack (step_prog h1).2
    cases hp1 : y1.panicked with
    | false => exact ih (step_agree hy h1) h2 hp1 (by omega)
    | true =>
      obtain ⟨d, h3, h4⟩ := step_panic hy h1 hp1
      cases hd : (d2pd w.mapping y.prog.z.s.rm d true).2 with
      | none => have := hst.2 d h3 hd; omega
      | some p =>
        obtain ⟨h5, h6⟩ := h4 p hd
        obtain ⟨l, hl⟩ := run_grows hr
        exact ⟨p, by rw [hl]; exact List.mem_append_left _ h5, h6⟩

theorem payloadIn_bounded {m : Mapping} {a b : Payload} (h : PayloadIn m a b) : ∀ d ∈ allExp a, Bounded m d := by
  intro d hd
  simp only [allExp, List.mem_flatMap] at hd
  obtain ⟨s, hs, x, hx, hd⟩ := hd
  obtain ⟨s', -, h1⟩ := Pipeline.pointwise_mem_left h.2 hs
  obtain ⟨x', -, h2⟩ := Pipeline.pointwise_mem_left h1.2 hx
  have h3 := h2.2.2.2
  cases hdat : x.data with
  | exp t ds =>
    rw [hdat] at h3 hd
    obtain ⟨ds', -, h4⟩ := h3
    obtain ⟨d', -, h5⟩ := Pipeline.pointwise_mem_left h4 hd
    by_cases hp : d.pos.2 = []
    · exact .inl hp
    · obtain ⟨lower, h6, -⟩ := h5.2.2.2.2.2.2.2.2 hp
      exact .inr (by rw [h6]; simp)
  | _ => rw [hdat] at hd; cases hd

/-! ### Points -/

theorem pointwise_eq {α : Type} {l l' : List α} (h : Pointwise (fun a b => b = a) l l') : l' = l :=
  Pipeline.pointwise_ind (P := fun l l' => l' = l) rfl (fun a b l l' hab _ ih => by rw [hab, ih]) h

theorem pointwise_refl {α : Type} (l : List α) : Pointwise (fun a b => b = a) l l :=
  ⟨rfl, fun i a b ha hb => by rw [ha] at hb; cases hb; rfl⟩

/-- The metrics with this name and scope in a payload. -/
def Has (lib : Library) (n : Str) (p : Payload) (x : PMetric) : Prop := ∃ s ∈ p.scopes, s.library = lib ∧ x ∈ s.metrics ∧ x.name = n

theorem points_in {m : Mapping} {D D' : Type} {Q : D → D' → Prop} {g : PData → List D} {g' : PData → List D'} {lib : Library} {n : Str} {p p' : Payload}
    (h : PayloadIn m p p') (hg : ∀ x b, Has lib n p x → DataIn m x.data b → Pointwise Q (g x.data) (g' b)) :
    Pointwise Q (Pipeline.pointsIn g lib n p) (Pipeline.pointsIn g' lib n p') := by
  unfold Pipeline.pointsIn
  refine Pipeline.pointwise_flatMap (R := ScopeIn m) (Pipeline.pointwise_filter _ _ h.2 (fun a b hab => by rw [hab.1])) _ _ ?_
  intro a b ha hab
  obtain ⟨ha1, ha2⟩ := List.mem_filter.1 ha
  refine Pipeline.pointwise_flatMap (R := MetricIn m) (Pipeline.pointwise_filter _ _ hab.2 (fun a b hab => by rw [hab.1])) _ _ ?_
  intro x y hx hxy
  obtain ⟨hx1, hx2⟩ := List.mem_filter.1 hx
  exact hg x y.data ⟨a, ha1, by simpa using ha2, hx1, by simpa using hx2⟩ hxy.2.2.2

theorem sent_in {m : Mapping} {D D' : Type} {Q : D → D' → Prop} {g : PData → List D} {g' : PData → List D'} {lib : Library} {n : Str} {ps ps' : List Payload}
    (h : Pointwise (PayloadIn m) ps ps') (hg : ∀ p ∈ ps, ∀ x b, Has lib n p x → DataIn m x.data b → Pointwise Q (g x.data) (g' b)) :
    Pointwise Q (Pipeline.sentPoints g lib n ps) (Pipeline.sentPoints g' lib n ps') :=
  Pipeline.pointwise_flatMap h _ _ (fun p p' hp hpp => points_in hpp (hg p hp))

theorem numbers_in {m : Mapping} {a b : PData} (h : DataIn m a b) : Pointwise (fun d d' => d' = d) (Pipeline.numbers a) (Pipeline.numbers b) := by
  cases a with
  | exp t ds => obtain ⟨ds', rfl, -⟩ := h; exact pointwise_nil _
  | _ => cases h; exact pointwise_refl _

theorem pointwise_last {α β : Type} {R : α → β → Prop} {l : List α} {l' : List β} (h : Pointwise R l l') {a : α} (ha : l.getLast? = some a) :
    ∃ b, l'.getLast? = some b ∧ R a b := by
  obtain ⟨h1, h2⟩ := h
  rw [List.getLast?_eq_getElem?] at ha ⊢
  rw [← h1]
  cases hb : l'[l.length - 1]? with
  | none =>
    have := List.getElem?_eq_none_iff.1 hb
    have := (List.getElem?_eq_some_iff.1 ha).1
    omega
  | some b => exact ⟨b, rfl, h2 _ a b ha hb⟩

end Verif.Prom
