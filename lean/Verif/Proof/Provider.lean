import Verif.Model.Provider
import Verif.Proof.Views

/-!
Invariants of the meter provider.
-/

namespace Verif.Provider
open Verif.Views Verif.Attr Verif.Front
variable {H ν : Type} [DecidableEq H]

theorem get_cons {K : Type} [DecidableEq K] (l : List (K × Nat)) (k k' : K) (i : Nat) :
    get ((k, i) :: l) k' = if k = k' then some i else get l k' := by
  unfold get
  rw [List.find?_cons]
  by_cases h : k = k'
  · simp [h]
  · simp [h]

/-- The map has exactly the entries of a list. -/
def Indexes {K : Type} [DecidableEq K] (m : List (K × Nat)) (l : List K) : Prop := ∀ k i, get m k = some i ↔ l[i]? = some k

theorem Indexes.nil {K : Type} [DecidableEq K] : Indexes ([] : List (K × Nat)) [] := by intro k i; simp [get]

theorem Indexes.snoc {K : Type} [DecidableEq K] {m : List (K × Nat)} {l : List K} (h : Indexes m l) (k : K) (hk : get m k = none) :
    Indexes ((k, l.length) :: m) (l ++ [k]) := by
  intro k' i
  rw [get_cons, List.getElem?_append]
  have hnew : ∀ j, l[j]? ≠ some k := fun j hj => by rw [(h k j).2 hj] at hk; cases hk
  by_cases e : k = k'
  · rw [if_pos e]
    subst e
    by_cases hi : i < l.length
    · rw [if_pos hi]
      constructor
      · intro h'; cases h'; omega
      · intro h'; exact absurd h' (hnew i)
    · rw [if_neg hi]
      constructor
      · intro h'; cases h'; simp
      · intro h'
        have : i - l.length = 0 := by
          by_cases hz : i - l.length = 0
          · exact hz
          · rw [List.getElem?_eq_none (by simp; omega)] at h'; cases h'
        rw [show i = l.length by omega]
  · rw [if_neg e, h k' i]
    by_cases hi : i < l.length
    · rw [if_pos hi]
    · rw [if_neg hi, List.getElem?_eq_none (by omega)]
      constructor
      · intro h'; cases h'
      · intro h'
        cases hz : i - l.length with
        | zero => rw [hz] at h'; exact absurd (Option.some.inj h') e
        | succ n => rw [hz] at h'; cases h'

/-- No reader has an output metric for the instrument. -/
def NoOutput (x : Ext H) (views : List (Views H)) (sc : Scope) (d : Desc) : Prop := ∀ v ∈ views, (behaviors x v sc d).1 = []

/-- The output metric at a position has the name given by a behavior. -/
def Named (s : State H) (l : Nat) (b : Behavior H) : Prop := ∃ leaf, s.collectors[l]? = some leaf ∧ leaf.desc.name = b.desc.name

/-- Facts about every meter. -/
structure MeterOk (x : Ext H) (views : List (Views H)) (m : Meter H ν) : Prop where
  comps : m.comps.length = views.length
  ok : ∀ s ∈ m.comps, Ok s
  byDesc : Indexes m.byDesc (m.insts.map (·.desc))
  /-- Instruments have one list of output metrics for each reader. -/
  leaves : ∀ o ∈ m.insts, o.leaves.length = views.length
  /-- Those of the behaviors of the views. -/
  count : ∀ o ∈ m.insts, ∀ (pipe : Nat) (ls : List Nat) (v : Views H) (s : State H), o.leaves[pipe]? = some ls → views[pipe]? = some v →
    m.comps[pipe]? = some s → Each (Named s) ls (behaviors x v m.scope o.desc).1
  /-- Every synchronous instrument has an output metric. -/
  kept : ∀ o ∈ m.insts, ¬ (o.desc.kind.synchronous = true ∧ NoOutput x views m.scope o.desc)
  /-- The list of synchronous instruments has those asked for. -/
  sync : ∀ i ∈ m.sync, ∀ j, i = some j → j < m.insts.length

theorem compileAll_get (x : Ext H) (views : List (Views H)) (m : Meter H ν) (d : Desc) (pipe : Nat) (v : Views H) (s : State H)
    (hv : views[pipe]? = some v) (hs : m.comps[pipe]? = some s) : (compileAll x views m d)[pipe]? = some (compile x v m.scope s d) := by
  unfold compileAll
  rw [List.getElem?_zipWith, hv, hs]

theorem compileAll_length (x : Ext H) (views : List (Views H)) (m : Meter H ν) (d : Desc) (h : m.comps.length = views.length) :
    (compileAll x views m d).length = views.length := by
  unfold compileAll
  rw [List.length_zipWith, h, Nat.min_self]

theorem compile_leaves (x : Ext H) (v : Views H) (sc : Scope) (s : State H) (d : Desc) (hs : Ok s) :
    Each (Named (compile x v sc s d).1) (compile x v sc s d).2.1 (behaviors x v sc d).1 := by
  refine Each.imp (fun i b h => ?_) (loop_leaves (behaviors x v sc d).2.kind hs (behaviors x v sc d).1)
  obtain ⟨l, hl, hid, -⟩ := h
  refine ⟨l, hl, ?_⟩
  have : l.identity.name = b.desc.name := by
    rcases hid with hid | hid <;> rw [hid] <;>
      simp only [Behavior.identity, Leaf.identity, buildLeaf, (checkSemantic_desc (behaviors x v sc d).2.kind b).1]
  exact this

theorem named_le {s s' : State H} (h : Le s s') {l : Nat} {b : Behavior H} (hn : Named s l b) : Named s' l b := by
  obtain ⟨leaf, h1, h2⟩ := hn
  obtain ⟨leaf', h3, h4, -⟩ := h.leaf l leaf h1
  exact ⟨leaf', h3, (congrArg Identity.name h4).trans h2⟩

/-- The compilers after compiling a descriptor. -/
theorem meterOk_comps {x : Ext H} {views : List (Views H)} {m : Meter H ν} (h : MeterOk x views m) (d : Desc) :
    MeterOk x views { m with comps := (compileAll x views m d).map (·.1) } := by
  have key : ∀ (pipe : Nat) (s' : State H), ((compileAll x views m d).map (·.1))[pipe]? = some s' →
      ∃ v s, views[pipe]? = some v ∧ m.comps[pipe]? = some s ∧ s' = (compile x v m.scope s d).1 := by
    intro pipe s' hs
    have hlt : pipe < views.length := by
      have := (List.getElem?_eq_some_iff.1 hs).1
      rw [List.length_map, compileAll_length x views m d h.comps] at this
      exact this
    refine ⟨views[pipe], m.comps[pipe]'(by rw [h.comps]; exact hlt), by simp, by simp, ?_⟩
    rw [List.getElem?_map, compileAll_get x views m d pipe views[pipe] (m.comps[pipe]'(by rw [h.comps]; exact hlt)) (by simp) (by simp)] at hs
    simpa using hs.symm
  refine ⟨?_, ?_, h.byDesc, h.leaves, ?_, h.kept, h.sync⟩
  · rw [List.length_map]; exact compileAll_length x views m d h.comps
  · intro s' hs'
    obtain ⟨pipe, hp⟩ := List.mem_iff_getElem?.1 hs'
    obtain ⟨v, s, hv, hs, rfl⟩ := key pipe s' hp
    exact compile_ok x v m.scope (h.ok s (List.mem_of_getElem? hs)) d
  · intro o ho pipe ls v s' hls hv hs'
    obtain ⟨v', s, hv', hs, rfl⟩ := key pipe s' hs'
    rw [hv] at hv'
    cases hv'
    exact Each.imp (fun l b hn => named_le (compile_le x v m.scope s d) hn) (h.count o ho pipe ls v s hls hv hs)

theorem meterOk_insts {x : Ext H} {views : List (Views H)} {m : Meter H ν} (h : MeterOk x views m) (d : Desc) (hd : get m.byDesc d = none)
    (hk : ¬ (d.kind.synchronous = true ∧ NoOutput x views m.scope d)) (sync : List (Option Nat)) (async : List Nat)
    (hy : ∀ i ∈ sync, ∀ j, i = some j → j < m.insts.length + 1) :
    MeterOk x views { m with
      comps := (compileAll x views m d).map (·.1), byDesc := (d, m.insts.length) :: m.byDesc,
      insts := m.insts ++ [⟨d, (compileAll x views m d).map (·.2.1)⟩], sync := sync, async := async } := by
  have hc := meterOk_comps h d
  refine ⟨hc.comps, hc.ok, ?_, ?_, ?_, ?_, ?_⟩
  · have := h.byDesc.snoc d hd
    simpa using this
  · intro o ho
    rcases List.mem_append.1 ho with ho | ho
    · exact h.leaves o ho
    · rw [List.mem_singleton] at ho
      subst ho
      simp only [List.length_map]
      exact compileAll_length x views m d h.comps
  · intro o ho pipe ls v s' hls hv hs'
    rcases List.mem_append.1 ho with ho | ho
    · exact hc.count o ho pipe ls v s' hls hv hs'
    · rw [List.mem_singleton] at ho
      subst ho
      have hlt : pipe < views.length := (List.getElem?_eq_some_iff.1 hv).1
      have hg := compileAll_get x views m d pipe v (m.comps[pipe]'(by rw [h.comps]; exact hlt)) hv (by simp)
      dsimp only at hls hs'
      rw [List.getElem?_map, hg] at hls hs'
      cases hls
      cases hs'
      exact compile_leaves x v m.scope _ d (h.ok _ (List.getElem_mem _))
  · intro o ho
    rcases List.mem_append.1 ho with ho | ho
    · exact h.kept o ho
    · rw [List.mem_singleton] at ho
      subst ho
      exact hk
  · intro i hi j hj
    rw [List.length_append]
    exact hy i hi j hj

theorem configure_none (x : Ext H) (views : List (Views H)) (m : Meter H ν) (d : Desc) (h : m.comps.length = views.length) (hok : ∀ s ∈ m.comps, Ok s) :
    ((compileAll x views m d).map (·.2.1)).all (·.isEmpty) = true ↔ NoOutput x views m.scope d := by
  rw [List.all_eq_true]
  constructor
  · intro hall v hv
    obtain ⟨pipe, hp⟩ := List.mem_iff_getElem?.1 hv
    have hlt : pipe < views.length := (List.getElem?_eq_some_iff.1 hp).1
    have hg := compileAll_get x views m d pipe v (m.comps[pipe]'(by rw [h]; exact hlt)) hp (by simp)
    have := hall _ (List.mem_map_of_mem (f := (·.2.1)) (List.mem_of_getElem? hg))
    rw [List.isEmpty_iff] at this
    have hl := (compile_leaves x v m.scope (m.comps[pipe]'(by rw [h]; exact hlt)) d (hok _ (List.getElem_mem _))).length
    rw [this] at hl
    exact List.length_eq_zero_iff.1 hl.symm
  · intro hno l hl
    obtain ⟨r, hr, rfl⟩ := List.mem_map.1 hl
    obtain ⟨pipe, hp⟩ := List.mem_iff_getElem?.1 hr
    have hlt : pipe < views.length := by
      have := (List.getElem?_eq_some_iff.1 hp).1
      rw [compileAll_length x views m d h] at this; exact this
    have hg := compileAll_get x views m d pipe views[pipe] (m.comps[pipe]'(by rw [h]; exact hlt)) (by simp) (by simp)
    rw [hg] at hp
    cases hp
    have hl := (compile_leaves x views[pipe] m.scope (m.comps[pipe]'(by rw [h]; exact hlt)) d (hok _ (List.getElem_mem _))).length
    rw [hno _ (List.getElem_mem _)] at hl
    rw [List.isEmpty_iff]
    exact List.length_eq_zero_iff.1 hl

/-- The result of asking for an instrument: the one there is, none when synchronous and without output, otherwise a new one. -/
theorem configure_spec {x : Ext H} {views : List (Views H)} {m : Meter H ν} (h : MeterOk x views m) (d : Desc) :
    MeterOk x views (configure x views m d).1 ∧ (configure x views m d).1.scope = m.scope ∧
    (configure x views m d).1.recs = m.recs ∧
    ((∃ i, get m.byDesc d = some i ∧ (configure x views m d).2 = some i ∧ (configure x views m d).1.insts = m.insts ∧
        (configure x views m d).1.sync = m.sync) ∨
      (get m.byDesc d = none ∧ d.kind.synchronous = true ∧ NoOutput x views m.scope d ∧ (configure x views m d).2 = none ∧
        (configure x views m d).1.insts = m.insts ∧ (configure x views m d).1.sync = m.sync ++ [none]) ∨
      (get m.byDesc d = none ∧ ¬ (d.kind.synchronous = true ∧ NoOutput x views m.scope d) ∧ (configure x views m d).2 = some m.insts.length ∧
        (∃ ls, (configure x views m d).1.insts = m.insts ++ [⟨d, ls⟩]) ∧
        (configure x views m d).1.sync = m.sync ++ if d.kind.synchronous then [some m.insts.length] else [])) := by
  unfold configure
  dsimp only
  cases hg : get m.byDesc d with
  | some i =>
    dsimp only
    exact ⟨meterOk_comps h d, rfl, rfl, Or.inl ⟨i, rfl, rfl, rfl, rfl⟩⟩
  | none =>
    dsimp only
    by_cases hk : d.kind.synchronous = true
    · rw [if_pos hk]
      by_cases hn : ((compileAll x views m d).map (·.2.1)).all (·.isEmpty) = true
      · rw [if_pos hn]
        have hc := meterOk_comps h d
        refine ⟨⟨hc.comps, hc.ok, hc.byDesc, hc.leaves, hc.count, hc.kept, ?_⟩, rfl, rfl,
          Or.inr (Or.inl ⟨rfl, hk, (configure_none x views m d h.comps h.ok).1 hn, rfl, rfl, rfl⟩)⟩
        intro i hi j hj
        rcases List.mem_append.1 hi with hi | hi
        · exact h.sync i hi j hj
        · rw [List.mem_singleton] at hi; rw [hi] at hj; cases hj
      · rw [if_neg hn]
        have hno : ¬ (d.kind.synchronous = true ∧ NoOutput x views m.scope d) := fun hno => hn ((configure_none x views m d h.comps h.ok).2 hno.2)
        refine ⟨meterOk_insts h d hg hno _ _ ?_, rfl, rfl, Or.inr (Or.inr ⟨rfl, hno, rfl, ⟨_, rfl⟩, by rw [if_pos hk]⟩)⟩
        intro i hi j hj
        rcases List.mem_append.1 hi with hi | hi
        · exact Nat.lt_succ_of_lt (h.sync i hi j hj)
        · rw [List.mem_singleton] at hi; rw [hi] at hj; cases hj; omega
    · rw [if_neg hk]
      exact ⟨meterOk_insts h d hg (fun hno => hk hno.1) _ _ (fun i hi j hj => Nat.lt_succ_of_lt (h.sync i hi j hj)), rfl, rfl, Or.inr (Or.inr ⟨rfl, fun hno => hk hno.1, rfl, ⟨_, rfl⟩, by rw [if_neg hk, List.append_nil]⟩)⟩

theorem newMeter_ok (x : Ext H) (views : List (Views H)) (sc : Scope) : MeterOk x views (newMeter views sc : Meter H ν) :=
  ⟨by simp [newMeter], by
      intro s hs
      simp only [newMeter, List.mem_map] at hs
      obtain ⟨_, _, rfl⟩ := hs
      exact Ok.new, Indexes.nil, by simp [newMeter], by simp [newMeter], by simp [newMeter], by simp [newMeter]⟩

theorem record_fields (m : Meter H ν) (inst : Option Nat) (v : ν) :
    (record m inst v).scope = m.scope ∧ (record m inst v).comps = m.comps ∧ (record m inst v).byDesc = m.byDesc ∧
    (record m inst v).insts = m.insts ∧ (record m inst v).sync = m.sync ∧ (record m inst v).async = m.async := by
  unfold record
  cases inst with
  | none => exact ⟨rfl, rfl, rfl, rfl, rfl, rfl⟩
  | some i =>
    dsimp only
    cases m.insts[i]? <;> exact ⟨rfl, rfl, rfl, rfl, rfl, rfl⟩

theorem record_ok {x : Ext H} {views : List (Views H)} {m : Meter H ν} (h : MeterOk x views m) (inst : Option Nat) (v : ν) :
    MeterOk x views (record m inst v) := by
  obtain ⟨h1, h2, h3, h4, h5, -⟩ := record_fields m inst v
  exact ⟨by rw [h2]; exact h.comps, by rw [h2]; exact h.ok, by rw [h3, h4]; exact h.byDesc, by rw [h4]; exact h.leaves, by rw [h2, h4, h1]; exact h.count,
    by rw [h4, h1]; exact h.kept, by rw [h5, h4]; exact h.sync⟩

/-- Facts about the provider. -/
structure ProvOk (x : Ext H) (p : Provider H ν) : Prop where
  meters : ∀ m ∈ p.ordered, MeterOk x p.views m
  map : ∀ m, p.map = some m → Indexes m (p.ordered.map (·.scope))

theorem new_ok (x : Ext H) (views : List (Views H)) : ProvOk x (new views : Provider H ν) :=
  ⟨by simp [new], by
    intro m hm
    simp only [new, Option.some.injEq] at hm
    subst hm
    exact Indexes.nil⟩

/-- Replacing a meter by one with the same scope. -/
theorem provOk_set {x : Ext H} {p : Provider H ν} (h : ProvOk x p) {k : Nat} {m m' : Meter H ν} (hk : p.ordered[k]? = some m)
    (hm : MeterOk x p.views m') (hs : m'.scope = m.scope) :
    ProvOk x { p with ordered := p.ordered.set k m' } ∧ (p.ordered.set k m').map (·.scope) = p.ordered.map (·.scope) := by
  have hsc : (p.ordered.set k m').map (·.scope) = p.ordered.map (·.scope) := by
    rw [List.map_set, hs]
    refine List.ext_getElem? (fun i => ?_)
    rw [List.getElem?_set]
    by_cases hi : k = i
    · subst hi
      have hlt := (List.getElem?_eq_some_iff.1 hk).1
      rw [if_pos rfl, if_pos (by simpa using hlt), List.getElem?_map, hk]
      rfl
    · rw [if_neg hi]
  refine ⟨⟨fun x' hx => ?_, fun mp hmp => ?_⟩, hsc⟩
  · rcases List.mem_or_eq_of_mem_set hx with hx | hx
    · exact h.meters x' hx
    · rw [hx]; exact hm
  · show Indexes mp ((p.ordered.set k m').map (·.scope))
    rw [hsc]
    exact h.map mp hmp

theorem meter_spec {x : Ext H} {p : Provider H ν} (h : ProvOk x p) (sc : Scope) :
    ProvOk x (meter p sc).1 ∧ (meter p sc).1.views = p.views ∧
    ((p.map = none ∧ meter p sc = (p, none)) ∨
      (p.map ≠ none ∧ ∃ i, (p.ordered.map (·.scope))[i]? = some sc ∧ meter p sc = (p, some i)) ∨
      (p.map ≠ none ∧ sc ∉ p.ordered.map (·.scope) ∧ (meter p sc).2 = some p.ordered.length ∧ (meter p sc).1.map ≠ none ∧
        (meter p sc).1.ordered = p.ordered ++ [newMeter p.views sc])) := by
  unfold meter
  cases hm : p.map with
  | none => exact ⟨h, rfl, Or.inl ⟨rfl, rfl⟩⟩
  | some m =>
    dsimp only
    have hidx := h.map m hm
    cases hg : get m sc with
    | some i => exact ⟨h, rfl, Or.inr (Or.inl ⟨by simp, i, (hidx sc i).1 hg, rfl⟩)⟩
    | none =>
      dsimp only
      refine ⟨⟨?_, ?_⟩, rfl, Or.inr (Or.inr ⟨by simp, ?_, rfl, by simp, rfl⟩)⟩
      · intro x' hx
        rcases List.mem_append.1 hx with hx | hx
        · exact h.meters x' hx
        · rw [List.mem_singleton] at hx; subst hx; exact newMeter_ok x p.views sc
      · intro mp hmp
        dsimp only at hmp
        cases hmp
        have := hidx.snoc sc hg
        simpa [newMeter] using this
      · intro hmem
        obtain ⟨i, hi⟩ := List.mem_iff_getElem?.1 hmem
        rw [(hidx sc i).2 hi] at hg
        cases hg

theorem step_ok {x : Ext H} {p : Provider H ν} (h : ProvOk x p) (c : Call ν) : ProvOk x (step x p c).1 ∧ (step x p c).1.views = p.views := by
  cases c with
  | meter sc => exact ⟨(meter_spec h sc).1, (meter_spec h sc).2.1⟩
  | shutdown => exact ⟨⟨h.meters, fun m hm => by cases hm⟩, rfl⟩
  | instrument k d =>
    simp only [step]
    cases hk : p.ordered[k]? with
    | none => exact ⟨h, rfl⟩
    | some m =>
      have hc := configure_spec (h.meters m (List.mem_of_getElem? hk)) d
      exact ⟨(provOk_set h hk hc.1 hc.2.1).1, rfl⟩
  | record k inst v =>
    simp only [step]
    cases hk : p.ordered[k]? with
    | none => exact ⟨h, rfl⟩
    | some m => exact ⟨(provOk_set h hk (record_ok (h.meters m (List.mem_of_getElem? hk)) inst v) (record_fields m inst v).1).1, rfl⟩

theorem run_cons (x : Ext H) (p : Provider H ν) (c : Call ν) (cs : List (Call ν)) : run x p (c :: cs) = run x (step x p c).1 cs := rfl

theorem run_append (x : Ext H) (p : Provider H ν) (a b : List (Call ν)) : run x p (a ++ b) = run x (run x p a) b := by
  unfold run; rw [List.foldl_append]

theorem run_ok {x : Ext H} {p : Provider H ν} (h : ProvOk x p) (cs : List (Call ν)) : ProvOk x (run x p cs) ∧ (run x p cs).views = p.views := by
  induction cs generalizing p with
  | nil => exact ⟨h, rfl⟩
  | cons c cs ih =>
    rw [run_cons]
    obtain ⟨h1, h2⟩ := step_ok h c
    obtain ⟨h3, h4⟩ := ih h1
    exact ⟨h3, h4.trans h2⟩

/-- How the state grows: meters stay at their place with their instruments. -/
structure Grows (p p' : Provider H ν) : Prop where
  scopes : p.ordered.map (·.scope) <+: p'.ordered.map (·.scope)
  insts : ∀ (k : Nat) (m : Meter H ν), p.ordered[k]? = some m → ∃ m' : Meter H ν, p'.ordered[k]? = some m' ∧ m'.scope = m.scope ∧
    m.insts <+: m'.insts ∧ m.sync <+: m'.sync

theorem Grows.refl (p : Provider H ν) : Grows p p :=
  ⟨List.prefix_refl _, fun _ m h => ⟨m, h, rfl, List.prefix_refl _, List.prefix_refl _⟩⟩

theorem Grows.trans {p p' p'' : Provider H ν} (h : Grows p p') (h' : Grows p' p'') : Grows p p'' := by
  refine ⟨h.scopes.trans h'.scopes, fun k m hk => ?_⟩
  obtain ⟨m1, a1, a2, a3, a4⟩ := h.insts k m hk
  obtain ⟨m2, b1, b2, b3, b4⟩ := h'.insts k m1 a1
  exact ⟨m2, b1, b2.trans a2, a3.trans b3, a4.trans b4⟩

theorem grows_set {x : Ext H} {p : Provider H ν} (h : ProvOk x p) {k : Nat} {m m' : Meter H ν} (hk : p.ordered[k]? = some m)
    (hm : MeterOk x p.views m') (hs : m'.scope = m.scope) (hi : m.insts <+: m'.insts) (hy : m.sync <+: m'.sync) :
    Grows p { p with ordered := p.ordered.set k m' } := by
  refine ⟨by rw [(provOk_set h hk hm hs).2]; exact List.prefix_refl _, fun j mj hj => ?_⟩
  by_cases e : k = j
  · subst e
    rw [hk] at hj
    cases hj
    refine ⟨m', ?_, hs, hi, hy⟩
    have hlt := (List.getElem?_eq_some_iff.1 hk).1
    show (p.ordered.set k m')[k]? = some m'
    rw [List.getElem?_set, if_pos rfl, if_pos hlt]
  · refine ⟨mj, ?_, rfl, List.prefix_refl _, List.prefix_refl _⟩
    show (p.ordered.set k m')[j]? = some mj
    rw [List.getElem?_set, if_neg e]
    exact hj

theorem step_grows {x : Ext H} {p : Provider H ν} (h : ProvOk x p) (c : Call ν) : Grows p (step x p c).1 := by
  cases c with
  | meter sc =>
    show Grows p (meter p sc).1
    rcases (meter_spec h sc).2.2 with ⟨-, e⟩ | ⟨-, i, -, e⟩ | ⟨-, -, -, -, e⟩
    · rw [e]; exact Grows.refl p
    · rw [e]; exact Grows.refl p
    · refine ⟨by rw [e, List.map_append]; exact List.prefix_append _ _, fun k m hk => ⟨m, ?_, rfl, List.prefix_refl _, List.prefix_refl _⟩⟩
      rw [e, List.getElem?_append, if_pos (List.getElem?_eq_some_iff.1 hk).1]
      exact hk
  | shutdown => exact ⟨List.prefix_refl _, fun _ m hk => ⟨m, hk, rfl, List.prefix_refl _, List.prefix_refl _⟩⟩
  | instrument k d =>
    simp only [step]
    cases hk : p.ordered[k]? with
    | none => exact Grows.refl p
    | some m =>
      obtain ⟨h1, h2, -, h4⟩ := configure_spec (h.meters m (List.mem_of_getElem? hk)) d
      refine grows_set h hk h1 h2 ?_ ?_
      · rcases h4 with ⟨i, -, -, e, -⟩ | ⟨-, -, -, -, e, -⟩ | ⟨-, -, -, ⟨ls, e⟩, -⟩ <;> rw [e]
        · exact List.prefix_refl _
        · exact List.prefix_refl _
        · exact List.prefix_append _ _
      · rcases h4 with ⟨i, -, -, -, e⟩ | ⟨-, -, -, -, -, e⟩ | ⟨-, -, -, -, e⟩ <;> rw [e]
        · exact List.prefix_refl _
        · exact List.prefix_append _ _
        · exact List.prefix_append _ _
  | record k inst v =>
    simp only [step]
    cases hk : p.ordered[k]? with
    | none => exact Grows.refl p
    | some m =>
      obtain ⟨h1, -, -, h4, h5, -⟩ := record_fields m inst v
      exact grows_set h hk (record_ok (h.meters m (List.mem_of_getElem? hk)) inst v) h1 (by rw [h4]; exact List.prefix_refl _) (by rw [h5]; exact List.prefix_refl _)

theorem run_grows {x : Ext H} {p : Provider H ν} (h : ProvOk x p) (cs : List (Call ν)) : Grows p (run x p cs) := by
  induction cs generalizing p with
  | nil => exact Grows.refl p
  | cons c cs ih => rw [run_cons]; exact (step_grows h c).trans (ih (step_ok h c).1)

end Verif.Provider
