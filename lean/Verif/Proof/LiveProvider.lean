import Verif.Model.Live
import Verif.Proof.Provider
import Verif.Proof.Assembly

/-!
Helper file: asking for more meters and instruments changes nothing of the instruments and output metrics there are, but descriptions.
-/

namespace Verif.Live
open Verif Verif.Attr Verif.Number Verif.Views Verif.Provider Verif.Assembly
variable {C G ν : Type}

/-- The same output metric, but for the description. -/
structure Like (f f' : Leaf C) : Prop where
  name : f'.desc.name = f.desc.name
  unit : f'.desc.unit = f.desc.unit
  num : f'.desc.num = f.desc.num
  ikind : f'.desc.kind = f.desc.kind
  kind : f'.kind = f.kind
  delta : f'.delta = f.delta
  acfg : f'.acfg = f.acfg
  keys : f'.keys = f.keys

theorem Like.refl (f : Leaf C) : Like f f := ⟨rfl, rfl, rfl, rfl, rfl, rfl, rfl, rfl⟩

theorem Like.trans {f g h : Leaf C} (a : Like f g) (b : Like g h) : Like f h :=
  ⟨b.name.trans a.name, b.unit.trans a.unit, b.num.trans a.num, b.ikind.trans a.ikind, b.kind.trans a.kind, b.delta.trans a.delta, b.acfg.trans a.acfg, b.keys.trans a.keys⟩

theorem Like.merge (f : Leaf C) (d : Str) : Like f (mergeDescription f d) := by
  unfold mergeDescription; split
  · exact ⟨rfl, rfl, rfl, rfl, rfl, rfl, rfl, rfl⟩
  · exact Like.refl f

/-- Output metrics stay, at their place. -/
def Kept (s s' : State C) : Prop := ∀ (j : Nat) (f : Leaf C), s.collectors[j]? = some f → ∃ f' : Leaf C, s'.collectors[j]? = some f' ∧ Like f f'

theorem Kept.refl (s : State C) : Kept s s := fun _ f h => ⟨f, h, Like.refl f⟩

theorem Kept.trans {s s' s'' : State C} (a : Kept s s') (b : Kept s' s'') : Kept s s'' := by
  intro j f h
  obtain ⟨g, h1, h2⟩ := a j f h
  obtain ⟨e, h3, h4⟩ := b j g h1
  exact ⟨e, h3, h2.trans h4⟩

/-- The meter has grown. -/
structure Grown (m m' : Meter C ν) : Prop where
  scope : m'.scope = m.scope
  insts : m.insts <+: m'.insts
  comps : ∀ (pipe : Nat) (s : State C), m.comps[pipe]? = some s → ∃ s' : State C, m'.comps[pipe]? = some s' ∧ Kept s s'

theorem Grown.refl (m : Meter C ν) : Grown m m := ⟨rfl, List.prefix_refl _, fun _ s h => ⟨s, h, Kept.refl s⟩⟩

theorem Grown.trans {m m' m'' : Meter C ν} (a : Grown m m') (b : Grown m' m'') : Grown m m'' := by
  refine ⟨b.scope.trans a.scope, a.insts.trans b.insts, fun pipe s h => ?_⟩
  obtain ⟨s1, h1, h2⟩ := a.comps pipe s h
  obtain ⟨s2, h3, h4⟩ := b.comps pipe s1 h1
  exact ⟨s2, h3, h2.trans h4⟩

/-- The provider has grown. -/
def More (p p' : Provider C ν) : Prop := ∀ (k : Nat) (m : Meter C ν), p.ordered[k]? = some m → ∃ m' : Meter C ν, p'.ordered[k]? = some m' ∧ Grown m m'

theorem More.refl (p : Provider C ν) : More p p := fun _ m h => ⟨m, h, Grown.refl m⟩

theorem More.trans {p p' p'' : Provider C ν} (a : More p p') (b : More p' p'') : More p p'' := by
  intro k m h
  obtain ⟨m1, h1, h2⟩ := a k m h
  obtain ⟨m2, h3, h4⟩ := b k m1 h1
  exact ⟨m2, h3, h2.trans h4⟩

theorem More.set {p : Provider C ν} {k : Nat} {m m' : Meter C ν} (hk : p.ordered[k]? = some m) (h : Grown m m') : More p { p with ordered := p.ordered.set k m' } := by
  intro j mj hj
  by_cases e : k = j
  · subst e
    rw [hk] at hj
    cases hj
    refine ⟨m', ?_, h⟩
    show (p.ordered.set k m')[k]? = some m'
    rw [List.getElem?_set, if_pos rfl, if_pos (List.getElem?_eq_some_iff.1 hk).1]
  · refine ⟨mj, ?_, Grown.refl mj⟩
    show (p.ordered.set k m')[j]? = some mj
    rw [List.getElem?_set, if_neg e]
    exact hj

variable [DecidableEq C]

theorem Kept.place (s : State C) (b : Behavior C) : Kept s (place s b).1 := by
  unfold Views.place
  split
  · intro j f hf
    simp only [modify_get]
    split
    · exact ⟨mergeDescription f b.desc.desc, by rw [hf]; rfl, Like.merge _ _⟩
    · exact ⟨f, hf, Like.refl f⟩
  · intro j f hf
    exact ⟨f, (List.getElem?_append_left (List.getElem?_eq_some_iff.1 hf).1).trans hf, Like.refl f⟩

theorem Kept.loop (ik : Front.IKind) (s : State C) (bs : List (Behavior C)) : Kept s (compileLoop ik s bs).1 := by
  induction bs generalizing s with
  | nil => exact Kept.refl s
  | cons b bs ih =>
    unfold compileLoop
    exact (Kept.place s _).trans (ih _)

theorem Kept.compile (x : Ext C) (v : Views C) (sc : Scope) (s : State C) (d : Desc) : Kept s (compile x v sc s d).1 := Kept.loop _ _ _

theorem Grown.configure {x : Ext C} {views : List (Views C)} {m : Meter C ν} (h : MeterOk x views m) (d : Desc) : Grown m (configure x views m d).1 := by
  obtain ⟨-, h2, -, h4⟩ := configure_spec h d
  refine ⟨h2, ?_, ?_⟩
  · rcases h4 with ⟨i, -, -, e, -⟩ | ⟨-, -, -, -, e, -⟩ | ⟨-, -, -, ⟨ls, e⟩, -⟩ <;> rw [e]
    · exact List.prefix_refl _
    · exact List.prefix_refl _
    · exact List.prefix_append _ _
  · intro pipe s hs
    have hlt : pipe < views.length := by rw [← h.comps]; exact (List.getElem?_eq_some_iff.1 hs).1
    rw [(configure_comps x views m d).1]
    refine ⟨(Views.compile x views[pipe] m.scope s d).1, ?_, Kept.compile _ _ _ _ _⟩
    rw [List.getElem?_map, compileAll_get x views m d pipe views[pipe] s (by simp) hs]
    rfl

theorem More.step {x : Ext C} {p : Provider C ν} (h : ProvOk x p) (c : Call ν) : More p (Provider.step x p c).1 := by
  cases c with
  | meter sc =>
    show More p (Provider.meter p sc).1
    rcases (meter_spec h sc).2.2 with ⟨-, e⟩ | ⟨-, i, -, e⟩ | ⟨-, -, -, -, e⟩
    · rw [e]; exact More.refl p
    · rw [e]; exact More.refl p
    · intro k m hk
      refine ⟨m, ?_, Grown.refl m⟩
      rw [e, List.getElem?_append, if_pos (List.getElem?_eq_some_iff.1 hk).1]
      exact hk
  | shutdown => exact More.refl p
  | instrument k d =>
    simp only [Provider.step]
    cases hk : p.ordered[k]? with
    | none => exact More.refl p
    | some m => exact More.set hk (Grown.configure (h.meters m (List.mem_of_getElem? hk)) d)
  | record k inst v =>
    simp only [Provider.step]
    cases hk : p.ordered[k]? with
    | none => exact More.refl p
    | some m =>
      obtain ⟨h1, h2, -, h4, -⟩ := record_fields m inst v
      exact More.set hk ⟨h1, by rw [h4]; exact List.prefix_refl _, fun pipe s hs => ⟨s, by rw [h2]; exact hs, Kept.refl s⟩⟩

theorem More.run {x : Ext C} {p : Provider C ν} (h : ProvOk x p) (cs : List (Call ν)) : More p (Provider.run x p cs) := by
  induction cs generalizing p with
  | nil => exact More.refl p
  | cons c cs ih => rw [run_cons]; exact (More.step h c).trans (ih (step_ok h c).1)

omit [DecidableEq C] in
theorem More.inst {p p' : Provider C ν} (h : More p p') {o : Nat} {i : Provider.Inst} (hi : instAt p o = some i) : instAt p' o = some i := by
  unfold instAt at hi ⊢
  obtain ⟨m, h1, h2⟩ := Option.bind_eq_some_iff.1 hi
  obtain ⟨m', h3, h4⟩ := h _ m h1
  rw [h3]
  obtain ⟨t, e⟩ := h4.insts
  rw [Option.bind_some, ← e, List.getElem?_append_left (List.getElem?_eq_some_iff.1 h2).1]
  exact h2

omit [DecidableEq C] in
theorem More.leaf {p p' : Provider C ν} (h : More p p') {l : Nat} {f : Leaf C} (hf : leafAt p l = some f) : ∃ f', leafAt p' l = some f' ∧ Like f f' := by
  unfold leafAt at hf ⊢
  obtain ⟨m, h1, h2⟩ := Option.bind_eq_some_iff.1 hf
  obtain ⟨s, h3, h4⟩ := Option.bind_eq_some_iff.1 h2
  obtain ⟨m', h5, h6⟩ := h _ m h1
  obtain ⟨s', h7, h8⟩ := h6.comps _ s h3
  obtain ⟨f', h9, h10⟩ := h8 _ f h4
  exact ⟨f', by rw [h5, Option.bind_some, h7, Option.bind_some, h9], h10⟩

/-- The output metrics of the instruments exist. -/
theorem leaves_exist {x : Ext C} {p : Provider C ν} (h : ProvOk x p) {o : Nat} {i : Provider.Inst} (hi : instAt p o = some i) {pipe j : Nat} {ls : List Nat}
    (hl : i.leaves[pipe]? = some ls) (hj : j ∈ ls) : (leafAt p (leafAddr (unpair o).1 pipe j)).isSome = true := by
  unfold instAt at hi
  obtain ⟨m, h1, h2⟩ := Option.bind_eq_some_iff.1 hi
  have hm := h.meters m (List.mem_of_getElem? h1)
  have hmem := List.mem_of_getElem? h2
  have hlt : pipe < p.views.length := by rw [← hm.leaves i hmem]; exact (List.getElem?_eq_some_iff.1 hl).1
  have hlc : pipe < m.comps.length := by rw [hm.comps]; exact hlt
  have hall := hm.count i hmem pipe ls p.views[pipe] m.comps[pipe] hl (by simp) (by simp)
  obtain ⟨a, ha⟩ := List.getElem?_of_mem hj
  obtain ⟨b, -, leaf, hb, -⟩ := hall.get' ha
  rw [leafAt_addr, h1, Option.bind_some, List.getElem?_eq_getElem hlc, Option.bind_some, hb]
  rfl

end Verif.Live
