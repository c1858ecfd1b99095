import Verif.Proof.Provider
import Verif.Spec.Assembly

/-!
The wiring of a provider's instruments to output metrics.
-/

namespace Verif.Assembly
open Verif.Attr Verif.Number Verif.Aggr Verif.Front Verif.Views Verif.Provider Verif.Instruments
variable {C G ν : Type} [DecidableEq C]

/-! ### Addresses -/

theorem unpairIn_eq (a b f : Nat) (h : 2 ^ a * (2 * b + 1) ≤ f) : unpairIn f (2 ^ a * (2 * b + 1)) = (a, b) := by
  induction a generalizing f with
  | zero =>
    cases f with
    | zero => omega
    | succ f =>
      have h1 : (2 ^ 0 * (2 * b + 1)) % 2 = 1 := by omega
      have h2 : (2 ^ 0 * (2 * b + 1)) / 2 = b := by omega
      unfold unpairIn
      rw [if_pos h1, h2]
  | succ a ih =>
    have hp : 0 < 2 ^ a * (2 * b + 1) := Nat.mul_pos (Nat.two_pow_pos a) (by omega)
    have e : 2 ^ (a + 1) * (2 * b + 1) = 2 * (2 ^ a * (2 * b + 1)) := by rw [Nat.pow_succ, Nat.mul_comm (2 ^ a) 2, Nat.mul_assoc]
    rw [e] at h ⊢
    generalize hX : 2 ^ a * (2 * b + 1) = X at h hp ih
    cases f with
    | zero => omega
    | succ f =>
      unfold unpairIn
      rw [if_neg (by omega), show 2 * X / 2 = X by omega, ih f (by omega)]

theorem unpair_pair (a b : Nat) : unpair (pair a b) = (a, b) := by
  have hp : 0 < 2 ^ a * (2 * b + 1) := Nat.mul_pos (Nat.two_pow_pos a) (by omega)
  unfold unpair pair
  rw [show 2 ^ a * (2 * b + 1) - 1 + 1 = 2 ^ a * (2 * b + 1) by omega]
  exact unpairIn_eq a b _ (Nat.le_refl _)

theorem unpairIn_inv (f n : Nat) (h : n ≤ f) (h0 : 0 < n) : 2 ^ (unpairIn f n).1 * (2 * (unpairIn f n).2 + 1) = n := by
  induction f generalizing n with
  | zero => omega
  | succ f ih =>
    unfold unpairIn
    by_cases h1 : n % 2 = 1
    · rw [if_pos h1]
      simp only [Nat.pow_zero, Nat.one_mul]
      omega
    · rw [if_neg h1]
      have := ih (n / 2) (by omega) (by omega)
      simp only [Nat.pow_succ]
      rw [Nat.mul_comm (2 ^ _) 2, Nat.mul_assoc, this]
      omega

theorem pair_unpair (n : Nat) : pair (unpair n).1 (unpair n).2 = n := by
  unfold pair unpair
  rw [unpairIn_inv (n + 1) (n + 1) (Nat.le_refl _) (by omega)]
  rfl

theorem pair_inj {a b c d : Nat} (h : pair a b = pair c d) : a = c ∧ b = d := by
  have := congrArg unpair h
  rw [unpair_pair, unpair_pair] at this
  exact ⟨congrArg Prod.fst this, congrArg Prod.snd this⟩

theorem leafAddr_inj {k a b k' a' b' : Nat} (h : leafAddr k a b = leafAddr k' a' b') : k = k' ∧ a = a' ∧ b = b' := by
  obtain ⟨h1, h2⟩ := pair_inj h
  exact ⟨h1, pair_inj h2⟩

omit [DecidableEq C] in
theorem leafAt_addr (p : Provider C ν) (k pipe j : Nat) :
    leafAt p (leafAddr k pipe j) = (p.ordered[k]?).bind fun m => (m.comps[pipe]?).bind fun s => s.collectors[j]? := by
  unfold leafAt leafAddr
  rw [unpair_pair, unpair_pair]

omit [DecidableEq C] in
theorem instAt_addr (p : Provider C ν) (k i : Nat) : instAt p (instAddr k i) = (p.ordered[k]?).bind fun m => m.insts[i]? := by
  unfold instAt instAddr
  rw [unpair_pair]

/-! ### The state of a meter comes from the requests -/

/-- The compilers of the meter have registered exactly these, among them its instruments. -/
structure Traced (x : Ext C) (views : List (Views C)) (ds : List Desc) (m : Meter C ν) : Prop where
  comps : ∀ (pipe : Nat) (v : Views C) (s : State C), views[pipe]? = some v → m.comps[pipe]? = some s → s = registerAll x v m.scope State.new ds
  insts : ∀ o ∈ m.insts, o.desc ∈ ds

theorem registerAll_snoc (x : Ext C) (v : Views C) (sc : Scope) (s : State C) (ds : List Desc) (d : Desc) :
    registerAll x v sc s (ds ++ [d]) = (compile x v sc (registerAll x v sc s ds) d).1 := by
  unfold registerAll; rw [List.foldl_append]; rfl

theorem traced_new (x : Ext C) (views : List (Views C)) (sc : Scope) : Traced x views [] (newMeter views sc : Meter C ν) := by
  refine ⟨?_, fun o ho => by cases ho⟩
  intro pipe v s hv hs
  simp only [newMeter, List.getElem?_map, hv, Option.map_some, Option.some.injEq] at hs
  exact hs.symm

theorem configure_comps (x : Ext C) (views : List (Views C)) (m : Meter C ν) (d : Desc) :
    (configure x views m d).1.comps = (compileAll x views m d).map (·.1) ∧
    ((configure x views m d).1.insts = m.insts ∨ ∃ ls, (configure x views m d).1.insts = m.insts ++ [⟨d, ls⟩]) ∧
    (configure x views m d).1.scope = m.scope := by
  unfold configure
  dsimp only
  split
  · exact ⟨rfl, .inl rfl, rfl⟩
  · split
    · split
      · exact ⟨rfl, .inl rfl, rfl⟩
      · exact ⟨rfl, .inr ⟨_, rfl⟩, rfl⟩
    · exact ⟨rfl, .inr ⟨_, rfl⟩, rfl⟩

theorem traced_configure {x : Ext C} {views : List (Views C)} {ds : List Desc} {m : Meter C ν} (h : Traced x views ds m) (d : Desc) :
    Traced x views (ds ++ [d]) (configure x views m d).1 := by
  obtain ⟨h1, h2, h3⟩ := configure_comps x views m d
  refine ⟨?_, ?_⟩
  · intro pipe v s hv hs
    rw [h1, List.getElem?_map] at hs
    unfold compileAll at hs
    rw [List.getElem?_zipWith, hv] at hs
    cases hm : m.comps[pipe]? with
    | none => rw [hm] at hs; cases hs
    | some s0 =>
      rw [hm] at hs
      simp only [Option.map_some, Option.some.injEq] at hs
      rw [← hs, h3, registerAll_snoc, ← h.comps pipe v s0 hv hm]
  · intro o ho
    rcases h2 with h2 | ⟨ls, h2⟩
    · rw [h2] at ho
      exact List.mem_append_left _ (h.insts o ho)
    · rw [h2] at ho
      rcases List.mem_append.1 ho with ho | ho
      · exact List.mem_append_left _ (h.insts o ho)
      · rw [List.mem_singleton] at ho
        subst ho
        exact List.mem_append_right _ List.mem_cons_self

theorem traced_record {x : Ext C} {views : List (Views C)} {ds : List Desc} {m : Meter C ν} (h : Traced x views ds m) (i : Option Nat) (v : ν) :
    Traced x views ds (record m i v) := by
  obtain ⟨h1, h2, -, h4, -⟩ := record_fields m i v
  exact ⟨by rw [h2, h1]; exact h.comps, by rw [h4]; exact h.insts⟩

/-- Every meter of the provider is the result of requests made on it, and no two have the same scope. -/
structure Assembled (x : Ext C) (views : List (Views C)) (cs : List (Call ν)) (p : Provider C ν) : Prop where
  ok : ProvOk x p
  same_views : p.views = views
  nodup : (p.ordered.map (·.scope)).Nodup
  traced : ∀ (k : Nat) (m : Meter C ν), p.ordered[k]? = some m → ∃ ds, (∀ d ∈ ds, d ∈ requests k cs) ∧ Traced x views ds m

theorem requests_snoc (k : Nat) (cs : List (Call ν)) (c : Call ν) : ∀ d ∈ requests k cs, d ∈ requests k (cs ++ [c]) := by
  intro d hd
  unfold requests at hd ⊢
  rw [List.filterMap_append]
  exact List.mem_append_left _ hd

theorem Assembled.set {x : Ext C} {views : List (Views C)} {cs : List (Call ν)} {p : Provider C ν} (h : Assembled x views cs p) (c : Call ν) {k : Nat}
    {m m' : Meter C ν} (hk : p.ordered[k]? = some m) (hs : m'.scope = m.scope) (hok : ProvOk x { p with ordered := p.ordered.set k m' })
    (ht : ∀ ds, (∀ d ∈ ds, d ∈ requests k cs) → Traced x views ds m → ∃ ds', (∀ d ∈ ds', d ∈ requests k (cs ++ [c])) ∧ Traced x views ds' m') :
    Assembled x views (cs ++ [c]) { p with ordered := p.ordered.set k m' } := by
  refine ⟨hok, h.same_views, ?_, ?_⟩
  · have : (p.ordered.set k m').map (·.scope) = p.ordered.map (·.scope) := by
      rw [List.map_set, hs]
      refine List.ext_getElem? fun j => ?_
      rw [List.getElem?_set]
      split
      · rename_i e
        subst e
        rw [List.length_map]
        split
        · rw [List.getElem?_map, hk]; rfl
        · rename_i hlt
          exact absurd (List.getElem?_eq_some_iff.1 hk).1 hlt
      · rfl
    show ((p.ordered.set k m').map (·.scope)).Nodup
    rw [this]
    exact h.nodup
  · intro j mj hj
    dsimp only at hj
    rw [List.getElem?_set] at hj
    split at hj
    · rename_i e
      subst e
      split at hj
      · cases hj
        obtain ⟨ds, h1, h2⟩ := h.traced k m hk
        exact ht ds h1 h2
      · cases hj
    · obtain ⟨ds, h1, h2⟩ := h.traced j mj hj
      exact ⟨ds, fun d hd => requests_snoc _ _ _ d (h1 d hd), h2⟩

theorem Assembled.same {x : Ext C} {views : List (Views C)} {cs : List (Call ν)} {p : Provider C ν} (h : Assembled x views cs p) (c : Call ν) :
    Assembled x views (cs ++ [c]) p :=
  ⟨h.ok, h.same_views, h.nodup, fun k m hk => by
    obtain ⟨ds, h1, h2⟩ := h.traced k m hk
    exact ⟨ds, fun d hd => requests_snoc _ _ _ d (h1 d hd), h2⟩⟩

theorem Assembled.step {x : Ext C} {views : List (Views C)} {cs : List (Call ν)} {p : Provider C ν} (h : Assembled x views cs p) (c : Call ν) :
    Assembled x views (cs ++ [c]) (step x p c).1 := by
  have hok := (step_ok h.ok c).1
  cases c with
  | shutdown =>
    exact ⟨hok, h.same_views, h.nodup, (h.same .shutdown).traced⟩
  | meter sc =>
    obtain ⟨-, hv, hc⟩ := meter_spec h.ok sc
    show Assembled x views (cs ++ [.meter sc]) (meter p sc).1
    rcases hc with ⟨-, e⟩ | ⟨-, i, -, e⟩ | ⟨-, hn, -, -, e⟩
    · rw [e]; exact h.same _
    · rw [e]; exact h.same _
    · refine ⟨hok, hv.trans h.same_views, ?_, ?_⟩
      · rw [e, List.map_append, List.nodup_append]
        refine ⟨h.nodup, by simp, ?_⟩
        intro a ha b hb hab
        rw [List.map_cons, List.map_nil, List.mem_singleton] at hb
        rw [hab, hb] at ha
        exact hn ha
      · intro k m hk
        rw [e, List.getElem?_append] at hk
        split at hk
        · exact (h.same (.meter sc)).traced k m hk
        · refine ⟨[], by simp, ?_⟩
          have : m = newMeter p.views sc := by
            have := List.mem_of_getElem? hk
            simpa using this
          rw [this, h.same_views]
          exact traced_new x views sc
  | instrument k d =>
    simp only [Provider.step] at hok ⊢
    cases hk : p.ordered[k]? with
    | none => exact h.same _
    | some m =>
      rw [hk] at hok
      refine h.set (.instrument k d) hk (configure_comps x p.views m d).2.2 hok ?_
      intro ds h1 h2
      refine ⟨ds ++ [d], ?_, ?_⟩
      · intro e he
        rcases List.mem_append.1 he with he | he
        · exact requests_snoc _ _ _ e (h1 e he)
        · rw [List.mem_singleton] at he
          subst he
          unfold requests
          rw [List.filterMap_append]
          exact List.mem_append_right _ (by simp)
      · rw [h.same_views]
        exact traced_configure h2 d
  | record k i v =>
    simp only [Provider.step] at hok ⊢
    cases hk : p.ordered[k]? with
    | none => exact h.same _
    | some m =>
      rw [hk] at hok
      refine h.set (.record k i v) hk (record_fields m i v).1 hok ?_
      intro ds h1 h2
      exact ⟨ds, fun e he => requests_snoc _ _ _ e (h1 e he), traced_record h2 i v⟩

theorem assembled (x : Ext C) (views : List (Views C)) (cs : List (Call ν)) : Assembled x views cs (Provider.run x (Provider.new views) cs) := by
  have key : ∀ (n : Nat) (cs : List (Call ν)), cs.length = n → Assembled x views cs (Provider.run x (Provider.new views) cs) := by
    intro n
    induction n with
    | zero =>
      intro cs hc
      rw [List.length_eq_zero_iff] at hc
      subst hc
      exact ⟨new_ok x views, rfl, by simp [Provider.run, Provider.new], fun k m hk => by simp [Provider.run, Provider.new] at hk⟩
    | succ n ih =>
      intro cs hc
      have hne : cs ≠ [] := by intro e; rw [e] at hc; cases hc
      rw [← List.dropLast_concat_getLast hne, run_append]
      exact (ih cs.dropLast (by rw [List.length_dropLast, hc]; rfl)).step _
  exact key cs.length cs rfl

/-! ### One output metric for each name -/

/-- At most one output metric has this name, and it has this identity. -/
structure One (n : Str) (I : Identity C) (dl : Bool) (s : State C) : Prop where
  leaf : ∀ (i : Nat) (f : Leaf C), s.collectors[i]? = some f → f.desc.name = n → f.identity = I ∧ f.delta = dl
  uniq : ∀ (i j : Nat) (f g : Leaf C), s.collectors[i]? = some f → s.collectors[j]? = some g → f.desc.name = n → g.desc.name = n → i = j

omit [DecidableEq C] in
theorem merge_delta (l : Leaf C) (d : Str) : (mergeDescription l d).delta = l.delta := by
  unfold mergeDescription; split <;> rfl

/-- The behavior asks for the metric with this identity. -/
structure Fitting (I : Identity C) (dl : Bool) (b : Behavior C) : Prop where
  identity : b.identity = I
  comp : Compilable b
  delta : (buildLeaf b).delta = dl

theorem One.place {n : Str} {I : Identity C} {dl : Bool} {s : State C} (h : One n I dl s) (hok : Ok s) (b : Behavior C)
    (hb : b.desc.name = n → Fitting I dl b) : One n I dl (place s b).1 := by
  unfold Views.place
  split
  · rename_i i hi
    have key : ∀ (j : Nat) (f : Leaf C), (s.collectors.modify i (fun l => mergeDescription l b.desc.desc))[j]? = some f → f.desc.name = n →
        ∃ f0 : Leaf C, s.collectors[j]? = some f0 ∧ f0.desc.name = n ∧ f.identity = f0.identity ∧ f.delta = f0.delta := by
      intro j f hf hn
      rw [modify_get] at hf
      split at hf
      · cases hj : s.collectors[j]? with
        | none => rw [hj] at hf; cases hf
        | some f0 =>
          rw [hj] at hf
          simp only [Option.map_some, Option.some.injEq] at hf
          subst hf
          exact ⟨f0, rfl, by rw [← merge_name f0 b.desc.desc]; exact hn, merge_same _ _, merge_delta _ _⟩
      · exact ⟨f, hf, hn, rfl, rfl⟩
    refine ⟨?_, ?_⟩
    · intro j f hf hn
      obtain ⟨f0, h1, h2, h3, h4⟩ := key j f hf hn
      obtain ⟨a, b⟩ := h.leaf j f0 h1 h2
      exact ⟨h3.trans a, h4.trans b⟩
    · intro j k f g hf hg hfn hgn
      obtain ⟨f0, h1, h2, -⟩ := key j f hf hfn
      obtain ⟨g0, i1, i2, -⟩ := key k g hg hgn
      exact h.uniq j k f0 g0 h1 i1 h2 i2
  · rename_i hnone
    have hnone' := (find_none_iff hok).1 hnone
    have key : ∀ (j : Nat) (f : Leaf C), (s.collectors ++ [buildLeaf b])[j]? = some f →
        s.collectors[j]? = some f ∨ (j = s.collectors.length ∧ f = buildLeaf b) := by
      intro j f hf
      rw [List.getElem?_append] at hf
      split at hf
      · exact .inl hf
      · rename_i hlt
        rw [List.getElem?_singleton] at hf
        split at hf
        · rename_i h0
          exact .inr ⟨by omega, by cases hf; rfl⟩
        · cases hf
    have excl : ∀ (j : Nat) (f : Leaf C), s.collectors[j]? = some f → f.desc.name = n → b.desc.name = n → False := by
      intro j f hf hfn hbn
      exact hnone' f (List.mem_of_getElem? hf) ((h.leaf j f hf hfn).1.trans (hb hbn).identity.symm)
    refine ⟨?_, ?_⟩
    · intro j f hf hn
      rcases key j f hf with hf | ⟨-, rfl⟩
      · exact h.leaf j f hf hn
      · have hb' := hb hn
        exact ⟨(build_identity hb'.comp).trans hb'.identity, hb'.delta⟩
    · intro j k f g hf hg hfn hgn
      rcases key j f hf with hf | ⟨ej, rfl⟩
      · rcases key k g hg with hg | ⟨ek, rfl⟩
        · exact h.uniq j k f g hf hg hfn hgn
        · exact (excl j f hf hfn hgn).elim
      · rcases key k g hg with hg | ⟨ek, rfl⟩
        · exact (excl k g hg hgn hfn).elim
        · rw [ej, ek]

theorem One.loop {n : Str} {I : Identity C} {dl : Bool} (ik : IKind) {s : State C} (h : One n I dl s) (hok : Ok s) (bs : List (Behavior C))
    (hb : ∀ b ∈ bs, b.desc.name = n → Fitting I dl (checkSemantic ik b).1) : One n I dl (compileLoop ik s bs).1 := by
  induction bs generalizing s with
  | nil => exact h
  | cons b bs ih =>
    refine ih (h.place hok _ ?_) (hok.place _) (fun b' hb' => hb b' (List.mem_cons_of_mem _ hb'))
    intro hn
    rw [(checkSemantic_desc ik b).1] at hn
    exact hb b List.mem_cons_self hn

/-- The names of the output metrics asked for, hints or not. -/
theorem behaviors_name (x : Ext C) (v : Views C) (sc : Scope) (d : Desc) (b : Behavior C) (hb : b ∈ (behaviors x v sc d).1) :
    OutputName v sc d b.desc.name := by
  unfold behaviors at hb
  dsimp only at hb
  split at hb
  · rename_i he
    refine .inr ⟨?_, ?_⟩
    · rw [List.isEmpty_iff, List.filter_eq_nil_iff] at he
      exact fun c hc ha => he c hc ((matches_iff c sc d).2 ha)
    · dsimp only at hb
      split at hb
      · cases hb
      · rw [List.mem_singleton] at hb
        rw [hb]
        exact (try_desc x v d).1
  · have h := (clauseBehaviors_desc x v (v.clauses.filter (fun c => «matches» c sc d)) d).2
    have hm := List.mem_map_of_mem (f := fun b : Behavior C => (b.desc.name, b.desc.num, b.desc.unit, b.desc.kind, b.keys)) hb
    rw [h] at hm
    obtain ⟨c, hc, e⟩ := List.mem_map.1 hm
    obtain ⟨hc1, hc2⟩ := List.mem_filter.1 hc
    obtain ⟨h1, h2⟩ := List.mem_filter.1 hc1
    simp only [Prod.mk.injEq] at e
    exact .inl ⟨c, h1, (matches_iff c sc d).1 h2, by simpa using hc2, e.1.symm⟩

/-- The metric which the defaults of a reader give the instruments of a constructor. -/
def identityFor (v : Views C) (c : Ctor) (n unit : Str) : Identity C :=
  { name := n, unit := unit, num := c.kinds.1, synchronous := c.kinds.2.synchronous, kind := v.defaults.agg c.kinds.2
    acfg := v.defaults.acfg c.kinds.2 c.kinds.1, keys := none }

theorem behaviors_default (x : Ext C) (v : Views C) (sc : Scope) {d : Desc} (hn : NoHint d) (hc : ∀ cl ∈ v.clauses, ¬ Applies cl sc d)
    (ha : v.defaults.agg d.kind ≠ .drop) : (behaviors x v sc d).1 =
      [{ fromName := d.name, desc := d, kind := v.defaults.agg d.kind, tempo := v.defaults.tempo d.kind
         acfg := v.defaults.acfg d.kind d.num, keys := none, hinted := false }] := by
  rw [behaviors_plain x v sc hn]
  dsimp only
  have he : (v.clauses.filter (fun c => «matches» c sc d)).isEmpty = true := by
    rw [List.isEmpty_iff, List.filter_eq_nil_iff]
    exact fun c hc' hm => hc c hc' ((matches_iff c sc d).1 hm)
  rw [if_pos he, if_neg ha]

theorem legal_not_drop {ik : IKind} {a : AggKind} (h : Legal ik a) : a ≠ .drop := by
  intro e
  subst e
  cases ik <;> simp [Legal] at h

/-- The temporality: asynchronous gauges are never delta. -/
def deltaFor (v : Views C) (c : Ctor) : Bool :=
  decide (v.defaults.tempo c.kinds.2 = .delta ∧ (c.kinds.2.synchronous = true ∨ v.defaults.agg c.kinds.2 ≠ .gauge))

omit [DecidableEq C] in
theorem deltaFor_sync (v : Views C) {c : Ctor} (hs : c.kinds.2.synchronous = true) : deltaFor v c = decide (v.defaults.tempo c.kinds.2 = .delta) := by
  unfold deltaFor
  simp [hs]

theorem plain_behaviors (x : Ext C) {v : Views C} {sc : Scope} {ds : List Desc} {c : Ctor} {n unit : Str} (hp : Plain v sc ds c n unit)
    (hl : Legal c.kinds.2 (v.defaults.agg c.kinds.2)) {d : Desc} (hd : d ∈ ds) :
    (d.name = n → ∃ b, (behaviors x v sc d).1 = [b] ∧ b.desc.name = n) ∧
    (d.name ≠ n → ∀ b ∈ (behaviors x v sc d).1, b.desc.name ≠ n) ∧
    ∀ b ∈ (behaviors x v sc d).1, b.desc.name = n →
      Fitting (identityFor v c n unit) (deltaFor v c) (checkSemantic d.kind b).1 := by
  have main : d.name = n ∨ OutputName v sc d n → d.name = n ∧ (behaviors x v sc d).1 =
      [{ fromName := d.name, desc := d, kind := v.defaults.agg d.kind, tempo := v.defaults.tempo d.kind
         acfg := v.defaults.acfg d.kind d.num, keys := none, hinted := false }] ∧ ∃ text, d = c.desc n text unit := by
    intro h
    obtain ⟨⟨text, rfl⟩, h2, h3⟩ := hp d hd h
    exact ⟨rfl, behaviors_default x v sc h2 h3 (legal_not_drop hl), text, rfl⟩
  refine ⟨?_, ?_, ?_⟩
  · intro h
    exact ⟨_, (main (.inl h)).2.1, h⟩
  · intro h b hb hbn
    exact h (main (.inr (hbn ▸ behaviors_name x v sc d b hb))).1
  · intro b hb hbn
    obtain ⟨-, h2, text, rfl⟩ := main (.inr (hbn ▸ behaviors_name x v sc d b hb))
    rw [h2, List.mem_singleton] at hb
    subst hb
    have hk : checkKind c.kinds.2 (v.defaults.agg c.kinds.2) = (v.defaults.agg c.kinds.2, none) := checkKind_keep _ _ hl
    simp only [checkSemantic, Ctor.desc, Bool.false_eq_true, if_false, hk]
    refine ⟨rfl, ?_, ?_⟩
    · exact compilable_legal _ hl
    · unfold deltaFor buildLeaf
      have hg : c.kinds.2.synchronous = false → asyncMethods (v.defaults.agg c.kinds.2) = v.defaults.agg c.kinds.2 := by
        intro hs
        cases h1 : c.kinds.2 <;> rw [h1] at hl hs <;> cases h2 : v.defaults.agg _ <;> rw [h2] at hl <;> simp [Legal] at hl <;> first | rfl | cases hs
      cases hs : c.kinds.2.synchronous with
      | true => simp
      | false => simp [hg hs]

theorem One.compile (x : Ext C) {v : Views C} {sc : Scope} {ds : List Desc} {c : Ctor} {n unit : Str} (hp : Plain v sc ds c n unit)
    (hl : Legal c.kinds.2 (v.defaults.agg c.kinds.2)) :
    One n (identityFor v c n unit) (deltaFor v c) (registerAll x v sc State.new ds) := by
  have key : ∀ (es : List Desc) (s : State C), Ok s → One n (identityFor v c n unit) (deltaFor v c) s →
      (∀ d ∈ es, d ∈ ds) → One n (identityFor v c n unit) (deltaFor v c) (registerAll x v sc s es) := by
    intro es
    induction es with
    | nil => intro s _ h _; exact h
    | cons d es ih =>
      intro s hok h hes
      refine ih _ (compile_ok x v sc hok d) ?_ (fun e he => hes e (List.mem_cons_of_mem _ he))
      show One _ _ _ (Views.compile x v sc s d).1
      rw [compile_eq]
      exact h.loop d.kind hok _ (plain_behaviors x hp hl (hes d List.mem_cons_self)).2.2
  refine key ds State.new Ok.new ⟨?_, ?_⟩ (fun d h => h)
  · intro i f hf; simp [State.new] at hf
  · intro i j f g hf; simp [State.new] at hf

/-! ### The output metric of a name -/

omit [DecidableEq C] in
theorem Plain.mono {v : Views C} {sc : Scope} {ds es : List Desc} {c : Ctor} {n unit : Str} (h : Plain v sc es c n unit) (hs : ∀ d ∈ ds, d ∈ es) :
    Plain v sc ds c n unit := fun d hd => h d (hs d hd)

/-- Where the output metric of a name is. -/
structure Located (m : Meter C ν) (pipe : Nat) (v : Views C) (c : Ctor) (n unit : Str) (s : State C) (j : Nat) (f : Leaf C) : Prop where
  comp : m.comps[pipe]? = some s
  leaf : s.collectors[j]? = some f
  name : f.desc.name = n
  uniq : ∀ (i : Nat) (g : Leaf C), s.collectors[i]? = some g → g.desc.name = n → i = j
  identity : f.identity = identityFor v c n unit
  delta : f.delta = deltaFor v c
  keys : f.keys = none
  insts : ∀ o ∈ m.insts, ∃ ls, o.leaves[pipe]? = some ls ∧ (o.desc.name = n → ls = [j]) ∧ (o.desc.name ≠ n → j ∉ ls)
  ctor : ∀ o ∈ m.insts, o.desc.name = n → ∃ text, o.desc = c.desc n text unit

theorem located {x : Ext C} {views : List (Views C)} {cs : List (Call ν)} {p : Provider C ν} (h : Assembled x views cs p) {pipe k : Nat}
    {v : Views C} {m : Meter C ν} (hv : views[pipe]? = some v) (hk : p.ordered[k]? = some m) {c : Ctor} {n unit : Str}
    (hp : Plain v m.scope (requests k cs) c n unit) (hl : Legal c.kinds.2 (v.defaults.agg c.kinds.2))
    (hi : ∃ o ∈ m.insts, o.desc.name = n) : ∃ s j f, Located m pipe v c n unit s j f := by
  obtain ⟨ds, hds, ht⟩ := h.traced k m hk
  have hp' := hp.mono hds
  have hm := h.ok.meters m (List.mem_of_getElem? hk)
  rw [h.same_views] at hm
  have hlt : pipe < m.comps.length := by rw [hm.comps]; exact (List.getElem?_eq_some_iff.1 hv).1
  obtain ⟨s, hsc⟩ : ∃ s, m.comps[pipe]? = some s := ⟨_, List.getElem?_eq_getElem hlt⟩
  have hone : One n (identityFor v c n unit) (deltaFor v c) s := by
    rw [ht.comps pipe v s hv hsc]
    exact One.compile x hp' hl
  have hls : ∀ o ∈ m.insts, ∃ ls, o.leaves[pipe]? = some ls ∧ Each (Named s) ls (behaviors x v m.scope o.desc).1 := by
    intro o ho
    have hlen := hm.leaves o ho
    have hlt' : pipe < o.leaves.length := by rw [hlen]; exact (List.getElem?_eq_some_iff.1 hv).1
    exact ⟨_, List.getElem?_eq_getElem hlt', hm.count o ho pipe _ v s (List.getElem?_eq_getElem hlt') hv hsc⟩
  obtain ⟨o0, ho0, hn0⟩ := hi
  obtain ⟨ls0, -, hb0⟩ := hls o0 ho0
  obtain ⟨b0, hb1, hbn⟩ := (plain_behaviors x hp' hl (ht.insts o0 ho0)).1 hn0
  rw [hb1] at hb0
  obtain ⟨j, f, hj, hfn⟩ : ∃ (j : Nat) (f : Leaf C), s.collectors[j]? = some f ∧ f.desc.name = n := by
    cases hb0 with
    | cons h1 h2 =>
      obtain ⟨f, h3, h4⟩ := h1
      exact ⟨_, f, h3, h4.trans hbn⟩
  obtain ⟨hid, hdl⟩ := hone.leaf j f hj hfn
  have hkeys : f.keys = none := by
    have : f.keys.map keysToSet = none := congrArg Identity.keys hid
    simpa using this
  refine ⟨s, j, f, hsc, hj, hfn, fun i g hg hgn => hone.uniq i j g f hg hj hgn hfn, hid, hdl, hkeys, ?_, ?_⟩
  · intro o ho
    obtain ⟨ls, a1, a2⟩ := hls o ho
    refine ⟨ls, a1, ?_, ?_⟩
    · intro hon
      obtain ⟨b, b1, b2⟩ := (plain_behaviors x hp' hl (ht.insts o ho)).1 hon
      rw [b1] at a2
      cases a2 with
      | cons h4 h5 =>
        cases h5
        obtain ⟨g, h6, h7⟩ := h4
        rw [hone.uniq _ j g f h6 hj (h7.trans b2) hfn]
    · intro hne hb
      obtain ⟨t, ht'⟩ := List.getElem?_of_mem hb
      obtain ⟨b', hb', hnm⟩ := a2.get' ht'
      obtain ⟨g, hg, hgn⟩ := hnm
      rw [hj] at hg
      cases hg
      exact (plain_behaviors x hp' hl (ht.insts o ho)).2.1 hne b' (List.mem_of_getElem? hb') (hgn.symm.trans hfn)
  · intro o ho hon
    exact (hp' o.desc (ht.insts o ho) (.inl hon)).1

end Verif.Assembly
