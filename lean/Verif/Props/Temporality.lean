import Verif.Props.Views
import Verif.Props.Launcher
import Verif.Props.ViewOptions

/-!
C78: the temporality with which output metrics are reported is the configured one, and when it is not.
-/

namespace Verif.Props
open Verif.Attr Verif.Front Verif.Views

variable {H : Type} [DecidableEq H]

/-! ### What is meant -/

/-- The word names the temporality, in any case. -/
def TempoWord (x : Ext H) (w : Str) (t : Tempo) : Prop :=
  w ≠ [] ∧ ((x.lower w = lit "cumulative" ∧ t = .cumulative) ∨ (x.lower w = lit "delta" ∧ t = .delta))

/-- The description of the instrument is a hint that names temporality `t`. -/
def TempoHint (x : Ext H) (d : Desc) (t : Tempo) : Prop :=
  (123 : UInt8) ∈ d.desc ∧ ∃ h, x.parseHint d.desc = some h ∧ TempoWord x h.temporality t

/-- The temporality configured for an instrument: the one its hint names, otherwise the reader's for its kind. -/
def TempoFor (x : Ext H) (v : Views H) (d : Desc) (t : Tempo) : Prop :=
  TempoHint x d t ∨ ((∀ t', ¬ TempoHint x d t') ∧ t = v.defaults.tempo d.kind)

/-- An output is reported with temporality `t`: as deltas exactly when `t` says so. The value of an asynchronous gauge has no
delta. -/
def ReportedAs (l : Leaf H) (t : Tempo) : Prop :=
  l.delta = true ↔ t = .delta ∧ ¬ (l.desc.kind.synchronous = false ∧ l.kind = .gauge)

/-! ### Lemmas -/

theorem build_reported (b : Behavior H) : ReportedAs (buildLeaf b) b.tempo := by
  unfold ReportedAs buildLeaf
  dsimp only
  by_cases h : b.desc.kind.synchronous = true
  · simp [h]
  · simp [h]

theorem try_tempo (x : Ext H) (v : Views H) (d : Desc) (t : Tempo) (h : TempoFor x v d t) : (tryToApplyHint x v d).tempo = t := by
  by_cases hb : (123 : UInt8) ∈ d.desc
  · have hc : d.desc.contains 123 = true := List.contains_iff_mem.2 hb
    unfold tryToApplyHint
    dsimp only
    rw [hc]
    simp only [if_true]
    cases hp : x.parseHint d.desc with
    | none =>
      rcases h with ⟨_, hh, h1, _⟩ | ⟨_, h⟩
      · rw [hp] at h1; cases h1
      · exact h.symm
    | some g =>
      dsimp only
      rcases h with ⟨_, hh, h1, h2, h3⟩ | ⟨h0, h⟩
      · rw [hp] at h1; cases h1
        rw [if_neg h2]
        unfold parseTempo
        rcases h3 with ⟨h3, rfl⟩ | ⟨h3, rfl⟩
        · simp only [h3, if_true]; rfl
        · have : ¬ lit "delta" = lit "cumulative" := by decide +kernel
          simp only [h3, if_true, this, if_false]; rfl
      · subst h
        by_cases hg : g.temporality = []
        · rw [if_pos hg]
        · rw [if_neg hg]
          unfold parseTempo
          dsimp only
          by_cases h1 : x.lower g.temporality = lit "cumulative"
          · exact absurd ⟨hb, g, hp, hg, Or.inl ⟨h1, rfl⟩⟩ (h0 .cumulative)
          · by_cases h2 : x.lower g.temporality = lit "delta"
            · exact absurd ⟨hb, g, hp, hg, Or.inr ⟨h2, rfl⟩⟩ (h0 .delta)
            · simp only [h1, h2, if_false]
  · rw [noHint_try x v hb]
    rcases h with h | h
    · exact absurd h.1 hb
    · exact h.2.symm

/-- The first behavior has the temporality configured for the instrument. -/
theorem clause_tempo (x : Ext H) (v : Views H) (cs : List (Clause H)) (d : Desc) (t : Tempo) (h : TempoFor x v d t) (b : Behavior H)
    (hb : (clauseBehaviors x v cs d).1[0]? = some b) : b.tempo = t := by
  induction cs with
  | nil => simp [clauseBehaviors] at hb
  | cons c cs ih =>
    unfold clauseBehaviors at hb
    by_cases hc : c.agg = .drop
    · simp only [hc, if_true] at hb
      exact ih hb
    · simp only [hc, if_false, List.getElem?_cons_zero, Option.some.injEq] at hb
      subst hb
      exact try_tempo x v d t h

theorem first_tempo (x : Ext H) (v : Views H) (lib : Scope) (d : Desc) (t : Tempo) (h : TempoFor x v d t) (b : Behavior H)
    (hb : (behaviors x v lib d).1[0]? = some b) : b.tempo = t := by
  unfold behaviors at hb
  dsimp only at hb
  split at hb
  · dsimp only at hb
    split at hb
    · cases hb
    · simp only [List.getElem?_cons_zero, Option.some.injEq] at hb
      subst hb
      exact try_tempo x v d t h
  · exact clause_tempo x v _ d t h b hb

theorem plain_tempo (x : Ext H) (v : Views H) (lib : Scope) {d : Desc} (hn : NoHint d) : ∀ b ∈ (behaviors x v lib d).1, b.tempo = v.defaults.tempo d.kind := by
  intro b hb
  rw [behaviors_plain x v lib hn] at hb
  dsimp only at hb
  split at hb
  · split at hb
    · cases hb
    · rw [List.mem_singleton] at hb; subst hb; rfl
  · obtain ⟨c, _, rfl⟩ := List.mem_map.1 hb; rfl

/-- What does not change about an output. -/
def Fixed (l l' : Leaf H) : Prop := l'.delta = l.delta ∧ l'.desc.kind = l.desc.kind ∧ l'.kind = l.kind ∧ l'.desc.name = l.desc.name

theorem Fixed.reported {l l' : Leaf H} (h : Fixed l l') {t : Tempo} : ReportedAs l' t ↔ ReportedAs l t := by
  unfold ReportedAs; rw [h.1, h.2.1, h.2.2.1]

theorem merge_fixed (l : Leaf H) (d : Str) : Fixed l (mergeDescription l d) := by
  unfold mergeDescription Fixed; split <;> exact ⟨rfl, rfl, rfl, rfl⟩

theorem place_cases (s : State H) (b : Behavior H) (i : Nat) (l' : Leaf H) (h : (place s b).1.collectors[i]? = some l') :
    (∃ l, s.collectors[i]? = some l ∧ Fixed l l') ∨ (s.collectors.length ≤ i ∧ l' = buildLeaf b) := by
  unfold Views.place at h
  split at h
  · rename_i k hk
    simp only [modify_get] at h
    split at h
    · obtain ⟨l, h1, h2⟩ := Option.map_eq_some_iff.1 h
      subst h2
      exact Or.inl ⟨l, h1, merge_fixed l _⟩
    · exact Or.inl ⟨l', h, rfl, rfl, rfl, rfl⟩
  · dsimp only at h
    by_cases hi : i < s.collectors.length
    · rw [List.getElem?_append_left hi] at h
      exact Or.inl ⟨l', h, rfl, rfl, rfl, rfl⟩
    · refine Or.inr ⟨Nat.le_of_not_lt hi, ?_⟩
      rw [List.getElem?_append_right (Nat.le_of_not_lt hi)] at h
      have := List.mem_of_getElem? h
      rw [List.mem_singleton] at this
      exact this

theorem loop_cases (ik : IKind) (s : State H) (bs : List (Behavior H)) (i : Nat) (l' : Leaf H)
    (h : (compileLoop ik s bs).1.collectors[i]? = some l') :
    (∃ l, s.collectors[i]? = some l ∧ Fixed l l') ∨ (s.collectors.length ≤ i ∧ ∃ b ∈ bs, Fixed (buildLeaf (checkSemantic ik b).1) l') := by
  induction bs generalizing s with
  | nil => exact Or.inl ⟨l', h, rfl, rfl, rfl, rfl⟩
  | cons b bs ih =>
    rcases ih _ h with ⟨l, h1, h2⟩ | ⟨h1, b', hb', h2⟩
    · rcases place_cases s _ i l h1 with ⟨l0, h3, h4⟩ | ⟨h3, h4⟩
      · exact Or.inl ⟨l0, h3, h2.1.trans h4.1, h2.2.1.trans h4.2.1, h2.2.2.1.trans h4.2.2.1, h2.2.2.2.trans h4.2.2.2⟩
      · subst h4
        exact Or.inr ⟨h3, b, List.mem_cons_self, h2⟩
    · refine Or.inr ⟨Nat.le_trans ?_ h1, b', List.mem_cons_of_mem _ hb', h2⟩
      unfold Views.place
      split
      · simp
      · simp

/-- Every output belongs to the kind of a registered instrument and has the reader's temporality for that kind. -/
theorem own_kind (x : Ext H) (v : Views H) (lib : Scope) (ds : List Desc) (hn : ∀ d ∈ ds, NoHint d) (s : State H) (P : IKind → Prop)
    (h0 : ∀ (i : Nat) (l : Leaf H), s.collectors[i]? = some l → P l.desc.kind ∧ ReportedAs l (v.defaults.tempo l.desc.kind))
    (hP : ∀ d ∈ ds, P d.kind) :
    ∀ (i : Nat) (l : Leaf H), (registerAll x v lib s ds).collectors[i]? = some l → P l.desc.kind ∧ ReportedAs l (v.defaults.tempo l.desc.kind) := by
  induction ds generalizing s with
  | nil => exact h0
  | cons d ds ih =>
    refine ih (fun d' hd' => hn d' (List.mem_cons_of_mem _ hd')) _ ?_ (fun d' hd' => hP d' (List.mem_cons_of_mem _ hd'))
    intro i l hl
    dsimp only at hl
    rw [compile_eq] at hl
    rcases loop_cases _ _ _ i l hl with ⟨l0, h1, h2⟩ | ⟨_, b, hb, h2⟩
    · obtain ⟨h3, h4⟩ := h0 i l0 h1
      rw [← h2.2.1] at h3 h4
      exact ⟨h3, h2.reported.2 h4⟩
    · have hk : l.desc.kind = d.kind := by
        rw [h2.2.1]
        show (checkSemantic d.kind b).1.desc.kind = _
        rw [(checkSemantic_desc d.kind b).1]
        exact behaviors_dkind x v lib d b hb
      refine ⟨hk ▸ hP d List.mem_cons_self, h2.reported.2 ?_⟩
      have := build_reported (checkSemantic d.kind b).1
      rw [(checkSemantic_desc d.kind b).2.2.2.1, plain_tempo x v lib (hn d List.mem_cons_self) b hb] at this
      rw [hk]; exact this

/-! ### C78 -/

/-- C78. Without hints, every output metric of a reader has the reader's temporality for the kind of the instrument it was
made for, one of the registered ones. -/
theorem C78_own_kind (x : Ext H) (v : Views H) (lib : Scope) (ds : List Desc) (hn : ∀ d ∈ ds, NoHint d) :
    ∀ l ∈ (registerAll x v lib State.new ds).collectors,
      (∃ d ∈ ds, l.desc.kind = d.kind) ∧ ReportedAs l (v.defaults.tempo l.desc.kind) := by
  intro l hl
  obtain ⟨i, hi⟩ := List.getElem?_of_mem hl
  exact own_kind x v lib ds hn State.new (fun k => ∃ d ∈ ds, k = d.kind) (fun i l h => by cases h) (fun d hd => ⟨d, hd, rfl⟩) i l hi

/-- C78 (partial): no output of that name was there before. The first output of the instrument has the temporality configured
for the instrument, by hint or by the reader; without a hint all its outputs have it. Missing: outputs shared with earlier
instruments (`C78_same_name_fails`, `C78_view_fails`), further outputs of hinted instruments (`C78_second_clause_fails`). -/
theorem C78_first_partial (x : Ext H) (v : Views H) (lib : Scope) (ds : List Desc) (d : Desc) (t : Tempo) (ht : TempoFor x v d t)
    (j : Nat) (hj : j = 0 ∨ NoHint d) (l : Leaf H) (hw : WritesAt (compile x v lib (registerAll x v lib State.new ds) d) j l)
    (hnew : ∀ l0 ∈ (registerAll x v lib State.new ds).collectors, l0.desc.name ≠ l.desc.name) :
    l.desc.kind = d.kind ∧ ReportedAs l t := by
  have hok := registerAll_ok x v lib (Ok.new (H := H)) ds
  generalize registerAll x v lib State.new ds = s at hok hw hnew
  obtain ⟨i, hi, hl⟩ := hw
  rw [compile_eq] at hi hl
  have key : ∃ b ∈ (behaviors x v lib d).1, b.tempo = t ∧ Fixed (buildLeaf (checkSemantic d.kind b).1) l := by
    rcases hj with rfl | hn
    · cases hbs : (behaviors x v lib d).1 with
      | nil => rw [hbs] at hi; cases hi
      | cons b bs =>
        rw [hbs] at hi hl
        have ht' := first_tempo x v lib d t ht b (by rw [hbs]; rfl)
        refine ⟨b, List.mem_cons_self, ht', ?_⟩
        unfold compileLoop at hi hl
        dsimp only at hi hl
        rw [List.getElem?_cons_zero, Option.some.injEq] at hi
        subst hi
        obtain ⟨l1, h1, -, -⟩ := place_leaf hok (checkSemantic d.kind b).1
        have hf : Fixed l1 l := by
          rcases loop_cases _ _ _ _ l hl with ⟨l2, h2, h3⟩ | ⟨h2, -⟩
          · rw [h1] at h2; cases h2; exact h3
          · exact absurd (List.getElem?_eq_some_iff.1 h1).1 (Nat.not_lt.2 h2)
        rcases place_cases s _ _ l1 h1 with ⟨l0, h3, h4⟩ | ⟨_, h4⟩
        · exact absurd (hf.2.2.2.trans h4.2.2.2).symm (hnew l0 (List.mem_of_getElem? h3))
        · exact h4 ▸ hf
    · rcases loop_cases _ _ _ i l hl with ⟨l0, h3, h4⟩ | ⟨_, b, hb, h4⟩
      · exact absurd h4.2.2.2.symm (hnew l0 (List.mem_of_getElem? h3))
      · refine ⟨b, hb, ?_, h4⟩
        rw [plain_tempo x v lib hn b hb]
        rcases ht with h | h
        · exact absurd h.1 hn
        · exact h.2.symm
  obtain ⟨b, hb, hbt, hf⟩ := key
  refine ⟨?_, hf.reported.2 ?_⟩
  · rw [hf.2.1]
    show (checkSemantic d.kind b).1.desc.kind = _
    rw [(checkSemantic_desc d.kind b).1]
    exact behaviors_dkind x v lib d b hb
  · have := build_reported (checkSemantic d.kind b).1
    rw [(checkSemantic_desc d.kind b).2.2.2.1, hbt] at this
    exact this

/-- The standard aggregation and whether it is synchronous give the kind of an instrument. -/
theorem standard_kind {k k' : IKind} (h : standardAgg k = standardAgg k') (hs : k.synchronous = k'.synchronous) : k = k' := by
  revert h hs; cases k <;> cases k' <;> simp [standardAgg, IKind.synchronous]

/-- C78. No clauses, no hints, the standard aggregations: whatever else is registered, under whatever names, an instrument has
one output, of its own kind, with the reader's temporality for that kind. -/
theorem C78_standard (x : Ext H) (v : Views H) (lib : Scope) (hc : v.clauses = []) (ha : v.defaults.agg = standardAgg)
    (before after : List Desc) (d : Desc) (hn : ∀ d' ∈ before ++ d :: after, NoHint d') :
    ∃ i l, (compile x v lib (registerAll x v lib State.new before) d).2.1 = [i] ∧
      (registerAll x v lib State.new (before ++ d :: after)).collectors[i]? = some l ∧
      l.desc.kind = d.kind ∧ ReportedAs l (v.defaults.tempo d.kind) := by
  have hnd : NoHint d := hn d (by simp)
  have hok := registerAll_ok x v lib (Ok.new (H := H)) before
  have hb : (behaviors x v lib d).1 = [{ fromName := d.name, desc := d, kind := standardAgg d.kind, tempo := v.defaults.tempo d.kind, acfg := v.defaults.acfg d.kind d.num, keys := none, hinted := false }] := by
    rw [behaviors_plain x v lib hnd, hc, ha]
    have : ¬ standardAgg d.kind = .drop := by cases d.kind <;> simp [standardAgg]
    simp [this]
  have hl := loop_leaves d.kind hok (behaviors x v lib d).1
  have hle := registerAll_le x v lib (compile x v lib (registerAll x v lib State.new before) d).1 after
  have hall : registerAll x v lib State.new (before ++ d :: after) =
      registerAll x v lib (compile x v lib (registerAll x v lib State.new before) d).1 after := by
    unfold registerAll; rw [List.foldl_append]; rfl
  rw [hall]
  obtain ⟨i, hi, l, hil, hid, _⟩ := hl.get (i := 0) (by rw [hb]; rfl)
  have hlen : (compile x v lib (registerAll x v lib State.new before) d).2.1.length = 1 := by
    rw [compile_eq, hl.length, hb]; rfl
  rw [← compile_eq] at hi hil
  obtain ⟨l', hl', hid', -, -⟩ := hle.leaf i l hil
  have hids : l'.kind = standardAgg d.kind ∧ l'.desc.kind.synchronous = d.kind.synchronous := by
    have hcs : checkSemantic d.kind { fromName := d.name, desc := d, kind := standardAgg d.kind, tempo := v.defaults.tempo d.kind, acfg := v.defaults.acfg d.kind d.num, keys := none, hinted := false } =
        ({ fromName := d.name, desc := d, kind := standardAgg d.kind, tempo := v.defaults.tempo d.kind, acfg := v.defaults.acfg d.kind d.num, keys := none, hinted := false }, none) := by
      unfold checkSemantic
      have : checkKind d.kind (standardAgg d.kind) = (standardAgg d.kind, none) := checkKind_keep _ _ (by cases d.kind <;> simp [Legal, standardAgg])
      simp [this]
    rw [hcs] at hid
    have e1 : l'.identity.kind = standardAgg d.kind ∧ l'.identity.synchronous = d.kind.synchronous := by
      rw [hid']
      rcases hid with hid | hid
      · rw [hid]; exact ⟨rfl, rfl⟩
      · rw [hid]
        refine ⟨?_, rfl⟩
        show (if d.kind.synchronous then syncMethods (standardAgg d.kind) else asyncMethods (standardAgg d.kind)) = _
        cases d.kind <;> rfl
    exact e1
  -- the output is of the standard aggregation of its own kind
  have hstd : ∀ (ds : List Desc) (s : State H), (∀ d' ∈ ds, NoHint d') → (∀ (i : Nat) (l : Leaf H), s.collectors[i]? = some l → l.kind = standardAgg l.desc.kind) →
      ∀ (i : Nat) (l : Leaf H), (registerAll x v lib s ds).collectors[i]? = some l → l.kind = standardAgg l.desc.kind := by
    intro ds
    induction ds with
    | nil => intro s _ h; exact h
    | cons e ds ih =>
      intro s hne h
      refine ih _ (fun d' hd' => hne d' (List.mem_cons_of_mem _ hd')) ?_
      intro i l hl
      dsimp only at hl
      rw [compile_eq] at hl
      rcases loop_cases _ _ _ i l hl with ⟨l0, h1, h2⟩ | ⟨_, b, hb, h2⟩
      · rw [h2.2.2.1, h2.2.1]; exact h i l0 h1
      · rw [behaviors_plain x v lib (hne e List.mem_cons_self), hc, ha] at hb
        have hnd' : ¬ standardAgg e.kind = .drop := by cases e.kind <;> simp [standardAgg]
        simp only [List.filter_nil, List.isEmpty_nil, if_true, hnd', if_false, List.mem_singleton] at hb
        subst hb
        rw [h2.2.2.1, h2.2.1]
        have : checkKind e.kind (standardAgg e.kind) = (standardAgg e.kind, none) := checkKind_keep _ _ (by cases e.kind <;> simp [Legal, standardAgg])
        simp only [checkSemantic, this, buildLeaf, Bool.false_eq_true, if_false]
        generalize e.kind = k
        cases k <;> rfl
  have hk : l'.desc.kind = d.kind := by
    have h1 := hstd (before ++ d :: after) State.new hn (fun i l h => by cases h) i l' (by rw [hall]; exact hl')
    exact standard_kind (h1.symm.trans hids.1) hids.2
  refine ⟨i, l', ?_, hl', hk, ?_⟩
  · cases hr : (compile x v lib (registerAll x v lib State.new before) d).2.1 with
    | nil => rw [hr] at hi; cases hi
    | cons a as =>
      rw [hr] at hi hlen
      cases as with
      | nil => cases hi; rfl
      | cons b bs => simp at hlen
  · have := (C78_own_kind x v lib (before ++ d :: after) hn l' (List.mem_of_getElem? (by rw [hall]; exact hl'))).2
    rwa [hk] at this

/-- C78. The pipeline the launcher installs: without hints every instrument has one output per scope, with the temporality
documented for the configured preference and the kind of the instrument. -/
theorem C78_launcher (xl : Launcher.Ext) (c c' : Launcher.PipelineConfig) (p : Int) (t : IKind → Tempo) (bs : List Launcher.BuiltinEvent)
    (hp : Launcher.newMetricsPipeline xl c = .ok (.metrics c' p t bs))
    (x : Ext H) (zero : H) (name : Str) (lib : Scope) (before after : List Desc) (d : Desc) (hn : ∀ d' ∈ before ++ d :: after, NoHint d') :
    let v := readerViews x zero name 0 [.tempoSelector t]
    ∃ pref, Launcher.prefName (xl.lower c.tempoPref) = some pref ∧
    ∃ i l, (compile x v lib (registerAll x v lib State.new before) d).2.1 = [i] ∧
      (registerAll x v lib State.new (before ++ d :: after)).collectors[i]? = some l ∧
      l.desc.kind = d.kind ∧ ReportedAs l (Launcher.documented pref d.kind) := by
  intro v
  obtain ⟨pref, hpref, hdoc⟩ := (Launcher.C50_preferences xl c).1 c' p t bs hp
  have hdef := (Launcher.C50_defined xl c c' p t bs hp).1
  refine ⟨pref, hpref, ?_⟩
  have ha : v.defaults.agg = standardAgg := by
    funext k
    have := (C66_defaults x zero name 0 [.tempoSelector t] k).1
    rw [show v.defaults.agg k = _ from this]
    cases k <;> rfl
  have ht : v.defaults.tempo d.kind = Launcher.documented pref d.kind := by
    have := (C66_defaults x zero name 0 [.tempoSelector t] d.kind).2.1
    rw [show v.defaults.tempo d.kind = _ from this, ← hdoc]
    show (if (t d.kind).Known then t d.kind else .cumulative) = t d.kind
    rcases hdef d.kind with h | h <;> rw [h] <;> rfl
  rw [← ht]
  exact C78_standard x v lib rfl ha before after d hn

/-! ### Examples -/

namespace TempoEx

/-- A description `{` followed by text is a hint for that temporality. -/
def x : Ext Nat := { ViewEx.x with
  parseHint := fun s => match s with
    | 123 :: t => some { description := [], aggregation := [], temporality := t, maxSize := 0, limit := 0 }
    | _ => none }

/-- The reader of the "lowmemory" preference. -/
def low (cs : List (Clause Nat)) : Views Nat := { ViewEx.views cs with
  defaults := { ViewEx.defaults with tempo := fun k => match k with | .syncCounter | .syncHistogram => .delta | _ => .cumulative } }

def reg (v : Views Nat) (ds : List Desc) (d : Desc) : State Nat × List Nat × List Conflict :=
  compile x (validate x v) ViewEx.lib (registerAll x (validate x v) ViewEx.lib State.new ds) d

end TempoEx

/-- C78: a hint for deltas on an up-down counter, which this reader reports cumulatively; one output, reported as deltas. -/
example : TempoFor TempoEx.x (validate TempoEx.x (TempoEx.low [])) (ViewEx.inst .syncUpDownCounter "{delta") .delta ∧
    (TempoEx.reg (TempoEx.low []) [] (ViewEx.inst .syncUpDownCounter "{delta")).1.collectors.map (·.delta) = [true] ∧
    (TempoEx.reg (TempoEx.low []) [] (ViewEx.inst .syncUpDownCounter "text")).1.collectors.map (·.delta) = [false] := by
  refine ⟨Or.inl ⟨by decide +kernel, ?_⟩, by decide +kernel, by decide +kernel⟩
  have : (ViewEx.inst .syncUpDownCounter "{delta").desc = 123 :: lit "delta" := by decide +kernel
  rw [this]
  exact ⟨_, rfl, by decide +kernel, Or.inr ⟨rfl, rfl⟩⟩

/-- C78: a counter and an asynchronous gauge of the same name under the "lowmemory" preference: two outputs. -/
example : (TempoEx.reg (TempoEx.low []) [ViewEx.inst .syncCounter "a"] (ViewEx.inst .asyncGauge "b")).1.collectors.map (fun l => (l.desc.kind, l.delta)) =
    [(.syncCounter, true), (.asyncGauge, false)] := by
  decide +kernel

/-- A pipeline configured for "LowMemory". -/
def TempoEx.pc : Launcher.PipelineConfig :=
  { endpoint := lit "a", insecure := true, headers := none, resource := [], period := [], propagators := [], builtinsEnabled := false, builtinLibs := [], tempoPref := lit "LowMemory" }

/-- C78: it starts, counters are to be reported as deltas, asynchronous ones cumulatively. -/
example : ∃ p t bs, Launcher.newMetricsPipeline Launcher.exExt TempoEx.pc = .ok (.metrics TempoEx.pc p t bs) ∧ t .syncCounter = .delta ∧ t .asyncCounter = .cumulative := by
  have h : Launcher.prefName (Launcher.exExt.lower TempoEx.pc.tempoPref) = some .lowmemory := by
    unfold Launcher.prefName; rw [if_neg (by decide +kernel), if_neg (by decide +kernel), if_pos (by decide +kernel)]
  obtain ⟨t, bs, h1⟩ := Launcher.C50_accepted Launcher.exExt TempoEx.pc 30000000000 (by rw [h]; simp) (Or.inl ⟨rfl, rfl⟩) rfl
  obtain ⟨pref, h2, h3⟩ := (Launcher.C50_preferences Launcher.exExt TempoEx.pc).1 _ _ t bs h1
  rw [h] at h2; cases h2
  exact ⟨_, t, bs, h1, h3 _, h3 _⟩

/-- C78 (fails): the second of two counters of the same name asks by hint for deltas. They share one output, reported
cumulatively, and no conflict is reported. -/
theorem C78_same_name_fails :
    let r := TempoEx.reg (ViewEx.views []) [ViewEx.inst .syncCounter "text"] (ViewEx.inst .syncCounter "{delta")
    TempoHint TempoEx.x (ViewEx.inst .syncCounter "{delta") .delta ∧
    r.1.collectors.map (·.delta) = [false] ∧ r.2.1 = [0] ∧ r.2.2 = [] := by
  refine ⟨⟨by decide +kernel, ?_⟩, by decide +kernel, by decide +kernel, by decide +kernel⟩
  have : (ViewEx.inst .syncCounter "{delta").desc = 123 :: lit "delta" := by decide +kernel
  rw [this]
  exact ⟨_, rfl, by decide +kernel, Or.inr ⟨rfl, rfl⟩⟩

/-- C78 (fails): without hints, under the "lowmemory" preference: a clause makes counters non-monotonic sums. An up-down
counter of the same name as a counter shares its output, whose temporality is the one of whichever came first; no conflict. -/
theorem C78_view_fails :
    let v := TempoEx.low [{ ViewEx.any with agg := .nonMonoSum }]
    let r := TempoEx.reg v [ViewEx.inst .syncCounter "a"] (ViewEx.inst .syncUpDownCounter "b")
    let r' := TempoEx.reg v [ViewEx.inst .syncUpDownCounter "b"] (ViewEx.inst .syncCounter "a")
    (validate TempoEx.x v).defaults.tempo .syncUpDownCounter = .cumulative ∧ (validate TempoEx.x v).defaults.tempo .syncCounter = .delta ∧
    r.1.collectors.map (·.delta) = [true] ∧ r.2.1 = [0] ∧ r.2.2 = [] ∧
    r'.1.collectors.map (·.delta) = [false] ∧ r'.2.1 = [0] ∧ r'.2.2 = [] := by
  decide +kernel

/-- C78 (fails): of two clauses that apply to an instrument with a hint only the first gets the hinted temporality. -/
theorem C78_second_clause_fails :
    TempoHint TempoEx.x (ViewEx.inst .syncCounter "{delta") .delta ∧
    (TempoEx.reg (ViewEx.views [ViewEx.any, { ViewEx.any with keys := some [] }]) [] (ViewEx.inst .syncCounter "{delta")).1.collectors.map (·.delta) =
      [true, false] := by
  refine ⟨⟨by decide +kernel, ?_⟩, by decide +kernel⟩
  have : (ViewEx.inst .syncCounter "{delta").desc = 123 :: lit "delta" := by decide +kernel
  rw [this]
  exact ⟨_, rfl, by decide +kernel, Or.inr ⟨rfl, rfl⟩⟩

end Verif.Props
