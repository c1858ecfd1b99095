import Verif.Proof.Views
import Verif.Props.Async

set_option linter.unusedSectionVars false

/-!
View properties: matching (C26), re-registration (C27), duplicate conflicts (C28), semantic compatibility (C29), one
contribution per output metric (C30), hints (C31), descriptions (C33), aggregator configuration (C34), conflicts of all
readers (C40).
-/

namespace Verif.Props
open Verif.Attr Verif.Front Verif.Views

variable {H : Type} [DecidableEq H]

/-! ### Examples -/

namespace ViewEx
/-- External functions for examples: lower-casing is the identity, a description `{` followed by text is a hint for that
aggregation, `{!` followed by text a hint for that aggregation with delta temporality, a maximal size and a cardinality limit, histogram
configurations are numbers with default 160. -/
def x : Ext Nat where
  lower := id
  parseHint := fun s => match s with
    | 123 :: 33 :: t => some { description := [], aggregation := t, temporality := lit "delta", maxSize := 7, limit := 5 }
    | 123 :: t => some { description := [], aggregation := t, temporality := [], maxSize := 0, limit := 0 }
    | _ => none
  validH := fun n => if n = 0 then 160 else n
  histNew := fun n => n.toNat

def defaults : Defaults Nat :=
  { agg := standardAgg, tempo := standardTempo, int64 := fun _ => ⟨0, 0⟩, float64 := fun _ => ⟨0, 0⟩ }

/-- A clause specifying nothing. -/
def any : Clause Nat :=
  { name := [], regexp := none, ikind := none, nkind := none, lib := ⟨[], [], []⟩, keys := none, rename := none,
    description := [], agg := .undefined, acfg := ⟨0, 0⟩ }

def views (cs : List (Clause Nat)) : Views Nat := { name := lit "r", clauses := cs, defaults := defaults, perfLimit := 2000 }

def lib : Scope := ⟨lit "lib", [], []⟩

def inst (k : IKind) (desc : String) : Desc := { name := lit "m", kind := k, num := .int64, desc := lit desc, unit := lit "By" }

/-- Compile after a history, with validated views. -/
def reg (v : Views Nat) (ds : List Desc) (d : Desc) : State Nat × List Nat × List Conflict :=
  compile x (validate x v) lib (registerAll x (validate x v) lib State.new ds) d

def kinds (s : State Nat) : List AggKind := s.collectors.map (·.kind)
end ViewEx

/-! ### C26 -/

/-- C26. A clause matches exactly when it applies. -/
theorem C26_matches_iff (c : Clause H) (lib : Scope) (d : Desc) : «matches» c lib d = true ↔ Applies c lib d := matches_iff c lib d

/-- C26. A validated clause with both a name and a pattern goes by the name; the other criteria are kept. -/
theorem C26_name_over_pattern (x : Ext H) (v : Views H) (c : Clause H) (lib : Scope) (d : Desc) :
    Applies (validateClause x v c) lib d ↔ Applies { c with regexp := if c.name = [] then c.regexp else none } lib d := by
  have : (validateClause x v c).regexp = if c.name = [] then c.regexp else none := by
    unfold validateClause
    by_cases h : c.name = []
    · simp [h]
    · cases hr : c.regexp <;> simp [h]
  constructor
  · rintro ⟨a, b, c, d, e, f, g⟩
    exact ⟨a, by dsimp only; rw [← this]; exact b, c, d, e, f, g⟩
  · rintro ⟨a, b, c, d, e, f, g⟩
    exact ⟨a, by rw [this]; exact b, c, d, e, f, g⟩

/-- The clauses that apply and do not drop. -/
noncomputable def keeping (v : Views H) (lib : Scope) (d : Desc) : List (Clause H) :=
  open Classical in v.clauses.filter (fun c => Applies c lib d ∧ c.agg ≠ .drop)

theorem keeping_eq (v : Views H) (lib : Scope) (d : Desc) :
    keeping v lib d = (v.clauses.filter (fun c => «matches» c lib d)).filter (fun c => c.agg != .drop) := by
  classical
  unfold keeping
  rw [List.filter_filter]
  apply List.filter_congr
  intro c _
  have := matches_iff c lib d
  by_cases h : Applies c lib d
  · have h1 := this.2 h
    by_cases h2 : c.agg = .drop <;> simp [h, h1, h2]
  · have h1 : «matches» c lib d = false := by
      rw [Bool.eq_false_iff]; exact fun e => h (this.1 e)
    simp [h, h1]

/-- The compiled instrument writes to an output metric `l`, at position `j` among its output metrics. -/
def WritesAt (r : State H × List Nat × List Conflict) (j : Nat) (l : Leaf H) : Prop :=
  ∃ i, r.2.1[j]? = some i ∧ r.1.collectors[i]? = some l

/-- C26. Some clause applies: one output per applying clause that does not drop, in order, with the name, unit, number
kind and attribute keys the clause and the instrument say. -/
theorem C26_outputs (x : Ext H) (v : Views H) (lib : Scope) (ds : List Desc) (d : Desc)
    (h : ∃ c ∈ v.clauses, Applies c lib d) :
    (compile x v lib (registerAll x v lib State.new ds) d).2.1.length = (keeping v lib d).length ∧
    ∀ j c, (keeping v lib d)[j]? = some c → ∃ l, WritesAt (compile x v lib (registerAll x v lib State.new ds) d) j l ∧
      l.desc.name = c.newName d.name ∧ l.desc.unit = d.unit ∧ l.desc.num = d.num ∧ l.desc.kind.synchronous = d.kind.synchronous ∧
      SameKeys l.keys c.keys := by
  have hok := registerAll_ok x v lib (Ok.new (H := H)) ds
  generalize registerAll x v lib State.new ds = s at hok ⊢
  have hne : (v.clauses.filter (fun c => «matches» c lib d)).isEmpty = false := by
    obtain ⟨c, hc, ha⟩ := h
    rw [List.isEmpty_eq_false_iff]
    intro e
    have : c ∈ v.clauses.filter (fun c => «matches» c lib d) := List.mem_filter.2 ⟨hc, (matches_iff c lib d).2 ha⟩
    rw [e] at this; cases this
  have hb : behaviors x v lib d = clauseBehaviors x v (v.clauses.filter (fun c => «matches» c lib d)) d := by
    unfold behaviors; simp only [hne]; rfl
  have hm := (clauseBehaviors_desc x v (v.clauses.filter (fun c => «matches» c lib d)) d).2
  rw [← hb, ← keeping_eq] at hm
  have hl := loop_leaves (behaviors x v lib d).2.kind hok (behaviors x v lib d).1
  refine ⟨?_, ?_⟩
  · have := congrArg List.length hm
    simp only [List.length_map] at this
    unfold compile
    rw [hl.length, this]
  · intro j c hj
    have h1 : ((behaviors x v lib d).1.map (fun b => (b.desc.name, b.desc.num, b.desc.unit, b.desc.kind, b.keys)))[j]? =
        some (c.renamed d.name, d.num, d.unit, d.kind, c.keys) := by
      rw [hm, List.getElem?_map, hj]; rfl
    rw [List.getElem?_map] at h1
    obtain ⟨b, hb1, hb2⟩ := Option.map_eq_some_iff.1 h1
    simp only [Prod.mk.injEq] at hb2
    obtain ⟨b1, b2, b3, b4, b5⟩ := hb2
    obtain ⟨i, hi, l, hil, hid, _⟩ := hl.get hb1
    refine ⟨l, ⟨i, hi, hil⟩, ?_⟩
    have hd := checkSemantic_desc (behaviors x v lib d).2.kind b
    have hids : l.identity.name = b.desc.name ∧ l.identity.unit = b.desc.unit ∧ l.identity.num = b.desc.num ∧
        l.identity.synchronous = b.desc.kind.synchronous ∧ l.identity.keys = b.keys.map keysToSet := by
      rcases hid with hid | hid <;> rw [hid] <;>
        simp only [Behavior.identity, Leaf.identity, buildLeaf, hd.1, hd.2.1, and_self]
    rw [newName_eq, ← sameKeys_iff, ← b1, ← b2, ← b3, ← b4, ← b5]
    exact hids

/-- C26. No clause applies and the instrument has no hint: one output with the instrument's own name and the reader's
default configuration and, when legal, aggregation; none if that default is to drop. -/
theorem C26_defaults (x : Ext H) (v : Views H) (lib : Scope) (ds : List Desc) (d : Desc) (hn : NoHint d)
    (h : ∀ c ∈ v.clauses, ¬ Applies c lib d) :
    (v.defaults.agg d.kind = .drop → (compile x v lib (registerAll x v lib State.new ds) d).2.1 = []) ∧
    (v.defaults.agg d.kind ≠ .drop →
      (compile x v lib (registerAll x v lib State.new ds) d).2.1.length = 1 ∧
      ∃ l, WritesAt (compile x v lib (registerAll x v lib State.new ds) d) 0 l ∧
        l.desc.name = d.name ∧ l.desc.unit = d.unit ∧ l.desc.num = d.num ∧ l.keys = none ∧ l.desc.kind.synchronous = d.kind.synchronous ∧
        l.acfg = v.defaults.acfg d.kind d.num ∧ (Legal d.kind (v.defaults.agg d.kind) → l.kind = v.defaults.agg d.kind)) := by
  have hok := registerAll_ok x v lib (Ok.new (H := H)) ds
  generalize registerAll x v lib State.new ds = s at hok ⊢
  have he : (v.clauses.filter (fun c => «matches» c lib d)).isEmpty = true := by
    rw [List.isEmpty_iff, List.filter_eq_nil_iff]
    intro c hc hm
    exact h c hc ((matches_iff c lib d).1 hm)
  have hb := behaviors_plain x v lib hn
  simp only [he, if_true] at hb
  have hl := loop_leaves (behaviors x v lib d).2.kind hok (behaviors x v lib d).1
  refine ⟨?_, ?_⟩
  · intro hd
    unfold compile
    rw [hb]; simp [hd, compileLoop]
  · intro hd
    unfold compile
    rw [hb] at hl ⊢
    simp only [hd, if_false] at hl ⊢
    refine ⟨hl.length, ?_⟩
    obtain ⟨i, hi, l, hil, hid, _⟩ := hl.get (i := 0) rfl
    refine ⟨l, ⟨i, hi, hil⟩, ?_⟩
    have hc : ∀ b : Behavior H, b.hinted = false → b.desc.kind = d.kind → (l.identity = (checkSemantic d.kind b).1.identity ∨
        l.identity = (buildLeaf (checkSemantic d.kind b).1).identity) → l.identity = (checkSemantic d.kind b).1.identity := by
      intro b hb1 hb2 hb3
      rcases hb3 with h | h
      · exact h
      · rw [h]
        have := compilable_unhinted b hb1
        rw [hb2] at this
        exact build_identity this
    have hid := hc _ (by rfl) (by rfl) hid
    simp only [Leaf.identity, Behavior.identity, checkSemantic, Identity.mk.injEq] at hid
    obtain ⟨i1, i2, i3, i4, i5, i6, i7⟩ := hid
    refine ⟨i1, i2, i3, ?_, i4, i6, fun hleg => ?_⟩
    · simpa using i7
    · rw [i5]; simp [checkKind_keep _ _ hleg]

/-- C26: a clause for counters named `m` renames and filters keys, a second one drops, a third is for another library. -/
example : (ViewEx.reg (ViewEx.views
      [{ ViewEx.any with name := lit "m", ikind := some .syncCounter, rename := some (fun _ => lit "n"), keys := some [lit "k"] },
       { ViewEx.any with agg := .drop }, { ViewEx.any with lib := ⟨lit "other", [], []⟩ }])
      [] (ViewEx.inst .syncCounter "d")).1.collectors.map (fun l => (l.desc.name, l.keys, l.kind)) = [(lit "n", some [lit "k"], .monoSum)] := by
  decide +kernel

/-! ### C27 -/

/-- C27. Registering an instrument without a hint a second time gives the same output metrics and changes nothing, whatever
was registered before and in between. -/
theorem C27_same_outputs (x : Ext H) (v : Views H) (lib : Scope) (before between : List Desc) (d : Desc) (hn : NoHint d) :
    let first := compile x v lib (registerAll x v lib State.new before) d
    let now := registerAll x v lib first.1 between
    (compile x v lib now d).1 = now ∧ (compile x v lib now d).2.1 = first.2.1 :=
  compile_again x v lib (placed_after x v lib (registerAll_ok x v lib Ok.new before) (faithful_plain x v lib hn) between)

/-- C27 (hinted instruments). The same when the hint names an aggregation that is implemented for the instrument, or none and the default
is implemented, and so does every view clause that applies. Missing: the generic sum and, for asynchronous instruments, histograms, see
`C27_hinted_sum_fails`; a description within the hint that is a hint again. -/
theorem C27_hinted_partial (x : Ext H) (v : Views H) (lib : Scope) (before between : List Desc) (d : Desc) (h : Hint)
    (hp : x.parseHint d.desc = some h) (hin : (123 : UInt8) ∉ h.description)
    (hk : ∀ k, (x.lower h.aggregation, k) ∈ aggregationWords → Implemented d.kind k) (hdef : Implemented d.kind (v.defaults.agg d.kind))
    (hc : ∀ c ∈ v.clauses, Applies c lib d → c.agg = .undefined ∨ c.agg = .drop ∨ Implemented d.kind c.agg) :
    let first := compile x v lib (registerAll x v lib State.new before) d
    let now := registerAll x v lib first.1 between
    (compile x v lib now d).1 = now ∧ (compile x v lib now d).2.1 = first.2.1 :=
  compile_again x v lib (placed_after x v lib (registerAll_ok x v lib Ok.new before) (faithful_hinted x v lib hp hin hk hdef hc) between)

/-- C27: a counter with a hint for a gauge, and a clause that names no aggregation. -/
example : ViewEx.x.parseHint (ViewEx.inst .syncCounter "{gauge").desc ≠ none ∧
    (ViewEx.x.lower (lit "gauge"), AggKind.gauge) ∈ aggregationWords ∧
    ViewEx.kinds (ViewEx.reg (ViewEx.views [ViewEx.any]) [ViewEx.inst .syncCounter "{gauge", ViewEx.inst .syncHistogram "e"]
      (ViewEx.inst .syncCounter "{gauge")).1 = [.gauge, .histogram] := by
  decide +kernel

/-- C27 (fails). A counter whose description is a hint for a sum: registering it a second time makes a second output metric
of the same name. -/
theorem C27_hinted_sum_fails :
    (ViewEx.kinds (ViewEx.reg (ViewEx.views []) [] (ViewEx.inst .syncCounter "{sum")).1 = [.monoSum]) ∧
    (ViewEx.kinds (ViewEx.reg (ViewEx.views []) [ViewEx.inst .syncCounter "{sum"] (ViewEx.inst .syncCounter "{sum")).1 =
      [.monoSum, .monoSum]) := by
  decide +kernel

/-- C27: two clauses; the instrument is registered, another one too, then the first again. -/
example : NoHint (ViewEx.inst .syncCounter "d") ∧
    (ViewEx.reg (ViewEx.views [ViewEx.any, { ViewEx.any with keys := some [lit "k"] }])
      [ViewEx.inst .syncCounter "d", ViewEx.inst .syncHistogram "e"] (ViewEx.inst .syncCounter "d")).2.1 = [0, 1] := by
  constructor
  · unfold NoHint; decide +kernel
  · decide +kernel

/-! ### C28 -/

/-- C28. A duplicate conflict is reported exactly when a name the instrument writes to carries two or more output metrics. -/
theorem C28_reported_iff (x : Ext H) (v : Views H) (lib : Scope) (ds : List Desc) (d : Desc) :
    let r := compile x v lib (registerAll x v lib State.new ds) d
    (∃ c ∈ r.2.2, 2 ≤ c.duplicates.length) ↔ ∃ j l, WritesAt r j l ∧ 2 ≤ (named r.1 l.desc.name).length := by
  have hok := registerAll_ok x v lib (Ok.new (H := H)) ds
  generalize registerAll x v lib State.new ds = s at hok ⊢
  have hl := loop_leaves (behaviors x v lib d).2.kind hok (behaviors x v lib d).1
  have hok' := loop_ok (behaviors x v lib d).2.kind hok (behaviors x v lib d).1
  have hname : ∀ (b : Behavior H) (l : Leaf H), (l.identity = (checkSemantic (behaviors x v lib d).2.kind b).1.identity ∨
      l.identity = (buildLeaf (checkSemantic (behaviors x v lib d).2.kind b).1).identity) → l.desc.name = b.desc.name := by
    intro b l hid
    have : l.identity.name = b.desc.name := by
      rcases hid with h | h <;> rw [h] <;> simp only [Behavior.identity, Leaf.identity, buildLeaf, (checkSemantic_desc _ b).1]
    exact this
  dsimp only
  unfold compile
  dsimp only
  rw [loop_conflicts]
  constructor
  · rintro ⟨b, hb, h2⟩
    obtain ⟨j, hj, hbj⟩ := List.getElem_of_mem hb
    have hbj' : (behaviors x v lib d).1[j]? = some b := by rw [List.getElem?_eq_getElem hj, hbj]
    obtain ⟨i, hi, l, hil, hid, _⟩ := hl.get hbj'
    refine ⟨j, l, ⟨i, hi, hil⟩, ?_⟩
    rw [hname b l hid, ← names_length hok']
    exact h2
  · rintro ⟨j, l, ⟨i, hi, hil⟩, h2⟩
    obtain ⟨b, hb, l', hil', hid, _⟩ := hl.get' hi
    rw [hil] at hil'
    cases hil'
    refine ⟨b, List.mem_of_getElem? hb, ?_⟩
    rw [names_length hok', ← hname b l hid]
    exact h2

/-- C28. As long as no instrument has a hint the output metrics are different metrics, so what is reported is a real
conflict. -/
theorem C28_distinct (x : Ext H) (v : Views H) (lib : Scope) (ds : List Desc) (hn : ∀ d ∈ ds, NoHint d) :
    (registerAll x v lib State.new ds).collectors.Pairwise (fun a b => ¬ SameOutput a b) := by
  have : ∀ s : State H, Ok s → Distinct s → Distinct (registerAll x v lib s ds) := by
    induction ds with
    | nil => exact fun _ _ h => h
    | cons d ds ih =>
      intro s hok hs
      refine ih (fun d' hd' => hn d' (List.mem_cons_of_mem _ hd')) _ (compile_ok x v lib hok d) ?_
      dsimp only
      rw [compile_eq]
      exact distinct_loop _ hok hs _ (faithful_plain x v lib (hn d List.mem_cons_self))
  exact (this _ Ok.new List.Pairwise.nil).imp (fun h e => h ((identity_iff _ _).2 e))

/-- C28. An instrument that differs from an earlier one in its description only shares its output metrics: no output metric
is added. -/
theorem C28_share_silently (x : Ext H) (v : Views H) (lib : Scope) (before between : List Desc) (d : Desc) (text : Str)
    (hn : NoHint d) (hn' : NoHint { d with desc := text }) :
    let first := compile x v lib (registerAll x v lib State.new before) d
    let now := registerAll x v lib first.1 between
    let r := compile x v lib now { d with desc := text }
    r.2.1 = first.2.1 ∧ r.1.collectors.length = now.collectors.length ∧ r.1.names = now.names := by
  have hp := placed_after x v lib (registerAll_ok x v lib (Ok.new (H := H)) before) (faithful_plain x v lib hn) between
  have hok := registerAll_ok x v lib (compile_ok x v lib (registerAll_ok x v lib (Ok.new (H := H)) before) d) between
  dsimp only
  revert hp hok
  generalize (compile x v lib (registerAll x v lib State.new before) d).2.1 = ids
  generalize registerAll x v lib (compile x v lib (registerAll x v lib State.new before) d).1 between = s
  intro hp hok
  have key : ∀ (ik : IKind) (bs bs' : List (Behavior H)) (ids : List Nat) (s : State H), Ok s →
      Each (fun i b => findSame s (checkSemantic ik b).1 = some i) ids bs →
      Each (fun b b' => (checkSemantic ik b).1.identity = (checkSemantic ik b').1.identity) bs bs' →
      (compileLoop ik s bs').2.1 = ids ∧ (compileLoop ik s bs').1.collectors.length = s.collectors.length ∧
        (compileLoop ik s bs').1.names = s.names := by
    intro ik bs bs' ids s hok h1 h2
    induction h2 generalizing ids s with
    | nil => cases h1; exact ⟨rfl, rfl, rfl⟩
    | @cons b b' bs bs' hb _ ih =>
      cases h1 with
      | @cons i _ ids _ hi hrest =>
        have hfs : ∀ (s : State H) (b b' : Behavior H), b.identity = b'.identity → findSame s b' = findSame s b := by
          intro s b b' h
          unfold findSame
          have hn : b.desc.name = b'.desc.name := congrArg Identity.name h
          rw [hn]
          congr 1
          funext i
          cases s.collectors[i]? with
          | none => rfl
          | some l =>
            dsimp only
            unfold same
            unfold Behavior.identity at h
            simp only [Identity.mk.injEq] at h
            obtain ⟨_, h2, h3, h4, h5, h6, h7⟩ := h
            rw [h2, h3, h4, h5, h6, h7]
        have hf' : findSame s (checkSemantic ik b').1 = some i := (hfs s _ _ hb).trans hi
        have hpl : place s (checkSemantic ik b').1 = ({ s with collectors := s.collectors.modify i (fun l => mergeDescription l (checkSemantic ik b').1.desc.desc) }, i) := by
          unfold place; rw [hf']
        unfold compileLoop
        dsimp only
        rw [hpl]
        dsimp only
        have hle := Le.place s (checkSemantic ik b').1
        have hok2 := hok.place (checkSemantic ik b').1
        rw [hpl] at hle hok2
        obtain ⟨a1, a2, a3⟩ := ih ids _ hok2 (hrest.imp (fun i b hb => by
          unfold findSame at hb ⊢
          refine find_prefix (hle.names _) hb ?_
          intro j hj
          obtain ⟨lj, hlj, _⟩ := hok.mem.1 hj
          obtain ⟨lj', hlj', hid, _⟩ := hle.leaf j lj hlj
          dsimp only at hlj' ⊢
          simp only [hlj, hlj']
          exact same_congr hid _))
        refine ⟨by rw [a1], a2.trans (by simp), a3⟩
  have hbe := behaviors_plain x v lib hn
  have hbe' := behaviors_plain x v lib hn'
  have hm : ∀ c : Clause H, «matches» c lib { d with desc := text } = «matches» c lib d := fun c => rfl
  simp only [hm] at hbe'
  rw [compile_eq]
  refine key d.kind (behaviors x v lib d).1 _ ids s hok (hp.imp (fun i b h => h.find)) ?_
  rw [hbe, hbe']
  dsimp only
  split
  · split
    · exact .nil
    · refine .cons ?_ .nil
      rfl
  · generalize (v.clauses.filter (fun c => «matches» c lib d)).filter (fun c => c.agg != .drop) = cs
    induction cs with
    | nil => exact .nil
    | cons c cs ih => exact .cons rfl ih

/-- C28 (fails with hints). A hinted sum registered twice: a duplicate conflict between two identical output metrics. -/
theorem C28_hinted_sum_fails :
    let r := ViewEx.reg (ViewEx.views []) [ViewEx.inst .syncCounter "{sum"] (ViewEx.inst .syncCounter "{sum")
    r.2.2 = [{ duplicates := [0, 1], semantic := none }] ∧
    (∃ t, r.1.collectors.map (fun l => (l.desc, l.kind)) = [t, t]) ∧ (∃ t, r.1.collectors.map (fun l => (l.acfg, l.keys)) = [t, t]) := by
  refine ⟨by decide +kernel, ⟨((ViewEx.inst .syncCounter ""), .monoSum), by decide +kernel⟩, ⟨(⟨160, 2000⟩, none), by decide +kernel⟩⟩

/-- C28: a conflict (different unit), and none for a different description. -/
example : (ViewEx.reg (ViewEx.views []) [ViewEx.inst .syncCounter "d"] { ViewEx.inst .syncCounter "d" with unit := lit "ms" }).2.2 =
      [{ duplicates := [0, 1], semantic := none }] ∧
    (ViewEx.reg (ViewEx.views []) [ViewEx.inst .syncCounter "d"] (ViewEx.inst .syncCounter "longer")).2 = ([0], []) := by
  decide +kernel

/-! ### C29 -/

/-- The aggregation asked for at position `j`: the clause's, or the reader's default. -/
def requested (v : Views H) (d : Desc) (c : Option (Clause H)) : AggKind :=
  match c with
  | none => v.defaults.agg d.kind
  | some c => if c.agg = .undefined then v.defaults.agg d.kind else c.agg

/-- The clauses in force for an instrument: those that apply and do not drop; when none applies, the default (`none`)
unless it drops. -/
noncomputable def inForce (v : Views H) (lib : Scope) (d : Desc) : List (Option (Clause H)) :=
  open Classical in
  if ∃ c ∈ v.clauses, Applies c lib d then (keeping v lib d).map some
  else if v.defaults.agg d.kind = .drop then [] else [none]

theorem behaviors_inForce (x : Ext H) (v : Views H) (lib : Scope) {d : Desc} (hn : NoHint d) :
    (behaviors x v lib d).1.map (fun b => (b.kind, b.desc.kind, b.hinted)) =
      (inForce v lib d).map (fun c => (requested v d c, d.kind, false)) := by
  classical
  rw [behaviors_plain x v lib hn]
  unfold inForce
  by_cases h : ∃ c ∈ v.clauses, Applies c lib d
  · have hne : (v.clauses.filter (fun c => «matches» c lib d)).isEmpty = false := by
      obtain ⟨c, hc, ha⟩ := h
      rw [List.isEmpty_eq_false_iff]
      intro e
      have : c ∈ v.clauses.filter (fun c => «matches» c lib d) := List.mem_filter.2 ⟨hc, (matches_iff c lib d).2 ha⟩
      rw [e] at this; cases this
    rw [if_pos h, hne, keeping_eq]
    simp only [Bool.false_eq_true, if_false, List.map_map]
    rfl
  · have he : (v.clauses.filter (fun c => «matches» c lib d)).isEmpty = true := by
      rw [List.isEmpty_iff, List.filter_eq_nil_iff]
      intro c hc hm
      exact h ⟨c, hc, (matches_iff c lib d).1 hm⟩
    rw [if_neg h, he]
    simp only [if_true]
    split <;> rfl

theorem resolved_check (ik : IKind) (a : AggKind) : resolved ik a (checkKind ik a).1 := by
  refine ⟨fun h => by rw [checkKind_keep _ _ h], fun h s hs => by rw [h, checkKind_sum _ _ hs], fun h1 h2 => ?_⟩
  rw [usualAgg_eq]
  apply checkKind_bad
  intro e
  rcases (checkKind_ok _ _).1 e with h | h
  · exact h1 h
  · exact h2 h

/-- C29. Without a hint every output has a legal aggregation, the requested one if that is legal, else the standard one. -/
theorem C29_legal (x : Ext H) (v : Views H) (lib : Scope) (ds : List Desc) (d : Desc) (hn : NoHint d) :
    let r := compile x v lib (registerAll x v lib State.new ds) d
    r.2.1.length = (inForce v lib d).length ∧
    ∀ j c, (inForce v lib d)[j]? = some c → ∃ l, WritesAt r j l ∧ Legal d.kind l.kind ∧
      resolved d.kind (requested v d c) l.kind := by
  have hok := registerAll_ok x v lib (Ok.new (H := H)) ds
  generalize registerAll x v lib State.new ds = s at hok ⊢
  have hm := behaviors_inForce x v lib hn
  have hl := loop_leaves d.kind hok (behaviors x v lib d).1
  dsimp only
  rw [compile_eq]
  refine ⟨?_, ?_⟩
  · have := congrArg List.length hm
    simp only [List.length_map] at this
    rw [hl.length, this]
  · intro j c hj
    have h1 : ((behaviors x v lib d).1.map (fun b => (b.kind, b.desc.kind, b.hinted)))[j]? = some (requested v d c, d.kind, false) := by
      rw [hm, List.getElem?_map, hj]; rfl
    rw [List.getElem?_map] at h1
    obtain ⟨b, hb1, hb2⟩ := Option.map_eq_some_iff.1 h1
    simp only [Prod.mk.injEq] at hb2
    obtain ⟨b1, b2, b3⟩ := hb2
    obtain ⟨i, hi, l, hil, hid, _⟩ := hl.get hb1
    refine ⟨l, ⟨i, hi, hil⟩, ?_⟩
    have hcomp : Compilable (checkSemantic d.kind b).1 := by rw [← b2]; exact compilable_unhinted b b3
    have hid : l.identity = (checkSemantic d.kind b).1.identity := hid.elim id (fun e => e.trans (build_identity hcomp))
    have hk : l.kind = (checkKind d.kind (requested v d c)).1 := by
      have := congrArg Identity.kind hid
      unfold checkSemantic at this
      simpa [b3, b1, Leaf.identity, Behavior.identity] using this
    rw [hk]
    exact ⟨checkKind_legal _ _, resolved_check _ _⟩

theorem loop_semantic (ik : IKind) (s : State H) (bs : List (Behavior H)) (e : SemErr) :
    (∃ c ∈ (compileLoop ik s bs).2.2, c.semantic = some e) ↔ ∃ b ∈ bs, (checkSemantic ik b).2 = some e := by
  induction bs generalizing s with
  | nil => simp [compileLoop]
  | cons b bs ih =>
    unfold compileLoop
    simp only [List.mem_cons, exists_eq_or_imp, ← ih (place s (checkSemantic ik b).1).1, List.mem_append]
    constructor
    · rintro ⟨c, hc | hc, h⟩
      · split at hc
        · rw [List.mem_singleton] at hc; subst hc; exact Or.inl h
        · cases hc
      · exact Or.inr ⟨c, hc, h⟩
    · rintro (h | ⟨c, hc, h⟩)
      · refine ⟨{ duplicates := (place s (checkSemantic ik b).1).1.names (checkSemantic ik b).1.desc.name, semantic := (checkSemantic ik b).2 }, Or.inl ?_, ?_⟩
        · rw [if_pos (Or.inr (by rw [h]; simp))]; exact List.mem_singleton.2 rfl
        · exact h
      · exact ⟨c, Or.inr hc, h⟩

/-- C29. A semantic error is reported exactly when some requested aggregation is illegal. -/
theorem C29_reported_iff (x : Ext H) (v : Views H) (lib : Scope) (ds : List Desc) (d : Desc) (hn : NoHint d) :
    let r := compile x v lib (registerAll x v lib State.new ds) d
    (∃ c ∈ r.2.2, c.semantic ≠ none) ↔
    ∃ c ∈ inForce v lib d, ¬ Legal d.kind (requested v d c) ∧ ¬ (requested v d c = .anySum ∧ sumFor d.kind ≠ none) := by
  generalize registerAll x v lib State.new ds = s
  have hm := behaviors_inForce x v lib hn
  dsimp only
  rw [compile_eq]
  have h1 : (∃ c ∈ (compileLoop d.kind s (behaviors x v lib d).1).2.2, c.semantic ≠ none) ↔
      ∃ b ∈ (behaviors x v lib d).1, (checkSemantic d.kind b).2 ≠ none := by
    constructor
    · rintro ⟨c, hc, h⟩
      obtain ⟨e, he⟩ := Option.ne_none_iff_exists'.1 h
      obtain ⟨b, hb, hb2⟩ := (loop_semantic d.kind s _ e).1 ⟨c, hc, he⟩
      exact ⟨b, hb, by rw [hb2]; simp⟩
    · rintro ⟨b, hb, h⟩
      obtain ⟨e, he⟩ := Option.ne_none_iff_exists'.1 h
      obtain ⟨c, hc, hc2⟩ := (loop_semantic d.kind s _ e).2 ⟨b, hb, he⟩
      exact ⟨c, hc, by rw [hc2]; simp⟩
  rw [h1]
  have h2 : ∀ b ∈ (behaviors x v lib d).1, (checkSemantic d.kind b).2 = (checkKind d.kind b.kind).2 := by
    intro b hb
    unfold checkSemantic
    rw [plain_unhinted x v lib hn b hb]
    rfl
  constructor
  · rintro ⟨b, hb, h⟩
    have : (b.kind, b.desc.kind, b.hinted) ∈ (inForce v lib d).map (fun c => (requested v d c, d.kind, false)) := by
      rw [← hm]; exact List.mem_map_of_mem (f := fun b : Behavior H => (b.kind, b.desc.kind, b.hinted)) hb
    obtain ⟨c, hc, he⟩ := List.mem_map.1 this
    simp only [Prod.mk.injEq] at he
    refine ⟨c, hc, ?_⟩
    rw [h2 b hb, ← he.1, ne_eq, checkKind_ok, not_or] at h
    exact h
  · rintro ⟨c, hc, h⟩
    have : (requested v d c, d.kind, false) ∈ (behaviors x v lib d).1.map (fun b => (b.kind, b.desc.kind, b.hinted)) := by
      rw [hm]; exact List.mem_map_of_mem (f := fun c => (requested v d c, d.kind, false)) hc
    obtain ⟨b, hb, he⟩ := List.mem_map.1 this
    simp only [Prod.mk.injEq] at he
    refine ⟨b, hb, ?_⟩
    rw [h2 b hb, he.1, ne_eq, checkKind_ok, not_or]
    exact h

/-- C29: a histogram view for an up-down counter gives a non-monotonic sum and an error. -/
example : let r := ViewEx.reg (ViewEx.views [{ ViewEx.any with agg := .histogram }]) [] (ViewEx.inst .syncUpDownCounter "d")
    ViewEx.kinds r.1 = [.nonMonoSum] ∧ r.2.2 = [{ duplicates := [0], semantic := some ⟨.syncUpDownCounter, .histogram⟩ }] := by
  decide +kernel

/-! ### C30 -/

/-- Two clauses ask for different output metrics of an instrument: they differ in output name, attribute keys, aggregator
configuration, or in the aggregation that comes out. -/
def Differ (v : Views H) (d : Desc) (c c' : Clause H) : Prop :=
  c.newName d.name ≠ c'.newName d.name ∨ ¬ SameKeys c.keys c'.keys ∨ c.acfg ≠ c'.acfg ∨
  ∀ k, ¬ (resolved d.kind (requested v d (some c)) k ∧ resolved d.kind (requested v d (some c')) k)

theorem identities_nodup (x : Ext H) (v : Views H) (lib : Scope) (d : Desc) (hn : NoHint d)
    (hd : (keeping v lib d).Pairwise (Differ v d)) :
    ((behaviors x v lib d).1.map (fun b => (checkSemantic d.kind b).1.identity)).Nodup := by
  rw [behaviors_plain x v lib hn]
  rw [keeping_eq] at hd
  dsimp only
  split
  · split
    · exact List.nodup_nil
    · exact List.pairwise_singleton _ _
  · revert hd
    generalize (v.clauses.filter (fun c => «matches» c lib d)).filter (fun c => c.agg != .drop) = cs
    intro hd
    rw [List.map_map, List.Nodup, List.pairwise_map]
    refine hd.imp ?_
    intro c c' hcc he
    have hcfg : ∀ c : Clause H, pickAggConfig (v.defaults.acfg d.kind d.num) (v.defaults.acfg d.kind d.num) c.acfg = c.acfg := by
      intro c
      unfold pickAggConfig
      split
      · rfl
      · rename_i h
        exact (Decidable.not_not.1 h).symm
    simp only [Function.comp_apply, checkSemantic, plainBehavior, Bool.false_eq_true, if_false, Behavior.identity, viewDescriptor,
      Identity.mk.injEq, hcfg] at he
    obtain ⟨h1, _, _, _, h5, h6, h7⟩ := he
    rcases hcc with h | h | h | h
    · exact h h1
    · exact h ((sameKeys_iff _ _).1 h7)
    · exact h h6
    · refine h (checkKind d.kind (requested v d (some c))).1 ⟨resolved_check _ _, ?_⟩
      have : (checkKind d.kind (requested v d (some c))).1 = (checkKind d.kind (requested v d (some c'))).1 := h5
      rw [this]
      exact resolved_check _ _

/-- C30 (partial). An instrument without a hint writes at most once to each output metric when no two clauses in force ask
for the same one. What is missing: clauses that do, see `C30_same_clause_twice_fails`. -/
theorem C30_once_partial (x : Ext H) (v : Views H) (lib : Scope) (ds : List Desc) (d : Desc) (hn : NoHint d)
    (hd : (keeping v lib d).Pairwise (Differ v d)) :
    (compile x v lib (registerAll x v lib State.new ds) d).2.1.Nodup := by
  have hd := identities_nodup x v lib d hn hd
  have hok := registerAll_ok x v lib (Ok.new (H := H)) ds
  generalize registerAll x v lib State.new ds = s at hok ⊢
  have hp := placed_after x v lib hok (faithful_plain x v lib hn) []
  have hok' : Ok (registerAll x v lib (compile x v lib s d).1 []) := compile_ok x v lib hok d
  revert hp hok'
  generalize registerAll x v lib (compile x v lib s d).1 [] = s'
  generalize (compile x v lib s d).2.1 = ids
  revert hd
  generalize (behaviors x v lib d).1 = bs
  intro hd hp hok'
  induction hp with
  | nil => exact List.nodup_nil
  | @cons i b ids bs h1 h2 ih =>
    simp only [List.map_cons, List.nodup_cons] at hd
    refine List.nodup_cons.2 ⟨?_, ih hd.2⟩
    intro hi
    obtain ⟨j, hj, hij⟩ := List.getElem_of_mem hi
    have hij' : ids[j]? = some i := by rw [List.getElem?_eq_getElem hj, hij]
    obtain ⟨b', hb', hpl⟩ := h2.get' hij'
    obtain ⟨l, hl, hid⟩ := find_some hok' h1.find
    obtain ⟨l', hl', hid'⟩ := find_some hok' hpl.find
    rw [hl] at hl'; cases hl'
    exact hd.1 (List.mem_map.2 ⟨b', List.mem_of_getElem? hb', hid'.symm.trans hid⟩)

/-- C30: two clauses with different keys. -/
example : Differ (ViewEx.views []) (ViewEx.inst .syncCounter "d") ViewEx.any { ViewEx.any with keys := some [] } ∧ (ViewEx.reg (ViewEx.views [ViewEx.any, { ViewEx.any with keys := some [] }]) [] (ViewEx.inst .syncCounter "d")).2.1 = [0, 1] := by
  exact ⟨Or.inr (Or.inl (fun h => h)), by decide +kernel⟩

/-- Instrument 0 writes twice to view 0. -/
def twiceCfg : Async.Cfg Nat Number.Bits Number.Bits := { AsyncEx.cfg 10 with leavesOf := fun o => if o = 0 then [0, 0] else [], delta := fun _ => false }

/-- C30 (fails). Two clauses matching a counter with the same outcome: the instrument writes to output metric 0 twice. An
asynchronous counter that writes to its only output metric twice reports 10 for an observation of 5. -/
theorem C30_same_clause_twice_fails :
    (ViewEx.reg (ViewEx.views [ViewEx.any, { ViewEx.any with name := lit "m" }]) [] (ViewEx.inst .asyncCounter "d")).2 = ([0, 0], []) ∧
    ∃ s, Async.Quiet twiceCfg 0 s ∧ s.coll = 1 ∧ Async.lastObs s.log 0 0 7 = some 5 ∧ Async.reported s 0 0 7 = some 10 := by
  constructor
  · decide +kernel
  · exact AsyncEx.quiet_eval
      (acts := AsyncEx.cbRun 0 0 [(7, 5)] ++ [.finish [{ obs := 0, set := 7, keys := [(0, 7), (0, 7)], cur := 5 }]])
      (by decide +kernel) (by decide +kernel)

/-! ### C31 -/

/-- The description is a hint naming aggregation `k`. -/
structure HintsAt (x : Ext H) (d : Desc) (h : Hint) (k : AggKind) : Prop where
  brace : (123 : UInt8) ∈ d.desc
  parsed : x.parseHint d.desc = some h
  nonempty : h.aggregation ≠ []
  word : (x.lower h.aggregation, k) ∈ aggregationWords

theorem parseKind_defined {lower : Str → Str} {w : Str} {k : AggKind} (h : parseKind lower w = some k) : k ≠ .undefined := by
  unfold parseKind at h
  dsimp only at h
  intro e
  subst e
  repeat' split at h
  all_goals simp at h

theorem hinted_try {x : Ext H} {d : Desc} {h : Hint} {k : AggKind} (v : Views H) (hh : HintsAt x d h k) :
    (tryToApplyHint x v d).akind = k ∧ (tryToApplyHint x v d).hinted = true := by
  have hc : d.desc.contains 123 = true := List.contains_iff_mem.2 hh.brace
  unfold tryToApplyHint
  dsimp only
  rw [hc]
  simp only [if_true, hh.parsed, hh.nonempty, if_false, words_parse hh.word, parseKind_defined (words_parse hh.word), and_self]

/-- C31 (partial): no clause applies. A drop hint means no output; any other hint naming an implemented aggregation gives
it. Missing: the generic sum, histograms of asynchronous instruments (both come out as another aggregation), see the
`_fails` theorems. -/
theorem C31_no_clause_partial (x : Ext H) (v : Views H) (lib : Scope) (ds : List Desc) (d : Desc) (h : Hint) (k : AggKind)
    (hh : HintsAt x d h k) (hc : ∀ c ∈ v.clauses, ¬ Applies c lib d) :
    let r := compile x v lib (registerAll x v lib State.new ds) d
    (k = .drop → r.2.1 = []) ∧
    (Implemented d.kind k → r.2.1.length = 1 ∧ ∃ l, WritesAt r 0 l ∧ l.kind = k ∧ l.desc.name = d.name) := by
  have hok := registerAll_ok x v lib (Ok.new (H := H)) ds
  generalize registerAll x v lib State.new ds = s at hok ⊢
  have he : (v.clauses.filter (fun c => «matches» c lib d)).isEmpty = true := by
    rw [List.isEmpty_iff, List.filter_eq_nil_iff]
    intro c hc' hm
    exact hc c hc' ((matches_iff c lib d).1 hm)
  obtain ⟨ha, hhint⟩ := hinted_try v hh
  obtain ⟨d1, d2, _, _⟩ := try_desc x v d
  have hb : (behaviors x v lib d).1 = if k = .drop then [] else
      [{ fromName := (tryToApplyHint x v d).desc.name, desc := (tryToApplyHint x v d).desc, kind := k,
         tempo := (tryToApplyHint x v d).tempo, acfg := (tryToApplyHint x v d).acfg, keys := none, hinted := true }] := by
    unfold behaviors
    dsimp only
    rw [he]
    simp only [if_true, ha, hhint]
  dsimp only
  rw [compile_eq]
  have hl := loop_leaves d.kind hok (behaviors x v lib d).1
  refine ⟨?_, ?_⟩
  · intro hk; rw [hb, if_pos hk]; rfl
  · intro hi
    have hk : k ≠ .drop := by
      rintro rfl; unfold Implemented at hi; split at hi <;> simp at hi
    rw [hb, if_neg hk] at hl ⊢
    refine ⟨hl.length, ?_⟩
    obtain ⟨i, hi', l, hil, hid, _⟩ := hl.get (i := 0) rfl
    refine ⟨l, ⟨i, hi', hil⟩, ?_⟩
    have hcs : ∀ b : Behavior H, b.hinted = true → (checkSemantic d.kind b).1 = b := by
      intro b hb; unfold checkSemantic; rw [hb]; rfl
    rw [hcs _ rfl] at hid
    have hcomp := build_implemented
      ({ fromName := (tryToApplyHint x v d).desc.name, desc := (tryToApplyHint x v d).desc, kind := k,
         tempo := (tryToApplyHint x v d).tempo, acfg := (tryToApplyHint x v d).acfg, keys := none, hinted := true } : Behavior H)
      (by dsimp only; rw [d2]; exact hi)
    have hid := hid.elim id (fun e => e.trans (build_identity hcomp))
    exact ⟨congrArg Identity.kind hid, (congrArg Identity.name hid).trans d1⟩

/-- C31 (partial): the first clause that applies and does not drop leaves the aggregation open. Its output has the hinted
aggregation. Missing: later clauses (`C31_second_clause_fails`), drop hints (`C31_drop_clause_fails`), and the
aggregations named above. -/
theorem C31_first_clause_partial (x : Ext H) (v : Views H) (lib : Scope) (ds : List Desc) (d : Desc) (h : Hint) (k : AggKind)
    (hh : HintsAt x d h k) (c : Clause H) (hc : (keeping v lib d)[0]? = some c) (hu : c.agg = .undefined)
    (hi : Implemented d.kind k) :
    ∃ l, WritesAt (compile x v lib (registerAll x v lib State.new ds) d) 0 l ∧ l.kind = k ∧ l.desc.name = c.newName d.name := by
  have hok := registerAll_ok x v lib (Ok.new (H := H)) ds
  generalize registerAll x v lib State.new ds = s at hok ⊢
  obtain ⟨ha, hhint⟩ := hinted_try v hh
  obtain ⟨d1, d2, _, _⟩ := try_desc x v d
  rw [keeping_eq] at hc
  have hne : (v.clauses.filter (fun c => «matches» c lib d)).isEmpty = false := by
    rw [List.isEmpty_eq_false_iff]
    intro e; rw [e] at hc; simp at hc
  have hb : ∃ b, (behaviors x v lib d).1[0]? = some b ∧ b.kind = k ∧ b.hinted = true ∧ b.desc.kind = d.kind ∧ b.desc.name = c.renamed d.name := by
    unfold behaviors
    dsimp only
    rw [hne]
    simp only [Bool.false_eq_true, if_false]
    revert hc
    generalize v.clauses.filter (fun c => «matches» c lib d) = cs
    intro hc
    induction cs with
    | nil => simp at hc
    | cons c' cs ih =>
      unfold clauseBehaviors
      rw [List.filter_cons] at hc
      by_cases hd : c'.agg = .drop
      · simp only [hd, bne_self_eq_false, Bool.false_eq_true, if_false] at hc
        simp only [hd, if_true]
        exact ih hc
      · have : (c'.agg != .drop) = true := by simpa using hd
        simp only [this, if_true, List.getElem?_cons_zero, Option.some.injEq] at hc
        subst hc
        simp only [hd, if_false, List.getElem?_cons_zero]
        refine ⟨_, rfl, ?_, hhint, d2, ?_⟩
        · dsimp only; rw [if_pos hu, ha]
        · dsimp only [viewDescriptor]; rw [d1]
  obtain ⟨b, hb0, hbk, hbh, hbd, hbn⟩ := hb
  rw [compile_eq]
  obtain ⟨i, hi', l, hil, hid, _⟩ := (loop_leaves d.kind hok (behaviors x v lib d).1).get hb0
  refine ⟨l, ⟨i, hi', hil⟩, ?_⟩
  have hcs : (checkSemantic d.kind b).1 = b := by unfold checkSemantic; rw [hbh]; rfl
  rw [hcs] at hid
  have hcomp := build_implemented b (by rw [hbd, hbk]; exact hi)
  have hid := hid.elim id (fun e => e.trans (build_identity hcomp))
  exact ⟨(congrArg Identity.kind hid).trans hbk, (congrArg Identity.name hid).trans hbn⟩

/-- C31: a histogram with a hint for a minmaxsumcount, and a clause that filters keys. -/
example : HintsAt ViewEx.x (ViewEx.inst .syncHistogram "{minmaxsumcount")
      { description := [], aggregation := lit "minmaxsumcount", temporality := [], maxSize := 0, limit := 0 } .mmsc ∧
    ViewEx.kinds (ViewEx.reg (ViewEx.views [{ ViewEx.any with keys := some [] }]) [] (ViewEx.inst .syncHistogram "{minmaxsumcount")).1 = [.mmsc] := by
  refine ⟨⟨by decide +kernel, ?_, by decide +kernel, by decide +kernel⟩, by decide +kernel⟩
  have : (lit "{minmaxsumcount") = 123 :: lit "minmaxsumcount" := by decide +kernel
  show ViewEx.x.parseHint (lit "{minmaxsumcount") = _
  rw [this, show lit "minmaxsumcount" = 109 :: lit "inmaxsumcount" by decide +kernel]; rfl

/-- C31 (fails): a sum hint on an up-down counter gives a monotonic sum, and on an asynchronous counter a gauge. -/
theorem C31_sum_fails :
    ViewEx.kinds (ViewEx.reg (ViewEx.views []) [] (ViewEx.inst .syncUpDownCounter "{sum")).1 = [.monoSum] ∧
    sumFor .syncUpDownCounter = some .nonMonoSum ∧
    ViewEx.kinds (ViewEx.reg (ViewEx.views []) [] (ViewEx.inst .asyncCounter "{sum")).1 = [.gauge] ∧
    sumFor .asyncCounter = some .monoSum := by
  decide +kernel

/-- C31 (fails): a histogram hint on an asynchronous instrument gives a gauge. -/
theorem C31_async_histogram_fails :
    ViewEx.kinds (ViewEx.reg (ViewEx.views []) [] (ViewEx.inst .asyncCounter "{histogram")).1 = [.gauge] := by
  decide +kernel

/-- C31 (fails): of two clauses that fix no aggregation only the first gets the hinted one. -/
theorem C31_second_clause_fails :
    ViewEx.kinds (ViewEx.reg (ViewEx.views [ViewEx.any, { ViewEx.any with keys := some [] }]) [] (ViewEx.inst .syncCounter "{gauge")).1 =
      [.gauge, .monoSum] := by
  decide +kernel

/-- C31 (fails): a drop hint when a clause applies: there is an output. -/
theorem C31_drop_clause_fails :
    ViewEx.kinds (ViewEx.reg (ViewEx.views [ViewEx.any]) [] (ViewEx.inst .syncCounter "{drop")).1 = [.monoSum] := by
  decide +kernel

/-! ### C33 -/

/-- `t` is the first of the longest texts of the list. -/
def FirstLongest (t : Str) (ts : List Str) : Prop :=
  ∃ a b, ts = a ++ t :: b ∧ (∀ u ∈ a, u.length < t.length) ∧ ∀ u ∈ b, u.length ≤ t.length

theorem firstLongest_append {t : Str} {ts : List Str} (h : FirstLongest t ts) (u : Str) :
    FirstLongest (if u.length > t.length then u else t) (ts ++ [u]) := by
  obtain ⟨a, b, rfl, ha, hb⟩ := h
  split
  · rename_i hu
    refine ⟨a ++ t :: b, [], rfl, ?_, by simp⟩
    intro w hw
    rcases List.mem_append.1 hw with hw | hw
    · have := ha w hw; omega
    · rcases List.mem_cons.1 hw with hw | hw
      · subst hw; exact hu
      · have := hb w hw; omega
  · rename_i hu
    refine ⟨a, b ++ [u], by simp, ha, ?_⟩
    intro w hw
    rcases List.mem_append.1 hw with hw | hw
    · exact hb w hw
    · rw [List.mem_singleton] at hw; subst hw; omega

/-- The texts a registration brings, one per output: the clause's description, or else the instrument's. -/
noncomputable def texts (v : Views H) (lib : Scope) (d : Desc) : List Str :=
  (inForce v lib d).map (fun c => match c with | none => d.desc | some c => if c.description ≠ [] then c.description else d.desc)

/-- What a history of registrations brings to each output metric, in order. -/
noncomputable def brought (x : Ext H) (v : Views H) (lib : Scope) : State H → List Desc → List (Nat × Str)
  | _, [] => []
  | s, d :: ds => (compile x v lib s d).2.1.zip (texts v lib d) ++ brought x v lib (compile x v lib s d).1 ds

/-- Texts brought to output metric `i`. -/
def to (i : Nat) (l : List (Nat × Str)) : List Str := (l.filter (fun p => p.1 = i)).map (·.2)

theorem to_append (i : Nat) (l l' : List (Nat × Str)) : to i (l ++ l') = to i l ++ to i l' := by
  unfold to; rw [List.filter_append, List.map_append]

/-- Descriptions agree with a record of texts. -/
def DescOk (s : State H) (log : List (Nat × Str)) : Prop :=
  (∀ i l, s.collectors[i]? = some l → FirstLongest l.desc.desc (to i log)) ∧ ∀ p ∈ log, p.1 < s.collectors.length

theorem descOk_place {s : State H} {log : List (Nat × Str)} (hok : Ok s) (h : DescOk s log) (b : Behavior H) :
    DescOk (place s b).1 (log ++ [((place s b).2, b.desc.desc)]) := by
  unfold place
  cases hf : findSame s b with
  | some i =>
    dsimp only
    obtain ⟨l0, hl0, _⟩ := find_some hok hf
    refine ⟨?_, ?_⟩
    · intro j l hl
      rw [modify_get] at hl
      rw [to_append]
      by_cases hij : i = j
      · subst hij
        rw [if_pos rfl, hl0] at hl
        simp only [Option.map_some, Option.some.injEq] at hl
        have : to i [(i, b.desc.desc)] = [b.desc.desc] := by simp [to]
        rw [this, ← hl]
        have := firstLongest_append (h.1 i l0 hl0) b.desc.desc
        unfold mergeDescription
        split
        · rename_i hu; rw [if_pos hu] at this; exact this
        · rename_i hu; rw [if_neg hu] at this; exact this
      · rw [if_neg hij] at hl
        have : to j [(i, b.desc.desc)] = [] := by simp [to, hij]
        rw [this, List.append_nil]
        exact h.1 j l hl
    · intro p hp
      rw [List.length_modify]
      rcases List.mem_append.1 hp with hp | hp
      · exact h.2 p hp
      · rw [List.mem_singleton] at hp; subst hp
        exact (List.getElem?_eq_some_iff.1 hl0).1
  | none =>
    dsimp only
    refine ⟨?_, ?_⟩
    · intro j l hl
      rw [to_append]
      by_cases hj : j < s.collectors.length
      · rw [List.getElem?_append_left hj] at hl
        have hne : ¬ s.collectors.length = j := by omega
        have : to j [(s.collectors.length, b.desc.desc)] = [] := by simp [to, hne]
        rw [this, List.append_nil]
        exact h.1 j l hl
      · have hlt := (List.getElem?_eq_some_iff.1 hl).1
        simp only [List.length_append, List.length_singleton] at hlt
        have hj : j = s.collectors.length := by omega
        subst hj
        rw [List.getElem?_append_right (Nat.le_refl _)] at hl
        simp only [Nat.sub_self, List.getElem?_cons_zero, Option.some.injEq] at hl
        subst hl
        have h1 : to s.collectors.length log = [] := by
          unfold to
          rw [List.map_eq_nil_iff, List.filter_eq_nil_iff]
          intro p hp
          have := h.2 p hp
          simp only [decide_eq_true_eq]; omega
        have h2 : to s.collectors.length [(s.collectors.length, b.desc.desc)] = [b.desc.desc] := by simp [to]
        rw [h1, h2]
        exact ⟨[], [], rfl, by simp, by simp⟩
    · intro p hp
      rw [List.length_append, List.length_singleton]
      rcases List.mem_append.1 hp with hp | hp
      · have := h.2 p hp; omega
      · rw [List.mem_singleton] at hp; subst hp; dsimp only; omega

theorem descOk_loop (ik : IKind) {s : State H} {log : List (Nat × Str)} (hok : Ok s) (h : DescOk s log) (bs : List (Behavior H)) :
    DescOk (compileLoop ik s bs).1 (log ++ (compileLoop ik s bs).2.1.zip (bs.map (·.desc.desc))) := by
  induction bs generalizing s log with
  | nil =>
    have : compileLoop ik s ([] : List (Behavior H)) = (s, [], []) := rfl
    rw [this]
    simpa using h
  | cons b bs ih =>
    have h1 := descOk_place hok h (checkSemantic ik b).1
    rw [(checkSemantic_desc ik b).1] at h1
    have h2 := ih (hok.place _) h1
    unfold compileLoop
    dsimp only
    rw [List.map_cons, List.zip_cons_cons]
    rw [List.append_assoc] at h2
    exact h2

theorem behaviors_texts (x : Ext H) (v : Views H) (lib : Scope) {d : Desc} (hn : NoHint d) :
    (behaviors x v lib d).1.map (·.desc.desc) = texts v lib d := by
  classical
  rw [behaviors_plain x v lib hn]
  unfold texts inForce
  by_cases h : ∃ c ∈ v.clauses, Applies c lib d
  · have hne : (v.clauses.filter (fun c => «matches» c lib d)).isEmpty = false := by
      obtain ⟨c, hc, ha⟩ := h
      rw [List.isEmpty_eq_false_iff]
      intro e
      have : c ∈ v.clauses.filter (fun c => «matches» c lib d) := List.mem_filter.2 ⟨hc, (matches_iff c lib d).2 ha⟩
      rw [e] at this; cases this
    rw [if_pos h, hne, keeping_eq]
    simp only [Bool.false_eq_true, if_false, List.map_map]
    rfl
  · have he : (v.clauses.filter (fun c => «matches» c lib d)).isEmpty = true := by
      rw [List.isEmpty_iff, List.filter_eq_nil_iff]
      intro c hc hm
      exact h ⟨c, hc, (matches_iff c lib d).1 hm⟩
    rw [if_neg h, he]
    simp only [if_true]
    split <;> rfl

/-- C33. The description of an output metric is the first of the longest texts brought to it by the registrations so far. -/
theorem C33_longest (x : Ext H) (v : Views H) (lib : Scope) (ds : List Desc) (hn : ∀ d ∈ ds, NoHint d) (i : Nat) (l : Leaf H)
    (hl : (registerAll x v lib State.new ds).collectors[i]? = some l) :
    FirstLongest l.desc.desc (to i (brought x v lib State.new ds)) := by
  have : ∀ (s : State H) log, Ok s → DescOk s log → DescOk (registerAll x v lib s ds) (log ++ brought x v lib s ds) := by
    clear hl
    induction ds with
    | nil => intro s log _ h; unfold brought; rw [List.append_nil]; exact h
    | cons d ds ih =>
      intro s log hok h
      have h1 := descOk_loop d.kind hok h (behaviors x v lib d).1
      rw [behaviors_texts x v lib (hn d List.mem_cons_self), ← compile_eq] at h1
      have h2 := ih (fun d' hd' => hn d' (List.mem_cons_of_mem _ hd')) _ _ (compile_ok x v lib hok d) h1
      unfold brought
      rw [← List.append_assoc]
      exact h2
  have h := this State.new [] Ok.new ⟨by intro i l h; simp [State.new] at h, by simp⟩
  rw [List.nil_append] at h
  exact h.1 i l hl

/-- C33: three registrations. -/
example : (ViewEx.reg (ViewEx.views []) [ViewEx.inst .syncCounter "a", ViewEx.inst .syncCounter "abc", ViewEx.inst .syncCounter "xyz"]
    (ViewEx.inst .syncCounter "b")).1.collectors.map (fun l => l.desc.desc) = [lit "abc"] := by
  decide +kernel

/-! ### C34 -/

/-- The aggregator configuration specifies nothing: zero histogram configuration `h0`, zero limit. -/
def Unset (h0 : H) (a : ACfg H) : Prop := a.hist = h0 ∧ a.limit = 0

/-- C34 (partial). Validated views. If the default configuration for the instrument is what an unspecified configuration
validates to, every clause that specifies none leaves it in force (instrument without hint). Missing: other defaults, see
`C34_default_fails`. -/
theorem C34_default_partial (x : Ext H) (v : Views H) (lib : Scope) (ds : List Desc) (d : Desc) (hn : NoHint d) (h0 : H)
    (hd : (validate x v).defaults.acfg d.kind d.num = ⟨x.validH h0, if v.perfLimit = 0 then 2000 else v.perfLimit⟩) :
    let w := validate x v
    ∀ j c, (keeping w lib d)[j]? = some c → (∃ c0 ∈ v.clauses, Unset h0 c0.acfg ∧ c = validateClause x v c0) →
      ∃ l, WritesAt (compile x w lib (registerAll x w lib State.new ds) d) j l ∧ l.acfg = w.defaults.acfg d.kind d.num := by
  intro w j c hj ⟨c0, _, hu, hc⟩
  have hok := registerAll_ok x w lib (Ok.new (H := H)) ds
  generalize registerAll x w lib State.new ds = s at hok ⊢
  rw [keeping_eq] at hj
  have hne : (w.clauses.filter (fun c => «matches» c lib d)).isEmpty = false := by
    rw [List.isEmpty_eq_false_iff]
    intro e; rw [e] at hj; simp at hj
  have hb : (behaviors x w lib d).1[j]? = some (plainBehavior w d c) := by
    rw [behaviors_plain x w lib hn]
    simp only [hne, Bool.false_eq_true, if_false, List.getElem?_map, hj, Option.map_some]
  rw [compile_eq]
  obtain ⟨i, hi, l, hil, hid, _⟩ := (loop_leaves d.kind hok (behaviors x w lib d).1).get hb
  refine ⟨l, ⟨i, hi, hil⟩, ?_⟩
  have hcfg : l.acfg = (plainBehavior w d c).acfg := by
    have : l.identity.acfg = (plainBehavior w d c).acfg := by
      rcases hid with h | h <;> rw [h] <;> simp only [Behavior.identity, Leaf.identity, buildLeaf, (checkSemantic_desc _ _).2.2.1]
    exact this
  rw [hcfg]
  have hcu : c.acfg = checkACfg x v ⟨h0, 0⟩ := by
    rw [hc]
    unfold validateClause
    dsimp only
    congr 1
    exact (ACfg.mk.injEq _ _ _ _).mpr hu
  unfold plainBehavior pickAggConfig
  dsimp only
  rw [if_neg (fun h => h (hcu.trans hd.symm))]

/-- C34 (partial): a hinted instrument. Under the same proviso, the first clause that applies and does not drop leaves the
hinted limit and histogram size in force. -/
theorem C34_hint_partial (x : Ext H) (v : Views H) (lib : Scope) (ds : List Desc) (d : Desc) (h : Hint) (h0 : H)
    (hbrace : (123 : UInt8) ∈ d.desc) (hparsed : x.parseHint d.desc = some h)
    (hd : (validate x v).defaults.acfg d.kind d.num = ⟨x.validH h0, if v.perfLimit = 0 then 2000 else v.perfLimit⟩) :
    let w := validate x v
    ∀ c, (keeping w lib d)[0]? = some c → (∃ c0 ∈ v.clauses, Unset h0 c0.acfg ∧ c = validateClause x v c0) →
      ∃ l, WritesAt (compile x w lib (registerAll x w lib State.new ds) d) 0 l ∧
        (h.limit ≠ 0 → l.acfg.limit = h.limit) ∧ (h.limit = 0 → l.acfg.limit = (w.defaults.acfg d.kind d.num).limit) ∧
        (h.maxSize ≠ 0 → l.acfg.hist = x.validH (x.histNew h.maxSize)) ∧
        (h.maxSize = 0 → l.acfg.hist = (w.defaults.acfg d.kind d.num).hist) := by
  intro w c hj ⟨c0, _, hu, hc⟩
  have hok := registerAll_ok x w lib (Ok.new (H := H)) ds
  generalize registerAll x w lib State.new ds = s at hok ⊢
  rw [keeping_eq] at hj
  have hne : (w.clauses.filter (fun c => «matches» c lib d)).isEmpty = false := by
    rw [List.isEmpty_eq_false_iff]
    intro e; rw [e] at hj; simp at hj
  have hcu : c.acfg = checkACfg x v ⟨h0, 0⟩ := by
    rw [hc]
    unfold validateClause
    dsimp only
    congr 1
    exact (ACfg.mk.injEq _ _ _ _).mpr hu
  have ht : (tryToApplyHint x w d).defCfg = w.defaults.acfg d.kind d.num ∧ (tryToApplyHint x w d).acfg =
      { hist := if h.maxSize = 0 then (w.defaults.acfg d.kind d.num).hist else x.validH (x.histNew h.maxSize)
        limit := if h.limit = 0 then (w.defaults.acfg d.kind d.num).limit else h.limit } := by
    have hcb : d.desc.contains 123 = true := List.contains_iff_mem.2 hbrace
    unfold tryToApplyHint
    dsimp only
    rw [hcb]
    simp only [if_true, hparsed, and_self]
  have hb : ∃ b, (behaviors x w lib d).1[0]? = some b ∧ b.acfg = (tryToApplyHint x w d).acfg := by
    unfold behaviors
    dsimp only
    rw [hne]
    simp only [Bool.false_eq_true, if_false]
    revert hj
    generalize w.clauses.filter (fun c => «matches» c lib d) = cs
    intro hj
    induction cs with
    | nil => simp at hj
    | cons c' cs ih =>
      unfold clauseBehaviors
      rw [List.filter_cons] at hj
      by_cases hdr : c'.agg = .drop
      · simp only [hdr, bne_self_eq_false, Bool.false_eq_true, if_false] at hj
        simp only [hdr, if_true]
        exact ih hj
      · have : (c'.agg != .drop) = true := by simpa using hdr
        simp only [this, if_true, List.getElem?_cons_zero, Option.some.injEq] at hj
        subst hj
        simp only [hdr, if_false, List.getElem?_cons_zero]
        refine ⟨_, rfl, ?_⟩
        dsimp only
        unfold pickAggConfig
        rw [if_neg (fun h => h (hcu.trans (hd.symm.trans ht.1.symm)))]
  obtain ⟨b, hb0, hba⟩ := hb
  rw [compile_eq]
  obtain ⟨i, hi, l, hil, hid, _⟩ := (loop_leaves d.kind hok (behaviors x w lib d).1).get hb0
  refine ⟨l, ⟨i, hi, hil⟩, ?_⟩
  have hcfg : l.acfg = b.acfg := by
    have : l.identity.acfg = b.acfg := by
      rcases hid with h | h <;> rw [h] <;> simp only [Behavior.identity, Leaf.identity, buildLeaf, (checkSemantic_desc _ _).2.2.1]
    exact this
  rw [hcfg, hba, ht.2]
  refine ⟨fun h => ?_, fun h => ?_, fun h => ?_, fun h => ?_⟩ <;> simp [h]

/-- C34: an unset default validates to what an unset clause does. -/
example : (validate ViewEx.x (ViewEx.views [ViewEx.any])).defaults.acfg .syncCounter .int64 = checkACfg ViewEx.x (ViewEx.views [ViewEx.any]) ⟨0, 0⟩ ∧
    (ViewEx.reg (ViewEx.views [ViewEx.any]) [] (ViewEx.inst .syncCounter "d")).1.collectors.map (·.acfg) = [⟨160, 2000⟩] := by
  decide +kernel

/-- Views with a default limit of 10 series for every instrument kind. -/
def limit10 (cs : List (Clause Nat)) : Views Nat :=
  { ViewEx.views cs with defaults := { ViewEx.defaults with int64 := fun _ => ⟨0, 10⟩ } }

/-- C34 (fails). The default limit is 10; a clause that specifies no configuration (only filters keys) sets it to 2000. -/
theorem C34_default_fails :
    (ViewEx.reg (limit10 []) [] (ViewEx.inst .syncCounter "d")).1.collectors.map (·.acfg) = [⟨160, 10⟩] ∧
    Unset 0 (ViewEx.any).acfg ∧
    (ViewEx.reg (limit10 [{ ViewEx.any with keys := some [] }]) [] (ViewEx.inst .syncCounter "d")).1.collectors.map (·.acfg) = [⟨160, 2000⟩] := by
  refine ⟨by decide +kernel, ⟨rfl, rfl⟩, by decide +kernel⟩

/-! ### C40 -/

theorem adds (n : Str) (cs : List Conflict) :
    cs.foldl (fun b c => Builder.add b n c) none = if cs = [] then none else some [(n, cs)] := by
  have : ∀ (cs done : List Conflict), cs.foldl (fun b c => Builder.add b n c) (some [(n, done)]) = some [(n, done ++ cs)] := by
    intro cs
    induction cs with
    | nil => intro done; simp
    | cons c cs ih =>
      intro done
      rw [List.foldl_cons]
      have : Builder.add (some [(n, done)]) n c = some [(n, done ++ [c])] := by simp [Builder.add, assign, lookup]
      rw [this, ih]; simp
  cases cs with
  | nil => rfl
  | cons c cs =>
    rw [List.foldl_cons]
    have h : Builder.add none n c = some [(n, [c])] := by simp [Builder.add, assign, lookup]
    rw [h, this]; simp

theorem combine_adds (b : Builder) (n : Str) (cs : List Conflict) :
    b.combine (cs.foldl (fun b c => Builder.add b n c) none) = if cs = [] then b else some (assign (b.getD []) n cs) := by
  rw [adds]
  by_cases h : cs = []
  · cases b <;> simp [h, Builder.combine]
  · cases b <;> simp [h, Builder.combine]

theorem combineAll_snoc (rs : List (Str × List Conflict)) (n : Str) (cs : List Conflict) :
    combineAll (rs ++ [(n, cs)]) = if cs = [] then combineAll rs else some (assign ((combineAll rs).getD []) n cs) := by
  unfold combineAll
  rw [List.foldl_append, List.foldl_cons, List.foldl_nil]
  exact combine_adds _ _ _

/-- C40. There is an error exactly when some reader has a conflict. -/
theorem C40_error_iff (rs : List (Str × List Conflict)) : combineAll rs ≠ none ↔ ∃ r ∈ rs, r.2 ≠ [] := by
  rw [← List.reverse_reverse rs]
  generalize rs.reverse = rs
  induction rs with
  | nil => simp [combineAll]
  | cons r rs ih =>
    obtain ⟨n, cs⟩ := r
    rw [List.reverse_cons, combineAll_snoc]
    by_cases h : cs = []
    · rw [if_pos h, ih]
      constructor
      · rintro ⟨r, hr, hc⟩; exact ⟨r, List.mem_append_left _ hr, hc⟩
      · rintro ⟨r, hr, hc⟩
        rcases List.mem_append.1 hr with hr | hr
        · exact ⟨r, hr, hc⟩
        · rw [List.mem_singleton] at hr; subst hr; exact absurd h hc
    · rw [if_neg h]
      simp only [ne_eq, reduceCtorEq, not_false_eq_true, true_iff]
      exact ⟨(n, cs), List.mem_append_right _ (List.mem_singleton.2 rfl), h⟩

theorem mem_assign (m : List (Str × List Conflict)) (k : Str) (v : List Conflict) (hk : k ∉ m.map (·.1)) (e : Str × List Conflict) :
    e ∈ assign m k v ↔ e ∈ m ∨ e = (k, v) := by
  induction m with
  | nil => simp [assign]
  | cons f m ih =>
    unfold assign
    rw [List.map_cons, List.mem_cons, not_or] at hk
    rw [if_neg (fun h => hk.1 h.symm), List.mem_cons, ih hk.2, List.mem_cons, or_assoc]

/-- C40 (partial). Readers with different names: the error lists each reader that has conflicts, with exactly these. Missing: readers
sharing a name, see `C40_same_name_fails`. -/
theorem C40_every_reader_partial (rs : List (Str × List Conflict)) (hn : (rs.map (·.1)).Nodup) (n : Str) (cs : List Conflict) :
    (n, cs) ∈ (combineAll rs).getD [] ↔ (n, cs) ∈ rs ∧ cs ≠ [] := by
  rw [← List.reverse_reverse rs] at hn ⊢
  revert hn
  generalize rs.reverse = rs
  intro hn
  induction rs generalizing n cs with
  | nil => simp [combineAll]
  | cons r rs ih =>
    obtain ⟨n', cs'⟩ := r
    rw [List.reverse_cons] at hn ⊢
    rw [List.map_append, List.nodup_append] at hn
    obtain ⟨h1, _, h3⟩ := hn
    have ih := fun n cs => ih n cs h1
    rw [combineAll_snoc, List.mem_append, List.mem_singleton]
    by_cases h : cs' = []
    · rw [if_pos h, ih]
      constructor
      · rintro ⟨a, b⟩; exact ⟨Or.inl a, b⟩
      · rintro ⟨a | a, b⟩
        · exact ⟨a, b⟩
        · cases a; exact absurd h b
    · have hnot : n' ∉ ((combineAll rs.reverse).getD []).map (·.1) := by
        intro hm
        obtain ⟨⟨a, b⟩, hm', he⟩ := List.mem_map.1 hm
        exact h3 a (List.mem_map.2 ⟨(a, b), ((ih _ _).1 hm').1, rfl⟩) n' (by simp) he
      rw [if_neg h, Option.getD_some, mem_assign _ _ _ hnot, ih]
      constructor
      · rintro (⟨a, b⟩ | a)
        · exact ⟨Or.inl a, b⟩
        · cases a; exact ⟨Or.inr rfl, h⟩
      · rintro ⟨a | a, b⟩
        · exact Or.inl ⟨a, b⟩
        · exact Or.inr a

/-- C40 (fails). Two readers with the same name (readers get the name of their views, which may be the same): the second
one's conflicts replace the first one's. -/
theorem C40_same_name_fails :
    combineAll [(lit "r", [⟨[0, 1], none⟩]), (lit "r", [⟨[2], some ⟨.syncCounter, .gauge⟩⟩])] =
      some [(lit "r", [⟨[2], some ⟨.syncCounter, .gauge⟩⟩])] := by
  decide +kernel

/-- C40: three readers, two with conflicts. -/
example : combineAll [(lit "a", [⟨[0, 1], none⟩]), (lit "b", []), (lit "c", [⟨[2, 3], none⟩, ⟨[4, 5], none⟩])] =
    some [(lit "a", [⟨[0, 1], none⟩]), (lit "c", [⟨[2, 3], none⟩, ⟨[4, 5], none⟩])] := by
  decide +kernel

end Verif.Props
