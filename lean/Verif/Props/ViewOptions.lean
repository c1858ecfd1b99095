import Verif.Model.ViewOptions
import Verif.Proof.Last
import Verif.Props.Views

/-!
# C66: view options
-/

namespace Verif.Props
open Verif Verif.Attr Verif.Front Verif.Views
variable {H : Type}

/-! What each option sets. -/

def setsMatchName : ClauseOpt H → Option Str
  | .matchName n => some n
  | _ => none
def setsMatchRegexp : ClauseOpt H → Option (Option (Str → Bool))
  | .matchRegexp r => some r
  | _ => none
def setsMatchKind : ClauseOpt H → Option (Option IKind)
  | .matchKind r => some r
  | _ => none
def setsMatchNumber : ClauseOpt H → Option (Option Number.Kind)
  | .matchNumber r => some r
  | _ => none
def setsMatchLibrary : ClauseOpt H → Option Views.Scope
  | .matchLibrary r => some r
  | _ => none
def setsKeys : ClauseOpt H → Option (Option (List Str))
  | .withKeys r => some r
  | _ => none
/-- Both `WithName` and `WithRenameFunction`. -/
def setsRename : ClauseOpt H → Option (Option (Str → Str))
  | .withRename r => some r
  | .withName n => some (some (fun _ => n))
  | _ => none
def setsDescription : ClauseOpt H → Option Str
  | .withDescription r => some r
  | _ => none
def setsAggregation : ClauseOpt H → Option AggKind
  | .withAggregation r => some r
  | _ => none
def setsConfig : ClauseOpt H → Option (ACfg H)
  | .withConfig r => some r
  | _ => none

def isClause : ViewOpt H → Option (List (ClauseOpt H))
  | .clause o => some o
  | _ => none
def setsKindSelector : ViewOpt H → Option (IKind → AggKind)
  | .kindSelector d => some d
  | _ => none
def setsTempoSelector : ViewOpt H → Option (IKind → Tempo)
  | .tempoSelector d => some d
  | _ => none
def setsConfigSelector : ViewOpt H → Option (IKind → ACfg H × ACfg H)
  | .configSelector d => some d
  | _ => none

/-- The criteria the options of a clause state, the last of each sort: empty strings, nil and unset kinds state nothing, and
a pattern beside a name states nothing. -/
structure Asks (opts : List (ClauseOpt H)) (lib : Views.Scope) (d : Desc) : Prop where
  name : ∀ n, lastSet setsMatchName opts = some n → n = [] ∨ d.name = n
  pattern : ∀ m, lastSet setsMatchRegexp opts = some (some m) →
    (lastSet setsMatchName opts = none ∨ lastSet setsMatchName opts = some []) → m d.name = true
  kind : ∀ k, lastSet setsMatchKind opts = some (some k) → d.kind = k
  number : ∀ k, lastSet setsMatchNumber opts = some (some k) → d.num = k
  library : ∀ s, lastSet setsMatchLibrary opts = some s →
    (s.name = [] ∨ lib.name = s.name) ∧ (s.version = [] ∨ lib.version = s.version) ∧ (s.schema = [] ∨ lib.schema = s.schema)

theorem newClause_fields (zero : H) (opts : List (ClauseOpt H)) :
    (newClause zero opts).name = (lastSet setsMatchName opts).getD [] ∧
    (newClause zero opts).regexp = (lastSet setsMatchRegexp opts).getD none ∧
    (newClause zero opts).ikind = (lastSet setsMatchKind opts).getD none ∧
    (newClause zero opts).nkind = (lastSet setsMatchNumber opts).getD none ∧
    (newClause zero opts).lib = (lastSet setsMatchLibrary opts).getD ⟨[], [], []⟩ ∧
    (newClause zero opts).keys = (lastSet setsKeys opts).getD none ∧
    (newClause zero opts).rename = (lastSet setsRename opts).getD none ∧
    (newClause zero opts).description = (lastSet setsDescription opts).getD [] ∧
    (newClause zero opts).agg = (lastSet setsAggregation opts).getD .undefined ∧
    (newClause zero opts).acfg = (lastSet setsConfig opts).getD ⟨zero, 0⟩ := by
  refine ⟨?_, ?_, ?_, ?_, ?_, ?_, ?_, ?_, ?_, ?_⟩
  · exact foldl_lastSet (fun c : Clause H => c.name) setsMatchName ClauseOpt.apply (fun s a => by cases a <;> rfl) _ _
  · exact foldl_lastSet (fun c : Clause H => c.regexp) setsMatchRegexp ClauseOpt.apply (fun s a => by cases a <;> rfl) _ _
  · exact foldl_lastSet (fun c : Clause H => c.ikind) setsMatchKind ClauseOpt.apply (fun s a => by cases a <;> rfl) _ _
  · exact foldl_lastSet (fun c : Clause H => c.nkind) setsMatchNumber ClauseOpt.apply (fun s a => by cases a <;> rfl) _ _
  · exact foldl_lastSet (fun c : Clause H => c.lib) setsMatchLibrary ClauseOpt.apply (fun s a => by cases a <;> rfl) _ _
  · exact foldl_lastSet (fun c : Clause H => c.keys) setsKeys ClauseOpt.apply (fun s a => by cases a <;> rfl) _ _
  · exact foldl_lastSet (fun c : Clause H => c.rename) setsRename ClauseOpt.apply (fun s a => by cases a <;> rfl) _ _
  · exact foldl_lastSet (fun c : Clause H => c.description) setsDescription ClauseOpt.apply (fun s a => by cases a <;> rfl) _ _
  · exact foldl_lastSet (fun c : Clause H => c.agg) setsAggregation ClauseOpt.apply (fun s a => by cases a <;> rfl) _ _
  · exact foldl_lastSet (fun c : Clause H => c.acfg) setsConfig ClauseOpt.apply (fun s a => by cases a <;> rfl) _ _

theorem newConfig_clauses (zero : H) (limit : Nat) (opts : List (ViewOpt H)) :
    (newConfig zero limit opts).clauses = (opts.filterMap isClause).map (newClause zero) := by
  unfold newConfig
  rw [List.foldl_append]
  have gen : ∀ (c : Config H), (opts.foldl (ViewOpt.apply zero) c).clauses = c.clauses ++ (opts.filterMap isClause).map (newClause zero) := by
    induction opts with
    | nil => intro c; simp
    | cons o os ih =>
      intro c
      rw [List.foldl_cons, ih]
      cases o <;> simp [ViewOpt.apply, isClause, List.filterMap_cons]
  rw [gen]
  rfl

theorem applies_asks (zero : H) (opts : List (ClauseOpt H)) (lib : Views.Scope) (d : Desc) :
    Applies { newClause zero opts with regexp := if (newClause zero opts).name = [] then (newClause zero opts).regexp else none } lib d ↔
      Asks opts lib d := by
  obtain ⟨h1, h2, h3, h4, h5, _⟩ := newClause_fields zero opts
  constructor
  · rintro ⟨a1, a2, a3, a4, a5, a6, a7⟩
    simp only at a1 a2 a3 a4 a5 a6 a7
    rw [h1] at a1 a2; rw [h2] at a2; rw [h3] at a3; rw [h4] at a4; rw [h5] at a5 a6 a7
    refine ⟨?_, ?_, ?_, ?_, ?_⟩
    · intro n h; rw [h] at a1; exact a1
    · intro m h hn
      apply a2 m
      rw [if_pos]
      · rw [h]; rfl
      · rcases hn with hn | hn <;> rw [hn] <;> rfl
    · intro k h; rw [h] at a3; exact a3 k rfl
    · intro k h; rw [h] at a4; exact a4 k rfl
    · intro s h; rw [h] at a5 a6 a7; exact ⟨a5, a6, a7⟩
  · rintro ⟨a1, a2, a3, a4, a5⟩
    refine ⟨?_, ?_, ?_, ?_, ?_, ?_, ?_⟩
    · simp only; rw [h1]
      cases h : lastSet setsMatchName opts with
      | none => exact Or.inl rfl
      | some n => exact a1 n h
    · simp only; rw [h1, h2]
      intro m hm
      by_cases hn : (lastSet setsMatchName opts).getD [] = []
      · rw [if_pos hn] at hm
        cases h : lastSet setsMatchRegexp opts with
        | none => rw [h] at hm; cases hm
        | some r =>
          rw [h] at hm
          simp only [Option.getD_some] at hm
          subst hm
          apply a2 m h
          cases hx : lastSet setsMatchName opts with
          | none => exact Or.inl rfl
          | some n => rw [hx] at hn; simp only [Option.getD_some] at hn; subst hn; exact Or.inr rfl
      · rw [if_neg hn] at hm; cases hm
    · simp only; rw [h3]
      intro k hk
      cases h : lastSet setsMatchKind opts with
      | none => rw [h] at hk; cases hk
      | some r => rw [h] at hk; simp only [Option.getD_some] at hk; subst hk; exact a3 k h
    · simp only; rw [h4]
      intro k hk
      cases h : lastSet setsMatchNumber opts with
      | none => rw [h] at hk; cases hk
      | some r => rw [h] at hk; simp only [Option.getD_some] at hk; subst hk; exact a4 k h
    all_goals
      simp only; rw [h5]
      cases h : lastSet setsMatchLibrary opts with
      | none => exact Or.inl rfl
      | some s =>
        first
          | exact (a5 s h).1
          | exact (a5 s h).2.1
          | exact (a5 s h).2.2

/-- **C66** (clauses). The views of a reader have exactly the clauses given, in order. A clause applies to exactly the
instruments its last matchers ask for; its keys, name, description and aggregation are those set last (an invalid aggregation
is as if not set). Options of other sorts make no difference. -/
theorem C66_clauses [DecidableEq H] (x : Ext H) (zero : H) (name : Str) (limit : Nat) (opts : List (ViewOpt H)) :
    (readerViews x zero name limit opts).clauses.length = (opts.filterMap isClause).length ∧
    ∀ (i : Nat) (o : List (ClauseOpt H)), (opts.filterMap isClause)[i]? = some o → ∃ c, (readerViews x zero name limit opts).clauses[i]? = some c ∧
      (∀ lib d, Applies c lib d ↔ Asks o lib d) ∧
      c.keys = (lastSet setsKeys o).join ∧
      (∀ n, c.newName n = match (lastSet setsRename o).join with | some f => f n | none => n) ∧
      c.description = (lastSet setsDescription o).getD [] ∧
      c.agg = (if ((lastSet setsAggregation o).getD .undefined).Known then (lastSet setsAggregation o).getD .undefined else .undefined) ∧
      c.acfg = (let a := (lastSet setsConfig o).getD ⟨zero, 0⟩
        ⟨x.validH a.hist, if a.limit = 0 then (if limit = 0 then 2000 else limit) else a.limit⟩) := by
  simp only [readerViews, validate, newViews, newConfig_clauses]
  refine ⟨by simp, ?_⟩
  intro i o h
  simp only [List.getElem?_map, h, Option.map_some]
  refine ⟨_, rfl, ?_, ?_, ?_, ?_, ?_, ?_⟩
  · intro lib d
    rw [C26_name_over_pattern, applies_asks]
  all_goals obtain ⟨_, _, _, _, _, h6, h7, h8, h9, h10⟩ := newClause_fields zero o
  · simp only [validateClause]; rw [h6]
    cases lastSet setsKeys o <;> rfl
  · intro n
    simp only [validateClause, Clause.newName]; rw [h7]
    cases lastSet setsRename o with
    | none => rfl
    | some f => cases f <;> rfl
  · simp only [validateClause]; rw [h8]
  · simp only [validateClause, checkAgg, known_iff]; rw [h9]
  · have hl : validateLimit (validateLimit limit) = (if limit = 0 then 2000 else limit) := by
      unfold validateLimit defaultAggregatorCardinalityLimit
      by_cases h : limit = 0 <;> simp [h]
    have hne : (if limit = 0 then 2000 else limit) ≠ 0 := by split <;> omega
    simp only [validateClause, checkACfg, validateACfg, hl]; rw [h10]
    simp only [ACfg.mk.injEq, true_and]
    split <;> simp_all

/-- **C66** (defaults). The default aggregation and temporality of an instrument kind, and its aggregator settings, are those of
the selector given last, else the standard ones; invalid values are replaced by the standard ones, and a missing cardinality
limit by the provider's, 2000 if that is missing too. -/
theorem C66_defaults [DecidableEq H] (x : Ext H) (zero : H) (name : Str) (limit : Nat) (opts : List (ViewOpt H)) (k : IKind) :
    let d := (readerViews x zero name limit opts).defaults
    let agg := ((lastSet setsKindSelector opts).getD usualAgg) k
    let tempo := ((lastSet setsTempoSelector opts).map (fun f => f k)).getD .cumulative
    let lim := if limit = 0 then 2000 else limit
    let cfg : ACfg H × ACfg H := ((lastSet setsConfigSelector opts).map (fun f => f k)).getD (⟨zero, lim⟩, ⟨zero, lim⟩)
    d.agg k = (if agg.Known then agg else usualAgg k) ∧
    d.tempo k = (if tempo.Known then tempo else .cumulative) ∧
    d.acfg k .int64 = ⟨x.validH cfg.1.hist, if cfg.1.limit = 0 then lim else cfg.1.limit⟩ ∧
    d.acfg k .float64 = ⟨x.validH cfg.2.hist, if cfg.2.limit = 0 then lim else cfg.2.limit⟩ := by
  have hl : validateLimit (validateLimit limit) = (if limit = 0 then 2000 else limit) := by
    unfold validateLimit defaultAggregatorCardinalityLimit
    by_cases h : limit = 0 <;> simp [h]
  have hne : (if limit = 0 then 2000 else limit) ≠ 0 := by split <;> omega
  generalize hlim : (if limit = 0 then 2000 else limit) = lim at *
  have f1 : (newConfig zero lim opts).defaults.agg = (lastSet setsKindSelector opts).getD standardAgg := by
    unfold newConfig
    rw [List.foldl_append]
    exact foldl_lastSet (fun c : Config H => c.defaults.agg) setsKindSelector (ViewOpt.apply zero) (fun s a => by cases a <;> rfl) _ _
  have f2 : (newConfig zero lim opts).defaults.tempo = (lastSet setsTempoSelector opts).getD standardTempo := by
    unfold newConfig
    rw [List.foldl_append]
    exact foldl_lastSet (fun c : Config H => c.defaults.tempo) setsTempoSelector (ViewOpt.apply zero) (fun s a => by cases a <;> rfl) _ _
  have f3 : (fun k => ((newConfig zero lim opts).defaults.int64 k, (newConfig zero lim opts).defaults.float64 k)) =
      (lastSet setsConfigSelector opts).getD (standardConfig zero lim) := by
    unfold newConfig
    rw [List.foldl_append]
    exact foldl_lastSet (fun c : Config H => (fun k => (c.defaults.int64 k, c.defaults.float64 k))) setsConfigSelector (ViewOpt.apply zero) (fun s a => by cases a <;> rfl) _ _
  have f4 := congrFun f3 k
  have hcfg : ((lastSet setsConfigSelector opts).map (fun f => f k)).getD (⟨zero, lim⟩, ⟨zero, lim⟩) =
      ((lastSet setsConfigSelector opts).getD (standardConfig zero lim)) k := by
    cases lastSet setsConfigSelector opts <;> rfl
  have htempo : ((lastSet setsTempoSelector opts).map (fun f => f k)).getD .cumulative =
      ((lastSet setsTempoSelector opts).getD standardTempo) k := by
    cases lastSet setsTempoSelector opts <;> rfl
  have husual : usualAgg = standardAgg := funext usualAgg_eq
  intro d agg tempo lim' cfg
  simp only [d, agg, tempo, lim', cfg, readerViews, validate, newViews, hl, Defaults.acfg, checkACfg, validateACfg, checkAgg, checkTempo, known_iff, knownTempo_iff, husual]
  rw [hcfg, htempo, ← f4, ← f1, ← f2]
  refine ⟨rfl, rfl, ?_, ?_⟩
  · simp only [ACfg.mk.injEq, true_and]
    split <;> simp_all
  · simp only [ACfg.mk.injEq, true_and]
    split <;> simp_all

/-- A clause option list with repeated and cancelling options. -/
def exOpts : List (ClauseOpt Nat) :=
  [.matchName (lit "a"), .matchKind (some .syncCounter), .withName (lit "z"), .matchName (lit "m"), .matchRegexp (some (fun _ => false)),
   .matchKind none, .withRename (some (fun n => n ++ lit "2")), .withKeys (some []), .withAggregation .mmsc]

example : (let c := (readerViews ViewEx.x 0 (lit "r") 0
        [.tempoSelector (fun _ => .delta), .clause exOpts, .tempoSelector (fun _ => .other 7)]).clauses
    c.length = 1 ∧ c.map (fun c => «matches» c ViewEx.lib (ViewEx.inst .syncHistogram "")) = [true] ∧
    c.map (fun c => c.renamed (lit "m")) = [lit "m2"] ∧ c.map (·.agg) = [.mmsc]) ∧
    (let d := (readerViews ViewEx.x 0 (lit "r") 0
        [.tempoSelector (fun _ => .delta), .clause exOpts, .tempoSelector (fun _ => .other 7)]).defaults
    d.tempo .syncCounter = .cumulative ∧ (d.acfg .syncCounter .int64).limit = 2000) := by decide +kernel

end Verif.Props
