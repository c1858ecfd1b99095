import Verif.Proof.AssemblyWired
import Verif.Spec.AssemblyViews

/-!
The wiring of instruments to the output metrics which views make of them.
-/

namespace Verif.Assembly
open Verif.Attr Verif.Number Verif.Aggr Verif.Front Verif.Views Verif.Provider Verif.Instruments
variable {C G ν : Type} [DecidableEq C]

theorem resolved_eq {ik : IKind} {a k : AggKind} (h : resolved ik a k) : k = (checkKind ik a).1 := by
  by_cases h1 : Legal ik a
  · rw [h.1 h1, checkKind_keep ik a h1]
  · by_cases h2 : a = .anySum ∧ sumFor ik ≠ none
    · cases hs : sumFor ik with
      | none => exact absurd hs h2.2
      | some s => rw [h.2.1 h2.1 s hs, h2.1, checkKind_sum ik s hs]
    · rw [h.2.2 h1 h2, usualAgg_eq]
      refine (checkKind_bad ik a fun e => ?_).symm
      rcases (checkKind_ok ik a).1 e with h' | h'
      · exact h1 h'
      · exact h2 h'

/-- What is asked of the compiler. -/
def wayBehavior (v : Views C) (d : Desc) : Option (Clause C) → Behavior C
  | none => { fromName := d.name, desc := d, kind := v.defaults.agg d.kind, tempo := v.defaults.tempo d.kind
              acfg := v.defaults.acfg d.kind d.num, keys := none, hinted := false }
  | some cl => plainBehavior v d cl

open Classical in
theorem ways_behaviors (x : Ext C) (v : Views C) (sc : Scope) {d : Desc} (hh : hintIn x d = none) (n : Str) :
    (behaviors x v sc d).1.filter (fun b => decide (b.desc.name = n)) = (ways v sc d n).map (wayBehavior v d) := by
  rw [behaviors_unhinted x v sc hh]
  dsimp only
  unfold ways
  by_cases he : ∃ cl ∈ v.clauses, Applies cl sc d
  · have hne : ¬ (v.clauses.filter (fun c => «matches» c sc d)).isEmpty = true := by
      obtain ⟨cl, h1, h2⟩ := he
      rw [List.isEmpty_iff, List.filter_eq_nil_iff]
      exact fun h => h cl h1 ((matches_iff cl sc d).2 h2)
    rw [if_neg hne, if_pos he, List.map_map, List.filter_map, List.filter_filter, List.filter_filter]
    have : (wayBehavior v d ∘ some) = plainBehavior v d := rfl
    rw [this]
    congr 1
    refine List.filter_congr fun cl _ => ?_
    rw [Bool.eq_iff_iff]
    simp only [Function.comp, Bool.and_eq_true, decide_eq_true_eq, matches_iff, bne_iff_ne]
    constructor
    · rintro ⟨⟨h1, h2⟩, h3⟩
      exact ⟨h3, h2, h1⟩
    · rintro ⟨h1, h2, h3⟩
      exact ⟨⟨h3, h2⟩, h1⟩
  · have hne : (v.clauses.filter (fun c => «matches» c sc d)).isEmpty = true := by
      rw [List.isEmpty_iff, List.filter_eq_nil_iff]
      exact fun c hc hm => he ⟨c, hc, (matches_iff c sc d).1 hm⟩
    rw [if_pos hne, if_neg he]
    by_cases hd : v.defaults.agg d.kind = .drop
    · rw [if_pos hd, if_neg (fun h => h.1 hd)]
      rfl
    · rw [if_neg hd]
      by_cases hn : d.name = n
      · rw [if_pos ⟨hd, hn⟩, List.filter_cons_of_pos (by simpa using hn)]
        rfl
      · rw [if_neg (fun h => hn h.2), List.filter_cons_of_neg (by simpa using hn)]
        rfl

/-- The metric which looks like this. -/
def identityOf (n : Str) (L : Look C) : Identity C :=
  { name := n, unit := L.unit, num := L.num, synchronous := L.sync, kind := L.kind, acfg := L.acfg, keys := L.keys.map keysToSet }

theorem looks_fitting {v : Views C} {d : Desc} {way : Option (Clause C)} {L : Look C} {n : Str} (h : LooksLike v d way L)
    (hn : (wayBehavior v d way).desc.name = n) : Fitting (identityOf n L) L.delta (checkSemantic d.kind (wayBehavior v d way)).1 := by
  have hdk : (wayBehavior v d way).desc.kind = d.kind := by cases way <;> rfl
  have hh : (wayBehavior v d way).hinted = false := by cases way <;> rfl
  have hkind : (wayBehavior v d way).kind = asked v d way := by cases way <;> rfl
  have ht : (wayBehavior v d way).tempo = v.defaults.tempo d.kind := by cases way <;> rfl
  have hck : (checkSemantic d.kind (wayBehavior v d way)).1 = { wayBehavior v d way with kind := L.kind } := by
    unfold checkSemantic
    rw [if_neg (by rw [hh]; exact Bool.false_ne_true), hkind, ← resolved_eq h.kind]
  have hleg : Legal d.kind L.kind := by
    rw [resolved_eq h.kind]
    exact checkKind_legal _ _
  rw [hck]
  refine ⟨?_, ?_, ?_⟩
  · unfold Behavior.identity identityOf
    have h1 : (wayBehavior v d way).desc.unit = L.unit := by rw [← h.unit]; cases way <;> rfl
    have h2 : (wayBehavior v d way).desc.num = L.num := by rw [← h.num]; cases way <;> rfl
    have h3 : (wayBehavior v d way).acfg = L.acfg := by
      rw [← h.acfg]
      cases way with
      | none =>
        show v.defaults.acfg d.kind d.num = config v d none
        unfold config Defaults.acfg
        cases d.num <;> rfl
      | some cl =>
        show pickAggConfig _ _ cl.acfg = cl.acfg
        unfold pickAggConfig
        split
        · rfl
        · rename_i e
          exact (Classical.not_not.1 e).symm
    have h4 : (wayBehavior v d way).keys.map keysToSet = L.keys.map keysToSet := by
      rw [sameKeys_iff]
      have := h.keys
      cases way <;> exact this
    simp only [hn, h1, h2, hdk, h.sync, h3, h4]
  · exact compilable_legal _ (by dsimp only; rw [hdk]; exact hleg)
  · unfold buildLeaf
    dsimp only
    rw [hdk, ht, Bool.eq_iff_iff, h.delta]
    have hs := h.sync
    cases hsy : d.kind.synchronous with
    | true =>
      rw [hsy] at hs
      simp [← hs]
    | false =>
      rw [hsy] at hs
      have hg : asyncMethods L.kind = L.kind := by
        cases h1 : d.kind <;> rw [h1] at hleg hsy <;> cases h2 : L.kind <;> rw [h2] at hleg <;> simp [Legal] at hleg <;> first | rfl | cases hsy
      simp [← hs, hg]

/-! ### Hints -/

theorem try_hint {x : Ext C} (v : Views C) {d : Desc} {h : Hint} (hh : hintIn x d = some h) :
    tryToApplyHint x v d =
      { desc := { d with desc := h.description }
        akind :=
          if h.aggregation = [] then v.defaults.agg d.kind
          else match parseKind x.lower h.aggregation with
            | none => v.defaults.agg d.kind
            | some k => if k = .undefined then v.defaults.agg d.kind else k
        tempo :=
          if h.temporality = [] then v.defaults.tempo d.kind
          else match parseTempo x.lower h.temporality with
            | none => v.defaults.tempo d.kind
            | some t => if t = .undefined then v.defaults.tempo d.kind else t
        acfg :=
          { hist := if h.maxSize = 0 then (v.defaults.acfg d.kind d.num).hist else x.validH (x.histNew h.maxSize)
            limit := if h.limit = 0 then (v.defaults.acfg d.kind d.num).limit else h.limit }
        defCfg := v.defaults.acfg d.kind d.num
        hinted := true } := by
  unfold hintIn at hh
  split at hh
  · rename_i hm
    unfold tryToApplyHint
    dsimp only
    rw [if_pos (List.contains_iff_mem.2 hm), hh]
    rfl
  · cases hh

theorem hint_asks {x : Ext C} {v : Views C} {d : Desc} {h : Hint} (hh : hintIn x d = some h) {a : AggKind} (ha : HintAsks x v d h a) :
    (tryToApplyHint x v d).akind = a := by
  rw [try_hint v hh]
  dsimp only
  rcases ha with ⟨h1, h2⟩ | ⟨h1, h2⟩
  · rw [if_neg h1, words_parse h2]
    dsimp only
    rw [if_neg]
    intro e
    subst e
    simp [aggregationWords] at h2
  · rcases h1 with h1 | h1
    · rw [if_pos h1, h2]
    · split
      · exact h2.symm
      · cases hp : parseKind x.lower h.aggregation with
        | none => exact h2.symm
        | some k => exact absurd (parse_words hp) (h1 k)

theorem hint_tempo {x : Ext C} {v : Views C} {d : Desc} {h : Hint} (hh : hintIn x d = some h) {t : Tempo} (ht : HintTempo x v d h t) :
    (tryToApplyHint x v d).tempo = t := by
  rw [try_hint v hh]
  dsimp only
  rcases ht with ⟨h1, h2⟩ | ⟨h1, h2⟩
  · rw [if_neg h1, tempo_words.2 h2]
    dsimp only
    rw [if_neg]
    intro e
    subst e
    simp [temporalityWords] at h2
  · rcases h1 with h1 | h1
    · rw [if_pos h1, h2]
    · split
      · exact h2.symm
      · cases hp : parseTempo x.lower h.temporality with
        | none => exact h2.symm
        | some k => exact absurd (tempo_words.1 hp) (h1 k)

omit [DecidableEq C] in
theorem hintTempo_total (x : Ext C) (v : Views C) (d : Desc) (h : Hint) : ∃ t, HintTempo x v d h t := by
  by_cases h1 : h.temporality = []
  · exact ⟨_, .inr ⟨.inl h1, rfl⟩⟩
  · by_cases h2 : ∃ b, (x.lower h.temporality, b) ∈ temporalityWords
    · obtain ⟨b, hb⟩ := h2
      exact ⟨b, .inl ⟨h1, hb⟩⟩
    · exact ⟨_, .inr ⟨.inr fun b hb => h2 ⟨b, hb⟩, rfl⟩⟩

/-- What is asked of the compiler with a hint. -/
def hintBehavior (x : Ext C) (v : Views C) (d : Desc) : Behavior C :=
  { fromName := (tryToApplyHint x v d).desc.name, desc := (tryToApplyHint x v d).desc, kind := (tryToApplyHint x v d).akind, tempo := (tryToApplyHint x v d).tempo
    acfg := (tryToApplyHint x v d).acfg, keys := none, hinted := (tryToApplyHint x v d).hinted }

open Classical in
theorem ways_hinted {x : Ext C} {v : Views C} {sc : Scope} {d : Desc} {h : Hint} {L : Look C} (hh : hintIn x d = some h) (hl : HintLooks x v sc d h L) (n : Str) :
    (behaviors x v sc d).1.filter (fun b => decide (b.desc.name = n)) = (ways v sc d n).map (fun _ => hintBehavior x v d) := by
  have hne : (v.clauses.filter (fun c => «matches» c sc d)).isEmpty = true := by
    rw [List.isEmpty_iff, List.filter_eq_nil_iff]
    exact fun c hc hm => hl.clauses c hc ((matches_iff c sc d).1 hm)
  have he : ¬ ∃ cl ∈ v.clauses, Applies cl sc d := fun ⟨c, h1, h2⟩ => hl.clauses c h1 h2
  have hk : (tryToApplyHint x v d).akind ≠ .drop := by
    rw [hint_asks hh hl.kind.1]
    intro e
    have := hl.kind.2
    rw [e] at this
    unfold Implemented at this
    split at this <;> simp at this
  unfold behaviors ways
  dsimp only
  rw [if_pos hne, if_neg he]
  dsimp only
  rw [if_neg hk]
  have hname : (tryToApplyHint x v d).desc.name = d.name := (try_desc x v d).1
  by_cases hn : d.name = n
  · rw [if_pos ⟨hl.shown, hn⟩, List.filter_cons_of_pos (by simpa [hname] using hn)]
    rfl
  · rw [if_neg (fun h => hn h.2), List.filter_cons_of_neg (by simpa [hname] using hn)]
    rfl

theorem hint_fitting {x : Ext C} {v : Views C} {sc : Scope} {d : Desc} {h : Hint} {L : Look C} {n : Str} (hh : hintIn x d = some h) (hl : HintLooks x v sc d h L)
    (hn : (hintBehavior x v d).desc.name = n) : Fitting (identityOf n L) L.delta (checkSemantic d.kind (hintBehavior x v d)).1 := by
  obtain ⟨hd1, hd2, hd3, hd4⟩ := try_desc x v d
  have hk := hint_asks hh hl.kind.1
  have hhint : (tryToApplyHint x v d).hinted = true := by rw [try_hint v hh]
  have hcfg : (tryToApplyHint x v d).acfg = L.acfg := by
    have e : v.defaults.acfg d.kind d.num = config v d none := by
      unfold config Defaults.acfg
      cases d.num <;> rfl
    rw [try_hint v hh]
    dsimp only
    rw [e, ← hl.hist, ← hl.limit]
  have hck : (checkSemantic d.kind (hintBehavior x v d)).1 = hintBehavior x v d := by
    unfold checkSemantic
    rw [if_pos (show (hintBehavior x v d).hinted = true from hhint)]
  have himp := hl.kind.2
  rw [hck]
  refine ⟨?_, ?_, ?_⟩
  · unfold Behavior.identity identityOf
    have h4 : (hintBehavior x v d).keys.map keysToSet = L.keys.map keysToSet := by rw [hl.keys]; rfl
    have h1 : (hintBehavior x v d).desc.unit = L.unit := hd4.trans hl.unit
    have h2 : (hintBehavior x v d).desc.num = L.num := hd3.trans hl.num
    have h3 : (hintBehavior x v d).acfg = L.acfg := hcfg
    have h5 : (hintBehavior x v d).desc.kind = d.kind := hd2
    have h6 : (hintBehavior x v d).kind = L.kind := hk
    simp only [hn, h1, h2, h3, h4, h5, h6, hl.sync]
  · unfold Compilable buildLeaf hintBehavior
    dsimp only
    rw [hd2, hk]
    unfold Implemented at himp
    split at himp
    · rename_i e
      rw [if_pos e]
      rcases himp with e | e | e | e | e <;> rw [e] <;> rfl
    · rename_i e
      rw [if_neg e]
      rcases himp with e | e | e <;> rw [e] <;> rfl
  · obtain ⟨t, ht⟩ := hintTempo_total x v d h
    have hte := hint_tempo hh ht
    have htd : HintTempo x v d h .delta ↔ t = .delta := ⟨fun h' => (hte.symm.trans (hint_tempo hh h')), fun e => e ▸ ht⟩
    unfold buildLeaf hintBehavior
    dsimp only
    rw [hd2, hk, hte, Bool.eq_iff_iff, hl.delta, htd]
    have hs := hl.sync
    cases hsy : d.kind.synchronous with
    | true =>
      rw [hsy] at hs
      simp [← hs]
    | false =>
      rw [hsy] at hs
      unfold Implemented at himp
      rw [hsy] at himp
      have hg : asyncMethods L.kind = L.kind := by
        rcases himp with e | e | e <;> rw [e] <;> rfl
      simp [← hs, hg]

theorem implemented_legal {ik : IKind} {a : AggKind} (h : Legal ik a) : Implemented ik a := by
  revert h
  cases ik <;> cases a <;> simp [Legal, Implemented, IKind.synchronous]

/-! ### Hints and clauses -/

/-- The instrument as the `i`th clause which does not drop it finds it. -/
def descFor (x : Ext C) (v : Views C) (d : Desc) : Nat → Desc
  | 0 => d
  | i + 1 => descFor x v (tryToApplyHint x v d).desc i

/-- What is asked of the compiler by a clause. -/
def clauseBehavior (x : Ext C) (v : Views C) (d : Desc) (c : Clause C) : Behavior C :=
  { fromName := (tryToApplyHint x v d).desc.name
    desc := viewDescriptor (tryToApplyHint x v d).desc c
    kind := if c.agg = .undefined then (tryToApplyHint x v d).akind else c.agg
    tempo := (tryToApplyHint x v d).tempo
    acfg := pickAggConfig (tryToApplyHint x v d).acfg (tryToApplyHint x v d).defCfg c.acfg
    keys := c.keys
    hinted := (tryToApplyHint x v d).hinted }

theorem clause_behavior (x : Ext C) (v : Views C) {cs : List (Clause C)} {d : Desc} {b : Behavior C} (hb : b ∈ (clauseBehaviors x v cs d).1) :
    ∃ (i : Nat) (c : Clause C), (cs.filter (fun c => c.agg != .drop))[i]? = some c ∧ b = clauseBehavior x v (descFor x v d i) c := by
  induction cs generalizing d with
  | nil => cases hb
  | cons c cs ih =>
    unfold clauseBehaviors at hb
    by_cases hc : c.agg = .drop
    · rw [if_pos hc] at hb
      rw [List.filter_cons_of_neg (by simpa using hc)]
      exact ih hb
    · rw [if_neg hc] at hb
      rw [List.filter_cons_of_pos (by simpa using hc)]
      rcases List.mem_cons.1 hb with rfl | hb
      · exact ⟨0, c, rfl, rfl⟩
      · obtain ⟨i, c', h1, h2⟩ := ih hb
        exact ⟨i + 1, c', h1, h2⟩

theorem try_text (x : Ext C) (v : Views C) (d : Desc) : ∃ t, (tryToApplyHint x v d).desc = { d with desc := t } := by
  unfold tryToApplyHint
  dsimp only
  split
  · split
    · exact ⟨d.desc, rfl⟩
    · exact ⟨_, rfl⟩
  · exact ⟨d.desc, rfl⟩

theorem descFor_text (x : Ext C) (v : Views C) (d : Desc) (i : Nat) : ∃ t, descFor x v d i = { d with desc := t } := by
  induction i generalizing d with
  | zero => exact ⟨d.desc, rfl⟩
  | succ i ih =>
    obtain ⟨t, ht⟩ := try_text x v d
    obtain ⟨t', ht'⟩ := ih (tryToApplyHint x v d).desc
    exact ⟨t', by show descFor x v _ i = _; rw [ht', ht]⟩

theorem descFor_hint (x : Ext C) (v : Views C) (d : Desc) (i : Nat) : hintIn x (descFor x v d i) = hintFor x d i := by
  induction i generalizing d with
  | zero => rfl
  | succ i ih =>
    show hintIn x (descFor x v _ i) = (hintIn x d).bind _
    rw [ih]
    cases hh : hintIn x d with
    | some h => rw [try_hint v hh]; rfl
    | none =>
      have e : (tryToApplyHint x v d).desc = d := by rw [unhinted_try x v hh]
      rw [e]
      show _ = none
      cases i with
      | zero => exact hh
      | succ i => show (hintIn x d).bind _ = none; rw [hh]; rfl

open Classical in
theorem ways_clauses (x : Ext C) {v : Views C} {sc : Scope} {d : Desc} (he : ∃ cl ∈ v.clauses, Applies cl sc d) (n : Str) :
    (ways v sc d n).length = ((behaviors x v sc d).1.filter (fun b => decide (b.desc.name = n))).length := by
  have hne : ¬ (v.clauses.filter (fun c => «matches» c sc d)).isEmpty = true := by
    obtain ⟨cl, h1, h2⟩ := he
    rw [List.isEmpty_iff, List.filter_eq_nil_iff]
    exact fun h => h cl h1 ((matches_iff cl sc d).2 h2)
  unfold ways behaviors
  dsimp only
  rw [if_pos he, if_neg hne, List.length_map]
  have h := (clauseBehaviors_desc x v (v.clauses.filter (fun c => «matches» c sc d)) d).2
  have h' := congrArg (List.map (fun q : Str × Kind × Str × IKind × Option (List Str) => q.1)) h
  rw [List.map_map, List.map_map] at h'
  have e1 : ((clauseBehaviors x v (v.clauses.filter (fun c => «matches» c sc d)) d).1.filter (fun b => decide (b.desc.name = n))).length =
      (((clauseBehaviors x v (v.clauses.filter (fun c => «matches» c sc d)) d).1.map (fun b => b.desc.name)).filter (fun m => decide (m = n))).length := by
    rw [List.filter_map, List.length_map]
    rfl
  have e2 : (clauseBehaviors x v (v.clauses.filter (fun c => «matches» c sc d)) d).1.map (fun b => b.desc.name) =
      ((v.clauses.filter (fun c => «matches» c sc d)).filter (fun c => c.agg != .drop)).map (fun c => c.renamed d.name) := h'
  rw [e1, e2, List.filter_map, List.length_map, List.filter_filter, List.filter_filter]
  congr 1
  refine List.filter_congr fun cl _ => ?_
  rw [Bool.eq_iff_iff]
  rw [decide_eq_true_iff]
  simp only [Function.comp, Bool.and_eq_true, decide_eq_true_eq, matches_iff, bne_iff_ne, newName_eq]
  constructor
  · rintro ⟨h1, h2, h3⟩
    exact ⟨⟨h3, h2⟩, h1⟩
  · rintro ⟨⟨h1, h2⟩, h3⟩
    exact ⟨h3, h2, h1⟩

theorem clause_fitting {x : Ext C} {v : Views C} {d : Desc} {h : Hint} {cl : Clause C} {L : Look C} {n : Str} (hh : hintIn x d = some h) (hl : HintedClauseLooks x v d h cl L)
    (hn : (clauseBehavior x v d cl).desc.name = n) : Fitting (identityOf n L) L.delta (checkSemantic d.kind (clauseBehavior x v d cl)).1 := by
  obtain ⟨hd1, hd2, hd3, hd4⟩ := try_desc x v d
  have hk : (clauseBehavior x v d cl).kind = L.kind := by
    have h' := hl.kind
    unfold clauseBehavior
    dsimp only
    split at h'
    · rename_i e
      rw [if_pos e]
      exact hint_asks hh h'
    · rename_i e
      rw [if_neg e]
      exact h'.symm
  have hhint : (tryToApplyHint x v d).hinted = true := by rw [try_hint v hh]
  have hcfg : (clauseBehavior x v d cl).acfg = L.acfg := by
    have e : v.defaults.acfg d.kind d.num = config v d none := by
      unfold config Defaults.acfg
      cases d.num <;> rfl
    unfold clauseBehavior pickAggConfig
    rw [try_hint v hh]
    dsimp only
    rw [e]
    by_cases ho : cl.acfg = config v d none
    · rw [if_neg (fun h => h ho), ← ho, ← hl.hist ho, ← hl.limit ho]
    · rw [if_pos ho, hl.own ho]
  have hck : (checkSemantic d.kind (clauseBehavior x v d cl)).1 = clauseBehavior x v d cl := by
    unfold checkSemantic
    rw [if_pos (show (clauseBehavior x v d cl).hinted = true from hhint)]
  have himp := hl.implemented
  have h5 : (clauseBehavior x v d cl).desc.kind = d.kind := hd2
  rw [hck]
  refine ⟨?_, ?_, ?_⟩
  · unfold Behavior.identity identityOf
    have h4 : (clauseBehavior x v d cl).keys.map keysToSet = L.keys.map keysToSet := (sameKeys_iff _ _).2 hl.keys
    have h1 : (clauseBehavior x v d cl).desc.unit = L.unit := hd4.trans hl.unit
    have h2 : (clauseBehavior x v d cl).desc.num = L.num := hd3.trans hl.num
    simp only [hn, h1, h2, hcfg, h4, h5, hk, hl.sync]
  · unfold Compilable buildLeaf
    rw [h5, hk]
    unfold Implemented at himp
    split at himp
    · rename_i e
      rw [if_pos e]
      rcases himp with e | e | e | e | e <;> rw [e] <;> rfl
    · rename_i e
      rw [if_neg e]
      rcases himp with e | e | e <;> rw [e] <;> rfl
  · obtain ⟨t, ht⟩ := hintTempo_total x v d h
    have hte : (clauseBehavior x v d cl).tempo = t := hint_tempo hh ht
    have htd : HintTempo x v d h .delta ↔ t = .delta := ⟨fun h' => (hte.symm.trans (hint_tempo hh h')), fun e => e ▸ ht⟩
    unfold buildLeaf
    dsimp only
    rw [h5, hk, hte, Bool.eq_iff_iff, hl.delta, htd]
    have hs := hl.sync
    cases hsy : d.kind.synchronous with
    | true =>
      rw [hsy] at hs
      simp [← hs]
    | false =>
      rw [hsy] at hs
      unfold Implemented at himp
      rw [hsy] at himp
      have hg : asyncMethods L.kind = L.kind := by
        rcases himp with e | e | e <;> rw [e] <;> rfl
      simp [← hs, hg]

open Classical in
theorem ClausesLook.fitting {x : Ext C} {v : Views C} {sc : Scope} {d : Desc} {n : Str} {L : Look C} (hl : ClausesLook x v sc d n L) {b : Behavior C}
    (hb : b ∈ (behaviors x v sc d).1) (hn : b.desc.name = n) : Fitting (identityOf n L) L.delta (checkSemantic d.kind b).1 := by
  have hne : ¬ (v.clauses.filter (fun c => «matches» c sc d)).isEmpty = true := by
    obtain ⟨cl, h1, h2⟩ := hl.clauses
    rw [List.isEmpty_iff, List.filter_eq_nil_iff]
    exact fun h => h cl h1 ((matches_iff cl sc d).2 h2)
  unfold behaviors at hb
  dsimp only at hb
  rw [if_neg hne] at hb
  obtain ⟨i, cl, hcl, rfl⟩ := clause_behavior x v hb
  have hshow : (showing v sc d)[i]? = some cl := by
    rw [← hcl]
    unfold showing
    rw [List.filter_filter]
    congr 1
    refine List.filter_congr fun c _ => ?_
    rw [Bool.eq_iff_iff]
    simp only [Bool.and_eq_true, decide_eq_true_eq, matches_iff, bne_iff_ne]
    exact ⟨fun h => ⟨h.2, h.1⟩, fun h => ⟨h.2, h.1⟩⟩
  obtain ⟨t, ht⟩ := descFor_text x v d i
  have hhint := descFor_hint x v d i
  have hname : cl.newName d.name = n := by
    rw [← hn]
    show _ = cl.renamed (tryToApplyHint x v (descFor x v d i)).desc.name
    rw [(try_desc x v _).1, ht]
    rfl
  have hkind : (descFor x v d i).kind = d.kind := by rw [ht]
  rw [← hkind]
  cases hf : hintFor x d i with
  | none =>
    rw [hf] at hhint
    have e : clauseBehavior x v (descFor x v d i) cl = wayBehavior v (descFor x v d i) (some cl) := by
      unfold clauseBehavior wayBehavior plainBehavior
      rw [unhinted_try x v hhint]
    rw [e] at hn ⊢
    have h := hl.plain i cl hshow hname hf
    refine looks_fitting ?_ hn
    rw [ht]
    exact ⟨h.sync, h.kind, h.num, h.unit, h.keys, h.acfg, h.delta⟩
  | some hi =>
    rw [hf] at hhint
    have h := hl.hint i cl hi hshow hname hf
    refine clause_fitting hhint ?_ hn
    rw [ht]
    exact ⟨h.sync, h.kind, h.implemented, h.num, h.unit, h.keys, h.own, h.hist, h.limit, h.delta⟩

omit [DecidableEq C] in
open Classical in
theorem ClausesLook.basic {x : Ext C} {v : Views C} {sc : Scope} {d : Desc} {n : Str} {L : Look C} (hl : ClausesLook x v sc d n L) (hne : ways v sc d n ≠ []) :
    d.kind.synchronous = L.sync ∧ d.num = L.num ∧ Implemented d.kind L.kind := by
  unfold ways at hne
  rw [if_pos hl.clauses] at hne
  obtain ⟨w, hw⟩ := List.exists_mem_of_ne_nil _ hne
  obtain ⟨cl, hcl, -⟩ := List.mem_map.1 hw
  obtain ⟨h1, h2⟩ := List.mem_filter.1 hcl
  have h2 := of_decide_eq_true h2
  have hs : cl ∈ showing v sc d := List.mem_filter.2 ⟨h1, decide_eq_true ⟨h2.1, h2.2.1⟩⟩
  obtain ⟨i, hi⟩ := List.getElem?_of_mem hs
  cases hf : hintFor x d i with
  | none =>
    have h := hl.plain i cl hi h2.2.2 hf
    exact ⟨h.sync, h.num, implemented_legal (by rw [resolved_eq h.kind]; exact checkKind_legal _ _)⟩
  | some hh =>
    have h := hl.hint i cl hh hi h2.2.2 hf
    exact ⟨h.sync, h.num, h.implemented⟩

theorem One.registers (x : Ext C) {v : Views C} {sc : Scope} {ds : List Desc} {n : Str} {I : Identity C} {dl : Bool}
    (hf : ∀ d ∈ ds, ∀ b ∈ (behaviors x v sc d).1, b.desc.name = n → Fitting I dl (checkSemantic d.kind b).1) :
    One n I dl (registerAll x v sc State.new ds) := by
  have key : ∀ (es : List Desc) (s : State C), Ok s → One n I dl s → (∀ d ∈ es, d ∈ ds) → One n I dl (registerAll x v sc s es) := by
    intro es
    induction es with
    | nil => intro s _ h _; exact h
    | cons d es ih =>
      intro s hok h hes
      refine ih _ (compile_ok x v sc hok d) ?_ (fun e he => hes e (List.mem_cons_of_mem _ he))
      show One _ _ _ (Views.compile x v sc s d).1
      rw [compile_eq]
      exact h.loop d.kind hok _ (hf d (hes d List.mem_cons_self))
  refine key ds State.new Ok.new ⟨?_, ?_⟩ (fun d h => h)
  · intro i f hf; simp [State.new] at hf
  · intro i j f g hf; simp [State.new] at hf

/-- Where the output metric of a name is. -/
structure Spot (m : Meter C ν) (pipe : Nat) (v : Views C) (n : Str) (L : Look C) (s : State C) (j : Nat) (f : Leaf C) : Prop where
  comp : m.comps[pipe]? = some s
  leaf : s.collectors[j]? = some f
  name : f.desc.name = n
  uniq : ∀ (i : Nat) (g : Leaf C), s.collectors[i]? = some g → g.desc.name = n → i = j
  identity : f.identity = identityOf n L
  delta : f.delta = L.delta
  insts : ∀ o ∈ m.insts, ∃ ls, o.leaves[pipe]? = some ls ∧ ls.count j = (ways v m.scope o.desc n).length
  sync : ∀ o ∈ m.insts, ways v m.scope o.desc n ≠ [] → o.desc.kind.synchronous = L.sync

omit [DecidableEq C] in
theorem each_count {s : State C} {n : Str} {j : Nat} {f : Leaf C} (hj : s.collectors[j]? = some f) (hn : f.desc.name = n)
    (hu : ∀ (i : Nat) (g : Leaf C), s.collectors[i]? = some g → g.desc.name = n → i = j) {ls : List Nat} {bs : List (Behavior C)} (he : Each (Named s) ls bs) :
    ls.count j = (bs.filter (fun b => decide (b.desc.name = n))).length := by
  induction he with
  | nil => rfl
  | @cons a b as bs h1 _ ih =>
    obtain ⟨g, hg, hgn⟩ := h1
    rw [List.count_cons, ih, List.filter_cons]
    by_cases hb : b.desc.name = n
    · have := hu a g hg (hgn.trans hb)
      subst this
      simp [hb]
    · have : ¬ a = j := by
        intro e
        subst e
        rw [hj] at hg
        cases hg
        exact hb (hgn.symm.trans hn)
      simp [hb, this]

omit [DecidableEq C] in
open Classical in
theorem ways_output {v : Views C} {sc : Scope} {d : Desc} {n : Str} (h : ways v sc d n ≠ []) : OutputName v sc d n := by
  unfold ways at h
  split at h
  · rename_i he
    obtain ⟨cl, hcl⟩ := List.exists_mem_of_ne_nil _ h
    obtain ⟨c, hc, -⟩ := List.mem_map.1 hcl
    obtain ⟨h1, h2⟩ := List.mem_filter.1 hc
    have h2 := of_decide_eq_true h2
    exact .inl ⟨c, h1, h2.1, h2.2.1, h2.2.2.symm⟩
  · rename_i he
    split at h
    · rename_i h2
      exact .inr ⟨fun c hc ha => he ⟨c, hc, ha⟩, h2.2.symm⟩
    · exact absurd rfl h

theorem spotted {x : Ext C} {views : List (Views C)} {cs : List (Call ν)} {p : Provider C ν} (h : Assembled x views cs p) {pipe k : Nat}
    {v : Views C} {m : Meter C ν} (hv : views[pipe]? = some v) (hk : p.ordered[k]? = some m) {n : Str} {L : Look C}
    (hp : ∀ d ∈ requests k cs, OutputName v m.scope d n →
      (hintIn x d = none ∧ ∀ way ∈ ways v m.scope d n, LooksLike v d way L) ∨ (∃ h, hintIn x d = some h ∧ HintLooks x v m.scope d h L) ∨ ClausesLook x v m.scope d n L)
    (hi : ∃ o ∈ m.insts, ways v m.scope o.desc n ≠ []) : ∃ s j f, Spot m pipe v n L s j f := by
  obtain ⟨ds, hds, ht⟩ := h.traced k m hk
  have hm := h.ok.meters m (List.mem_of_getElem? hk)
  rw [h.same_views] at hm
  have hlt : pipe < m.comps.length := by rw [hm.comps]; exact (List.getElem?_eq_some_iff.1 hv).1
  obtain ⟨s, hsc⟩ : ∃ s, m.comps[pipe]? = some s := ⟨_, List.getElem?_eq_getElem hlt⟩
  have hone : One n (identityOf n L) L.delta s := by
    rw [ht.comps pipe v s hv hsc]
    refine One.registers x fun d hd b hb hbn => ?_
    have hmem : b ∈ (behaviors x v m.scope d).1.filter (fun b => decide (b.desc.name = n)) := List.mem_filter.2 ⟨hb, decide_eq_true hbn⟩
    rcases hp d (hds d hd) (hbn ▸ behaviors_name x v m.scope d b hb) with ⟨hh, hw⟩ | ⟨h, hh, hl⟩ | hl
    · rw [ways_behaviors x v m.scope hh n] at hmem
      obtain ⟨way, hway, rfl⟩ := List.mem_map.1 hmem
      exact looks_fitting (hw way hway) hbn
    · rw [ways_hinted hh hl n] at hmem
      obtain ⟨way, hway, rfl⟩ := List.mem_map.1 hmem
      exact hint_fitting hh hl hbn
    · exact hl.fitting hb hbn
  have hcount : ∀ o ∈ m.insts, (ways v m.scope o.desc n).length = ((behaviors x v m.scope o.desc).1.filter (fun b => decide (b.desc.name = n))).length := by
    intro o ho
    by_cases hout : OutputName v m.scope o.desc n
    · rcases hp o.desc (hds _ (ht.insts o ho)) hout with ⟨hh, -⟩ | ⟨h, hh, hl⟩ | hl
      · rw [ways_behaviors x v m.scope hh n, List.length_map]
      · rw [ways_hinted hh hl n, List.length_map]
      · exact ways_clauses x hl.clauses n
    · have h1 : ways v m.scope o.desc n = [] := Classical.byContradiction fun hne => hout (ways_output hne)
      have h2 : (behaviors x v m.scope o.desc).1.filter (fun b => decide (b.desc.name = n)) = [] := by
        refine List.filter_eq_nil_iff.2 fun b hb hbn => hout ?_
        exact (of_decide_eq_true hbn) ▸ behaviors_name x v m.scope o.desc b hb
      rw [h1, h2]
      rfl
  have hls : ∀ o ∈ m.insts, ∃ ls, o.leaves[pipe]? = some ls ∧ Each (Named s) ls (behaviors x v m.scope o.desc).1 := by
    intro o ho
    have hlen := hm.leaves o ho
    have hlt' : pipe < o.leaves.length := by rw [hlen]; exact (List.getElem?_eq_some_iff.1 hv).1
    exact ⟨_, List.getElem?_eq_getElem hlt', hm.count o ho pipe _ v s (List.getElem?_eq_getElem hlt') hv hsc⟩
  obtain ⟨o0, ho0, hn0⟩ := hi
  obtain ⟨ls0, -, hb0⟩ := hls o0 ho0
  obtain ⟨j, f, hj, hfn⟩ : ∃ (j : Nat) (f : Leaf C), s.collectors[j]? = some f ∧ f.desc.name = n := by
    have hpos : (behaviors x v m.scope o0.desc).1.filter (fun b => decide (b.desc.name = n)) ≠ [] := by
      intro e
      have := hcount o0 ho0
      rw [e, List.length_nil, List.length_eq_zero_iff] at this
      exact hn0 this
    obtain ⟨b, hb⟩ := List.exists_mem_of_ne_nil _ hpos
    obtain ⟨hb1, hb2⟩ := List.mem_filter.1 hb
    obtain ⟨i, hbi⟩ := List.getElem?_of_mem hb1
    obtain ⟨a, -, g, hg, hgn⟩ := hb0.get hbi
    exact ⟨a, g, hg, hgn.trans (of_decide_eq_true hb2)⟩
  obtain ⟨hid, hdl⟩ := hone.leaf j f hj hfn
  have hu : ∀ (i : Nat) (g : Leaf C), s.collectors[i]? = some g → g.desc.name = n → i = j := fun i g hg hgn => hone.uniq i j g f hg hj hgn hfn
  refine ⟨s, j, f, hsc, hj, hfn, hu, hid, hdl, ?_, ?_⟩
  · intro o ho
    obtain ⟨ls, a1, a2⟩ := hls o ho
    exact ⟨ls, a1, by rw [each_count hj hfn hu a2, hcount o ho]⟩
  · intro o ho hne
    obtain ⟨way, hway⟩ := List.exists_mem_of_ne_nil _ hne
    rcases hp o.desc (hds _ (ht.insts o ho)) (ways_output hne) with ⟨-, hw⟩ | ⟨h, -, hl⟩ | hl
    · exact (hw way hway).sync
    · exact hl.sync
    · exact (hl.basic hne).1

omit [DecidableEq C] in
theorem times_addr {p : Provider C ν} {k : Nat} {m : Meter C ν} (hk : p.ordered[k]? = some m) (v : Views C) (sc : Scope) (n : Str) {i : Nat} {o : Provider.Inst}
    (hi : m.insts[i]? = some o) : times p k v sc n (instAddr k i) = (ways v sc o.desc n).length := by
  unfold times
  rw [hk]
  dsimp only
  rw [zip_only (fun e : Provider.Inst × Nat => if instAddr k e.2 = instAddr k i then ways v sc e.1.desc n else []) m.insts i o hi ?_]
  · rw [if_pos rfl]
  · intro j b hj _
    rw [if_neg]
    exact fun e => hj (pair_inj e).2

omit [DecidableEq C] in
theorem times_pos {p : Provider C ν} {k : Nat} {v : Views C} {sc : Scope} {n : Str} {id : Nat} (h : 0 < times p k v sc n id) :
    ∃ m i o, p.ordered[k]? = some m ∧ m.insts[i]? = some o ∧ id = instAddr k i ∧ ways v sc o.desc n ≠ [] := by
  unfold times at h
  cases hk : p.ordered[k]? with
  | none => rw [hk] at h; exact absurd h (Nat.lt_irrefl 0)
  | some m =>
    rw [hk] at h
    obtain ⟨a, ha⟩ := List.exists_mem_of_length_pos h
    obtain ⟨e, he, ha'⟩ := List.mem_flatMap.1 ha
    split at ha'
    · rename_i hid
      exact ⟨m, e.2, e.1, rfl, List.mem_zipIdx_iff_getElem?.1 he, hid.symm, List.ne_nil_of_mem ha'⟩
    · cases ha'

theorem count_addr (k pipe j : Nat) (ls : List Nat) : (ls.map (leafAddr k pipe)).count (leafAddr k pipe j) = ls.count j := by
  induction ls with
  | nil => rfl
  | cons a as ih =>
    rw [List.map_cons, List.count_cons, List.count_cons, ih]
    congr 1
    by_cases e : a = j
    · subst e; simp
    · have : ¬ leafAddr k pipe a = leafAddr k pipe j := fun h => e (leafAddr_inj h).2.2
      simp [e, this]

/-- What the views and the requests make of a name. -/
structure Fed (w : World C G) (p : Provider C ν) (pipe k : Nat) (sc : Scope) (v : Views C) (n : Str) (L : Look C) (o : Pipeline.Out) (f : Leaf C) : Prop where
  only : Pipeline.Only (reader w p pipe) (sentScope sc) n o
  mem : ∃ s ∈ (reader w p pipe).scopes, o ∈ s.2
  out : ∃ l, o = outOf l f
  leaf : leafAt p o.leaf = some f
  sync : f.desc.kind.synchronous = true
  identity : f.identity = identityOf n L
  delta : f.delta = L.delta
  count : ∀ id, (leavesOf p id).count o.leaf = times p k v sc n id

theorem fed (w : World C G) {x : Ext C} {views : List (Views C)} {cs : List (Call ν)} {p : Provider C ν} {pipe k : Nat} {v : Views C} {sc : Scope} {n : Str} {L : Look C}
    (h : Viewed x views cs p pipe k v sc n L) (hs : L.sync = true) : ∃ o f, Fed w p pipe k sc v n L o f := by
  obtain ⟨m, i0, hk, hsc, h3, h4⟩ := h.inst
  have ha : Assembled x views cs p := by rw [h.made]; exact assembled x views cs
  subst hsc
  obtain ⟨s, j, f, hL⟩ := spotted ha h.reader hk h.alike ⟨i0, h3, h4⟩
  have hat : leafAt p (leafAddr k pipe j) = some f := by
    rw [leafAt_addr, hk]
    simp only [Option.bind_some, hL.comp, hL.leaf]
  refine ⟨outOf (leafAddr k pipe j) f, f, ?_, ?_, ⟨_, rfl⟩, hat, (congrArg Identity.synchronous hL.identity).trans hs, hL.identity, hL.delta, ?_⟩
  · have := only_at ha hk hL.comp hL.leaf hL.name hL.uniq (fun _ => true) rfl
    unfold Pipeline.Only reader outsOf
    simp only [map_flat (fun e : Leaf C × Nat => outOf (leafAddr _ pipe e.2) e.1)]
    exact this
  · refine ⟨(libOf m.scope, outsOf k pipe m), ?_, ?_⟩
    · refine List.mem_map.2 ⟨(m, k), ?_, rfl⟩
      exact List.mem_zipIdx_iff_getElem?.2 hk
    · unfold outsOf
      rw [hL.comp]
      exact List.mem_map.2 ⟨(f, j), List.mem_zipIdx_iff_getElem?.2 hL.leaf, rfl⟩
  · intro id
    show (leavesOf p id).count (leafAddr k pipe j) = _
    by_cases hid : ∃ i o, id = instAddr k i ∧ m.insts[i]? = some o
    · obtain ⟨i, o, rfl, hio⟩ := hid
      rw [times_addr hk v m.scope n hio]
      have ho := List.mem_of_getElem? hio
      obtain ⟨ls, a1, a2⟩ := hL.insts o ho
      unfold leavesOf
      rw [instAt_addr, hk]
      simp only [Option.bind_some, hio]
      have hu : (unpair (instAddr k i)).1 = k := by unfold instAddr; rw [unpair_pair]
      rw [hu]
      split
      · rw [List.count_eq_length_filter, List.filter_flatMap]
        rw [zip_only (fun e : List Nat × Nat => (e.1.map (leafAddr k e.2)).filter (fun x => x == leafAddr k pipe j)) o.leaves pipe ls a1 ?_]
        · rw [← a2, ← List.count_eq_length_filter]
          exact count_addr k pipe j ls
        · intro q ls' hq _
          refine List.filter_eq_nil_iff.2 fun a ha he => hq ?_
          obtain ⟨b, -, rfl⟩ := List.mem_map.1 ha
          exact (leafAddr_inj (eq_of_beq he)).2.1
      · rename_i hns
        have : ways v m.scope o.desc n = [] := Classical.byContradiction fun hne => hns ((hL.sync o ho hne).trans hs)
        rw [this]
        rfl
    · have h0 : times p k v m.scope n id = 0 := by
        refine Nat.eq_zero_of_not_pos fun hpos => hid ?_
        obtain ⟨m', i, o, b1, b2, b3, -⟩ := times_pos hpos
        rw [hk] at b1
        cases b1
        exact ⟨i, o, b3, b2⟩
      rw [h0, List.count_eq_zero]
      intro hmem
      unfold leavesOf at hmem
      cases hio : instAt p id with
      | none => rw [hio] at hmem; cases hmem
      | some o =>
        rw [hio] at hmem
        dsimp only at hmem
        split at hmem
        · obtain ⟨⟨ls, q⟩, h1, h2⟩ := List.mem_flatMap.1 hmem
          obtain ⟨b, hb, he⟩ := List.mem_map.1 h2
          obtain ⟨e1, -, -⟩ := leafAddr_inj he
          unfold instAt at hio
          rw [e1, hk] at hio
          simp only [Option.bind_some] at hio
          refine hid ⟨(unpair id).2, o, ?_, hio⟩
          have := pair_unpair id
          rw [e1] at this
          exact this.symm
        · cases hmem

theorem Viewed.implemented {x : Ext C} {views : List (Views C)} {cs : List (Call ν)} {p : Provider C ν} {pipe k : Nat} {v : Views C} {sc : Scope} {n : Str} {L : Look C}
    (h : Viewed x views cs p pipe k v sc n L) : ∃ ik, Implemented ik L.kind ∧ ik.synchronous = L.sync := by
  obtain ⟨m, o, hk, hsc, ho, hne⟩ := h.inst
  have ha : Assembled x views cs p := by rw [h.made]; exact assembled x views cs
  obtain ⟨ds, hds, ht⟩ := ha.traced k m hk
  obtain ⟨way, hway⟩ := List.exists_mem_of_ne_nil _ hne
  rcases h.alike o.desc (hds _ (ht.insts o ho)) (ways_output hne) with ⟨-, hw⟩ | ⟨h, -, hl⟩ | hl
  · have := hw way hway
    exact ⟨o.desc.kind, implemented_legal (by rw [resolved_eq this.kind]; exact checkKind_legal _ _), this.sync⟩
  · exact ⟨o.desc.kind, hl.kind.2, hl.sync⟩
  · exact ⟨o.desc.kind, (hl.basic hne).2.2, (hl.basic hne).1⟩

/-! ### The running system -/

theorem describes_same {a b : Option (List Str)} (h : SameKeys a b) : Pipeline.Describes a = Pipeline.Describes b := by
  funext as m
  cases a with
  | none => cases b with
    | none => rfl
    | some b => exact h.elim
  | some a => cases b with
    | none => exact h.elim
    | some b =>
      unfold Pipeline.Describes
      have : ∀ k : Str, (∀ ks, some a = some ks → k ∈ ks) ↔ (∀ ks, some b = some ks → k ∈ ks) := by
        intro k
        simp only [Option.some.injEq, forall_eq']
        exact h k
      simp only [this]

theorem sameSeries_same {a b : Option (List Str)} (h : SameKeys a b) : Pipeline.SameSeries a = Pipeline.SameSeries b := by
  funext x y
  cases a with
  | none => cases b with
    | none => rfl
    | some b => exact h.elim
  | some a => cases b with
    | none => exact h.elim
    | some b =>
      unfold Pipeline.SameSeries
      have : ∀ k : Str, (∀ ks, some a = some ks → k ∈ ks) ↔ (∀ ks, some b = some ks → k ∈ ks) := by
        intro k
        simp only [Option.some.injEq, forall_eq']
        exact h k
      simp only [this]

section
omit [DecidableEq C]
variable {w : World C G} {p : Provider C ν} {pipe k : Nat} {sc : Scope} {v : Views C} {n : Str} {L : Look C} {o : Pipeline.Out} {f : Leaf C}

theorem Fed.kind (h : Fed w p pipe k sc v n L o f) : f.kind = L.kind := congrArg Identity.kind h.identity
theorem Fed.num (h : Fed w p pipe k sc v n L o f) : f.desc.num = L.num := congrArg Identity.num h.identity
theorem Fed.unit (h : Fed w p pipe k sc v n L o f) : f.desc.unit = L.unit := congrArg Identity.unit h.identity
theorem Fed.acfg (h : Fed w p pipe k sc v n L o f) : f.acfg = L.acfg := congrArg Identity.acfg h.identity
theorem Fed.keys (h : Fed w p pipe k sc v n L o f) : SameKeys f.keys L.keys := (sameKeys_iff _ _).1 (congrArg Identity.keys h.identity)

theorem Fed.feeds (h : Fed w p pipe k sc v n L o f) (id : Nat) : o.leaf ∈ leavesOf p id ↔ 0 < times p k v sc n id := by
  rw [← h.count id, List.count_pos_iff]

theorem Fed.recorded (h : Fed w p pipe k sc v n L o f) (Q : List KV → Prop) (acts : List Pipeline.Act) :
    Pipeline.recordedOn (setup w p).leavesOf o.leaf Q acts = recordedVia p k v sc n Q acts := by
  unfold Pipeline.recordedOn recordedVia
  have : ∀ id, ((setup w p).leavesOf id).count o.leaf = times p k v sc n id := h.count
  simp only [this]

theorem Fed.setup_keys (h : Fed w p pipe k sc v n L o f) : (setup w p).keys o.leaf = f.keys := by
  show (leafAt p o.leaf).bind (·.keys) = f.keys
  rw [h.leaf]
  rfl

theorem Fed.describes (h : Fed w p pipe k sc v n L o f) : Pipeline.Describes ((setup w p).keys o.leaf) = Pipeline.Describes L.keys := by
  rw [h.setup_keys]
  exact describes_same h.keys

theorem Fed.setup_lim (h : Fed w p pipe k sc v n L o f) : (setup w p).lim o.leaf = L.acfg.limit := by
  show ((leafAt p o.leaf).map (·.acfg.limit)).getD 0 = _
  rw [h.leaf, ← h.acfg]
  rfl

theorem Fed.setup_delta (h : Fed w p pipe k sc v n L o f) : (setup w p).delta o.leaf = L.delta := by
  show ((leafAt p o.leaf).map (·.delta)).getD false = _
  rw [h.leaf, ← h.delta]
  rfl

theorem Fed.setup_agg (h : Fed w p pipe k sc v n L o f) : (setup w p).agg o.leaf = w.agg L.kind L.num L.acfg.hist := by
  show (match leafAt p o.leaf with | some f => w.agg f.kind f.desc.num f.acfg.hist | none => sumAgg intOps w.noHist) = _
  rw [h.leaf, ← h.acfg, ← h.kind, ← h.num]

theorem Fed.num_eq (h : Fed w p pipe k sc v n L o f) : o.num = L.num := by
  obtain ⟨l, e⟩ := h.out
  rw [← h.num, e]
  rfl

theorem Fed.shape_eq (h : Fed w p pipe k sc v n L o f) : o.shape = shapeOf L.kind := by
  obtain ⟨l, e⟩ := h.out
  rw [← h.kind, e]
  rfl

theorem Fed.fits (h : Fed w p pipe k sc v n L o f) {acts : List Pipeline.Act} (hf : FewVia w p k v sc n L.keys L.acfg.limit acts) :
    Pipeline.Fits (setup w p) o.leaf acts := by
  obtain ⟨A, B, h1, h2, h3, h4⟩ := hf
  refine ⟨A, B, fun id hid => h1 id ((h.feeds id).1 hid), ?_, fun e he hl => h3 e he ((h.feeds _).1 hl), fun id hid => ?_⟩
  · rw [h.setup_lim]; exact h2
  · rw [h.setup_keys, sameSeries_same h.keys]
    exact h4 id ((h.feeds id).1 hid)

theorem Fed.session (h : Fed w p pipe k sc v n L o f) {farm : Str → UInt64} {acts coll : List Pipeline.Act} {x x' : Pipeline.Sys G}
    (hp : Program farm w p pipe acts coll x x') {shapes : List Pipeline.Shape} (hs : o.shape ∈ shapes) :
    Pipeline.Session farm (setup w p) (reader w p pipe) (sentScope sc) n o shapes acts coll x x' := by
  obtain ⟨s, h1, h2⟩ := h.mem
  exact ⟨hp.resource, h.only, hs, hp.typed, hp.few, hp.before, hp.returned, hp.collected s h1 o h2 (by unfold syncLeaf; rw [h.leaf]; exact h.sync), hp.quiet⟩

theorem Fed.sequential (h : Fed w p pipe k sc v n L o f) {farm : Str → UInt64} {acts : List Pipeline.Act} (hq : OneByOneVia farm w p pipe k v sc n acts) :
    Pipeline.Sequential (realCfg farm (setup w p)) (reader w p pipe) o.leaf acts := by
  intro before i kvs b after y e hr hl j hj hlj
  exact hq before i kvs b after y e hr ((h.feeds _).1 hl) j hj ((h.feeds _).1 hlj)

theorem Fed.calls_num [DecidableEq C] (h : Fed w p pipe k sc v n L o f) {x : Ext C} {views : List (Views C)} {cs : List (Call ν)}
    (hv : Viewed x views cs p pipe k v sc n L) {acts : List Pipeline.Act} (hg : Genuine w p acts) :
    ∀ e ∈ Pipeline.calls acts, o.leaf ∈ (setup w p).leavesOf e.1.id → e.1.num = L.num := by
  intro e he hl
  obtain ⟨m1, i, o1, h1, h2, h4, h3⟩ := times_pos ((h.feeds _).1 hl)
  obtain ⟨k', i', m', o', proc, g1, g2, g3, g4⟩ := hg e he
  rw [g4] at h4 ⊢
  obtain ⟨e1, e2⟩ := pair_inj (show pair k' i' = pair k i from h4)
  subst e1
  subst e2
  rw [g1] at h1
  cases h1
  rw [g2, Option.some.injEq] at h2
  subst h2
  have ha : Assembled x views cs p := by rw [hv.made]; exact assembled x views cs
  obtain ⟨ds, hds, ht⟩ := ha.traced _ _ g1
  obtain ⟨way, hway⟩ := List.exists_mem_of_ne_nil _ h3
  rcases hv.alike o'.desc (hds _ (ht.insts o' (List.mem_of_getElem? g2))) (ways_output h3) with ⟨-, hw⟩ | ⟨h, -, hl⟩ | hl
  · exact (hw way hway).num
  · exact hl.num
  · exact (hl.basic h3).2.1

end

end Verif.Assembly
