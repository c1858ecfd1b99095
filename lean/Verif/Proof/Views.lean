import Verif.Spec.Views
import Verif.Proof.Attr

set_option linter.unusedSectionVars false

/-!
Lemmas about the view compiler.
-/

namespace Verif.Views
open Verif.Attr Verif.Front
variable {H : Type} [DecidableEq H]

/-! ### Words -/

omit [DecidableEq H] in
theorem usualAgg_eq (k : IKind) : usualAgg k = standardAgg k := by cases k <;> rfl

theorem known_iff (a : AggKind) : a.Known ↔ a.valid = true := by
  unfold AggKind.Known
  cases a <;> simp [AggKind.valid]

theorem knownTempo_iff (t : Tempo) : t.Known ↔ t.valid = true := by
  unfold Tempo.Known
  cases t <;> simp [Tempo.valid]

theorem tempo_words {lower : Str → Str} {w : Str} {t : Tempo} : parseTempo lower w = some t ↔ (lower w, t) ∈ temporalityWords := by
  unfold parseTempo temporalityWords
  dsimp only
  constructor
  · intro h
    repeat' split at h
    all_goals first | (cases h; done) | skip
    all_goals cases h
    all_goals rename_i e
    all_goals rw [e]
    all_goals simp
  · intro h
    have hne : ¬ lit "delta" = lit "cumulative" := by decide +kernel
    rcases List.mem_cons.1 h with h | h
    · obtain ⟨h1, h2⟩ := Prod.mk.inj h
      rw [h1, h2, if_pos rfl]
    · rcases List.mem_cons.1 h with h | h
      · obtain ⟨h1, h2⟩ := Prod.mk.inj h
        rw [h1, h2, if_neg hne, if_pos rfl]
      · cases h

theorem words_parse {lower : Str → Str} {w : Str} {k : AggKind} (h : (lower w, k) ∈ aggregationWords) : parseKind lower w = some k := by
  unfold parseKind
  generalize lower w = t at h
  have hd : ∀ e ∈ aggregationWords, (let t := e.1
      if t = lit "drop" then some AggKind.drop
      else if t = lit "sum" then some .anySum
      else if t = lit "monotonic_sum" then some .monoSum
      else if t = lit "nonmonotonic_sum" then some .nonMonoSum
      else if t = lit "gauge" then some .gauge
      else if t = lit "histogram" ∨ t = lit "exponential_histogram" then some .histogram
      else if t = lit "minmaxsumcount" then some .mmsc
      else none) = some e.2 := by decide +kernel
  exact hd _ h

theorem parse_words {lower : Str → Str} {w : Str} {k : AggKind} (h : parseKind lower w = some k) : (lower w, k) ∈ aggregationWords := by
  unfold parseKind at h
  generalize lower w = t at h ⊢
  dsimp only at h
  repeat' split at h
  all_goals first
    | (rename_i ht; cases h; rcases ht with ht | ht <;> rw [ht] <;> simp [aggregationWords])
    | (rename_i ht; cases h; rw [ht]; simp [aggregationWords])
    | cases h

/-! ### Matching -/

theorem stringMismatch_false (a b : Str) : stringMismatch a b = false ↔ a = [] ∨ b = a := by
  unfold stringMismatch
  by_cases h : a = []
  · simp [h]
  · by_cases h2 : a = b
    · subst h2; simp
    · have : ¬ b = a := fun e => h2 e.symm
      simp [h, h2, this]

theorem matches_iff (c : Clause H) (lib : Scope) (d : Desc) : «matches» c lib d = true ↔ Applies c lib d := by
  have hlib : libraryMismatch c lib = false ↔
      (c.lib.name = [] ∨ lib.name = c.lib.name) ∧ (c.lib.version = [] ∨ lib.version = c.lib.version) ∧
      (c.lib.schema = [] ∨ lib.schema = c.lib.schema) := by
    unfold libraryMismatch
    dsimp only
    split
    · rename_i h
      simp only [Bool.and_eq_true, Bool.not_eq_true', bne_eq_false_iff_eq] at h
      simp [h.1.1, h.1.2, h.2]
    · simp only [Bool.or_eq_false_iff, stringMismatch_false, and_assoc]
  have hre : regexpMismatch c.regexp d.name = false ↔ ∀ m, c.regexp = some m → m d.name = true := by
    unfold regexpMismatch; cases c.regexp <;> simp
  have hik : ikindMismatch c.ikind d.kind = false ↔ ∀ k, c.ikind = some k → d.kind = k := by
    unfold ikindMismatch; cases c.ikind <;> simp <;> exact eq_comm
  have hnk : nkindMismatch c.nkind d.num = false ↔ ∀ k, c.nkind = some k → d.num = k := by
    unfold nkindMismatch; cases c.nkind <;> simp <;> exact eq_comm
  unfold «matches»
  simp only [Bool.not_eq_true', Bool.or_eq_false_iff, hlib, hre, hik, hnk, stringMismatch_false]
  constructor
  · rintro ⟨⟨⟨⟨⟨a, b, c⟩, d⟩, e⟩, f⟩, g⟩; exact ⟨d, g, e, f, a, b, c⟩
  · rintro ⟨d, g, e, f, a, b, c⟩; exact ⟨⟨⟨⟨⟨a, b, c⟩, d⟩, e⟩, f⟩, g⟩

/-! ### Behaviors -/

theorem NoHint.unhinted (x : Ext H) {d : Desc} (h : NoHint d) : hintIn x d = none := if_neg h

theorem unhinted_try (x : Ext H) (v : Views H) {d : Desc} (h : hintIn x d = none) :
    tryToApplyHint x v d =
      { desc := d, akind := v.defaults.agg d.kind, tempo := v.defaults.tempo d.kind,
        acfg := v.defaults.acfg d.kind d.num, defCfg := v.defaults.acfg d.kind d.num, hinted := false } := by
  unfold tryToApplyHint
  unfold hintIn at h
  dsimp only
  split
  · rename_i hc
    rw [if_pos (List.contains_iff_mem.1 hc)] at h
    rw [h]
  · rfl

theorem noHint_try (x : Ext H) (v : Views H) {d : Desc} (h : NoHint d) :
    tryToApplyHint x v d =
      { desc := d, akind := v.defaults.agg d.kind, tempo := v.defaults.tempo d.kind,
        acfg := v.defaults.acfg d.kind d.num, defCfg := v.defaults.acfg d.kind d.num, hinted := false } := unhinted_try x v (h.unhinted x)

theorem try_desc (x : Ext H) (v : Views H) (d : Desc) :
    (tryToApplyHint x v d).desc.name = d.name ∧ (tryToApplyHint x v d).desc.kind = d.kind ∧
    (tryToApplyHint x v d).desc.num = d.num ∧ (tryToApplyHint x v d).desc.unit = d.unit := by
  unfold tryToApplyHint
  dsimp only
  split
  · split <;> exact ⟨rfl, rfl, rfl, rfl⟩
  · exact ⟨rfl, rfl, rfl, rfl⟩

/-- What the loop gives for one clause, without a hint. -/
def plainBehavior (v : Views H) (d : Desc) (c : Clause H) : Behavior H :=
  { fromName := d.name
    desc := viewDescriptor d c
    kind := if c.agg = .undefined then v.defaults.agg d.kind else c.agg
    tempo := v.defaults.tempo d.kind
    acfg := pickAggConfig (v.defaults.acfg d.kind d.num) (v.defaults.acfg d.kind d.num) c.acfg
    keys := c.keys
    hinted := false }

theorem clauseBehaviors_unhinted (x : Ext H) (v : Views H) (cs : List (Clause H)) {d : Desc} (h : hintIn x d = none) :
    clauseBehaviors x v cs d = ((cs.filter (fun c => c.agg != .drop)).map (plainBehavior v d), d) := by
  induction cs with
  | nil => rfl
  | cons c cs ih =>
    unfold clauseBehaviors
    by_cases hc : c.agg = .drop
    · simp [hc, ih]
    · simp only [hc, if_false, unhinted_try x v h, ih]
      rw [List.filter_cons]
      simp [hc, plainBehavior]

theorem clauseBehaviors_plain (x : Ext H) (v : Views H) (cs : List (Clause H)) {d : Desc} (h : NoHint d) :
    clauseBehaviors x v cs d = ((cs.filter (fun c => c.agg != .drop)).map (plainBehavior v d), d) := clauseBehaviors_unhinted x v cs (h.unhinted x)

theorem clauseBehaviors_desc (x : Ext H) (v : Views H) (cs : List (Clause H)) (d : Desc) :
    (clauseBehaviors x v cs d).2.kind = d.kind ∧
    (clauseBehaviors x v cs d).1.map (fun b => (b.desc.name, b.desc.num, b.desc.unit, b.desc.kind, b.keys)) =
      (cs.filter (fun c => c.agg != .drop)).map (fun c => (c.renamed d.name, d.num, d.unit, d.kind, c.keys)) := by
  induction cs generalizing d with
  | nil => exact ⟨rfl, rfl⟩
  | cons c cs ih =>
    unfold clauseBehaviors
    by_cases hc : c.agg = .drop
    · simp only [hc, if_true]
      rw [List.filter_cons]
      simpa [hc] using ih d
    · simp only [hc, if_false]
      obtain ⟨h1, h2, h3, h4⟩ := try_desc x v d
      obtain ⟨i1, i2⟩ := ih (tryToApplyHint x v d).desc
      rw [List.filter_cons]
      simp only [bne_iff_ne, ne_eq, hc, not_false_eq_true, if_true, List.map_cons]
      refine ⟨by rw [i1, h2], ?_⟩
      rw [i2]
      simp only [viewDescriptor, h1, h2, h3, h4]

/-! ### Semantic compatibility -/

theorem checkKind_legal (ik : IKind) (a : AggKind) : Legal ik (checkKind ik a).1 := by
  cases ik <;> cases a <;> simp [checkKind, AggKind.category, Legal, standardAgg]

theorem checkKind_ok (ik : IKind) (a : AggKind) : (checkKind ik a).2 = none ↔ Legal ik a ∨ (a = .anySum ∧ sumFor ik ≠ none) := by
  cases ik <;> cases a <;> simp [checkKind, AggKind.category, Legal, sumFor]

theorem checkKind_keep (ik : IKind) (a : AggKind) (h : Legal ik a) : checkKind ik a = (a, none) := by
  cases ik <;> cases a <;> simp [checkKind, AggKind.category, Legal] at h ⊢

theorem checkKind_sum (ik : IKind) (k : AggKind) (h : sumFor ik = some k) : checkKind ik .anySum = (k, none) := by
  cases ik <;> simp_all [checkKind, AggKind.category, sumFor]

theorem checkKind_bad (ik : IKind) (a : AggKind) (h : (checkKind ik a).2 ≠ none) : (checkKind ik a).1 = standardAgg ik := by
  cases ik <;> cases a <;> simp_all [checkKind, AggKind.category]

/-- The behavior is built into a leaf of the very kind it asks for. -/
def Compilable (b : Behavior H) : Prop := (buildLeaf b).kind = b.kind

theorem compilable_legal (b : Behavior H) (h : Legal b.desc.kind b.kind) : Compilable b := by
  unfold Compilable buildLeaf
  revert h
  generalize b.desc.kind = ik
  generalize b.kind = a
  cases ik <;> cases a <;> simp [Legal, IKind.synchronous, syncMethods, asyncMethods]

theorem checkSemantic_desc (ik : IKind) (b : Behavior H) :
    (checkSemantic ik b).1.desc = b.desc ∧ (checkSemantic ik b).1.keys = b.keys ∧ (checkSemantic ik b).1.acfg = b.acfg ∧
    (checkSemantic ik b).1.tempo = b.tempo ∧ (checkSemantic ik b).1.hinted = b.hinted := by
  unfold checkSemantic; split <;> exact ⟨rfl, rfl, rfl, rfl, rfl⟩

theorem compilable_unhinted (b : Behavior H) (h : b.hinted = false) : Compilable (checkSemantic b.desc.kind b).1 := by
  apply compilable_legal
  unfold checkSemantic
  simp only [h]
  exact checkKind_legal _ _

theorem build_implemented (b : Behavior H) (h : Implemented b.desc.kind b.kind) : Compilable b := by
  unfold Compilable buildLeaf
  unfold Implemented at h
  dsimp only
  split at h
  · rename_i hs; rw [if_pos hs]; rcases h with h | h | h | h | h <;> rw [h] <;> rfl
  · rename_i hs; rw [if_neg hs]; rcases h with h | h | h <;> rw [h] <;> rfl

/-! ### The compiler state -/

/-- The map of names lists exactly the leaves carrying the name, in order of creation. -/
def Ok (s : State H) : Prop :=
  ∀ n, s.names n = (List.range s.collectors.length).filter (fun i => (s.collectors[i]?).any (fun l => l.desc.name == n))

theorem Ok.mem {s : State H} (h : Ok s) {n : Str} {i : Nat} :
    i ∈ s.names n ↔ ∃ l, s.collectors[i]? = some l ∧ l.desc.name = n := by
  rw [h n, List.mem_filter, List.mem_range]
  constructor
  · rintro ⟨hi, ha⟩
    cases hl : s.collectors[i]? with
    | none => rw [hl] at ha; simp at ha
    | some l => rw [hl] at ha; exact ⟨l, rfl, by simpa using ha⟩
  · rintro ⟨l, hl, hn⟩
    refine ⟨(List.getElem?_eq_some_iff.1 hl).1, ?_⟩
    rw [hl]; simp [hn]

/-- What makes two output metrics different metrics, as a value: everything but the description. Key filters are compared as sets. -/
structure Identity (H : Type) where
  name : Str
  unit : Str
  num : Number.Kind
  synchronous : Bool
  kind : AggKind
  acfg : ACfg H
  keys : Option (List KV)

def Leaf.identity (l : Leaf H) : Identity H :=
  { name := l.desc.name, unit := l.desc.unit, num := l.desc.num, synchronous := l.desc.kind.synchronous, kind := l.kind,
    acfg := l.acfg, keys := l.keys.map keysToSet }

theorem lastValue_keys (keys : List Str) (k : Str) :
    lastValue k (keys.map (fun k => ({ key := k, val := .int 0 } : KV))) = if k ∈ keys then some (.int 0) else none := by
  unfold lastValue
  split
  · rename_i h
    cases hf : (keys.map (fun k => ({ key := k, val := .int 0 } : KV))).reverse.find? (fun kv => kv.key == k) with
    | none =>
      rw [List.find?_eq_none] at hf
      exact absurd (beq_self_eq_true k) (hf { key := k, val := .int 0 } (List.mem_reverse.2 (List.mem_map_of_mem h)))
    | some kv =>
      have hm := List.mem_reverse.1 (List.mem_of_find?_eq_some hf)
      obtain ⟨k', -, e⟩ := List.mem_map.1 hm
      rw [← e]
      rfl
  · rename_i h
    rw [Option.map_eq_none_iff, List.find?_eq_none]
    intro kv hkv he
    obtain ⟨k', h1, e⟩ := List.mem_map.1 (List.mem_reverse.1 hkv)
    subst e
    exact h (eq_of_beq he ▸ h1)

/-- The sets of keys are the same attribute set. -/
theorem keysToSet_iff (a b : List Str) : keysToSet a = keysToSet b ↔ ∀ k, k ∈ a ↔ k ∈ b := by
  have hget : ∀ (l : List Str) (k : Str), Attr.get k (keysToSet l) = if k ∈ l then some (.int 0) else none := by
    intro l k
    unfold keysToSet
    rw [get_newSet, lastValue_keys]
    split <;> rfl
  constructor
  · intro h k
    have := hget a k
    rw [h, hget b k] at this
    by_cases h1 : k ∈ a <;> by_cases h2 : k ∈ b <;> simp [h1, h2] at this ⊢
  · intro h
    refine set_ext (newSet_sorted _) (newSet_sorted _) (fun k => ?_)
    show Attr.get k (keysToSet a) = Attr.get k (keysToSet b)
    rw [hget, hget]
    simp only [h k]

theorem sameKeys_iff (a b : Option (List Str)) : a.map keysToSet = b.map keysToSet ↔ SameKeys a b := by
  cases a <;> cases b <;> simp [SameKeys, keysToSet_iff]

theorem identity_iff (a b : Leaf H) : a.identity = b.identity ↔ SameOutput a b := by
  unfold Leaf.identity
  simp only [Identity.mk.injEq, sameKeys_iff]
  constructor
  · rintro ⟨h1, h2, h3, h4, h5, h6, h7⟩
    exact ⟨h1, h2, h3, h4, h5, h6, h7⟩
  · rintro ⟨h1, h2, h3, h4, h5, h6, h7⟩
    exact ⟨h1, h2, h3, h4, h5, h6, h7⟩

theorem newName_eq (c : Clause H) (n : Str) : c.newName n = c.renamed n := rfl

theorem merge_same (l : Leaf H) (d : Str) : (mergeDescription l d).identity = l.identity := by
  unfold mergeDescription; split <;> rfl

theorem merge_name (l : Leaf H) (d : Str) : (mergeDescription l d).desc.name = l.desc.name := by
  unfold mergeDescription; split <;> rfl

theorem modify_get (ls : List (Leaf H)) (i j : Nat) (f : Leaf H → Leaf H) :
    (ls.modify i f)[j]? = if i = j then (ls[j]?).map f else ls[j]? := by
  rw [List.getElem?_modify]
  split <;> cases ls[j]? <;> simp_all

theorem Ok.new : Ok (State.new : State H) := by intro n; rfl

theorem Ok.place {s : State H} (h : Ok s) (b : Behavior H) : Ok (place s b).1 := by
  unfold Views.place
  split
  · rename_i i hi
    intro n
    simp only [List.length_modify]
    rw [h n]
    apply List.filter_congr
    intro j _
    rw [modify_get]
    split
    · cases s.collectors[j]? with
      | none => rfl
      | some l => simp [merge_name]
    · rfl
  · intro n
    simp only [List.length_append, List.length_cons, List.length_nil, List.range_succ, Nat.zero_add]
    rw [List.filter_append]
    have h1 : (List.range s.collectors.length).filter (fun i => ((s.collectors ++ [buildLeaf b])[i]?).any (fun l => l.desc.name == n))
        = s.names n := by
      rw [h n]
      apply List.filter_congr
      intro j hj
      rw [List.getElem?_append_left (List.mem_range.1 hj)]
    rw [h1]
    have h2 : ((s.collectors ++ [buildLeaf b])[s.collectors.length]?) = some (buildLeaf b) := by
      rw [List.getElem?_append_right (Nat.le_refl _)]; simp
    by_cases hn : n = b.desc.name
    · subst hn
      simp [buildLeaf]
    · have hn' : ¬ b.desc.name = n := fun e => hn e.symm
      simp [hn, buildLeaf, hn']

/-- The state has only grown: leaves keep their place and identity, descriptions only get longer. -/
structure Le (s s' : State H) : Prop where
  leaf : ∀ (i : Nat) (l : Leaf H), s.collectors[i]? = some l → ∃ l' : Leaf H, s'.collectors[i]? = some l' ∧ l'.identity = l.identity ∧
    l'.delta = l.delta ∧ l'.fromName = l.fromName ∧ l.desc.desc.length ≤ l'.desc.desc.length
  names : ∀ n, s.names n <+: s'.names n

theorem Le.refl (s : State H) : Le s s :=
  ⟨fun _ l h => ⟨l, h, rfl, rfl, rfl, Nat.le_refl _⟩, fun _ => List.prefix_refl _⟩

theorem Le.trans {s s' s'' : State H} (h : Le s s') (h' : Le s' s'') : Le s s'' := by
  refine ⟨fun i l hl => ?_, fun n => (h.names n).trans (h'.names n)⟩
  obtain ⟨l1, a1, a2, a3, a4, a5⟩ := h.leaf i l hl
  obtain ⟨l2, b1, b2, b3, b4, b5⟩ := h'.leaf i l1 a1
  exact ⟨l2, b1, b2.trans a2, b3.trans a3, b4.trans a4, Nat.le_trans a5 b5⟩

theorem merge_len (l : Leaf H) (d : Str) :
    l.desc.desc.length ≤ (mergeDescription l d).desc.desc.length ∧ d.length ≤ (mergeDescription l d).desc.desc.length := by
  unfold mergeDescription; split
  · exact ⟨by dsimp only; omega, Nat.le_refl _⟩
  · exact ⟨Nat.le_refl _, by omega⟩

theorem Le.place (s : State H) (b : Behavior H) : Le s (place s b).1 := by
  unfold Views.place
  split
  · rename_i i hi
    refine ⟨?_, fun n => List.prefix_refl _⟩
    intro j l hl
    simp only [modify_get]
    split
    · refine ⟨mergeDescription l b.desc.desc, by rw [hl]; rfl, merge_same _ _, ?_, ?_, (merge_len _ _).1⟩
      · unfold mergeDescription; split <;> rfl
      · unfold mergeDescription; split <;> rfl
    · exact ⟨l, hl, rfl, rfl, rfl, Nat.le_refl _⟩
  · refine ⟨?_, ?_⟩
    · intro j l hl
      refine ⟨l, ?_, rfl, rfl, rfl, Nat.le_refl _⟩
      exact (List.getElem?_append_left (List.getElem?_eq_some_iff.1 hl).1).trans hl
    · intro n
      dsimp only
      split
      · exact List.prefix_append _ _
      · exact List.prefix_refl _

/-- The identity a behavior asks for. -/
def Behavior.identity (b : Behavior H) : Identity H :=
  { name := b.desc.name, unit := b.desc.unit, num := b.desc.num, synchronous := b.desc.kind.synchronous, kind := b.kind,
    acfg := b.acfg, keys := b.keys.map keysToSet }

theorem same_iff (l : Leaf H) (b : Behavior H) (hn : l.desc.name = b.desc.name) : same l b = true ↔ l.identity = b.identity := by
  unfold same Leaf.identity Behavior.identity
  simp only [decide_eq_true_eq, Identity.mk.injEq, hn, true_and]
  constructor
  · rintro ⟨a, b, c, d, e, f⟩; exact ⟨c, d, b, a, e, f⟩
  · rintro ⟨c, d, b, a, e, f⟩; exact ⟨a, b, c, d, e, f⟩

theorem find_some {s : State H} (hok : Ok s) {b : Behavior H} {i : Nat} (h : findSame s b = some i) :
    ∃ l, s.collectors[i]? = some l ∧ l.identity = b.identity := by
  unfold findSame at h
  have h1 := List.mem_of_find?_eq_some h
  have h2 := List.find?_some h
  obtain ⟨l, hl, hn⟩ := hok.mem.1 h1
  simp only [hl] at h2
  exact ⟨l, hl, (same_iff l b hn).1 h2⟩

theorem find_none_iff {s : State H} (hok : Ok s) {b : Behavior H} :
    findSame s b = none ↔ ∀ l ∈ s.collectors, l.identity ≠ b.identity := by
  unfold findSame
  rw [List.find?_eq_none]
  constructor
  · intro h l hl he
    obtain ⟨i, hi, hil⟩ := List.getElem_of_mem hl
    have hg : s.collectors[i]? = some l := by rw [List.getElem?_eq_getElem hi, hil]
    have hn : l.desc.name = b.desc.name := congrArg Identity.name he
    have := h i (hok.mem.2 ⟨l, hg, hn⟩)
    simp only [hg] at this
    exact this ((same_iff l b hn).2 he)
  · intro h i hi
    obtain ⟨l, hl, hn⟩ := hok.mem.1 hi
    simp only [hl]
    intro hs
    exact h l (List.mem_of_getElem? hl) ((same_iff l b hn).1 hs)

/-- What a placed behavior gives. -/
theorem place_leaf {s : State H} (hok : Ok s) (b : Behavior H) :
    ∃ l, (place s b).1.collectors[(place s b).2]? = some l ∧ b.desc.desc.length ≤ l.desc.desc.length ∧
      (l.identity = b.identity ∨ l = buildLeaf b) := by
  unfold Views.place
  split
  · rename_i i hi
    obtain ⟨l, hl, he⟩ := find_some hok hi
    refine ⟨mergeDescription l b.desc.desc, ?_, (merge_len _ _).2, Or.inl ((merge_same _ _).trans he)⟩
    simp only [modify_get, if_true, hl, Option.map_some]
  · refine ⟨buildLeaf b, ?_, Nat.le_refl _, Or.inr rfl⟩
    simp only
    rw [List.getElem?_append_right (Nat.le_refl _)]; simp

theorem build_identity {b : Behavior H} (hc : Compilable b) : (buildLeaf b).identity = b.identity := by
  unfold Leaf.identity Behavior.identity
  simp only [Identity.mk.injEq]
  exact ⟨rfl, rfl, rfl, rfl, hc, rfl, rfl⟩

/-- Already there: the scan finds leaf `i`, whose description is at least as long. -/
structure Placed (s : State H) (b : Behavior H) (i : Nat) : Prop where
  find : findSame s b = some i
  desc : ∀ l, s.collectors[i]? = some l → b.desc.desc.length ≤ l.desc.desc.length

theorem find_prefix {α : Type} {l l' : List α} (h : l <+: l') {p q : α → Bool} {i : α} (hf : l.find? p = some i)
    (hpq : ∀ j ∈ l, q j = p j) : l'.find? q = some i := by
  obtain ⟨t, rfl⟩ := h
  rw [List.find?_append]
  have : l.find? q = l.find? p := by
    clear hf
    induction l with
    | nil => rfl
    | cons a l ih =>
      rw [List.find?_cons, List.find?_cons, hpq a List.mem_cons_self, ih (fun j hj => hpq j (List.mem_cons_of_mem _ hj))]
  rw [this, hf]
  rfl

theorem same_congr {l l' : Leaf H} (h : l'.identity = l.identity) (b : Behavior H) : same l' b = same l b := by
  unfold same
  unfold Leaf.identity at h
  simp only [Identity.mk.injEq] at h
  obtain ⟨h1, h2, h3, h4, h5, h6, h7⟩ := h
  rw [h2, h3, h4, h5, h6, h7]

theorem Placed.mono {s s' : State H} (hok : Ok s) {b : Behavior H} {i : Nat} (h : Placed s b i) (hle : Le s s') : Placed s' b i := by
  obtain ⟨hf, hd⟩ := h
  obtain ⟨l, hl, _⟩ := find_some hok hf
  obtain ⟨l', hl', _, _, _, hlen⟩ := hle.leaf i l hl
  refine ⟨?_, ?_⟩
  · unfold findSame at hf ⊢
    refine find_prefix (hle.names _) hf ?_
    intro j hj
    obtain ⟨lj, hlj, _⟩ := hok.mem.1 hj
    obtain ⟨lj', hlj', hid, _⟩ := hle.leaf j lj hlj
    simp only [hlj, hlj']
    exact same_congr hid b
  · intro l2 h2
    rw [hl'] at h2; cases h2
    exact Nat.le_trans (hd l hl) hlen

theorem place_placed {s : State H} (hok : Ok s) {b : Behavior H} (hc : Compilable b) : Placed (place s b).1 b (place s b).2 := by
  obtain ⟨l, hl, hd, hid⟩ := place_leaf hok b
  have hid : l.identity = b.identity := hid.elim id (fun e => e ▸ build_identity hc)
  refine ⟨?_, fun l' hl' => by rw [hl] at hl'; cases hl'; exact hd⟩
  have hle := Le.place s b
  revert hl hle
  unfold Views.place
  cases hf : findSame s b with
  | some i =>
    dsimp only
    intro hl hle
    unfold findSame at hf ⊢
    refine find_prefix (hle.names _) hf ?_
    intro j hj
    obtain ⟨lj, hlj, _⟩ := hok.mem.1 hj
    obtain ⟨lj', hlj', hid, _⟩ := hle.leaf j lj hlj
    dsimp only at hlj' ⊢
    simp only [hlj, hlj']
    exact same_congr hid b
  | none =>
    dsimp only
    intro hl hle
    unfold findSame at hf ⊢
    simp only [if_true]
    rw [List.find?_append]
    have : (s.names b.desc.name).find? (fun i => match (s.collectors ++ [buildLeaf b])[i]? with | some l => same l b | none => false) = none := by
      rw [List.find?_eq_none] at hf ⊢
      intro j hj
      have := hf j hj
      obtain ⟨lj, hlj, _⟩ := hok.mem.1 hj
      rw [List.getElem?_append_left (List.getElem?_eq_some_iff.1 hlj).1]
      exact this
    rw [Option.or_eq_some_iff]
    refine Or.inr ⟨this, ?_⟩
    rw [List.find?_cons]
    have hn : l.desc.name = b.desc.name := congrArg Identity.name hid
    simp only [hl, (same_iff l b hn).2 hid]

theorem place_of_placed {s : State H} {b : Behavior H} {i : Nat} (h : Placed s b i) : place s b = (s, i) := by
  unfold Views.place
  rw [h.find]
  have : s.collectors.modify i (fun l => mergeDescription l b.desc.desc) = s.collectors := by
    apply List.ext_getElem?
    intro j
    rw [modify_get]
    split
    · rename_i e; subst e
      cases hl : s.collectors[i]? with
      | none => rfl
      | some l =>
        have := h.desc l hl
        simp only [Option.map_some, Option.some.injEq]
        unfold mergeDescription
        rw [if_neg (by omega)]
    · rfl
  simp only [this]

/-! ### The loop -/

theorem loop_le (ik : IKind) (s : State H) (bs : List (Behavior H)) : Le s (compileLoop ik s bs).1 := by
  induction bs generalizing s with
  | nil => exact Le.refl s
  | cons b bs ih => exact (Le.place s _).trans (ih _)

theorem loop_ok (ik : IKind) {s : State H} (h : Ok s) (bs : List (Behavior H)) : Ok (compileLoop ik s bs).1 := by
  induction bs generalizing s with
  | nil => exact h
  | cons b bs ih => exact ih (h.place _)

/-- Elementwise relation of two lists. -/
inductive Each {α β : Type} (R : α → β → Prop) : List α → List β → Prop
  | nil : Each R [] []
  | cons {a b as bs} : R a b → Each R as bs → Each R (a :: as) (b :: bs)

theorem Each.imp {α β : Type} {R S : α → β → Prop} (h : ∀ a b, R a b → S a b) {as : List α} {bs : List β} (he : Each R as bs) :
    Each S as bs := by
  induction he with
  | nil => exact .nil
  | cons h1 _ ih => exact .cons (h _ _ h1) ih

theorem Each.length {α β : Type} {R : α → β → Prop} {as : List α} {bs : List β} (he : Each R as bs) : as.length = bs.length := by
  induction he with
  | nil => rfl
  | cons _ _ ih => simp [ih]

theorem Each.get {α β : Type} {R : α → β → Prop} {as : List α} {bs : List β} (he : Each R as bs) {i : Nat} {b : β} (h : bs[i]? = some b) :
    ∃ a, as[i]? = some a ∧ R a b := by
  induction he generalizing i with
  | nil => simp at h
  | cons h1 _ ih =>
    cases i with
    | zero => simp at h; subst h; exact ⟨_, rfl, h1⟩
    | succ i => simp at h; simpa using ih h

theorem Each.get' {α β : Type} {R : α → β → Prop} {as : List α} {bs : List β} (he : Each R as bs) {i : Nat} {a : α} (h : as[i]? = some a) :
    ∃ b, bs[i]? = some b ∧ R a b := by
  induction he generalizing i with
  | nil => simp at h
  | cons h1 _ ih =>
    cases i with
    | zero => simp at h; subst h; exact ⟨_, rfl, h1⟩
    | succ i => simp at h; simpa using ih h

theorem loop_placed (ik : IKind) {s : State H} (h : Ok s) (bs : List (Behavior H))
    (hc : ∀ b ∈ bs, Compilable (checkSemantic ik b).1) :
    Each (fun i b => Placed (compileLoop ik s bs).1 (checkSemantic ik b).1 i) (compileLoop ik s bs).2.1 bs := by
  induction bs generalizing s with
  | nil => exact .nil
  | cons b bs ih =>
    refine .cons ?_ (ih (h.place _) (fun b' hb' => hc b' (List.mem_cons_of_mem _ hb')))
    exact (place_placed h (hc b List.mem_cons_self)).mono (h.place _) (loop_le ik _ bs)

/-- Behaviors that are all there already are compiled to the same leaves, without any change. -/
theorem loop_again (ik : IKind) {s : State H} {ids : List Nat} {bs : List (Behavior H)}
    (he : Each (fun i b => Placed s (checkSemantic ik b).1 i) ids bs) :
    (compileLoop ik s bs).1 = s ∧ (compileLoop ik s bs).2.1 = ids := by
  induction he with
  | nil => exact ⟨rfl, rfl⟩
  | cons h1 _ ih =>
    unfold compileLoop
    simp only [place_of_placed h1]
    exact ⟨ih.1, by rw [ih.2]⟩

/-- The leaves of the compiled instrument are those asked for. -/
theorem loop_leaves (ik : IKind) {s : State H} (h : Ok s) (bs : List (Behavior H)) :
    Each (fun i b => ∃ l, (compileLoop ik s bs).1.collectors[i]? = some l ∧
      (l.identity = (checkSemantic ik b).1.identity ∨ l.identity = (buildLeaf (checkSemantic ik b).1).identity) ∧
      b.desc.desc.length ≤ l.desc.desc.length)
      (compileLoop ik s bs).2.1 bs := by
  induction bs generalizing s with
  | nil => exact .nil
  | cons b bs ih =>
    refine .cons ?_ (ih (h.place _))
    obtain ⟨l, hl, hd, hid⟩ := place_leaf h (checkSemantic ik b).1
    obtain ⟨l', hl', hid', _, _, hlen⟩ := (loop_le ik _ bs).leaf _ l hl
    rw [(checkSemantic_desc ik b).1] at hd
    refine ⟨l', hl', ?_, Nat.le_trans hd hlen⟩
    rcases hid with hid | hid
    · exact Or.inl (hid'.trans hid)
    · exact Or.inr (by rw [hid', hid])

/-- Duplicate conflicts seen at the end of the loop. -/
theorem loop_conflicts (ik : IKind) (s : State H) (bs : List (Behavior H)) :
    (∃ c ∈ (compileLoop ik s bs).2.2, 2 ≤ c.duplicates.length) ↔
    ∃ b ∈ bs, 2 ≤ ((compileLoop ik s bs).1.names b.desc.name).length := by
  induction bs generalizing s with
  | nil => simp [compileLoop]
  | cons b bs ih =>
    have hle := loop_le ik (place s (checkSemantic ik b).1).1 bs
    have hn := hle.names b.desc.name
    have hd := (checkSemantic_desc ik b).1
    unfold compileLoop
    simp only [List.mem_cons, exists_eq_or_imp, ← ih, List.mem_append]
    constructor
    · rintro ⟨c, hc | hc, h2⟩
      · left
        split at hc
        · rw [List.mem_singleton] at hc; subst hc
          simp only [hd] at h2
          exact Nat.le_trans h2 hn.length_le
        · cases hc
      · right; exact ⟨c, hc, h2⟩
    · rintro (h | ⟨c, hc, h2⟩)
      · by_cases h1 : 2 ≤ ((place s (checkSemantic ik b).1).1.names b.desc.name).length
        · refine ⟨{ duplicates := (place s (checkSemantic ik b).1).1.names (checkSemantic ik b).1.desc.name, semantic := (checkSemantic ik b).2 }, Or.inl ?_, ?_⟩
          · rw [if_pos (Or.inl (by rw [hd]; omega))]; exact List.mem_singleton.2 rfl
          · dsimp only; rw [hd]; exact h1
        · -- a later behavior adds to this name
          have : ∃ b' ∈ bs, 2 ≤ ((compileLoop ik (place s (checkSemantic ik b).1).1 bs).1.names b'.desc.name).length := by
            have grow : ∀ (bs : List (Behavior H)) (s : State H) (n : Str), (∀ b' ∈ bs, b'.desc.name ≠ n) → (compileLoop ik s bs).1.names n = s.names n := by
              intro bs
              induction bs with
              | nil => intros; rfl
              | cons b' bs ih' =>
                intro s n hb
                unfold compileLoop
                simp only
                rw [ih' _ n (fun b'' h'' => hb b'' (List.mem_cons_of_mem _ h''))]
                unfold place
                split
                · rfl
                · dsimp only
                  rw [if_neg]
                  intro e
                  exact hb b' List.mem_cons_self (by rw [e, (checkSemantic_desc ik b').1])
            by_cases hex : ∃ b' ∈ bs, b'.desc.name = b.desc.name
            · obtain ⟨b', hb', hbn⟩ := hex
              exact ⟨b', hb', by rw [hbn]; exact h⟩
            · rw [grow bs _ _ (fun b' hb' e => hex ⟨b', hb', e⟩)] at h
              exact absurd h h1
          obtain ⟨c, hc, h2⟩ := (ih _).2 this
          exact ⟨c, Or.inr hc, h2⟩
      · exact ⟨c, Or.inr hc, h2⟩

theorem names_length {s : State H} (h : Ok s) (n : Str) : (s.names n).length = (named s n).length := by
  rw [h n]
  unfold named
  generalize s.collectors = ls
  rw [← List.reverse_reverse ls]
  generalize ls.reverse = ls
  induction ls with
  | nil => rfl
  | cons l ls ih =>
    rw [List.reverse_cons]
    revert ih
    generalize ls.reverse = ls
    intro ih
    rw [List.length_append, List.length_singleton, List.range_succ, List.filter_append, List.filter_append, List.length_append, List.length_append, ← ih]
    congr 1
    · congr 1
      apply List.filter_congr
      intro j hj
      rw [List.getElem?_append_left (List.mem_range.1 hj)]
    · rw [List.filter_cons, List.filter_cons]
      rw [List.getElem?_append_right (Nat.le_refl _)]
      by_cases hn : l.desc.name = n <;> simp [hn]

/-- All leaves are different metrics. -/
def Distinct (s : State H) : Prop := s.collectors.Pairwise (fun a b => a.identity ≠ b.identity)

theorem distinct_place {s : State H} (hok : Ok s) (h : Distinct s) {b : Behavior H} (hc : Compilable b) : Distinct (place s b).1 := by
  unfold Views.place
  cases hf : findSame s b with
  | some i =>
    dsimp only [Distinct]
    have : (s.collectors.modify i (fun l => mergeDescription l b.desc.desc)).map Leaf.identity = s.collectors.map Leaf.identity := by
      apply List.ext_getElem?
      intro j
      rw [List.getElem?_map, List.getElem?_map, modify_get]
      split
      · cases s.collectors[j]? <;> simp [merge_same]
      · rfl
    have h' : (s.collectors.map Leaf.identity).Pairwise (· ≠ ·) := List.pairwise_map.2 h
    rw [← this] at h'
    exact List.pairwise_map.1 h'
  | none =>
    dsimp only [Distinct]
    rw [List.pairwise_append]
    refine ⟨h, List.pairwise_singleton _ _, ?_⟩
    intro l hl l' hl'
    rw [List.mem_singleton] at hl'; subst hl'
    rw [build_identity hc]
    exact (find_none_iff hok).1 hf l hl

theorem distinct_loop (ik : IKind) {s : State H} (hok : Ok s) (h : Distinct s) (bs : List (Behavior H))
    (hc : ∀ b ∈ bs, Compilable (checkSemantic ik b).1) : Distinct (compileLoop ik s bs).1 := by
  induction bs generalizing s with
  | nil => exact h
  | cons b bs ih =>
    exact ih (hok.place _) (distinct_place hok h (hc b List.mem_cons_self)) (fun b' hb' => hc b' (List.mem_cons_of_mem _ hb'))

/-! ### Instruments -/

theorem behaviors_kind (x : Ext H) (v : Views H) (lib : Scope) (d : Desc) : (behaviors x v lib d).2.kind = d.kind := by
  unfold behaviors
  dsimp only
  split
  · exact (try_desc x v d).2.1
  · exact (clauseBehaviors_desc x v _ d).1

theorem behaviors_dkind (x : Ext H) (v : Views H) (lib : Scope) (d : Desc) : ∀ b ∈ (behaviors x v lib d).1, b.desc.kind = d.kind := by
  intro b hb
  unfold behaviors at hb
  dsimp only at hb
  split at hb
  · split at hb
    · cases hb
    · rw [List.mem_singleton] at hb; subst hb; exact (try_desc x v d).2.1
  · have h := (clauseBehaviors_desc x v (v.clauses.filter (fun c => «matches» c lib d)) d).2
    have := List.mem_map_of_mem (f := fun b : Behavior H => (b.desc.name, b.desc.num, b.desc.unit, b.desc.kind, b.keys)) hb
    rw [h] at this
    obtain ⟨c, _, hc⟩ := List.mem_map.1 this
    simp only [Prod.mk.injEq] at hc
    exact hc.2.2.2.1.symm

theorem behaviors_unhinted (x : Ext H) (v : Views H) (lib : Scope) {d : Desc} (h : hintIn x d = none) :
    behaviors x v lib d =
      (if (v.clauses.filter (fun c => «matches» c lib d)).isEmpty then
        (if v.defaults.agg d.kind = .drop then []
         else [{ fromName := d.name, desc := d, kind := v.defaults.agg d.kind, tempo := v.defaults.tempo d.kind,
                 acfg := v.defaults.acfg d.kind d.num, keys := none, hinted := false }])
       else ((v.clauses.filter (fun c => «matches» c lib d)).filter (fun c => c.agg != .drop)).map (plainBehavior v d), d) := by
  unfold behaviors
  dsimp only
  split
  · simp only [unhinted_try x v h]
  · rw [clauseBehaviors_unhinted x v _ h]

theorem behaviors_plain (x : Ext H) (v : Views H) (lib : Scope) {d : Desc} (h : NoHint d) :
    behaviors x v lib d =
      (if (v.clauses.filter (fun c => «matches» c lib d)).isEmpty then
        (if v.defaults.agg d.kind = .drop then []
         else [{ fromName := d.name, desc := d, kind := v.defaults.agg d.kind, tempo := v.defaults.tempo d.kind,
                 acfg := v.defaults.acfg d.kind d.num, keys := none, hinted := false }])
       else ((v.clauses.filter (fun c => «matches» c lib d)).filter (fun c => c.agg != .drop)).map (plainBehavior v d), d) :=
  behaviors_unhinted x v lib (h.unhinted x)

theorem plain_unhinted (x : Ext H) (v : Views H) (lib : Scope) {d : Desc} (h : NoHint d) :
    ∀ b ∈ (behaviors x v lib d).1, b.hinted = false := by
  intro b hb
  rw [behaviors_plain x v lib h] at hb
  dsimp only at hb
  split at hb
  · split at hb
    · cases hb
    · rw [List.mem_singleton] at hb; subst hb; rfl
  · obtain ⟨c, _, rfl⟩ := List.mem_map.1 hb; rfl

/-- The registration asks only for aggregations it will get. -/
def Faithful (x : Ext H) (v : Views H) (lib : Scope) (d : Desc) : Prop :=
  ∀ b ∈ (behaviors x v lib d).1, Compilable (checkSemantic d.kind b).1

theorem faithful_plain (x : Ext H) (v : Views H) (lib : Scope) {d : Desc} (h : NoHint d) : Faithful x v lib d := by
  intro b hb
  have := compilable_unhinted b (plain_unhinted x v lib h b hb)
  rw [behaviors_dkind x v lib d b hb] at this
  exact this

theorem try_implemented (x : Ext H) (v : Views H) {d : Desc} {h : Hint} (hp : x.parseHint d.desc = some h)
    (hk : ∀ k, (x.lower h.aggregation, k) ∈ aggregationWords → Implemented d.kind k) (hdef : Implemented d.kind (v.defaults.agg d.kind)) :
    Implemented d.kind (tryToApplyHint x v d).akind := by
  unfold tryToApplyHint
  dsimp only
  split
  · rw [hp]
    dsimp only
    split
    · exact hdef
    · split
      · exact hdef
      · rename_i k hq
        split
        · exact hdef
        · exact hk k (parse_words hq)
  · exact hdef

/-- Behaviors of the loop with a hint that is not a hint again. -/
theorem clause_implemented (x : Ext H) (v : Views H) {d : Desc} {h : Hint} (hp : x.parseHint d.desc = some h) (hin : (123 : UInt8) ∉ h.description)
    (hk : ∀ k, (x.lower h.aggregation, k) ∈ aggregationWords → Implemented d.kind k) (hdef : Implemented d.kind (v.defaults.agg d.kind))
    (cs : List (Clause H)) (hc : ∀ c ∈ cs, c.agg = .undefined ∨ c.agg = .drop ∨ Implemented d.kind c.agg) :
    ∀ b ∈ (clauseBehaviors x v cs d).1, b.hinted = false ∨ Implemented d.kind b.kind := by
  induction cs with
  | nil => intro b hb; cases hb
  | cons c cs ih =>
    intro b hb
    have ih := ih (fun c' h' => hc c' (List.mem_cons_of_mem _ h'))
    unfold clauseBehaviors at hb
    by_cases hd : c.agg = .drop
    · rw [if_pos hd] at hb; exact ih b hb
    · rw [if_neg hd] at hb
      dsimp only at hb
      rcases List.mem_cons.1 hb with hb | hb
      · subst hb
        refine Or.inr ?_
        dsimp only
        by_cases hu : c.agg = .undefined
        · rw [if_pos hu]; exact try_implemented x v hp hk hdef
        · rw [if_neg hu]
          rcases hc c List.mem_cons_self with h1 | h1 | h1
          · exact absurd h1 hu
          · exact absurd h1 hd
          · exact h1
      · by_cases hm : d.desc.contains 123 = true
        · have hno : NoHint (tryToApplyHint x v d).desc := by
            unfold tryToApplyHint
            dsimp only
            rw [if_pos hm, hp]
            exact hin
          rw [clauseBehaviors_plain x v cs hno] at hb
          obtain ⟨c', -, rfl⟩ := List.mem_map.1 hb
          exact Or.inl rfl
        · have hno : NoHint d := fun hq => hm (List.contains_iff_mem.2 hq)
          rw [noHint_try x v hno] at hb
          exact ih b hb

theorem faithful_hinted (x : Ext H) (v : Views H) (lib : Scope) {d : Desc} {h : Hint} (hp : x.parseHint d.desc = some h) (hin : (123 : UInt8) ∉ h.description)
    (hk : ∀ k, (x.lower h.aggregation, k) ∈ aggregationWords → Implemented d.kind k) (hdef : Implemented d.kind (v.defaults.agg d.kind))
    (hc : ∀ c ∈ v.clauses, Applies c lib d → c.agg = .undefined ∨ c.agg = .drop ∨ Implemented d.kind c.agg) : Faithful x v lib d := by
  intro b hb
  have hdk := behaviors_dkind x v lib d b hb
  have key : b.hinted = false ∨ Implemented d.kind b.kind := by
    unfold behaviors at hb
    dsimp only at hb
    split at hb
    · split at hb
      · cases hb
      · rw [List.mem_singleton] at hb; subst hb
        exact Or.inr (try_implemented x v hp hk hdef)
    · refine clause_implemented x v hp hin hk hdef _ ?_ b hb
      intro c hm
      rw [List.mem_filter] at hm
      exact hc c hm.1 ((matches_iff c lib d).1 hm.2)
  rw [← hdk]
  by_cases hh : b.hinted = false
  · exact compilable_unhinted b hh
  · have hi := key.resolve_left hh
    have hs : (checkSemantic b.desc.kind b).1 = b := by
      unfold checkSemantic
      rw [if_pos (by simpa using hh)]
    rw [hs]
    exact build_implemented b (by rw [hdk]; exact hi)

theorem compile_eq (x : Ext H) (v : Views H) (lib : Scope) (s : State H) (d : Desc) :
    compile x v lib s d = compileLoop d.kind s (behaviors x v lib d).1 := by
  have := behaviors_kind x v lib d
  unfold compile
  dsimp only
  rw [this]

theorem compile_ok (x : Ext H) (v : Views H) (lib : Scope) {s : State H} (h : Ok s) (d : Desc) : Ok (compile x v lib s d).1 :=
  loop_ok _ h _

theorem compile_le (x : Ext H) (v : Views H) (lib : Scope) (s : State H) (d : Desc) : Le s (compile x v lib s d).1 :=
  loop_le _ s _

theorem registerAll_ok (x : Ext H) (v : Views H) (lib : Scope) {s : State H} (h : Ok s) (ds : List Desc) : Ok (registerAll x v lib s ds) := by
  induction ds generalizing s with
  | nil => exact h
  | cons d ds ih => exact ih (compile_ok x v lib h d)

theorem registerAll_le (x : Ext H) (v : Views H) (lib : Scope) (s : State H) (ds : List Desc) : Le s (registerAll x v lib s ds) := by
  induction ds generalizing s with
  | nil => exact Le.refl s
  | cons d ds ih => exact (compile_le x v lib s d).trans (ih _)

/-- After a registration every behavior of the instrument is in place, whatever is registered later. -/
theorem placed_after (x : Ext H) (v : Views H) (lib : Scope) {s : State H} (h : Ok s) {d : Desc} (hf : Faithful x v lib d) (ds : List Desc) :
    Each (fun i b => Placed (registerAll x v lib (compile x v lib s d).1 ds) (checkSemantic d.kind b).1 i)
      (compile x v lib s d).2.1 (behaviors x v lib d).1 := by
  have hk := behaviors_kind x v lib d
  have := loop_placed d.kind h (behaviors x v lib d).1 hf
  unfold compile
  simp only [hk]
  refine Each.imp ?_ this
  intro i b hp
  refine hp.mono (loop_ok _ h _) (registerAll_le x v lib _ ds)

theorem compile_again (x : Ext H) (v : Views H) (lib : Scope) {s : State H} {d : Desc} {ids : List Nat}
    (he : Each (fun i b => Placed s (checkSemantic d.kind b).1 i) ids (behaviors x v lib d).1) :
    (compile x v lib s d).1 = s ∧ (compile x v lib s d).2.1 = ids := by
  unfold compile
  simp only [behaviors_kind]
  exact loop_again _ he

end Verif.Views
