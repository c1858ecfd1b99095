import Verif.Model.Messages
import Verif.Spec.Messages
import Verif.Props.Views

/-!
# C81: conflict messages tell the truth

The error returned with an instrument in conflict is all a user sees. The machine is `Verif.Model.Messages` on top of the view compiler; what a message
should say is in `Verif.Spec.Messages` (`Difference`, `summary`).
-/

set_option linter.unusedSectionVars false

namespace Verif.Props
open Verif.Attr Verif.Front Verif.Views

variable {H : Type} [DecidableEq H]

namespace MsgPf

/-! ### Words -/

theorem kindWord (k : IKind) : trimSuffix (IKind.string k) (lit "Kind") = instrumentWord k := by
  cases k <;> decide +kernel

theorem numWord (k : Number.Kind) : trimSuffix (numString k) (lit "Kind") = numberWord k := by
  cases k <;> decide +kernel

theorem aggWord (k : AggKind) (hv : k.valid = true) : trimSuffix k.string (lit "Kind") = aggregationWord k := by
  cases k with
  | other n => cases hv
  | _ => decide +kernel

theorem kindWord_dash (k : IKind) : (45 : UInt8) ∉ instrumentWord k := by cases k <;> decide +kernel
theorem numWord_dash (k : Number.Kind) : (45 : UInt8) ∉ numberWord k := by cases k <;> decide +kernel
theorem aggWord_dash (k : AggKind) (hv : k.valid = true) : (45 : UInt8) ∉ aggregationWord k := by
  cases k with
  | other n => cases hv
  | _ => decide +kernel

theorem kindWord_inj {a b : IKind} (h : instrumentWord a = instrumentWord b) : a = b := by
  revert h; cases a <;> cases b <;> decide +kernel
theorem numWord_inj {a b : Number.Kind} (h : numberWord a = numberWord b) : a = b := by
  revert h; cases a <;> cases b <;> decide +kernel
theorem aggWord_inj {a b : AggKind} (ha : a.valid = true) (hb : b.valid = true) (h : aggregationWord a = aggregationWord b) : a = b := by
  revert h
  cases a with
  | other n => cases ha
  | _ =>
    cases b with
    | other n => cases hb
    | _ => decide +kernel

/-- Empty, or starting with a dash. -/
def Rest (r : Str) : Prop := r = [] ∨ ∃ t, r = 45 :: t

theorem split_dash {p q r r' : Str} (hp : (45 : UInt8) ∉ p) (hq : (45 : UInt8) ∉ q) (hr : Rest r) (hr' : Rest r') (h : p ++ r = q ++ r') :
    p = q ∧ r = r' := by
  induction p generalizing q with
  | nil =>
    cases q with
    | nil => exact ⟨rfl, h⟩
    | cons y q =>
      rcases hr with rfl | ⟨t, rfl⟩
      · simp at h
      · simp only [List.nil_append, List.cons_append, List.cons.injEq] at h
        exact absurd (h.1 ▸ List.mem_cons_self) hq
  | cons x p ih =>
    cases q with
    | nil =>
      rcases hr' with rfl | ⟨t, rfl⟩
      · simp at h
      · simp only [List.nil_append, List.cons_append, List.cons.injEq] at h
        exact absurd (h.1 ▸ List.mem_cons_self) hp
    | cons y q =>
      simp only [List.cons_append, List.cons.injEq] at h
      obtain ⟨h1, h2⟩ := ih (fun m => hp (List.mem_cons_of_mem _ m)) (fun m => hq (List.mem_cons_of_mem _ m)) h.2
      exact ⟨by rw [h.1, h1], h2⟩

theorem dash : lit "-" = [45] := by decide +kernel

theorem summary_iff (a b : Leaf H) (ha : a.kind.valid = true) (hb : b.kind.valid = true) : summary a = summary b ↔ Alike a b := by
  constructor
  · intro h
    unfold summary at h
    simp only [dash, List.append_assoc, List.singleton_append] at h
    obtain ⟨h1, h⟩ := split_dash (kindWord_dash _) (kindWord_dash _) (Or.inr ⟨_, rfl⟩) (Or.inr ⟨_, rfl⟩) h
    simp only [List.cons.injEq, true_and] at h
    obtain ⟨h2, h⟩ := split_dash (numWord_dash _) (numWord_dash _) (Or.inr ⟨_, rfl⟩) (Or.inr ⟨_, rfl⟩) h
    simp only [List.cons.injEq, true_and] at h
    have hrest : ∀ u : Str, Rest (if u = [] then [] else 45 :: u) := by
      intro u; split
      · exact Or.inl rfl
      · exact Or.inr ⟨u, rfl⟩
    obtain ⟨h3, h⟩ := split_dash (aggWord_dash _ ha) (aggWord_dash _ hb) (hrest _) (hrest _) h
    refine ⟨kindWord_inj h1, numWord_inj h2, aggWord_inj ha hb h3, ?_⟩
    split at h <;> split at h
    · simp_all
    · cases h
    · cases h
    · exact (List.cons.inj h).2
  · rintro ⟨h1, h2, h3, h4⟩
    unfold summary
    rw [h1, h2, h3, h4]

theorem short_eq (l : Leaf H) (hv : l.kind.valid = true) : shortString l = summary l := by
  unfold shortString summary
  dsimp only
  rw [kindWord, numWord, aggWord _ hv]
  by_cases h : l.desc.unit = []
  · simp [h]
  · simp [h]

theorem rename_eq (quote : Str → Str) (l : Leaf H) : renameString quote l = originally quote l := rfl

/-! ### Kinds of the output metrics -/

def Valid (s : State H) : Prop := ∀ l ∈ s.collectors, l.kind.valid = true

theorem build_valid (b : Behavior H) : (buildLeaf b).kind.valid = true := by
  unfold buildLeaf
  dsimp only
  split
  · cases b.kind <;> rfl
  · cases b.kind <;> rfl

theorem Valid.place {s : State H} (h : Valid s) (b : Behavior H) : Valid (Views.place s b).1 := by
  unfold Views.place
  split
  · intro l hl
    obtain ⟨j, hj⟩ := List.mem_iff_getElem?.1 hl
    rw [modify_get] at hj
    split at hj
    · obtain ⟨l', h1, rfl⟩ := Option.map_eq_some_iff.1 hj
      unfold mergeDescription
      split <;> exact h l' (List.mem_of_getElem? h1)
    · exact h l (List.mem_of_getElem? hj)
  · intro l hl
    rcases List.mem_append.1 hl with hl | hl
    · exact h l hl
    · rw [List.mem_singleton] at hl; subst hl; exact build_valid b

theorem Valid.loop (ik : IKind) {s : State H} (h : Valid s) (bs : List (Behavior H)) : Valid (compileLoop ik s bs).1 := by
  induction bs generalizing s with
  | nil => exact h
  | cons b bs ih => exact ih (h.place _)

theorem Valid.all (x : Ext H) (v : Views H) (lib : Scope) {s : State H} (h : Valid s) (ds : List Desc) : Valid (registerAll x v lib s ds) := by
  induction ds generalizing s with
  | nil => exact h
  | cons d ds ih => exact ih (Valid.loop _ h _)

/-! ### The map of names -/

theorem filter_range (ls : List (Leaf H)) (p : Leaf H → Bool) :
    ((List.range ls.length).filter (fun i => (ls[i]?).any p)).map (fun i => ls[i]?) = (ls.filter p).map some := by
  rw [← List.reverse_reverse ls]
  generalize ls.reverse = ls
  induction ls with
  | nil => rfl
  | cons l ls ih =>
    rw [List.reverse_cons]
    revert ih
    generalize ls.reverse = ls
    intro ih
    rw [List.length_append, List.length_singleton, List.range_succ, List.filter_append, List.map_append, List.filter_append, List.map_append]
    congr 1
    · rw [← ih]
      have h1 : (List.range ls.length).filter (fun i => ((ls ++ [l])[i]?).any p) = (List.range ls.length).filter (fun i => (ls[i]?).any p) := by
        apply List.filter_congr
        intro j hj
        rw [List.getElem?_append_left (List.mem_range.1 hj)]
      rw [h1]
      apply List.map_congr_left
      intro j hj
      rw [List.getElem?_append_left (List.mem_range.1 (List.mem_filter.1 hj).1)]
    · have h0 : (ls ++ [l])[ls.length]? = some l := by
        rw [List.getElem?_append_right (Nat.le_refl _)]; simp
      rw [List.filter_cons, List.filter_cons, h0]
      by_cases hn : p l = true <;> simp [hn]

theorem names_named {s : State H} (h : Ok s) (n : Str) : (s.names n).map (fun i => s.collectors[i]?) = (named s n).map some := by
  rw [h n, filter_range]
  unfold named
  congr 1
  apply List.filter_congr
  intro l _
  by_cases hn : l.desc.name = n <;> simp [hn]

theorem names_get {s : State H} (h : Ok s) (n : Str) (k : Nat) : ((s.names n)[k]?).bind (fun i => s.collectors[i]?) = (named s n)[k]? := by
  have := congrArg (fun l => l[k]?) (names_named h n)
  simp only [List.getElem?_map] at this
  cases h1 : (s.names n)[k]? with
  | none =>
    rw [h1] at this
    simp only [Option.map_none] at this
    cases h2 : (named s n)[k]? with
    | none => rfl
    | some l => rw [h2] at this; cases this
  | some i =>
    rw [h1] at this
    simp only [Option.map_some] at this
    cases h2 : (named s n)[k]? with
    | none => rw [h2] at this; cases this
    | some l => rw [h2] at this; simpa using this

theorem named_distinct {s : State H} (h : Distinct s) (n : Str) : (named s n).Pairwise (fun a b => a.identity ≠ b.identity) :=
  List.Pairwise.filter _ h

/-- What each conflict lists: the metrics of a name some behavior writes to. -/
theorem loop_dups (ik : IKind) (s : State H) (bs : List (Behavior H)) :
    ∀ c ∈ (compileLoop ik s bs).2.2, ∃ b ∈ bs, c.duplicates <+: (compileLoop ik s bs).1.names b.desc.name ∧
      (2 ≤ c.duplicates.length ∨ c.semantic ≠ none) := by
  induction bs generalizing s with
  | nil => intro c hc; cases hc
  | cons b bs ih =>
    intro c hc
    unfold compileLoop at hc ⊢
    simp only [List.mem_append] at hc
    rcases hc with hc | hc
    · split at hc
      · rename_i hcond
        rw [List.mem_singleton] at hc; subst hc
        refine ⟨b, List.mem_cons_self, ?_, ?_⟩
        · have := (loop_le ik (Views.place s (checkSemantic ik b).1).1 bs).names (checkSemantic ik b).1.desc.name
          rw [(checkSemantic_desc ik b).1] at this ⊢
          exact this
        · exact hcond.imp (fun h => h) (fun h => h)
      · cases hc
    · obtain ⟨b', hb', h⟩ := ih _ c hc
      exact ⟨b', List.mem_cons_of_mem _ hb', h⟩

theorem loop_grow (ik : IKind) (bs : List (Behavior H)) (s : State H) (n : Str) (hb : ∀ b ∈ bs, b.desc.name ≠ n) :
    (compileLoop ik s bs).1.names n = s.names n := by
  induction bs generalizing s with
  | nil => rfl
  | cons b' bs ih =>
    unfold compileLoop
    simp only
    rw [ih _ (fun b'' h'' => hb b'' (List.mem_cons_of_mem _ h''))]
    unfold Views.place
    split
    · rfl
    · dsimp only
      rw [if_neg]
      intro e
      exact hb b' List.mem_cons_self (by rw [e, (checkSemantic_desc ik b').1])

/-- Some conflict lists all metrics of a name. -/
theorem loop_full (ik : IKind) (s : State H) (bs : List (Behavior H)) :
    ∀ b ∈ bs, 2 ≤ ((compileLoop ik s bs).1.names b.desc.name).length →
      ∃ c ∈ (compileLoop ik s bs).2.2, c.duplicates = (compileLoop ik s bs).1.names b.desc.name := by
  induction bs generalizing s with
  | nil => intro b hb; cases hb
  | cons b0 bs ih =>
    intro b hb h2
    unfold compileLoop at h2 ⊢
    simp only [List.mem_append] at h2 ⊢
    by_cases hex : ∃ b' ∈ bs, b'.desc.name = b.desc.name
    · obtain ⟨b', hb', he⟩ := hex
      obtain ⟨c, hc, hd⟩ := ih (Views.place s (checkSemantic ik b0).1).1 b' hb' (by rw [he]; exact h2)
      exact ⟨c, Or.inr hc, by rw [hd, he]⟩
    · have hb0 : b = b0 := by
        rcases List.mem_cons.1 hb with h | h
        · exact h
        · exact absurd ⟨b, h, rfl⟩ hex
      subst hb0
      have hg := loop_grow ik bs (Views.place s (checkSemantic ik b).1).1 b.desc.name (fun b' hb' e => hex ⟨b', hb', e⟩)
      rw [hg] at h2 ⊢
      have hd := (checkSemantic_desc ik b).1
      refine ⟨{ duplicates := (Views.place s (checkSemantic ik b).1).1.names (checkSemantic ik b).1.desc.name, semantic := (checkSemantic ik b).2 }, Or.inl ?_, ?_⟩
      · rw [if_pos (Or.inl (by rw [hd]; omega))]; exact List.mem_singleton.2 rfl
      · dsimp only; rw [hd]

/-- The text of the duplicates, from the metrics of the name. -/
theorem dup_text (quote : Str → Str) {s : State H} (hok : Ok s) {n : Str} {c : Conflict} (hp : c.duplicates <+: s.names n)
    (h2 : 2 ≤ c.duplicates.length) : ∃ a b, (named s n)[0]? = some a ∧ (named s n)[c.duplicates.length - 1]? = some b ∧
      duplicateError quote s c = duplicateText quote a b c.duplicates.length := by
  have hlen := hp.length_le
  have hget : ∀ k, k < c.duplicates.length → c.duplicates[k]? = (s.names n)[k]? := by
    intro k hk
    obtain ⟨t, ht⟩ := hp
    rw [← ht, List.getElem?_append_left hk]
  have h0 : (c.duplicates.head?).bind (fun i => s.collectors[i]?) = (named s n)[0]? := by
    rw [List.head?_eq_getElem?, hget 0 (by omega), names_get hok]
  have h1 : (c.duplicates.getLast?).bind (fun i => s.collectors[i]?) = (named s n)[c.duplicates.length - 1]? := by
    rw [List.getLast?_eq_getElem?, hget _ (by omega), names_get hok]
  have hl := names_length hok n
  obtain ⟨a, ha⟩ : ∃ a, (named s n)[0]? = some a := ⟨_, List.getElem?_eq_getElem (by omega)⟩
  obtain ⟨b, hb⟩ : ∃ b, (named s n)[c.duplicates.length - 1]? = some b := ⟨_, List.getElem?_eq_getElem (by omega)⟩
  refine ⟨a, b, ha, hb, ?_⟩
  unfold duplicateError
  rw [if_neg (by omega)]
  have h0' : c.duplicates.head?.bind (s.collectors[·]?) = some a := h0.trans ha
  have h1' : c.duplicates.getLast?.bind (s.collectors[·]?) = some b := h1.trans hb
  rw [h0', h1']

theorem written (x : Ext H) (v : Views H) (lib : Scope) {s : State H} (hok : Ok s) (d : Desc) {b : Behavior H} (hb : b ∈ (behaviors x v lib d).1) :
    ∃ j l, WritesAt (compile x v lib s d) j l ∧ l.desc.name = b.desc.name := by
  obtain ⟨j, hj, hbj⟩ := List.getElem_of_mem hb
  have hbj' : (behaviors x v lib d).1[j]? = some b := by rw [List.getElem?_eq_getElem hj, hbj]
  obtain ⟨i, hi, l, hil, hid, _⟩ := (loop_leaves d.kind hok (behaviors x v lib d).1).get hbj'
  refine ⟨j, l, ?_, ?_⟩
  · rw [compile_eq]; exact ⟨i, hi, hil⟩
  · have : l.identity.name = b.desc.name := by
      rcases hid with h | h <;> rw [h] <;> simp only [Behavior.identity, Leaf.identity, buildLeaf, (checkSemantic_desc _ b).1]
    exact this

theorem writes_name (x : Ext H) (v : Views H) (lib : Scope) {s : State H} (hok : Ok s) (d : Desc) {j : Nat} {l : Leaf H}
    (h : WritesAt (compile x v lib s d) j l) : ∃ b ∈ (behaviors x v lib d).1, l.desc.name = b.desc.name := by
  rw [compile_eq] at h
  obtain ⟨i, hi, hil⟩ := h
  obtain ⟨b, hb, l', hil', hid, _⟩ := (loop_leaves d.kind hok (behaviors x v lib d).1).get' hi
  rw [hil] at hil'; cases hil'
  refine ⟨b, List.mem_of_getElem? hb, ?_⟩
  have : l.identity.name = b.desc.name := by
    rcases hid with h | h <;> rw [h] <;> simp only [Behavior.identity, Leaf.identity, buildLeaf, (checkSemantic_desc _ b).1]
  exact this

end MsgPf

open MsgPf

/-- The words at the end of a message about `k` metrics. -/
def andMore (k : Nat) : Str := if k ≤ 2 then [] else lit " and " ++ lit (toString ((k : Int) - 2)) ++ lit " more"

/-- C81. The summaries of two output metrics that appear in messages are the same exactly when the metrics have the same instrument kind, number kind,
aggregation and unit. (A unit may have dashes in it.) -/
theorem C81_summary (a b : Leaf H) (ha : a.kind.Known) (hb : b.kind.Known) :
    shortString a = summary a ∧ (shortString a = shortString b ↔ Alike a b) := by
  rw [known_iff] at ha hb
  rw [short_eq a ha, short_eq b hb]
  exact ⟨rfl, summary_iff a b ha hb⟩

theorem dupText_eq (quote : Str → Str) (a b : Leaf H) (ha : a.kind.valid = true) (hb : b.kind.valid = true) (hid : a.identity ≠ b.identity)
    (hname : a.desc.name = b.desc.name) (k : Nat) :
    ∃ why, Difference quote a b why ∧
      duplicateText quote a b k = lit "name " ++ quote a.desc.name ++ originally quote a ++ why ++ andMore k := by
  have hmore : (if k > 2 then lit " and " ++ dec (k - 2 : Nat) ++ lit " more" else []) = andMore k := by
    unfold andMore dec
    by_cases h : k ≤ 2
    · rw [if_pos h, if_neg (by omega)]
    · rw [if_neg h, if_pos (by omega)]
      have : ((k - 2 : Nat) : Int) = (k : Int) - 2 := by omega
      rw [this]
  have hsh : shortString a = shortString b ↔ Alike a b := (C81_summary a b ((known_iff _).2 ha) ((known_iff _).2 hb)).2
  unfold duplicateText fullNameString
  rw [hmore]
  by_cases h1 : Alike a b
  · rw [if_neg (by rw [Decidable.not_not]; exact hsh.2 h1)]
    by_cases h2 : a.acfg = b.acfg
    · rw [if_neg (by rw [Decidable.not_not]; exact h2)]
      refine ⟨_, .filters h1 h2 ?_, rfl⟩
      intro hk
      apply hid
      exact (identity_iff a b).2 ⟨hname, h1.unit, h1.num, by rw [h1.kind], h1.agg, h2, hk⟩
    · rw [if_pos h2]
      exact ⟨_, .config h1 h2, rfl⟩
  · rw [if_pos (fun e => h1 (hsh.1 e)), short_eq a ha, short_eq b hb]
    exact ⟨_, .kinds h1, rfl⟩

/-- C81. No hints. Every duplicate conflict reported for a new instrument has a text that names an output name the instrument writes to, and tells a true
difference between the first metric with that name and the `k`th, where the message counts `k` of them. -/
theorem C81_truthful_partial (quote : Str → Str) (x : Ext H) (v : Views H) (lib : Scope) (ds : List Desc) (d : Desc)
    (hn : ∀ d' ∈ ds ++ [d], NoHint d') :
    let r := compile x v lib (registerAll x v lib State.new ds) d
    ∀ c ∈ r.2.2, 2 ≤ c.duplicates.length →
      ∃ j l k a b why, WritesAt r j l ∧ 2 ≤ k ∧ (named r.1 l.desc.name)[0]? = some a ∧ (named r.1 l.desc.name)[k - 1]? = some b ∧
        Difference quote a b why ∧
        duplicateError quote r.1 c = lit "name " ++ quote l.desc.name ++ originally quote a ++ why ++ andMore k := by
  intro r c hc h2
  have hok0 := registerAll_ok x v lib (Ok.new (H := H)) ds
  have hr : r = compile x v lib (registerAll x v lib State.new ds) d := rfl
  have hok : Ok r.1 := compile_ok x v lib hok0 d
  have hdis : Distinct r.1 := by
    have := C28_distinct x v lib (ds ++ [d]) hn
    have he : registerAll x v lib State.new (ds ++ [d]) = r.1 := by
      unfold registerAll; rw [List.foldl_append]; rfl
    rw [he] at this; exact this.imp (fun h e => h ((identity_iff _ _).1 e))
  have hval : Valid r.1 := Valid.loop _ (Valid.all x v lib (fun _ h => by cases h) ds) _
  have hc' := hc
  rw [hr, compile_eq] at hc'
  obtain ⟨bh, hbh, hp, _⟩ := loop_dups _ _ _ c hc'
  rw [← compile_eq, ← hr] at hp
  obtain ⟨j, l, hw, hln⟩ := written x v lib hok0 d hbh
  rw [← hln] at hp
  obtain ⟨a, b, ha, hb, ht⟩ := dup_text quote hok hp h2
  have ma : a ∈ named r.1 l.desc.name := List.mem_of_getElem? ha
  have mb : b ∈ named r.1 l.desc.name := List.mem_of_getElem? hb
  have na : a.desc.name = l.desc.name := by simpa using (List.mem_filter.1 ma).2
  have nb : b.desc.name = l.desc.name := by simpa using (List.mem_filter.1 mb).2
  have hid : a.identity ≠ b.identity := by
    have hp := List.pairwise_iff_getElem.1 (named_distinct hdis l.desc.name)
    obtain ⟨h0, e0⟩ := List.getElem?_eq_some_iff.1 ha
    obtain ⟨h1, e1⟩ := List.getElem?_eq_some_iff.1 hb
    have := hp 0 (c.duplicates.length - 1) h0 h1 (by omega)
    rw [e0, e1] at this
    exact this
  obtain ⟨why, hdiff, htext⟩ := dupText_eq quote a b (hval a (List.mem_filter.1 ma).1) (hval b (List.mem_filter.1 mb).1) hid (na.trans nb.symm) c.duplicates.length
  exact ⟨j, l, c.duplicates.length, a, b, why, hw, h2, ha, hb, hdiff, by rw [ht, htext, na]⟩

/-- C81. Every name the instrument writes to that carries `k` metrics, two or more, is reported in a conflict whose text has the name and counts all `k`. (With
hints too.) -/
theorem C81_counted (quote : Str → Str) (x : Ext H) (v : Views H) (lib : Scope) (ds : List Desc) (d : Desc) :
    let r := compile x v lib (registerAll x v lib State.new ds) d
    ∀ j l, WritesAt r j l → 2 ≤ (named r.1 l.desc.name).length →
      ∃ c ∈ r.2.2, ∃ why, duplicateError quote r.1 c = lit "name " ++ quote l.desc.name ++ why ++ andMore (named r.1 l.desc.name).length := by
  intro r j l hw h2
  have hok0 := registerAll_ok x v lib (Ok.new (H := H)) ds
  have hr : r = compile x v lib (registerAll x v lib State.new ds) d := rfl
  have hok : Ok r.1 := compile_ok x v lib hok0 d
  obtain ⟨b, hb, hln⟩ := writes_name x v lib hok0 d hw
  have hl := names_length hok l.desc.name
  have := loop_full d.kind (registerAll x v lib State.new ds) (behaviors x v lib d).1 b hb
  rw [← compile_eq, ← hr, ← hln] at this
  obtain ⟨c, hc, hd⟩ := this (by omega)
  obtain ⟨a1, b1, ha, _, ht⟩ := dup_text quote hok (n := l.desc.name) (c := c) (by rw [hd]; exact List.prefix_refl _) (by rw [hd]; omega)
  have na : a1.desc.name = l.desc.name := by simpa using (List.mem_filter.1 (List.mem_of_getElem? ha)).2
  refine ⟨c, hc, renameString quote a1 ++ (if shortString a1 ≠ shortString b1 then
       lit " conflicts " ++ shortString a1 ++ lit ", " ++ shortString b1 ++ renameString quote b1
     else if a1.acfg ≠ b1.acfg then lit " has conflicts: different aggregator configuration"
     else lit " has conflicts: different attribute filters"), ?_⟩
  rw [ht, hd, hl]
  unfold duplicateText fullNameString
  have hmore : ∀ k : Nat, (if k > 2 then lit " and " ++ dec (k - 2 : Nat) ++ lit " more" else []) = andMore k := by
    intro k
    unfold andMore dec
    by_cases h : k ≤ 2
    · rw [if_pos h, if_neg (by omega)]
    · rw [if_neg h, if_pos (by omega)]
      have : ((k - 2 : Nat) : Int) = (k : Int) - 2 := by omega
      rw [this]
  rw [hmore, na]
  simp only [List.append_assoc]

/-- C81. A conflict reported has a text: that of the semantic error, that of the duplicates, or both. The text is not empty. -/
theorem C81_both (quote : Str → Str) (x : Ext H) (v : Views H) (lib : Scope) (ds : List Desc) (d : Desc) :
    let r := compile x v lib (registerAll x v lib State.new ds) d
    ∀ c ∈ r.2.2, (2 ≤ c.duplicates.length ∨ c.semantic ≠ none) ∧
      (c.semantic = none → c.text quote r.1 = duplicateError quote r.1 c) ∧
      (c.duplicates.length < 2 → c.text quote r.1 = semanticError c) ∧
      (2 ≤ c.duplicates.length → c.semantic ≠ none → c.text quote r.1 = semanticError c ++ lit "; " ++ duplicateError quote r.1 c) ∧
      c.text quote r.1 ≠ [] := by
  intro r c hc
  have hok0 := registerAll_ok x v lib (Ok.new (H := H)) ds
  have hr : r = compile x v lib (registerAll x v lib State.new ds) d := rfl
  have hok : Ok r.1 := compile_ok x v lib hok0 d
  rw [hr, compile_eq] at hc
  obtain ⟨bh, hbh, hp, hor⟩ := loop_dups _ _ _ c hc
  rw [← compile_eq, ← hr] at hp
  have hde : 2 ≤ c.duplicates.length → duplicateError quote r.1 c ≠ [] := by
    intro h2 h
    obtain ⟨a, b, _, _, ht⟩ := dup_text quote hok hp h2
    rw [ht] at h
    unfold duplicateText fullNameString at h
    have : lit "name " = [110, 97, 109, 101, 32] := by decide +kernel
    rw [this] at h
    simp at h
  have hde0 : c.duplicates.length < 2 → duplicateError quote r.1 c = [] := by
    intro h; unfold duplicateError; rw [if_pos h]
  have hse : c.semantic ≠ none → semanticError c ≠ [] := by
    intro h
    obtain ⟨e, he⟩ := Option.ne_none_iff_exists'.1 h
    unfold semanticError
    rw [he]
    dsimp only
    unfold SemErr.text
    intro h
    simp only [List.append_eq_nil_iff] at h
    exact absurd h.2 (by decide +kernel)
  have hse0 : c.semantic = none → semanticError c = [] := by
    intro h; unfold semanticError; rw [h]
  have e1 : c.semantic = none → c.text quote r.1 = duplicateError quote r.1 c := by
    intro h; unfold Conflict.text; dsimp only; rw [if_pos (hse0 h)]
  have e2 : c.duplicates.length < 2 → c.text quote r.1 = semanticError c := by
    intro h
    unfold Conflict.text; dsimp only; rw [if_pos (hde0 h), hde0 h]
    split
    · rename_i h'; exact h'.symm
    · rfl
  have e3 : 2 ≤ c.duplicates.length → c.semantic ≠ none → c.text quote r.1 = semanticError c ++ lit "; " ++ duplicateError quote r.1 c := by
    intro h h'
    unfold Conflict.text; dsimp only; rw [if_neg (hse h'), if_neg (hde h)]
  refine ⟨hor, e1, e2, e3, ?_⟩
  by_cases h2 : 2 ≤ c.duplicates.length
  · by_cases hs : c.semantic = none
    · rw [e1 hs]; exact hde h2
    · rw [e3 h2 hs]
      intro h
      simp only [List.append_eq_nil_iff] at h
      exact hse hs h.1.1
  · have h2' : c.duplicates.length < 2 := by omega
    rw [e2 h2']
    exact hse (hor.resolve_left h2)

theorem bad_kind {ik : IKind} {a : AggKind} {e : SemErr} (hne : a ≠ .anySum) (h : (checkKind ik a).2 = some e) : e = ⟨ik, a⟩ := by
  revert h hne
  cases ik <;> cases a <;> simp [checkKind, AggKind.category] <;> exact fun h => h.symm

theorem requested_valid (x : Ext H) (v : Views H) (lib : Scope) (d : Desc) (c : Option (Clause H)) (hc : c ∈ inForce (validate x v) lib d) :
    (requested (validate x v) d c).valid = true := by
  have hchk : ∀ a b : AggKind, b.valid = true → (checkAgg a b).valid = true := by
    intro a b hb; unfold checkAgg; split
    · assumption
    · exact hb
  have hdef : ((validate x v).defaults.agg d.kind).valid = true := hchk _ _ (by cases d.kind <;> rfl)
  unfold requested
  cases c with
  | none => exact hdef
  | some c =>
    dsimp only
    split
    · exact hdef
    · unfold inForce at hc
      split at hc
      · obtain ⟨c', hc', e⟩ := List.mem_map.1 hc
        cases e
        unfold keeping at hc'
        have := (List.mem_filter.1 hc').1
        unfold validate at this
        dsimp only at this
        obtain ⟨c0, _, rfl⟩ := List.mem_map.1 this
        exact hchk _ _ rfl
      · split at hc
        · cases hc
        · rw [List.mem_singleton] at hc; cases hc

/-- C81 (partial). No hint. The semantic part of a conflict tells the kind of the instrument, and an aggregation asked for that is illegal for it. Missing: the
generic sum, see `C81_any_sum_fails`. -/
theorem C81_semantic_partial (x : Ext H) (v : Views H) (lib : Scope) (ds : List Desc) (d : Desc) (hn : NoHint d)
    (hsum : ∀ c ∈ inForce (validate x v) lib d, requested (validate x v) d c ≠ .anySum) :
    let r := compile x (validate x v) lib (registerAll x (validate x v) lib State.new ds) d
    ∀ c ∈ r.2.2, c.semantic ≠ none → ∃ asked ∈ inForce (validate x v) lib d, ¬ Legal d.kind (requested (validate x v) d asked) ∧
      semanticError c = instrumentWord d.kind ++ lit " instrument incompatible with " ++ aggregationWord (requested (validate x v) d asked) ++ lit " aggregation" := by
  intro r c hc hs
  obtain ⟨e, he⟩ := Option.ne_none_iff_exists'.1 hs
  have hr : r = compile x (validate x v) lib (registerAll x (validate x v) lib State.new ds) d := rfl
  rw [hr, compile_eq] at hc
  obtain ⟨b, hb, hb2⟩ := (loop_semantic d.kind _ _ e).1 ⟨c, hc, he⟩
  have hb3 : (checkKind d.kind b.kind).2 = some e := by
    unfold checkSemantic at hb2
    rw [plain_unhinted x (validate x v) lib hn b hb] at hb2
    exact hb2
  have hm := behaviors_inForce x (validate x v) lib hn
  have : (b.kind, b.desc.kind, b.hinted) ∈ (inForce (validate x v) lib d).map (fun c => (requested (validate x v) d c, d.kind, false)) := by
    rw [← hm]; exact List.mem_map_of_mem (f := fun b : Behavior H => (b.kind, b.desc.kind, b.hinted)) hb
  obtain ⟨ask, hask, hk⟩ := List.mem_map.1 this
  simp only [Prod.mk.injEq] at hk
  have hv := requested_valid x v lib d ask hask
  have hne := hsum ask hask
  rw [hk.1] at hv hne
  have hkind : e = ⟨d.kind, b.kind⟩ ∧ ¬ Legal d.kind b.kind := by
    have hok := (checkKind_ok d.kind b.kind)
    rw [hb3] at hok
    refine ⟨?_, fun hl => ?_⟩
    · exact bad_kind hne hb3
    · have := hok.2 (Or.inl hl)
      cases this
  refine ⟨ask, hask, by rw [hk.1]; exact hkind.2, ?_⟩
  unfold semanticError
  rw [he, hkind.1, hk.1]
  unfold SemErr.text
  dsimp only
  rw [kindWord, aggWord _ hv]

/-- Everything of an output metric but its description. -/
def SameBut (l l' : Leaf H) : Prop := ∃ t, l' = { l with desc := { l.desc with desc := t } }

theorem MsgPf.keeps_place (s : State H) (b : Behavior H) : ∀ (i : Nat) (l : Leaf H), s.collectors[i]? = some l →
    ∃ l', (Views.place s b).1.collectors[i]? = some l' ∧ SameBut l l' := by
  intro i l hl
  unfold Views.place
  split
  · simp only [modify_get, hl]
    split
    · refine ⟨_, rfl, ?_⟩
      unfold mergeDescription
      dsimp only
      split
      · exact ⟨_, rfl⟩
      · exact ⟨l.desc.desc, rfl⟩
    · exact ⟨l, rfl, l.desc.desc, rfl⟩
  · exact ⟨l, by rw [List.getElem?_append_left (List.getElem?_eq_some_iff.1 hl).1]; exact hl, l.desc.desc, rfl⟩

theorem SameBut.trans {a b c : Leaf H} (h : SameBut a b) (h' : SameBut b c) : SameBut a c := by
  obtain ⟨t, rfl⟩ := h
  obtain ⟨u, rfl⟩ := h'
  exact ⟨u, rfl⟩

theorem MsgPf.keeps_loop (ik : IKind) (s : State H) (bs : List (Behavior H)) : ∀ (i : Nat) (l : Leaf H), s.collectors[i]? = some l →
    ∃ l', (compileLoop ik s bs).1.collectors[i]? = some l' ∧ SameBut l l' := by
  induction bs generalizing s with
  | nil => exact fun i l h => ⟨l, h, l.desc.desc, rfl⟩
  | cons b bs ih =>
    intro i l h
    obtain ⟨l1, h1, e1⟩ := keeps_place s (checkSemantic ik b).1 i l h
    obtain ⟨l2, h2, e2⟩ := ih _ i l1 h1
    exact ⟨l2, h2, e1.trans e2⟩

theorem MsgPf.keeps_all (x : Ext H) (v : Views H) (lib : Scope) (s : State H) (ds : List Desc) : ∀ (i : Nat) (l : Leaf H), s.collectors[i]? = some l →
    ∃ l', (registerAll x v lib s ds).collectors[i]? = some l' ∧ SameBut l l' := by
  induction ds generalizing s with
  | nil => exact fun i l h => ⟨l, h, l.desc.desc, rfl⟩
  | cons d ds ih =>
    intro i l h
    obtain ⟨l1, h1, e1⟩ := keeps_loop (behaviors x v lib d).2.kind s (behaviors x v lib d).1 i l h
    obtain ⟨l2, h2, e2⟩ := ih _ i l1 h1
    exact ⟨l2, h2, e1.trans e2⟩

theorem MsgPf.text_same (quote : Str → Str) {a a' b b' : Leaf H} (ha : SameBut a a') (hb : SameBut b b') (k : Nat) :
    duplicateText quote a b k = duplicateText quote a' b' k := by
  obtain ⟨t, rfl⟩ := ha
  obtain ⟨u, rfl⟩ := hb
  rfl

/-- C81. The text is that of the moment the conflict arose: it refers to the output metrics themselves, but whatever is registered before it is printed makes
no difference. -/
theorem C81_stable (quote : Str → Str) (x : Ext H) (v : Views H) (lib : Scope) (ds : List Desc) (d : Desc) (later : List Desc) :
    let r := compile x v lib (registerAll x v lib State.new ds) d
    ∀ c ∈ r.2.2, c.text quote (registerAll x v lib r.1 later) = c.text quote r.1 := by
  intro r c hc
  have hok0 := registerAll_ok x v lib (Ok.new (H := H)) ds
  have hr : r = compile x v lib (registerAll x v lib State.new ds) d := rfl
  have hok : Ok r.1 := compile_ok x v lib hok0 d
  rw [hr, compile_eq] at hc
  obtain ⟨bh, hbh, hp, hor⟩ := loop_dups _ _ _ c hc
  rw [← compile_eq, ← hr] at hp
  have hde : duplicateError quote (registerAll x v lib r.1 later) c = duplicateError quote r.1 c := by
    unfold duplicateError
    split
    · rfl
    · rename_i h2
      have hmem : ∀ i ∈ c.duplicates, ∃ l, r.1.collectors[i]? = some l := by
        intro i hi
        obtain ⟨l, hl, _⟩ := hok.mem.1 (hp.subset hi)
        exact ⟨l, hl⟩
      cases h0 : c.duplicates with
      | nil => simp [h0] at h2
      | cons i rest =>
        obtain ⟨a, ha⟩ := hmem i (by rw [h0]; exact List.mem_cons_self)
        have hlast : (i :: rest).getLast? = some ((i :: rest).getLast (by simp)) := List.getLast?_eq_some_getLast _
        obtain ⟨b, hb⟩ := hmem ((i :: rest).getLast (by simp)) (by rw [h0]; exact List.getLast_mem _)
        obtain ⟨a', ha', ea⟩ := keeps_all x v lib r.1 later i a ha
        obtain ⟨b', hb', eb⟩ := keeps_all x v lib r.1 later _ b hb
        rw [hlast]
        simp only [List.head?_cons, Option.bind_some, ha, hb, ha', hb']
        exact (text_same quote ea eb _).symm
  unfold Conflict.text
  dsimp only
  rw [hde]

/-! ### The error of several readers -/

theorem MsgPf.assign_new (m : List (Str × List Conflict)) (n : Str) (cs : List Conflict) (h : n ∉ m.map (·.1)) : assign m n cs = m ++ [(n, cs)] := by
  induction m with
  | nil => rfl
  | cons e es ih =>
    simp only [List.map_cons, List.mem_cons, not_or] at h
    unfold assign
    rw [if_neg (fun e' => h.1 e'.symm), ih h.2]
    rfl

theorem MsgPf.combineAll_filter (rs : List (Str × List Conflict)) (hn : (rs.map (·.1)).Nodup) :
    (combineAll rs).getD [] = rs.filter (fun r => r.2 ≠ []) := by
  rw [← List.reverse_reverse rs] at hn ⊢
  revert hn
  generalize rs.reverse = rs
  intro hn
  induction rs with
  | nil => rfl
  | cons r rs ih =>
    obtain ⟨n, cs⟩ := r
    rw [List.reverse_cons] at hn ⊢
    rw [List.map_append, List.nodup_append] at hn
    obtain ⟨h1, _, h3⟩ := hn
    have hnot : n ∉ rs.reverse.map (·.1) := fun hm => h3 n hm n (by simp) rfl
    rw [combineAll_snoc, List.filter_append]
    by_cases h : cs = []
    · rw [if_pos h, ih h1]; simp [h]
    · rw [if_neg h, Option.getD_some, ih h1, assign_new]
      · simp [h]
      · intro hm
        obtain ⟨e, he, hen⟩ := List.mem_map.1 hm
        exact hnot (List.mem_map.2 ⟨e, (List.mem_filter.1 he).1, hen⟩)

/-- What the error of several readers starts with: nothing for a single conflict, else the number of conflicts, and of readers having some if more than one. -/
def headline (conflicts readers : Nat) : Str :=
  if readers = 1 then (if conflicts = 1 then [] else lit (toString (conflicts : Int)) ++ lit " conflicts, e.g. ")
  else lit (toString (conflicts : Int)) ++ lit " conflicts in " ++ lit (toString (readers : Int)) ++ lit " readers, e.g. "

/-- C81 (partial). Readers with different names, some having conflicts. In whatever order the map is iterated, the error tells how many conflicts there are and in
how many readers, and gives the first conflict of one of them. Missing: readers sharing a name (`C40_same_name_fails`). -/
theorem C81_readers_partial (text : Str → Conflict → Str) (rs : List (Str × List Conflict)) (hn : (rs.map (·.1)).Nodup)
    (hsome : ∃ r ∈ rs, r.2 ≠ []) (order : List (Str × List Conflict)) (ho : order.Perm ((combineAll rs).getD [])) :
    ∃ r ∈ rs, ∃ c, r.2.head? = some c ∧
      errorText text order = headline (rs.map (fun r => r.2.length)).sum (rs.filter (fun r => r.2 ≠ [])).length ++ r.1 ++ lit ": " ++ text r.1 c := by
  rw [combineAll_filter rs hn] at ho
  have hsum : (rs.map (fun r => r.2.length)).sum = (order.map (fun r => r.2.length)).sum := by
    rw [(ho.map (fun r => r.2.length)).sum_nat]
    clear ho hsome hn
    induction rs with
    | nil => rfl
    | cons r rs ih =>
      rw [List.filter_cons]
      by_cases h : r.2 = []
      · simp [h, ih]
      · simp [h, ih]
  have hlen := ho.length_eq
  rw [← hlen, hsum]
  obtain ⟨r0, hr0, hne0⟩ := hsome
  have hmem : ∀ e ∈ order, e ∈ rs ∧ e.2 ≠ [] := by
    intro e he
    have := List.mem_filter.1 (ho.subset he)
    exact ⟨this.1, by simpa using this.2⟩
  match order, hmem, ho with
  | [], _, ho =>
    have : r0 ∈ rs.filter (fun r => r.2 ≠ []) := List.mem_filter.2 ⟨hr0, by simpa using hne0⟩
    rw [← ho.mem_iff] at this
    cases this
  | (rd, cs) :: rest, hmem, _ =>
    obtain ⟨h1, h2⟩ := hmem _ List.mem_cons_self
    cases cs with
    | nil => exact absurd rfl h2
    | cons c cs' =>
      refine ⟨_, h1, c, rfl, ?_⟩
      unfold errorText headline dec
      dsimp only
      by_cases hl : ((rd, c :: cs') :: rest).length = 1
      · have hrest : rest = [] := by simpa using hl
        subst hrest
        by_cases hcs : cs' = []
        · subst hcs; simp
        · simp only [List.length_singleton, if_true, hcs, if_false]
          rw [if_neg]
          simp [hcs]
      · rw [if_neg hl, if_neg hl]

/-! ### Where the text is wrong, and examples -/

namespace MsgEx
/-- Text in quotes, for examples. -/
def quote (s : Str) : Str := lit "\"" ++ s ++ lit "\""

/-- Counters named `m` that differ in the unit only. -/
def unit (u : String) : Desc := { ViewEx.inst .syncCounter "d" with unit := lit u }
end MsgEx

/-- C81 (fails with hints). A counter with the hint to aggregate as a sum is registered twice. The message says that there are different attribute filters: the two
metrics have none and are the same in every respect. -/
theorem C81_hinted_fails :
    let r := ViewEx.reg (ViewEx.views []) [ViewEx.inst .syncCounter "{sum"] (ViewEx.inst .syncCounter "{sum")
    r.2.2.map (Conflict.text MsgEx.quote r.1) = [lit "name \"m\" has conflicts: different attribute filters"] ∧
    r.1.collectors.map (·.keys) = [none, none] ∧
    (r.1.collectors.map (fun l => (l.desc, l.kind, l.acfg)))[0]? = (r.1.collectors.map (fun l => (l.desc, l.kind, l.acfg)))[1]? := by
  decide +kernel

/-- C81 (fails). The message is about the first and the last metric, not about the one registered: counters in bytes, milliseconds and seconds exist, the one in
milliseconds is registered again; the message does not mention it. -/
theorem C81_middle_fails :
    let r := ViewEx.reg (ViewEx.views []) [MsgEx.unit "By", MsgEx.unit "ms", MsgEx.unit "s"] (MsgEx.unit "ms")
    r.2.1 = [1] ∧
    r.2.2.map (Conflict.text MsgEx.quote r.1) =
      [lit "name \"m\" conflicts SyncCounter-Int64-MonotonicSum-By, SyncCounter-Int64-MonotonicSum-s and 1 more"] := by
  decide +kernel

/-- C81 (fails for the generic sum). A view asks for a sum of a gauge; the message calls the aggregation undefined. -/
theorem C81_any_sum_fails :
    let r := ViewEx.reg (ViewEx.views [{ ViewEx.any with agg := .anySum }]) [] (ViewEx.inst .syncGauge "d")
    r.2.2.map (Conflict.text MsgEx.quote r.1) = [lit "SyncGauge instrument incompatible with Undefined aggregation"] ∧
    aggregationWord .anySum = lit "AnySum" := by
  decide +kernel

/-- C81: two renaming clauses, one of them with an illegal aggregation, and a metric of the name registered before. -/
example :
    let v := ViewEx.views [{ ViewEx.any with rename := some (fun _ => lit "n"), agg := .gauge }, { ViewEx.any with rename := some (fun _ => lit "n"), keys := some [lit "k"] }]
    let r := ViewEx.reg v [ViewEx.inst .syncUpDownCounter "d"] (ViewEx.inst .syncHistogram "d")
    r.2.2.map (Conflict.text MsgEx.quote r.1) =
      [lit "SyncHistogram instrument incompatible with Gauge aggregation; name \"n\" (original \"m\") conflicts SyncUpDownCounter-Int64-NonMonotonicSum-By, SyncHistogram-Int64-Histogram-By (original \"m\") and 1 more",
       lit "name \"n\" (original \"m\") conflicts SyncUpDownCounter-Int64-NonMonotonicSum-By, SyncHistogram-Int64-Histogram-By (original \"m\") and 2 more"] ∧
    errorText (fun _ c => Conflict.text MsgEx.quote r.1 c) [(lit "r", r.2.2)] =
      lit "2 conflicts, e.g. r: SyncHistogram instrument incompatible with Gauge aggregation; name \"n\" (original \"m\") conflicts SyncUpDownCounter-Int64-NonMonotonicSum-By, SyncHistogram-Int64-Histogram-By (original \"m\") and 1 more" := by
  decide +kernel

/-- C81: the other two differences, as they appear in messages. -/
example :
    (let r := ViewEx.reg (ViewEx.views [ViewEx.any, { ViewEx.any with acfg := ⟨7, 0⟩ }]) [] (ViewEx.inst .syncHistogram "d")
     r.2.2.map (Conflict.text MsgEx.quote r.1) = [lit "name \"m\" has conflicts: different aggregator configuration"]) ∧
    (let r := ViewEx.reg (ViewEx.views [ViewEx.any, { ViewEx.any with keys := some [] }]) [] (ViewEx.inst .syncHistogram "d")
     r.2.2.map (Conflict.text MsgEx.quote r.1) = [lit "name \"m\" has conflicts: different attribute filters"]) ∧
    (∀ d ∈ [MsgEx.unit "By"] ++ [MsgEx.unit "ms"], NoHint d) := by
  refine ⟨by decide +kernel, by decide +kernel, ?_⟩
  unfold NoHint
  decide +kernel

/-- C81: three readers, two with conflicts, met in the other order. -/
example : [(lit "c", [⟨[2, 3], none⟩, ⟨[4, 5], none⟩]), (lit "a", [⟨[0, 1], none⟩])].Perm
      ((combineAll [(lit "a", [⟨[0, 1], none⟩]), (lit "b", []), (lit "c", [⟨[2, 3], none⟩, ⟨[4, 5], none⟩])]).getD []) ∧
    errorText (fun _ _ => lit "x") [(lit "c", [⟨[2, 3], none⟩, ⟨[4, 5], none⟩]), (lit "a", [⟨[0, 1], none⟩])] = lit "3 conflicts in 2 readers, e.g. c: x" := by
  refine ⟨?_, by decide +kernel⟩
  have : (combineAll [(lit "a", [⟨[0, 1], none⟩]), (lit "b", []), (lit "c", [⟨[2, 3], none⟩, ⟨[4, 5], none⟩])]).getD [] =
      [(lit "a", [⟨[0, 1], none⟩]), (lit "c", [⟨[2, 3], none⟩, ⟨[4, 5], none⟩])] := by decide +kernel
  rw [this]
  exact List.Perm.swap _ _ _

end Verif.Props
