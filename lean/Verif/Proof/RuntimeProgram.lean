import Verif.Proof.Instrumented
import Verif.Proof.TraceExport
import Verif.Spec.RuntimeProgram

/-!
The observations made by the runtime instrumentation.
-/

namespace Verif.Launched
open Verif Verif.Attr Verif.Number Verif.Export Verif.Assembly Verif.Instruments Verif.Props

/-! ### Text attributes -/

/-- Keys differ and are not empty; keys and texts have at most 8192 bytes. -/
structure Short (a : List (Str × Str)) : Prop where
  keys : a.Pairwise (fun e e' => e.1 ≠ e'.1)
  named : ∀ e ∈ a, e.1 ≠ []
  short : ∀ e ∈ a, e.1.length ≤ 8192 ∧ e.2.length ≤ 8192

theorem get_mem {key : Str} {v : Val} {l : List KV} (h : Attr.get key l = some v) : ⟨key, v⟩ ∈ l := by
  unfold Attr.get at h
  obtain ⟨kv, h1, h2⟩ := Option.map_eq_some_iff.1 h
  have h3 : kv.key = key := by simpa using List.find?_some h1
  have := List.mem_of_find?_eq_some h1
  rw [← h2, ← h3]
  exact this

/-- A list of text attributes with different keys is a set but for the order. -/
theorem newSet_texts {l : List KV} (hk : l.Pairwise (fun x y => x.key ≠ y.key)) (ht : ∀ kv ∈ l, ∃ s, kv.val = .str s) : (newSet l).Perm l := by
  have nd : ∀ {l : List KV}, l.Pairwise (fun x y => x.key ≠ y.key) → l.Nodup := fun h => h.imp (fun hne he => hne (by rw [he]))
  have uniq : ∀ {l : List KV}, l.Pairwise (fun x y => x.key ≠ y.key) → ∀ x ∈ l, ∀ y ∈ l, x.key = y.key → x = y := by
    intro l h
    induction l with
    | nil => intro x hx; cases hx
    | cons b l ih =>
      obtain ⟨h1, h2⟩ := List.pairwise_cons.1 h
      intro x hx y hy he
      rcases List.mem_cons.1 hx with rfl | hx' <;> rcases List.mem_cons.1 hy with rfl | hy'
      · rfl
      · exact absurd he (h1 _ hy')
      · exact absurd he.symm (h1 _ hx')
      · exact ih h2 x hx' y hy' he
  have sub : ∀ kv ∈ newSet l, kv ∈ l := by
    intro kv hkv
    obtain ⟨x, hx, h1, h2⟩ := TraceExport.mem_newSet hkv
    obtain ⟨s, hs⟩ := ht x hx
    have : kv = x := by
      obtain ⟨k, v⟩ := kv
      obtain ⟨k', v'⟩ := x
      simp only at h1 h2 hs
      rw [h1, h2, hs]
      rfl
    rw [this]
    exact hx
  rw [List.perm_ext_iff_of_nodup (nd (Pipeline.sorted_pairwise (newSet_sorted _))) (nd hk)]
  intro kv
  refine ⟨sub kv, fun hkv => ?_⟩
  have h1 : (lastValue kv.key l).isSome = true := by
    unfold lastValue
    rw [Option.isSome_map, List.find?_isSome]
    exact ⟨kv, List.mem_reverse.2 hkv, by simp⟩
  obtain ⟨v, hv⟩ := Option.isSome_iff_exists.1 h1
  have h2 : Attr.get kv.key (newSet l) = some (canonVal v) := by rw [get_newSet, hv]; rfl
  have h3 := get_mem h2
  have h4 := uniq hk _ (sub _ h3) _ hkv rfl
  rw [← h4]
  exact h3

theorem Short.perm {a : List (Str × Str)} (h : Short a) : (usedSet (textAttrs a)).Perm (textAttrs a) := by
  have hk : (textAttrs a).Pairwise (fun x y => x.key ≠ y.key) := List.pairwise_map.2 h.keys
  have ht : ∀ kv ∈ textAttrs a, ∃ s, kv.val = .str s := by
    intro kv hkv
    obtain ⟨e, -, rfl⟩ := List.mem_map.1 hkv
    exact ⟨_, rfl⟩
  have h1 := newSet_texts hk ht
  have h2 : truncate 8192 (newSet (textAttrs a)) = newSet (textAttrs a) := by
    refine C18_short_unchanged 8192 _ (fun kv hkv => ?_)
    obtain ⟨e, he, rfl⟩ := List.mem_map.1 (h1.mem_iff.1 hkv)
    refine ⟨(h.short e he).1, fun s hs => ?_⟩
    simp only [strings, List.mem_singleton] at hs
    rw [hs]
    exact (h.short e he).2
  unfold usedSet
  rw [h2]
  exact (newSet_texts (Pipeline.sorted_pairwise (newSet_sorted _)) (fun kv hkv => ht kv (h1.mem_iff.1 hkv))).trans h1

theorem Short.named' {a : List (Str × Str)} (h : Short a) : ∀ kv ∈ usedSet (textAttrs a), kv.key ≠ [] := by
  intro kv hkv
  obtain ⟨e, he, rfl⟩ := List.mem_map.1 (h.perm.mem_iff.1 hkv)
  exact h.named e he

theorem Short.has {a : List (Str × Str)} (h : Short a) {m : PMap} (hm : AttrsOf (usedSet (textAttrs a)) m) : HasTexts a m := by
  have h1 : m = (usedSet (textAttrs a)).map (fun kv => (kv.key, match kv.val with | .str s => PVal.one (.str s) | _ => .one (.bool true))) := by
    refine List.ext_getElem? (fun i => ?_)
    rw [List.getElem?_map]
    by_cases hi : i < m.length
    · have hi' : i < (usedSet (textAttrs a)).length := by rw [hm.1]; exact hi
      have h2 := hm.2 i _ _ (List.getElem?_eq_getElem hi') (List.getElem?_eq_getElem hi)
      obtain ⟨e, -, he⟩ := List.mem_map.1 (h.perm.mem_iff.1 (List.getElem_mem hi'))
      rw [List.getElem?_eq_getElem hi, List.getElem?_eq_getElem hi']
      rw [← he] at h2 ⊢
      obtain ⟨g1, g2⟩ := h2
      simp only [Option.map_some, Option.some.injEq]
      refine Prod.ext g1 ?_
      cases hv : m[i].2 with
      | one s =>
        rw [hv] at g2
        cases s <;> simp only [ValueOf] at g2
        rw [g2]
      | slice l => rw [hv] at g2; simp only [ValueOf] at g2
    · rw [List.getElem?_eq_none (by omega), List.getElem?_eq_none (by rw [hm.1]; omega)]
      rfl
  unfold HasTexts
  rw [h1]
  refine (h.perm.map _).trans ?_
  unfold textAttrs
  rw [List.map_map]
  exact List.Perm.refl _

theorem texts_inj {a b : List (Str × Str)} (h : Short a) (h' : Short b) (he : usedSet (textAttrs a) = usedSet (textAttrs b)) : a.Perm b := by
  have h1 := h.perm.symm.trans (he ▸ h'.perm)
  have h2 := h1.map (fun kv => (kv.key, match kv.val with | .str s => s | _ => []))
  unfold textAttrs at h2
  rw [List.map_map, List.map_map] at h2
  have hid : ((fun kv : KV => (kv.key, match kv.val with | .str s => s | _ => [])) ∘ fun e : Str × Str => (⟨e.1, .str e.2⟩ : KV)) = id := rfl
  rw [hid, List.map_id, List.map_id] at h2
  exact h2

theorem Short.overflow {a : List (Str × Str)} (h : Short a) : usedSet (textAttrs a) ≠ overflowSet := by
  intro he
  have h1 : (⟨Views.lit "otel.metric.overflow", .bool true⟩ : KV) ∈ overflowSet := by decide +kernel
  rw [← he] at h1
  obtain ⟨e, -, he⟩ := List.mem_map.1 (h.perm.mem_iff.1 h1)
  injection he with _ h2
  cases h2

theorem called_unique {C ν : Type} {p : Provider.Provider C ν} {k : Nat} {n n' : Str} {id : Nat} (h : Called p k n id) (h' : Called p k n' id) : n = n' := by
  obtain ⟨m, i, o, h1, h2, h3, h4⟩ := h
  obtain ⟨m', i', o', g1, g2, g3, g4⟩ := h'
  rw [h4] at g4
  obtain rfl := (pair_inj g4).2
  rw [h1] at g1
  cases g1
  rw [h2] at g2
  cases g2
  rw [← h3, ← g3]

end Verif.Launched

namespace Verif.Runtime
open Verif Verif.Attr Verif.Number Verif.Export Verif.Assembly Verif.Instruments Verif.Launched Verif.Props
open Verif.Views (lit)
open Verif.Live (makes rest)

/-- Where a reported series comes from. -/
theorem series_from {n : Str} {k : VKind} {w : Want} {a : List (Str × Str)} (h : seriesOf n k = some (w, a)) :
    ∃ m f, f ∈ table ∧ Reported f n m ∧ findMatch table n = some (.ok m) ∧ m.kind ≠ .skip ∧ m.name = w.name ∧ m.attrs = a ∧ m.pattern = w.pattern ∧ m.kind = w.kind := by
  obtain ⟨r, e, hr⟩ := findMatch_spec table table_ok n
  unfold seriesOf at h
  rw [e] at h
  cases r with
  | error e => cases h
  | ok m =>
    dsimp only at h
    by_cases hk : m.kind = .skip ∨ m.kind = .histogram
    · rw [if_pos hk] at h; cases h
    · rw [if_neg hk] at h
      cases hw : wanted m k with
      | none => rw [hw] at h; cases h
      | some w' =>
        rw [hw] at h
        cases h
        obtain ⟨f, hf, hm, hrep⟩ := hr
        refine ⟨m, f, hf, hrep, e, fun h => hk (Or.inl h), ?_⟩
        unfold wanted at hw
        cases hkk : m.kind <;> cases k <;> rw [hkk] at hw <;> cases hw <;> exact ⟨rfl, rfl, rfl, rfl⟩

/-- Series with the same name have the same kind. -/
theorem series_kind {n n' : Str} {k k' : VKind} {w w' : Want} {a a' : List (Str × Str)} (h : seriesOf n k = some (w, a)) (h' : seriesOf n' k' = some (w', a'))
    (he : w.name = w'.name) : w.kind = w'.kind := by
  obtain ⟨m, f, hf, hr, -, hs, h1, -, -, h4⟩ := series_from h
  obtain ⟨m', f', hf', hr', -, hs', h1', -, -, h4'⟩ := series_from h'
  have o1 := series_name f hf n m hr hs
  have o2 := series_name f' hf' n' m' hr' hs'
  have hff : f = f' := by
    by_cases hh : f = f'
    · exact hh
    · exfalso
      rw [h1, he, ← h1'] at o1
      exact table_outs f hf f' hf' hh _ o1 o2
  subst hff
  rw [← h4, ← h4']
  have last : ∀ {p p' s : Str}, f.pattern = p ++ [58, 42] → f.pattern = p' ++ 47 :: 42 :: 58 :: s → (42 : UInt8) ∉ s → s ≠ [] → False := by
    intro p p' s e1 e2 e3 e4
    have g1 : f.pattern.getLast? = some 42 := by rw [e1]; simp
    have g2 : f.pattern.getLast? = s.getLast? := by
      rw [e2, List.getLast?_append, List.getLast?_cons, List.getLast?_cons, List.getLast?_cons]
      cases hs : s.getLast? with
      | none => exact absurd (List.getLast?_eq_none_iff.1 hs) e4
      | some b => rfl
    rw [g1] at g2
    exact e3 (List.mem_of_getLast? g2.symm)
  have kind : ∀ {n m}, Reported f n m → m.kind ≠ .skip → (∃ p, f.pattern = p ++ [58, 42]) ∧ m.kind = .counter ∨
      ((42 : UInt8) ∉ f.pattern ∨ ∃ p s, f.pattern = p ++ 47 :: 42 :: 58 :: s ∧ (42 : UInt8) ∉ s ∧ s ≠ []) ∧ m.kind = f.kind := by
    intro n m hr hs
    cases hr with
    | full rest g1 g2 g3 => exact .inr ⟨.inl g2, by rw [g3]; rfl⟩
    | unit p middle g1 g2 g3 g4 => refine .inl ⟨⟨p, g2⟩, ?_⟩; rw [g4]; unfold objectMatch; dsimp only; split <;> rfl
    | classes p s middle g1 g2 g3 g4 g5 g6 =>
      rcases g6 with ⟨-, g6⟩ | ⟨-, g6⟩
      · exact absurd g6 hs
      · exact .inr ⟨.inr ⟨p, s, g4, g2, g3⟩, by rw [g6]; rfl⟩
  rcases kind hr hs with ⟨⟨p, e1⟩, e2⟩ | ⟨e1, e2⟩ <;> rcases kind hr' hs' with ⟨⟨p', e1'⟩, e2'⟩ | ⟨e1', e2'⟩
  · rw [e2, e2']
  · rcases e1' with e1' | ⟨p', s, g1, g2, g3⟩
    · exact absurd (by rw [e1]; simp) e1'
    · exact (last e1 g1 g2 g3).elim
  · rcases e1 with e1 | ⟨p, s, g1, g2, g3⟩
    · exact absurd (by rw [e1']; simp) e1
    · exact (last e1' g1 g2 g3).elim
  · rw [e2, e2']

theorem table_braces : ∀ f ∈ table, (123 : UInt8) ∉ f.pattern := by decide +kernel

/-- The description has no hint. -/
theorem series_text {n : Str} {k : VKind} {w : Want} {a : List (Str × Str)} (h : seriesOf n k = some (w, a)) (hb : (123 : UInt8) ∉ n) : Views.NoHint w.desc := by
  obtain ⟨m, f, hf, hr, -, hs, -, -, h3, -⟩ := series_from h
  show (123 : UInt8) ∉ w.pattern ++ lit " from runtime/metrics"
  rw [List.mem_append]
  rintro (hm | hm)
  · rw [← h3] at hm
    cases hr with
    | full rest g1 g2 g3 => rw [g3] at hm; exact hb hm
    | unit p middle g1 g2 g3 g4 =>
      rw [g4] at hm
      unfold objectMatch at hm
      dsimp only at hm
      split at hm <;> exact hb hm
    | classes p s middle g1 g2 g3 g4 g5 g6 =>
      rcases g6 with ⟨-, g6⟩ | ⟨-, g6⟩
      · exact absurd g6 hs
      · rw [g6] at hm; exact table_braces f hf hm
  · revert hm
    decide +kernel

theorem joinByte_length (l : List Str) : l.length ≤ (joinByte 47 l).length + 1 ∧ ∀ v ∈ l, v.length ≤ (joinByte 47 l).length := by
  induction l with
  | nil => exact ⟨by simp, by simp⟩
  | cons x l ih =>
    cases l with
    | nil => exact ⟨by simp, by simp [joinByte]⟩
    | cons y l =>
      rw [joinByte_cons _ _ _ (by simp)]
      refine ⟨by simp only [List.length_append, List.length_cons] at ih ⊢; omega, fun v hv => ?_⟩
      rcases List.mem_cons.1 hv with rfl | hv
      · simp only [List.length_append]; omega
      · have := ih.2 v hv
        simp only [List.length_append, List.length_cons]; omega

/-- The attributes of a series are its classes in order. -/
theorem series_attrs {n : Str} {k : VKind} {w : Want} {a : List (Str × Str)} (h : seriesOf n k = some (w, a)) :
    ∃ vals : List Str, a = classAttrs vals ∧ vals.length ≤ n.length + 1 ∧ ∀ v ∈ vals, v.length ≤ n.length := by
  obtain ⟨m, f, hf, hr, hm, hs, -, rfl, -, -⟩ := series_from h
  obtain ⟨f', -, hc⟩ := C52_reassemble_partial n m hm
  rcases hc with ⟨-, -, h1, -⟩ | ⟨-, -, -, -, h1, -⟩ | ⟨p, s, vals, -, h2, -, h3⟩
  · exact ⟨[], h1, by simp, by simp⟩
  · exact ⟨[], h1, by simp, by simp⟩
  · rcases h3 with ⟨-, h3⟩ | ⟨-, -, h4, h5⟩
    · exact absurd h3 hs
    · have hj := joinByte_length vals
      have hl : (joinByte 47 vals).length ≤ n.length := by rw [h2]; simp only [List.length_append]; omega
      refine ⟨vals, ?_, by omega, fun v hv => by have := hj.2 v hv; omega⟩
      refine List.ext_getElem? (fun i => ?_)
      unfold classAttrs
      rw [List.getElem?_map, List.getElem?_zipIdx]
      by_cases hi : i < vals.length
      · rw [h5 i _ (List.getElem?_eq_getElem hi), List.getElem?_eq_getElem hi]
        simp
      · rw [List.getElem?_eq_none (by omega), List.getElem?_eq_none (by omega)]
        rfl

theorem class_mem {vals : List Str} {e : Str × Str} : e ∈ classAttrs vals ↔ ∃ i, vals[i]? = some e.2 ∧ e.1 = attributeName i := by
  unfold classAttrs
  rw [List.mem_map]
  constructor
  · rintro ⟨⟨v, i⟩, h1, rfl⟩
    exact ⟨i, List.mem_zipIdx_iff_getElem?.1 h1, rfl⟩
  · rintro ⟨i, h1, h2⟩
    exact ⟨(e.2, i), List.mem_zipIdx_iff_getElem?.2 h1, Prod.ext h2.symm rfl⟩

theorem class_perm {a b : List Str} (h : (classAttrs a).Perm (classAttrs b)) : a = b := by
  have key : ∀ {a b : List Str}, (classAttrs a).Perm (classAttrs b) → ∀ (i : Nat) (v : Str), a[i]? = some v → b[i]? = some v := by
    intro a b h i v hv
    obtain ⟨j, h1, h2⟩ := class_mem.1 (h.mem_iff.1 (class_mem.2 ⟨i, hv, rfl⟩ : (attributeName i, v) ∈ classAttrs a))
    rw [C52_attribute_names.2.2 _ _ h2]
    exact h1
  refine List.ext_getElem? (fun i => ?_)
  cases ha : a[i]? with
  | some v => exact (key h i v ha).symm
  | none =>
    cases hb : b[i]? with
    | none => rfl
    | some v => rw [key h.symm i v hb] at ha; cases ha

theorem series_short {n : Str} {k : VKind} {w : Want} {a : List (Str × Str)} (h : seriesOf n k = some (w, a)) (hn : n.length ≤ 8192) : Short a := by
  obtain ⟨vals, rfl, h1, h2⟩ := series_attrs h
  refine ⟨?_, ?_, ?_⟩
  · unfold classAttrs
    rw [List.pairwise_map]
    have hnd : (vals.zipIdx).Pairwise (fun x y => x.2 ≠ y.2) := by
      rw [← List.pairwise_map (f := Prod.snd) (R := fun a b => a ≠ b), List.zipIdx_map_snd]
      exact List.nodup_range'
    exact hnd.imp (fun hne he => hne (C52_attribute_names.2.2 _ _ he))
  · rintro e he hnil
    obtain ⟨i, -, h3⟩ := class_mem.1 he
    rw [h3] at hnil
    cases i with
    | zero => rw [C52_attribute_names.1] at hnil; revert hnil; decide +kernel
    | succ i =>
      rw [C52_attribute_names.2.1] at hnil
      have := (List.append_eq_nil_iff.1 hnil).1
      revert this
      decide +kernel
  · intro e he
    obtain ⟨i, h3, h4⟩ := class_mem.1 he
    have hi : i < vals.length := (List.getElem?_eq_some_iff.1 h3).1
    refine ⟨?_, by have := h2 _ (List.mem_of_getElem? h3); omega⟩
    rw [h4]
    have hc : (lit "class").length = 5 := by decide +kernel
    cases i with
    | zero => rw [C52_attribute_names.1]; omega
    | succ i =>
      rw [C52_attribute_names.2.1, List.length_append, hc]
      have : (decimal (i + 2)).length ≤ 5 := by
        unfold decimal
        rw [List.length_map, Nat.length_toDigits_le_iff (by omega) (by omega)]
        omega
      omega

/-! ### The program -/

section
variable {C ν : Type} {p : Provider.Provider C ν} {k : Nat} {sc : Views.Scope} {all : List (Str × VKind)} {isFloat : Nat → Bool} {meter : Want → Option Nat} {r : Reg Nat}
  {acts : List (Live.Act ν)}

/-- The runtime metric `d` is reported under the name `n`. -/
def Under (all : List (Str × VKind)) (n : Str) (d : Str × VKind) (w : Want) (a : List (Str × Str)) : Prop := d ∈ all ∧ seriesOf d.1 d.2 = some (w, a) ∧ w.name = n

/-- The attribute set of a runtime metric. -/
def setOf (d : Str × VKind) : List KV := match seriesOf d.1 d.2 with | some s => usedSet (textAttrs s.2) | none => []

theorem setOf_eq {d : Str × VKind} {w : Want} {a : List (Str × Str)} (h : seriesOf d.1 d.2 = some (w, a)) : setOf d = usedSet (textAttrs a) := by unfold setOf; rw [h]

theorem Offers.distinct (ho : Offers all) {n : Str} {d d' : Str × VKind} {w w' : Want} {a a' : List (Str × Str)} (h : Under all n d w a) (h' : Under all n d' w' a')
    (he : usedSet (textAttrs a) = usedSet (textAttrs a')) : d.1 = d'.1 := by
  have hs := series_short h.2.1 (ho.short d h.1).1
  have hs' := series_short h'.2.1 (ho.short d' h'.1).1
  have h1 := texts_inj hs hs' he
  obtain ⟨vals, rfl, -⟩ := series_attrs h.2.1
  obtain ⟨vals', rfl, -⟩ := series_attrs h'.2.1
  have hn : w.name = w'.name := by rw [h.2.2, h'.2.2]
  exact C58_distinct _ _ _ _ _ _ _ _ h.2.1 h'.2.1 hn (ho.same d h.1 d' h'.1 _ _ _ _ h.2.1 h'.2.1 hn).1 (by rw [class_perm h1])

theorem Offers.unique (ho : Offers all) {d d' : Str × VKind} (h : d ∈ all) (h' : d' ∈ all) (he : d.1 = d'.1) : d = d' := by
  have key : ∀ {l : List (Str × VKind)}, l.Pairwise (fun d d' => d.1 ≠ d'.1) → ∀ x ∈ l, ∀ y ∈ l, x.1 = y.1 → x = y := by
    intro l hl
    induction l with
    | nil => intro x hx; cases hx
    | cons b l ih =>
      obtain ⟨h1, h2⟩ := List.pairwise_cons.1 hl
      intro x hx y hy he
      rcases List.mem_cons.1 hx with rfl | hx' <;> rcases List.mem_cons.1 hy with rfl | hy'
      · rfl
      · exact absurd he (h1 _ hy')
      · exact absurd he.symm (h1 _ hx')
      · exact ih h2 x hx' y hy' he
  exact key ho.names d h d' h' he

theorem ctor_observed (w : Want) : (promise w.ctor).observed = true := by
  unfold Want.ctor
  obtain ⟨kind, f, n, u, pt⟩ := w
  cases kind <;> cases f <;> rfl

theorem ctor_same {w w' : Want} (h1 : w.kind = w'.kind) (h2 : w.isFloat = w'.isFloat) : w.ctor = w'.ctor := by
  unfold Want.ctor
  rw [h1, h2]

/-- Every runtime metric which is reported has an instrument. -/
theorem Registered.instrument (hr : Registered p k sc all isFloat meter r acts) {n : Str} {d : Str × VKind} {w : Want} {a : List (Str × Str)} (h : Under all n d w a) :
    ∃ id, meter w = some id := by
  obtain ⟨o, h1, h2, -⟩ := register_spec meter all ⟨[], [], []⟩
  rw [hr.done] at h1
  cases h1
  cases hm : meter w with
  | some id => exact ⟨id, rfl⟩
  | none => have := h2.2 ⟨d, h.1, (w, a), h.2.1, hm⟩; cases this

theorem Registered.named (ho : Offers all) (hr : Registered p k sc all isFloat meter r acts) {n : Str} {d : Str × VKind} {w : Want} {a : List (Str × Str)} (h : Under all n d w a) :
    Named (makes acts) p k sc w.ctor n w.unit := by
  refine ⟨?_, fun d' hd' hn => ?_⟩
  · obtain ⟨id, hid⟩ := hr.instrument h
    obtain ⟨m, i, o, h1, h2, h3, -⟩ := (hr.given w id hid).1
    obtain ⟨m', h4, h5⟩ := hr.scope
    rw [h1] at h4
    cases h4
    exact ⟨m, o, h1, h5, List.mem_of_getElem? h2, by rw [h3, h.2.2]⟩
  · obtain ⟨x, hx, w', a', h1, rfl⟩ := hr.asked d' hd'
    have hn' : w.name = w'.name := by rw [h.2.2, ← hn]; rfl
    obtain ⟨h2, h3⟩ := ho.same d h.1 x hx _ _ _ _ h.2.1 h1 hn'
    refine ⟨series_text h1 (ho.short x hx).2, w'.text, ?_⟩
    rw [ctor_same (series_kind h.2.1 h1 hn') h3, h2, ← h.2.2, hn']
    rfl

/-- What the callback observes. -/
theorem Ran.list (hr : Registered p k sc all isFloat meter r acts) {t : Nat} {read : Str → VKind × Bits} (h : Ran p k all isFloat r (rest acts) t read) :
    ((Whole.observations (rest acts)).filter (fun e => open Classical in decide (e.1 = t ∧ ∃ n, Called p k n e.2.1))).map (·.2) =
      (all.filterMap (expectedObs meter (fun s => (read s).2))).map (fun o => (o.1, textAttrs o.2.1, o.2.2)) := by
  obtain ⟨o, h1, -, h3⟩ := C58_observed (ν := Bits) isFloat meter (fun w i hw => (hr.given w i hw).2) all
  rw [hr.done] at h1
  cases h1
  obtain ⟨l, h4, h5⟩ := h.observed
  rw [h3 r rfl read h.kinds] at h4
  cases h4
  exact h5

theorem expected_some {value : Str → Bits} {d : Str × VKind} {o : Nat × List (Str × Str) × Bits} :
    expectedObs meter value d = some o ↔ ∃ w, seriesOf d.1 d.2 = some (w, o.2.1) ∧ meter w = some o.1 ∧ o.2.2 = value d.1 := by
  unfold expectedObs
  rw [Option.bind_eq_some_iff]
  constructor
  · rintro ⟨⟨w, a⟩, h1, h2⟩
    obtain ⟨i, h3, rfl⟩ := Option.map_eq_some_iff.1 h2
    exact ⟨w, h1, h3, rfl⟩
  · rintro ⟨w, h1, h2, h3⟩
    refine ⟨_, h1, ?_⟩
    rw [h2, ← h3]
    rfl

/-- The observations of one name. -/
theorem Ran.once (ho : Offers all) (hr : Registered p k sc all isFloat meter r acts) {n : Str} {t : Nat} {read : Str → VKind × Bits} (h : Ran p k all isFloat r (rest acts) t read) (c : Ctor) :
    Once (observedOn p k c n (rest acts)) (Called p k n) t (fun d => ∃ w a, Under all n d w a ∧ Accepts c (read d.1).2) setOf (fun d => (read d.1).2) := by
  classical
  have hl := h.list hr
  refine ⟨?_, ?_, ?_, ?_, ?_⟩
  · rintro e he rfl hc
    unfold observedOn at he
    obtain ⟨x, hx, rfl⟩ := List.mem_map.1 he
    obtain ⟨hx, hq⟩ := List.mem_filter.1 hx
    rw [decide_eq_true_iff] at hq
    have h1 : x.2 ∈ ((Whole.observations (rest acts)).filter (fun e => open Classical in decide (e.1 = x.1 ∧ ∃ n, Called p k n e.2.1))).map (·.2) :=
      List.mem_map.2 ⟨x, List.mem_filter.2 ⟨hx, by rw [decide_eq_true_iff]; exact ⟨rfl, n, hq.1⟩⟩, rfl⟩
    rw [hl] at h1
    obtain ⟨o, h2, h3⟩ := List.mem_map.1 h1
    obtain ⟨d, hd, h4⟩ := List.mem_filterMap.1 h2
    obtain ⟨w, h5, h6, h7⟩ := expected_some.1 h4
    have hid := (hr.given w _ h6).1
    rw [← h3] at hq ⊢
    have hn := called_unique hid hq.1
    refine ⟨d, ⟨w, _, ⟨hd, h5, hn⟩, by rw [← h7]; exact hq.2⟩, ?_⟩
    rw [setOf_eq h5, ← h7]
  · rintro d ⟨w, a, hu, hacc⟩
    obtain ⟨id, hid⟩ := hr.instrument hu
    have hc := (hr.given w id hid).1
    rw [hu.2.2] at hc
    refine ⟨id, hc, ?_⟩
    have h1 : (id, textAttrs a, (read d.1).2) ∈ (all.filterMap (expectedObs meter (fun s => (read s).2))).map (fun o => (o.1, textAttrs o.2.1, o.2.2)) :=
      List.mem_map.2 ⟨(id, a, (read d.1).2), List.mem_filterMap.2 ⟨d, hu.1, expected_some.2 ⟨w, hu.2.1, hid, rfl⟩⟩, rfl⟩
    rw [← hl] at h1
    obtain ⟨x, h2, h3⟩ := List.mem_map.1 h1
    obtain ⟨h2, h4⟩ := List.mem_filter.1 h2
    rw [decide_eq_true_iff] at h4
    unfold observedOn
    refine List.mem_map.2 ⟨x, List.mem_filter.2 ⟨h2, ?_⟩, ?_⟩
    · rw [decide_eq_true_iff, h3]
      exact ⟨hc, hacc⟩
    · rw [h3, h4.1, setOf_eq hu.2.1]
  · have h1 : (((Whole.observations (rest acts)).filter (fun e => open Classical in decide (e.1 = t ∧ ∃ n, Called p k n e.2.1))).map (·.2)).Pairwise
        (fun x y => Called p k n x.1 → Called p k n y.1 → usedSet x.2.1 ≠ usedSet y.2.1) := by
      rw [hl, List.pairwise_map, List.pairwise_filterMap]
      refine ho.names.imp_of_mem (fun {d d'} hd hd' hne o ho1 o' ho2 hc hc' he => ?_)
      obtain ⟨w, h5, h6, -⟩ := expected_some.1 ho1
      obtain ⟨w', h5', h6', -⟩ := expected_some.1 ho2
      exact hne (ho.distinct ⟨hd, h5, called_unique (hr.given w _ h6).1 hc⟩ ⟨hd', h5', called_unique (hr.given w' _ h6').1 hc'⟩ he)
    rw [List.pairwise_map, List.pairwise_filter] at h1
    unfold observedOn
    rw [List.pairwise_filter, List.pairwise_map, List.pairwise_filter]
    refine h1.imp (fun {x y} hxy hx hy htx hty => ?_)
    rw [decide_eq_true_iff] at hx hy
    rw [decide_eq_true_eq] at htx hty
    exact hxy (by rw [decide_eq_true_iff]; exact ⟨htx, n, hx.1⟩) (by rw [decide_eq_true_iff]; exact ⟨hty, n, hy.1⟩) hx.1 hy.1
  · rintro d d' ⟨w, a, hu, -⟩ ⟨w', a', hu', -⟩ he
    rw [setOf_eq hu.2.1, setOf_eq hu'.2.1] at he
    exact ho.unique hu.1 hu'.1 (ho.distinct hu hu' he)
  · rintro d ⟨w, a, hu, -⟩
    rw [setOf_eq hu.2.1]
    exact (series_short hu.2.1 (ho.short d hu.1).1).named'

/-- They fit. -/
theorem Ran.few (ho : Offers all) (hr : Registered p k sc all isFloat meter r acts) {n : Str} {t : Nat} {read : Str → VKind × Bits} (h : Ran p k all isFloat r (rest acts) t read) (c : Ctor) :
    FewSets (Called p k n) none 2000 (observedOn p k c n (rest acts)) t := by
  have hon := Ran.once ho hr (n := n) h c
  refine ⟨all.map setOf, by rw [List.length_map]; exact ho.few, fun e he h1 h2 => ?_⟩
  obtain ⟨d, hd, h3⟩ := hon.only e he h1 h2
  rw [h3, shown_all (hon.keys d hd)]
  obtain ⟨w, a, hu, -⟩ := hd
  exact List.mem_map.2 ⟨d, hu.1, rfl⟩

end

end Verif.Runtime
