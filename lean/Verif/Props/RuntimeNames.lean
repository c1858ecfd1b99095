import Verif.Model.RuntimeNames

/-!
C52, C58: Go runtime metric names.
-/

namespace Verif.Runtime
open Verif.Attr Verif.Views Verif.Launcher

/-! ### Text lemmas -/

theorem cutByte_append (sep : UInt8) (s t : Str) (h : sep ∉ s) : cutByte sep (s ++ sep :: t) = (s, t) := by
  induction s with
  | nil => rw [List.nil_append, cutByte, if_pos rfl]
  | cons b l ih =>
    rw [List.cons_append, cutByte, if_neg (fun e => h (by simp [e]))]
    rw [ih (fun hm => h (List.mem_cons_of_mem _ hm))]

theorem cutByte_absent (sep : UInt8) (s : Str) (h : sep ∉ s) : cutByte sep s = (s, []) := by
  induction s with
  | nil => rfl
  | cons b l ih =>
    rw [cutByte, if_neg (fun e => h (by simp [e]))]
    rw [ih (fun hm => h (List.mem_cons_of_mem _ hm))]

/-- The three bytes `/*:`. -/
theorem wild_lit : lit "/*:" = [47, 42, 58] := by decide +kernel

theorem cut_wild (p s : Str) (h : (42 : UInt8) ∉ p) : cut (lit "/*:") (p ++ 47 :: 42 :: 58 :: s) = (p, s) := by
  rw [wild_lit]
  induction p with
  | nil => rw [List.nil_append, cut, if_pos (by simp [List.isPrefixOf])]; rfl
  | cons b l ih =>
    have hl : (42 : UInt8) ∉ l := fun hm => h (List.mem_cons_of_mem _ hm)
    rw [List.cons_append, cut, if_neg, ih hl]
    cases l with
    | nil => simp [List.isPrefixOf]
    | cons x xs =>
      have : (42 : UInt8) ≠ x := fun e => hl (by simp [e])
      simp [List.isPrefixOf, this]

theorem splitByte_ne (sep : UInt8) (s : Str) : splitByte sep s ≠ [] := by
  cases s with
  | nil => simp [splitByte]
  | cons b l =>
    rw [splitByte]
    split
    · simp
    · split <;> simp

/-- Texts joined by a byte. -/
def joinByte (sep : UInt8) : List Str → Str
  | [] => []
  | [x] => x
  | x :: y :: rest => x ++ sep :: joinByte sep (y :: rest)

theorem joinByte_cons (sep : UInt8) (x : Str) (l : List Str) (h : l ≠ []) : joinByte sep (x :: l) = x ++ sep :: joinByte sep l := by
  cases l with
  | nil => exact absurd rfl h
  | cons y l => rfl

theorem join_split (sep : UInt8) (s : Str) : joinByte sep (splitByte sep s) = s := by
  induction s with
  | nil => rfl
  | cons b l ih =>
    rw [splitByte]
    by_cases h : b = sep
    · rw [if_pos h, joinByte_cons _ _ _ (splitByte_ne _ _), ih, h]; rfl
    · rw [if_neg h]
      cases hs : splitByte sep l with
      | nil => exact absurd hs (splitByte_ne _ _)
      | cons x xs =>
        rw [hs] at ih
        dsimp only
        cases xs with
        | nil => rw [← ih]; rfl
        | cons y ys => rw [← ih]; rfl

theorem split_clean (sep : UInt8) (s : Str) : ∀ x ∈ splitByte sep s, sep ∉ x := by
  induction s with
  | nil => simp [splitByte]
  | cons b l ih =>
    rw [splitByte]
    by_cases h : b = sep
    · rw [if_pos h]
      intro x hx
      rcases List.mem_cons.1 hx with rfl | hx
      · simp
      · exact ih x hx
    · rw [if_neg h]
      cases hs : splitByte sep l with
      | nil => exact absurd hs (splitByte_ne _ _)
      | cons y ys =>
        rw [hs] at ih
        intro x hx
        rcases List.mem_cons.1 hx with rfl | hx
        · intro hm
          rcases List.mem_cons.1 hm with e | hm
          · exact h e.symm
          · exact ih y (by simp) hm
        · exact ih x (List.mem_cons_of_mem _ hx)

/-! ### Patterns -/

/-- The three forms of pattern in the table: a full name; a name whose unit is a wildcard; a name with a wildcard for classes. -/
inductive Form : Str → Prop
  | full (p : Str) : (42 : UInt8) ∉ p → Form p
  | unit (p : Str) : (42 : UInt8) ∉ p → Form (p ++ [58, 42])
  | classes (p s : Str) : (42 : UInt8) ∉ p → (42 : UInt8) ∉ s → s ≠ [] → Form (p ++ 47 :: 42 :: 58 :: s)

/-- What it means for a name to have the form of a pattern: `middle` takes the place of the wildcard. Full names also stand for every longer
name they begin (this is what the code does, see `C52_longer_name_fails`). -/
def Fits (pat name middle : Str) : Prop :=
  ((42 : UInt8) ∉ pat ∧ name = pat ++ middle) ∨
  (∃ p, pat = p ++ [58, 42] ∧ name = p ++ 58 :: middle) ∨
  (∃ p s, pat = p ++ 47 :: 42 :: 58 :: s ∧ name = p ++ 47 :: (middle ++ 58 :: s))

theorem wilds_zero {s : Str} : wilds s = 0 ↔ (42 : UInt8) ∉ s := by
  unfold wilds; rw [List.count_eq_zero]

theorem matches_fits {pat name : Str} (hf : Form pat) (h : matchesPat pat name = true) : ∃ middle, Fits pat name middle ∧
    ((42 : UInt8) ∈ pat → 2 ≤ middle.length) := by
  unfold matchesPat at h
  simp only [Bool.or_eq_true, Bool.and_eq_true, beq_iff_eq, decide_eq_true_eq, List.isPrefixOf_iff_prefix, List.isSuffixOf_iff_suffix] at h
  cases hf with
  | full p hp =>
    rcases h with ⟨-, rfl⟩ | ⟨⟨-, h1⟩, -⟩
    · exact ⟨[], Or.inl ⟨hp, by simp⟩, fun h => absurd h hp⟩
    · rw [cutByte_absent _ _ hp] at h1
      obtain ⟨m, hm⟩ := h1
      exact ⟨m, Or.inl ⟨hp, hm.symm⟩, fun h => absurd h hp⟩
  | unit p hp =>
    rcases h with ⟨h, -⟩ | ⟨⟨h0, h1⟩, -⟩
    · rw [wilds_zero] at h; exact absurd (by simp) h
    · have hp' : (42 : UInt8) ∉ p ++ [58] := by simp [hp]
      rw [show p ++ [58, 42] = (p ++ [58]) ++ 42 :: [] by simp, cutByte_append _ _ _ hp'] at h1
      obtain ⟨m, hm⟩ := h1
      refine ⟨m, Or.inr (Or.inl ⟨p, rfl, by rw [← hm]; simp⟩), fun _ => ?_⟩
      rw [← hm] at h0
      simp only [List.length_append, List.length_cons, List.length_nil] at h0
      omega
  | classes p s hp hs hs0 =>
    rcases h with ⟨h, -⟩ | ⟨⟨h0, h1⟩, h2⟩
    · rw [wilds_zero] at h; exact absurd (by simp) h
    · have hp' : (42 : UInt8) ∉ p ++ [47] := by simp [hp]
      rw [show p ++ 47 :: 42 :: 58 :: s = (p ++ [47]) ++ 42 :: (58 :: s) by simp, cutByte_append _ _ _ hp'] at h1 h2
      obtain ⟨m, hm⟩ := h1
      obtain ⟨m', hm'⟩ := h2
      dsimp only at hm hm'
      have hlen : (58 :: s).length + 2 ≤ m.length := by
        have := congrArg List.length hm
        simp only [List.length_append, List.length_cons, List.length_nil] at this h0 ⊢
        omega
      -- the suffix lies inside what follows the prefix
      have : ∃ mid, m = mid ++ 58 :: s := by
        obtain ⟨mid, hmid⟩ := List.suffix_of_suffix_length_le (⟨m', hm'⟩ : (58 :: s) <:+ name) (⟨p ++ [47], hm⟩ : m <:+ name) (by omega)
        exact ⟨mid, hmid.symm⟩
      obtain ⟨mid, rfl⟩ := this
      refine ⟨mid, Or.inr (Or.inr ⟨p, s, rfl, by rw [← hm]; simp⟩), fun _ => ?_⟩
      simp only [List.length_append, List.length_cons] at hlen
      omega

/-! ### Families -/

theorem familyLoop_spec (name : Str) (fams : List Family) (n : Nat) (fam : Option Family)
    (h1 : n = 0 ∨ ∃ f, fam = some f ∧ matchesPat f.pattern name = true ∧ Form f.pattern)
    (hf : ∀ f ∈ fams, Form f.pattern ∧ wilds f.pattern ≤ 1) :
    ∃ n' fam', familyLoop name fams (n, fam) = .ok (n', fam') ∧
      n' = n + (fams.filter (fun f => matchesPat f.pattern name)).length ∧
      (n' = 0 ∨ ∃ f, fam' = some f ∧ (fam = some f ∨ f ∈ fams) ∧ matchesPat f.pattern name = true ∧ Form f.pattern) := by
  induction fams generalizing n fam with
  | nil =>
    refine ⟨n, fam, rfl, by simp, ?_⟩
    rcases h1 with h | ⟨f, h, h2, h3⟩
    · exact Or.inl h
    · exact Or.inr ⟨f, h, Or.inl h, h2, h3⟩
  | cons f rest ih =>
    have hw := hf f (by simp)
    have hr : ∀ g ∈ rest, Form g.pattern ∧ wilds g.pattern ≤ 1 := fun g hg => hf g (List.mem_cons_of_mem _ hg)
    rw [familyLoop, if_neg (by omega)]
    by_cases hm : matchesPat f.pattern name = true
    · rw [if_pos hm]
      obtain ⟨n', fam', e1, e2, e3⟩ := ih (n + 1) (some f) (Or.inr ⟨f, rfl, hm, hw.1⟩) hr
      refine ⟨n', fam', e1, by rw [e2, List.filter_cons, if_pos hm]; simp; omega, ?_⟩
      rcases e3 with e3 | ⟨g, g1, g2, g3, g4⟩
      · exact Or.inl e3
      · refine Or.inr ⟨g, g1, Or.inr ?_, g3, g4⟩
        rcases g2 with g2 | g2
        · cases g2; simp
        · exact List.mem_cons_of_mem _ g2
    · rw [if_neg hm]
      obtain ⟨n', fam', e1, e2, e3⟩ := ih n fam h1 hr
      refine ⟨n', fam', e1, by rw [e2, List.filter_cons, if_neg hm], ?_⟩
      rcases e3 with e3 | ⟨g, g1, g2, g3, g4⟩
      · exact Or.inl e3
      · exact Or.inr ⟨g, g1, g2.imp_right (List.mem_cons_of_mem _), g3, g4⟩

/-- The table has well-formed patterns. -/
structure TableOk (fams : List Family) : Prop where
  form : ∀ f ∈ fams, Form f.pattern

theorem form_wilds {p : Str} (h : Form p) : wilds p ≤ 1 := by
  unfold wilds
  cases h with
  | full p hp => rw [List.count_eq_zero.2 hp]; omega
  | unit p hp => rw [List.count_append, List.count_eq_zero.2 hp]; decide
  | classes p s hp hs hs0 =>
    rw [List.count_append, List.count_eq_zero.2 hp, List.count_cons, List.count_cons, List.count_cons, List.count_eq_zero.2 hs]; decide

theorem findFamily_spec (fams : List Family) (h : TableOk fams) (name : Str) :
    ∃ r, findFamily fams name = some r ∧
      (match r with
        | .ok f => f ∈ fams ∧ matchesPat f.pattern name = true ∧ (fams.filter (fun f => matchesPat f.pattern name)).length = 1
        | .error .wildcards => False
        | .error .unmatched => ∀ f ∈ fams, matchesPat f.pattern name = false
        | .error .overmatched => 1 < (fams.filter (fun f => matchesPat f.pattern name)).length) := by
  obtain ⟨n, fam, e1, e2, e3⟩ := familyLoop_spec name fams 0 none (Or.inl rfl) (fun f hf => ⟨h.form f hf, form_wilds (h.form f hf)⟩)
  unfold findFamily
  rw [e1]
  dsimp only
  by_cases h0 : n = 0
  · rw [if_pos h0]
    refine ⟨_, rfl, ?_⟩
    dsimp only
    rw [h0] at e2
    have : fams.filter (fun f => matchesPat f.pattern name) = [] := List.length_eq_zero_iff.1 (by omega)
    intro f hf
    simpa using List.filter_eq_nil_iff.1 this f hf
  · rw [if_neg h0]
    by_cases h1 : n > 1
    · rw [if_pos h1]
      refine ⟨_, rfl, ?_⟩
      dsimp only
      omega
    · rw [if_neg h1]
      rcases e3 with e3 | ⟨f, g1, g2, g3, g4⟩
      · exact absurd e3 h0
      · rw [g1]
        refine ⟨_, rfl, ?_⟩
        dsimp only
        refine ⟨?_, g3, by omega⟩
        rcases g2 with g2 | g2
        · cases g2
        · exact g2

/-- The pieces found by `findMatch` for a class pattern. -/
theorem classMatch_spec (f : Family) (p s middle : Str) (hp : (42 : UInt8) ∉ p) (hf : f.pattern = p ++ 47 :: 42 :: 58 :: s) :
    ∃ m, classMatch f (p ++ 47 :: (middle ++ 58 :: s)) = some m ∧
      ((splitByte 47 middle).getLast? = some (lit "total") ∧ m.kind = .skip ∨
       (splitByte 47 middle).getLast? ≠ some (lit "total") ∧ m = finish (toOTelName p) s f.pattern (classAttrs (splitByte 47 middle)) f.kind) := by
  unfold classMatch
  rw [hf, cut_wild p s hp]
  dsimp only
  have e1 : slice (p ++ 47 :: (middle ++ 58 :: s)) (p.length : Int) ((p ++ 47 :: (middle ++ 58 :: s)).length : Int) = some (47 :: (middle ++ 58 :: s)) := by
    unfold slice
    rw [if_pos ⟨by omega, by simp only [List.length_append, List.length_cons]; omega, by omega⟩]
    rw [Int.toNat_natCast, Int.toNat_natCast, List.drop_left]
    exact congrArg some (List.take_of_length_le (by simp only [List.length_append, List.length_cons]; omega))
  rw [e1, Option.bind_some]
  have e2 : slice (47 :: (middle ++ 58 :: s)) 1 ((47 :: (middle ++ 58 :: s)).length - s.length - 1) = some middle := by
    unfold slice
    have hl : ((47 :: (middle ++ 58 :: s)).length : Int) = middle.length + s.length + 2 := by
      simp only [List.length_append, List.length_cons]; omega
    rw [hl]
    rw [if_pos ⟨by omega, by omega, by omega⟩]
    have : ((middle.length : Int) + s.length + 2 - s.length - 1).toNat - (1 : Int).toNat = middle.length := by omega
    rw [this]
    simp
  rw [e2]
  refine ⟨_, rfl, ?_⟩
  by_cases ht : (splitByte 47 middle).getLast? = some (lit "total")
  · exact Or.inl ⟨ht, by dsimp only; rw [if_pos ht]⟩
  · refine Or.inr ⟨ht, ?_⟩
    dsimp only
    rw [if_neg ht]

theorem suffix_unit (p : Str) : (lit ":*").isSuffixOf (p ++ [58, 42]) = true := by
  rw [List.isSuffixOf_iff_suffix]
  exact ⟨p, by rw [show lit ":*" = [58, 42] by decide +kernel]⟩

theorem not_suffix_classes (p s : Str) (hs : (42 : UInt8) ∉ s) (hs0 : s ≠ []) : (lit ":*").isSuffixOf (p ++ 47 :: 42 :: 58 :: s) = false := by
  rw [Bool.eq_false_iff]
  intro h
  rw [List.isSuffixOf_iff_suffix, show lit ":*" = [58, 42] by decide +kernel] at h
  have h1 : [(42 : UInt8)] <:+ p ++ 47 :: 42 :: 58 :: s := List.IsSuffix.trans ⟨[58], rfl⟩ h
  have h2 : s <:+ p ++ 47 :: 42 :: 58 :: s := ⟨p ++ [47, 42, 58], by simp⟩
  have h3 := List.suffix_of_suffix_length_le h1 h2 (by cases s with
    | nil => exact absurd rfl hs0
    | cons b l => simp)
  exact hs (h3.subset (by simp))

/-- What is reported for a name, given the family it belongs to. -/
inductive Reported (f : Family) (name : Str) (m : Match) : Prop
  /-- The family is one name. -/
  | full (rest : Str) : name = f.pattern ++ rest → (42 : UInt8) ∉ f.pattern → m = plainMatch f name → Reported f name m
  /-- The family is `prefix:*`. -/
  | unit (p middle : Str) : (42 : UInt8) ∉ p → f.pattern = p ++ [58, 42] → name = p ++ 58 :: middle → m = objectMatch name → Reported f name m
  /-- The family is `prefix/*:suffix`. -/
  | classes (p s middle : Str) : (42 : UInt8) ∉ p → (42 : UInt8) ∉ s → s ≠ [] → f.pattern = p ++ 47 :: 42 :: 58 :: s → name = p ++ 47 :: (middle ++ 58 :: s) →
      ((splitByte 47 middle).getLast? = some (lit "total") ∧ m.kind = .skip ∨
       (splitByte 47 middle).getLast? ≠ some (lit "total") ∧ m = finish (toOTelName p) s f.pattern (classAttrs (splitByte 47 middle)) f.kind) →
      Reported f name m

theorem useFamily_spec (f : Family) (name : Str) (hf : Form f.pattern) (hm : matchesPat f.pattern name = true) :
    ∃ m, useFamily f name = some m ∧ Reported f name m := by
  obtain ⟨pat, kind⟩ := f
  dsimp only at hf hm
  unfold useFamily
  dsimp only
  obtain ⟨middle, hfit, -⟩ := matches_fits hf hm
  cases hf with
  | full p hp =>
    rw [if_pos (wilds_zero.2 hp)]
    rcases hfit with ⟨-, h⟩ | ⟨p', h, -⟩ | ⟨p', s', h, -⟩
    · exact ⟨_, rfl, .full middle h hp rfl⟩
    · rw [h] at hp; simp at hp
    · rw [h] at hp; simp at hp
  | unit p hp =>
    rw [if_neg (by rw [wilds_zero]; simp), if_pos (suffix_unit p)]
    rcases hfit with ⟨h, -⟩ | ⟨p', h, h'⟩ | ⟨p', s', h, -⟩
    · simp at h
    · have : p = p' := List.append_cancel_right h
      subst this
      exact ⟨_, rfl, .unit p middle hp rfl h' rfl⟩
    · exfalso
      have e : (p ++ [58]) ++ 42 :: [] = (p' ++ [47]) ++ 42 :: (58 :: s') := by simpa using h
      have hp2 : (42 : UInt8) ∉ p' := by
        intro hx
        have := congrArg (List.count 42) h
        have hx' := List.count_pos_iff.2 hx
        rw [List.count_append, List.count_append, List.count_eq_zero.2 hp, List.count_cons, List.count_cons] at this
        simp at this
        omega
      have c1 := cutByte_append 42 (p ++ [58]) [] (by simp [hp])
      have c2 := cutByte_append 42 (p' ++ [47]) (58 :: s') (by simp [hp2])
      rw [e, c2] at c1
      cases congrArg Prod.snd c1
  | classes p s hp hs hs0 =>
    rw [if_neg (by rw [wilds_zero]; simp), if_neg (by rw [not_suffix_classes p s hs hs0]; simp)]
    have hfit' : ∃ middle, name = p ++ 47 :: (middle ++ 58 :: s) := by
      rcases hfit with ⟨h, -⟩ | ⟨p', h, -⟩ | ⟨p', s', h, h'⟩
      · simp at h
      · exfalso
        have := not_suffix_classes p s hs hs0
        rw [h, suffix_unit] at this
        cases this
      · have hp2 : (42 : UInt8) ∉ p' := by
          intro hx
          have := congrArg (List.count 42) h
          have hx' := List.count_pos_iff.2 hx
          rw [List.count_append, List.count_append, List.count_eq_zero.2 hp, List.count_cons, List.count_cons, List.count_cons,
            List.count_cons, List.count_cons, List.count_cons, List.count_eq_zero.2 hs] at this
          simp at this
          omega
        have c1 := cut_wild p s hp
        have c2 := cut_wild p' s' hp2
        rw [h, c2] at c1
        cases c1
        exact ⟨middle, h'⟩
    obtain ⟨middle, h'⟩ := hfit'
    obtain ⟨m, e1, e2⟩ := classMatch_spec ⟨p ++ 47 :: 42 :: 58 :: s, kind⟩ p s middle hp rfl
    rw [← h'] at e1
    exact ⟨m, e1, .classes p s middle hp hs hs0 rfl h' e2⟩

theorem findMatch_spec (fams : List Family) (h : TableOk fams) (name : Str) :
    ∃ r, findMatch fams name = some r ∧
      (match r with
        | .ok m => ∃ f ∈ fams, matchesPat f.pattern name = true ∧ Reported f name m
        | .error .wildcards => False
        | .error .unmatched => ∀ f ∈ fams, matchesPat f.pattern name = false
        | .error .overmatched => 1 < (fams.filter (fun f => matchesPat f.pattern name)).length) := by
  obtain ⟨r, e1, e2⟩ := findFamily_spec fams h name
  unfold findMatch
  rw [e1]
  cases r with
  | error e => exact ⟨_, rfl, by cases e <;> exact e2⟩
  | ok f =>
    obtain ⟨hf, hm, -⟩ := e2
    obtain ⟨m, u1, u2⟩ := useFamily_spec f name (h.form f hf) hm
    exact ⟨.ok m, by dsimp only; rw [u1]; rfl, f, hf, hm, u2⟩

/-- A decidable form of `Form`. -/
def FormOk (p : Str) : Prop :=
  (42 : UInt8) ∉ p ∨ (p = p.take (p.length - 2) ++ [58, 42] ∧ (42 : UInt8) ∉ p.take (p.length - 2)) ∨
  (p = (cut (lit "/*:") p).1 ++ 47 :: 42 :: 58 :: (cut (lit "/*:") p).2 ∧ (42 : UInt8) ∉ (cut (lit "/*:") p).1 ∧
    (42 : UInt8) ∉ (cut (lit "/*:") p).2 ∧ (cut (lit "/*:") p).2 ≠ [])

instance (p : Str) : Decidable (FormOk p) := by unfold FormOk; infer_instance

theorem FormOk.form {p : Str} (h : FormOk p) : Form p := by
  rcases h with h | ⟨h, h1⟩ | ⟨h, h1, h2, h3⟩
  · exact .full p h
  · rw [h]; exact .unit _ h1
  · rw [h]; exact .classes _ _ h1 h2 h3

/-- The built-in table is well formed. -/
theorem table_ok : TableOk table := ⟨fun f hf => FormOk.form ((by decide +kernel : ∀ f ∈ table, FormOk f.pattern) f hf)⟩

/-- C52. Matching any text against the built-in table does not panic: it gives a match or an error. -/
theorem C52_total (name : Str) : findMatch table name ≠ none := by
  obtain ⟨r, e, -⟩ := findMatch_spec table table_ok name
  rw [e]; intro h; cases h

/-- The text of a pattern before its wildcard. -/
def stem (p : Str) : Str := (cutByte 42 p).1

theorem matches_stem {p name : Str} (h : matchesPat p name = true) : stem p <+: name := by
  unfold matchesPat at h
  simp only [Bool.or_eq_true, Bool.and_eq_true, beq_iff_eq, decide_eq_true_eq, List.isPrefixOf_iff_prefix, List.isSuffixOf_iff_suffix] at h
  rcases h with ⟨h1, h2⟩ | ⟨⟨-, h⟩, -⟩
  · unfold stem
    rw [cutByte_absent _ _ (wilds_zero.1 h1), h2]
    exact List.prefix_refl _
  · exact h

theorem prefixes_comparable {a b c : Str} (h1 : a <+: c) (h2 : b <+: c) : a <+: b ∨ b <+: a :=
  List.prefix_or_prefix_of_prefix h1 h2

/-- No two families have names in common. -/
theorem table_apart : table.Pairwise (fun f g => ¬ (stem f.pattern <+: stem g.pattern) ∧ ¬ (stem g.pattern <+: stem f.pattern)) := by
  decide +kernel

theorem filter_apart (name : Str) : ∀ l : List Family,
    l.Pairwise (fun f g => ¬ (stem f.pattern <+: stem g.pattern) ∧ ¬ (stem g.pattern <+: stem f.pattern)) →
    (l.filter (fun f => matchesPat f.pattern name)).length ≤ 1
  | [], _ => by simp
  | f :: l, h => by
    rw [List.pairwise_cons] at h
    rw [List.filter_cons]
    by_cases hm : matchesPat f.pattern name = true
    · rw [if_pos hm]
      have : l.filter (fun f => matchesPat f.pattern name) = [] := by
        rw [List.filter_eq_nil_iff]
        intro g hg hmg
        rcases prefixes_comparable (matches_stem hm) (matches_stem hmg) with h' | h'
        · exact (h.1 g hg).1 h'
        · exact (h.1 g hg).2 h'
      rw [this]; simp
    · rw [if_neg hm]; exact filter_apart name l h.2

/-- C52. No text belongs to two families of the built-in table, and matching fails only because there is no family. -/
theorem C52_unambiguous (name : Str) :
    (∃ m, findMatch table name = some (.ok m)) ∨ findMatch table name = some (.error .unmatched) := by
  obtain ⟨r, e, h⟩ := findMatch_spec table table_ok name
  cases r with
  | ok m => exact Or.inl ⟨m, e⟩
  | error er =>
    cases er with
    | wildcards => exact h.elim
    | unmatched => exact Or.inr e
    | overmatched =>
      have := filter_apart name table table_apart
      dsimp only at h
      omega

theorem fits_matches {pat name middle : Str} (hf : Form pat) (h : Fits pat name middle) (h0 : (42 : UInt8) ∉ pat → middle = [])
    (h2 : (42 : UInt8) ∈ pat → 2 ≤ middle.length) : matchesPat pat name = true := by
  unfold matchesPat
  simp only [Bool.or_eq_true, Bool.and_eq_true, beq_iff_eq, decide_eq_true_eq, List.isPrefixOf_iff_prefix, List.isSuffixOf_iff_suffix]
  have hcount := form_wilds hf
  rcases h with ⟨hp, h⟩ | ⟨p, rfl, rfl⟩ | ⟨p, s, rfl, rfl⟩
  · exact Or.inl ⟨wilds_zero.2 hp, by rw [h, h0 hp, List.append_nil]⟩
  · have hm := h2 (by simp)
    have hp : (42 : UInt8) ∉ p := by
      intro hx
      have := List.count_pos_iff.2 hx
      unfold wilds at hcount
      rw [List.count_append] at hcount
      simp at hcount
      omega
    right
    rw [show p ++ [58, 42] = (p ++ [58]) ++ 42 :: [] by simp, cutByte_append _ _ _ (by simp [hp])]
    exact ⟨⟨by simp only [List.length_append, List.length_cons, List.length_nil]; omega, ⟨middle, by simp⟩⟩, List.nil_suffix⟩
  · have hm := h2 (by simp)
    have hp : (42 : UInt8) ∉ p := by
      intro hx
      have := List.count_pos_iff.2 hx
      unfold wilds at hcount
      rw [List.count_append] at hcount
      simp at hcount
      omega
    right
    rw [show p ++ 47 :: 42 :: 58 :: s = (p ++ [47]) ++ 42 :: (58 :: s) by simp, cutByte_append _ _ _ (by simp [hp])]
    exact ⟨⟨by simp only [List.length_append, List.length_cons, List.length_nil]; omega, ⟨middle ++ 58 :: s, by simp⟩⟩,
      ⟨p ++ 47 :: middle, by simp⟩⟩

/-- C52. Every text of the form of a family in the built-in table, with at least two bytes for the wildcard, is matched. -/
theorem C52_complete (f : Family) (hf : f ∈ table) (name middle : Str) (h : Fits f.pattern name middle)
    (h0 : (42 : UInt8) ∉ f.pattern → middle = []) (h2 : (42 : UInt8) ∈ f.pattern → 2 ≤ middle.length) :
    ∃ m, findMatch table name = some (.ok m) := by
  rcases C52_unambiguous name with h' | h'
  · exact h'
  · exfalso
    obtain ⟨r, e, hr⟩ := findMatch_spec table table_ok name
    rw [h'] at e
    cases e
    have := hr f hf
    rw [fits_matches (table_ok.form f hf) h h0 h2] at this
    cases this

/-- C52 (part). When a text is matched, the parts reassemble it: a family of one name (see `C52_longer_name_fails` for `rest`), a family with a
wildcard for the unit, or a family with a wildcard for classes, where the attributes are exactly the parts between slashes, in order. -/
theorem C52_reassemble_partial (name : Str) (m : Match) (h : findMatch table name = some (.ok m)) : ∃ f ∈ table,
    (∃ rest, name = f.pattern ++ rest ∧ m.attrs = [] ∧ m.kind = f.kind) ∨
    (∃ p unit, f.pattern = p ++ lit ":*" ∧ name = p ++ lit ":" ++ unit ∧ m.attrs = [] ∧ m.kind = .counter) ∨
    (∃ p s vals, f.pattern = p ++ lit "/*:" ++ s ∧ name = p ++ lit "/" ++ joinByte 47 vals ++ lit ":" ++ s ∧ (∀ v ∈ vals, (47 : UInt8) ∉ v) ∧
      (vals.getLast? = some (lit "total") ∧ m.kind = .skip ∨
        vals.getLast? ≠ some (lit "total") ∧ m.kind = f.kind ∧ m.attrs.length = vals.length ∧
          ∀ i v, vals[i]? = some v → m.attrs[i]? = some (attributeName i, v))) := by
  obtain ⟨r, e, hr⟩ := findMatch_spec table table_ok name
  rw [h] at e
  cases e
  obtain ⟨f, hf, -, hrep⟩ := hr
  refine ⟨f, hf, ?_⟩
  cases hrep with
  | full rest h1 h2 h3 => exact Or.inl ⟨rest, h1, by rw [h3]; rfl, by rw [h3]; rfl⟩
  | unit p middle hp h1 h2 h3 =>
    refine Or.inr (Or.inl ⟨p, middle, by rw [h1, show lit ":*" = [58, 42] by decide +kernel], by rw [h2, show lit ":" = [58] by decide +kernel]; simp, ?_, ?_⟩)
    · rw [h3]; by_cases hc : (toOTelNameAndStatedUnit name).2 = lit "objects" <;> simp [objectMatch, hc, finish]
    · rw [h3]; by_cases hc : (toOTelNameAndStatedUnit name).2 = lit "objects" <;> simp [objectMatch, hc, finish]
  | classes p s middle hp hs0 hs1 h1 h2 h3 =>
    refine Or.inr (Or.inr ⟨p, s, splitByte 47 middle, by rw [h1, wild_lit]; simp, ?_, split_clean _ _, ?_⟩)
    · rw [h2, join_split, show lit ":" = [58] by decide +kernel, show lit "/" = [47] by decide +kernel]; simp
    · rcases h3 with h3 | ⟨h3, h4⟩
      · exact Or.inl h3
      · refine Or.inr ⟨h3, by rw [h4]; rfl, by rw [h4]; simp [finish, classAttrs], fun i v hv => ?_⟩
        rw [h4]
        simp only [finish, classAttrs, List.getElem?_map, List.getElem?_zipIdx, hv, Option.map_some, Nat.zero_add]

/-- The keys of the attributes are "class", "class2", "class3", … -/
theorem C52_attribute_names : attributeName 0 = lit "class" ∧ (∀ i, attributeName (i + 1) = lit "class" ++ decimal (i + 2)) ∧
    ∀ i j, attributeName i = attributeName j → i = j := by
  have inj : ∀ a b, decimal a = decimal b → a = b := by
    intro a b h
    unfold decimal at h
    have hc : ∀ n, ((Nat.toDigits 10 n).map (fun c => UInt8.ofNat c.toNat)).map (fun u => Char.ofNat u.toNat) = Nat.toDigits 10 n := by
      intro n
      rw [List.map_map]
      conv => rhs; rw [← List.map_id (Nat.toDigits 10 n)]
      refine List.map_congr_left (fun c hc => ?_)
      have hd := Nat.isDigit_of_mem_toDigits (by omega) (by omega) hc
      simp only [Function.comp, id]
      unfold Char.isDigit at hd
      simp only [Bool.and_eq_true, decide_eq_true_eq] at hd
      have h1 : c.toNat < 256 := by
        have := UInt32.le_iff_toNat_le.1 hd.2
        have e : c.toNat = c.val.toNat := rfl
        have : c.val.toNat ≤ 57 := this
        omega
      rw [UInt8.toNat_ofNat', Nat.mod_eq_of_lt (by simpa using h1), Char.ofNat_toNat]
    have h' := congrArg (List.map (fun u : UInt8 => Char.ofNat u.toNat)) h
    rw [hc, hc] at h'
    rw [← Nat.ofDigitChars_ten_toDigits (n := a), h', Nat.ofDigitChars_ten_toDigits]
  have ne : ∀ n, decimal n ≠ [] := by
    intro n h
    unfold decimal at h
    exact Nat.toDigits_ne_nil (List.map_eq_nil_iff.1 h)
  refine ⟨rfl, fun i => rfl, fun i j h => ?_⟩
  unfold attributeName at h
  by_cases hi : i = 0
  · by_cases hj : j = 0
    · omega
    · rw [if_pos hi, if_neg hj] at h
      exact absurd (List.self_eq_append_right.1 h) (ne _)
  · by_cases hj : j = 0
    · rw [if_neg hi, if_pos hj] at h
      exact absurd (List.append_right_eq_self.1 h) (ne _)
    · rw [if_neg hi, if_neg hj] at h
      have := inj _ _ (List.append_cancel_left h)
      omega

/-- C52 fails as stated: a text that only begins with a name of the table is matched to it. -/
theorem C52_longer_name_fails : (∀ f ∈ table, lit "/gc/gogc:percentage" ≠ f.pattern) ∧
    (∀ f ∈ table, (42 : UInt8) ∈ f.pattern → ¬ stem f.pattern <+: lit "/gc/gogc:percentage") ∧
    findMatch table (lit "/gc/gogc:percentage") =
      some (.ok ⟨lit "process.runtime.go.gc.gogc", lit "{percentage}", lit "/gc/gogc:percentage", [], .gauge⟩) :=
  ⟨by decide +kernel, by decide +kernel, by decide +kernel⟩

/-- A class with sub-classes, a total, an unknown name and a class of one byte, which is not matched. -/
example : findMatch table (lit "/memory/classes/heap/free:bytes") =
      some (.ok ⟨lit "process.runtime.go.memory.usage", lit "By", lit "/memory/classes/*:bytes", [(lit "class", lit "heap"), (lit "class2", lit "free")], .upDown⟩) ∧
    findMatch table (lit "/cpu/classes/gc/total:cpu-seconds") = some (.ok ⟨[], [], [], [], .skip⟩) ∧
    findMatch table (lit "/gc/heap/allocs:objects") =
      some (.ok ⟨lit "process.runtime.go.gc.heap.allocs.objects", [], lit "/gc/heap/allocs:objects", [], .counter⟩) ∧
    findMatch table (lit "/new/metric:bytes") = some (.error .unmatched) ∧
    findMatch table (lit "/gc/scan/x:bytes") = some (.error .unmatched) :=
  ⟨by decide +kernel, by decide +kernel, by decide +kernel, by decide +kernel, by decide +kernel⟩

/-! ### C58: one series for each runtime metric -/

/-- The instrument and attributes for a runtime metric, if it is reported. -/
def seriesOf (name : Str) (k : VKind) : Option (Want × List (Str × Str)) :=
  match findMatch table name with
  | some (.ok m) => if m.kind = .skip ∨ m.kind = .histogram then none else (wanted m k).map (fun w => (w, m.attrs))
  | _ => none

/-- The observation expected for a runtime metric. -/
def expectedObs {ι ν : Type} (meter : Want → Option ι) (value : Str → ν) (d : Str × VKind) : Option (ι × List (Str × Str) × ν) :=
  (seriesOf d.1 d.2).bind (fun s => (meter s.1).map (fun i => (i, s.2, value d.1)))

/-- What registration collects for a runtime metric. -/
def expectedReg {ι : Type} (meter : Want → Option ι) (d : Str × VKind) : Option (ι × Str × List (Str × Str)) :=
  (seriesOf d.1 d.2).bind (fun s => (meter s.1).map (fun i => (i, d.1, s.2)))

theorem register_spec {ι : Type} (meter : Want → Option ι) (all : List (Str × VKind)) (r : Reg ι) :
    ∃ o, registerLoop meter table all r = some o ∧
      (o = none ↔ ∃ d ∈ all, ∃ s, seriesOf d.1 d.2 = some s ∧ meter s.1 = none) ∧
      ∀ r', o = some r' →
        r'.instruments = r.instruments ++ (all.filterMap (expectedReg meter)).map (·.1) ∧
        r'.samples = r.samples ++ (all.filterMap (expectedReg meter)).map (·.2.1) ∧
        r'.instAttrs = r.instAttrs ++ (all.filterMap (expectedReg meter)).map (·.2.2) := by
  induction all generalizing r with
  | nil => exact ⟨some r, rfl, by simp, fun r' h => by cases h; simp⟩
  | cons d rest ih =>
    obtain ⟨name, k⟩ := d
    have hskip : seriesOf name k = none → ∀ o, (registerLoop meter table rest r = some o ∧
      (o = none ↔ ∃ d ∈ rest, ∃ s, seriesOf d.1 d.2 = some s ∧ meter s.1 = none) ∧
      ∀ r', o = some r' →
        r'.instruments = r.instruments ++ (rest.filterMap (expectedReg meter)).map (·.1) ∧
        r'.samples = r.samples ++ (rest.filterMap (expectedReg meter)).map (·.2.1) ∧
        r'.instAttrs = r.instAttrs ++ (rest.filterMap (expectedReg meter)).map (·.2.2)) →
      registerLoop meter table rest r = some o ∧
      (o = none ↔ ∃ d ∈ (name, k) :: rest, ∃ s, seriesOf d.1 d.2 = some s ∧ meter s.1 = none) ∧
      ∀ r', o = some r' →
        r'.instruments = r.instruments ++ (((name, k) :: rest).filterMap (expectedReg meter)).map (·.1) ∧
        r'.samples = r.samples ++ (((name, k) :: rest).filterMap (expectedReg meter)).map (·.2.1) ∧
        r'.instAttrs = r.instAttrs ++ (((name, k) :: rest).filterMap (expectedReg meter)).map (·.2.2) := by
      intro hs o ⟨h1, h2, h3⟩
      have he : expectedReg meter (name, k) = none := by unfold expectedReg; rw [hs]; rfl
      refine ⟨h1, ?_, ?_⟩
      · rw [h2]
        constructor
        · rintro ⟨d, hd, s, h⟩; exact ⟨d, List.mem_cons_of_mem _ hd, s, h⟩
        · rintro ⟨d, hd, s, h, h'⟩
          rcases List.mem_cons.1 hd with rfl | hd
          · rw [hs] at h; cases h
          · exact ⟨d, hd, s, h, h'⟩
      · rw [List.filterMap_cons, he]; exact h3
    rw [registerLoop]
    cases hm : findMatch table name with
    | none => exact absurd hm (C52_total name)
    | some x =>
      cases x with
      | error e =>
        obtain ⟨o, h⟩ := ih r
        exact ⟨o, hskip (by unfold seriesOf; rw [hm]) o h⟩
      | ok m =>
        dsimp only
        by_cases hk : m.kind = .skip ∨ m.kind = .histogram
        · rw [if_pos hk]
          obtain ⟨o, h⟩ := ih r
          exact ⟨o, hskip (by unfold seriesOf; rw [hm]; dsimp only; rw [if_pos hk]) o h⟩
        · rw [if_neg hk]
          cases hw : wanted m k with
          | none =>
            obtain ⟨o, h⟩ := ih r
            exact ⟨o, hskip (by unfold seriesOf; rw [hm]; dsimp only; rw [if_neg hk, hw]; rfl) o h⟩
          | some w =>
            have hs : seriesOf name k = some (w, m.attrs) := by unfold seriesOf; rw [hm]; dsimp only; rw [if_neg hk, hw]; rfl
            dsimp only
            cases hi : meter w with
            | none =>
              refine ⟨none, rfl, ⟨fun _ => ⟨(name, k), by simp, (w, m.attrs), hs, hi⟩, fun _ => rfl⟩, fun r' h => by cases h⟩
            | some i =>
              have he : expectedReg meter (name, k) = some (i, name, m.attrs) := by
                unfold expectedReg; rw [hs, Option.bind_some]; dsimp only; rw [hi]; rfl
              obtain ⟨o, h1, h2, h3⟩ := ih { instruments := r.instruments ++ [i], samples := r.samples ++ [name], instAttrs := r.instAttrs ++ [m.attrs] }
              refine ⟨o, h1, ?_, fun r' hr => ?_⟩
              · rw [h2]
                constructor
                · rintro ⟨d, hd, s, h⟩; exact ⟨d, List.mem_cons_of_mem _ hd, s, h⟩
                · rintro ⟨d, hd, s, h, h'⟩
                  rcases List.mem_cons.1 hd with rfl | hd
                  · rw [hs] at h; cases h; rw [hi] at h'; cases h'
                  · exact ⟨d, hd, s, h, h'⟩
              · obtain ⟨g1, g2, g3⟩ := h3 r' hr
                rw [List.filterMap_cons, he]
                refine ⟨g1.trans ?_, g2.trans ?_, g3.trans ?_⟩ <;> simp

theorem callback_spec {ι ν : Type} (isFloat : ι → Bool) (read : Str → VKind × ν) (r : Reg ι) (l : List (ι × Str × List (Str × Str))) (n : Nat)
    (h1 : ∀ j x, l[j]? = some x → r.instruments[n + j]? = some x.1 ∧ r.instAttrs[n + j]? = some x.2.2)
    (h2 : ∀ x ∈ l, (read x.2.1).1 = .uint64 ∧ isFloat x.1 = false ∨ (read x.2.1).1 = .float64 ∧ isFloat x.1 = true) :
    callback isFloat read r ((l.map (·.2.1)).zipIdx n) = some (l.map (fun x => (x.1, x.2.2, (read x.2.1).2))) := by
  induction l generalizing n with
  | nil => rfl
  | cons x l ih =>
    rw [List.map_cons, List.zipIdx_cons, callback]
    obtain ⟨g1, g2⟩ := h1 0 x rfl
    rw [Nat.add_zero] at g1 g2
    have hi := ih (n + 1) (fun j y hy => by
      have := h1 (j + 1) y hy
      rw [show n + 1 + j = n + (j + 1) by omega]; exact this) (fun y hy => h2 y (List.mem_cons_of_mem _ hy))
    rcases h2 x (by simp) with ⟨e1, e2⟩ | ⟨e1, e2⟩
    · rw [e1, g1, g2]
      dsimp only
      rw [if_pos (by rw [e2]; rfl), hi]
      rfl
    · rw [e1, g1, g2]
      dsimp only
      rw [if_pos (by rw [e2]; rfl), hi]
      rfl

/-- C58. Registration does not panic and fails exactly when an instrument cannot be created; afterwards each collection observes, for each
reported runtime metric, in order, the value read for that metric on its own instrument with its own attributes, provided the runtime returns
values of the announced kinds. -/
theorem C58_observed {ι ν : Type} (isFloat : ι → Bool) (meter : Want → Option ι) (hmeter : ∀ w i, meter w = some i → isFloat i = w.isFloat)
    (all : List (Str × VKind)) :
    ∃ o, registerLoop meter table all ⟨[], [], []⟩ = some o ∧
      (o = none ↔ ∃ d ∈ all, ∃ s, seriesOf d.1 d.2 = some s ∧ meter s.1 = none) ∧
      ∀ r, o = some r → ∀ read : Str → VKind × ν, (∀ d ∈ all, (read d.1).1 = d.2) →
        callback isFloat read r (r.samples.zipIdx) = some (all.filterMap (expectedObs meter (fun s => (read s).2))) := by
  obtain ⟨o, h1, h2, h3⟩ := register_spec meter all ⟨[], [], []⟩
  refine ⟨o, h1, h2, fun r hr read hread => ?_⟩
  obtain ⟨g1, g2, g3⟩ := h3 r hr
  simp only [List.nil_append] at g1 g2 g3
  have hc := callback_spec isFloat read r (all.filterMap (expectedReg meter)) 0
    (fun j x hx => by
      rw [Nat.zero_add, g1, g3, List.getElem?_map, List.getElem?_map, hx]
      exact ⟨rfl, rfl⟩)
    (fun x hx => by
      obtain ⟨d, hd, he⟩ := List.mem_filterMap.1 hx
      unfold expectedReg at he
      cases hs : seriesOf d.1 d.2 with
      | none => rw [hs] at he; cases he
      | some s =>
        rw [hs, Option.bind_some] at he
        cases hi : meter s.1 with
        | none => rw [hi] at he; cases he
        | some i =>
          rw [hi] at he
          cases he
          dsimp only
          rw [hread d hd, hmeter _ _ hi]
          unfold seriesOf at hs
          cases hm : findMatch table d.1 with
          | none => rw [hm] at hs; cases hs
          | some y =>
            cases y with
            | error e => rw [hm] at hs; cases hs
            | ok m =>
              rw [hm] at hs
              dsimp only at hs
              by_cases hk : m.kind = .skip ∨ m.kind = .histogram
              · rw [if_pos hk] at hs; cases hs
              · rw [if_neg hk] at hs
                generalize d.2 = k at hs ⊢
                cases hw : wanted m k with
                | none => rw [hw] at hs; cases hs
                | some w =>
                  rw [hw] at hs
                  cases hs
                  unfold wanted at hw
                  cases hkk : m.kind <;> cases k <;> rw [hkk] at hw <;> cases hw <;> simp)
  rw [g2, hc, List.map_filterMap]
  refine congrArg (fun g => some (all.filterMap g)) (funext fun d => ?_)
  unfold expectedReg expectedObs
  cases seriesOf d.1 d.2 with
  | none => rfl
  | some s =>
    rw [Option.bind_some, Option.bind_some]
    cases meter s.1 <;> rfl

theorem callback_stops {ι ν : Type} (isFloat : ι → Bool) (read : Str → VKind × ν) (r : Reg ι) (l : List (ι × Str × List (Str × Str)))
    (y : Str) (rest : List Str) (n : Nat)
    (h1 : ∀ j x, l[j]? = some x → r.instruments[n + j]? = some x.1 ∧ r.instAttrs[n + j]? = some x.2.2)
    (h2 : ∀ x ∈ l, (read x.2.1).1 = .uint64 ∧ isFloat x.1 = false ∨ (read x.2.1).1 = .float64 ∧ isFloat x.1 = true)
    (hy : (read y).1 = .bad ∨ (read y).1 = .histogram) :
    callback isFloat read r ((l.map (·.2.1) ++ y :: rest).zipIdx n) = some (l.map (fun x => (x.1, x.2.2, (read x.2.1).2))) := by
  induction l generalizing n with
  | nil =>
    rw [List.map_nil, List.nil_append, List.zipIdx_cons, callback]
    rcases hy with hy | hy <;> rw [hy] <;> rfl
  | cons x l ih =>
    rw [List.map_cons, List.cons_append, List.zipIdx_cons, callback]
    obtain ⟨g1, g2⟩ := h1 0 x rfl
    rw [Nat.add_zero] at g1 g2
    have hi := ih (n + 1) (fun j y hy => by
      have := h1 (j + 1) y hy
      rw [show n + 1 + j = n + (j + 1) by omega]; exact this) (fun y hy => h2 y (List.mem_cons_of_mem _ hy))
    rcases h2 x (by simp) with ⟨e1, e2⟩ | ⟨e1, e2⟩
    · rw [e1, g1, g2]
      dsimp only
      rw [if_pos (by rw [e2]; rfl), hi]
      rfl
    · rw [e1, g1, g2]
      dsimp only
      rw [if_pos (by rw [e2]; rfl), hi]
      rfl

/-- The type of the instrument made for a reported metric is that of the announced kind. -/
theorem expectedReg_kind {ι ν : Type} {isFloat : ι → Bool} {meter : Want → Option ι} (hmeter : ∀ w i, meter w = some i → isFloat i = w.isFloat)
    {read : Str → VKind × ν} {d : Str × VKind} (hread : (read d.1).1 = d.2) {x : ι × Str × List (Str × Str)} (he : expectedReg meter d = some x) :
    (read x.2.1).1 = .uint64 ∧ isFloat x.1 = false ∨ (read x.2.1).1 = .float64 ∧ isFloat x.1 = true := by
  unfold expectedReg at he
  cases hs : seriesOf d.1 d.2 with
  | none => rw [hs] at he; cases he
  | some s =>
    rw [hs, Option.bind_some] at he
    cases hi : meter s.1 with
    | none => rw [hi] at he; cases he
    | some i =>
      rw [hi] at he
      cases he
      dsimp only
      rw [hread, hmeter _ _ hi]
      unfold seriesOf at hs
      cases hm : findMatch table d.1 with
      | none => rw [hm] at hs; cases hs
      | some y =>
        cases y with
        | error e => rw [hm] at hs; cases hs
        | ok m =>
          rw [hm] at hs
          dsimp only at hs
          by_cases hk : m.kind = .skip ∨ m.kind = .histogram
          · rw [if_pos hk] at hs; cases hs
          · rw [if_neg hk] at hs
            generalize d.2 = k at hs ⊢
            cases hw : wanted m k with
            | none => rw [hw] at hs; cases hs
            | some w =>
              rw [hw] at hs
              cases hs
              unfold wanted at hw
              cases hkk : m.kind <;> cases k <;> rw [hkk] at hw <;> cases hw <;> simp

/-- C58. When the runtime returns something other than a number for a reported metric, the collection has observed the reported metrics before it in
the order of registration, and observes none after it. -/
theorem C58_unreadable {ι ν : Type} (isFloat : ι → Bool) (meter : Want → Option ι) (hmeter : ∀ w i, meter w = some i → isFloat i = w.isFloat)
    (before : List (Str × VKind)) (d : Str × VKind) (after : List (Str × VKind)) (hd : seriesOf d.1 d.2 ≠ none)
    (r : Reg ι) (hr : registerLoop meter table (before ++ d :: after) ⟨[], [], []⟩ = some (some r))
    (read : Str → VKind × ν) (hbefore : ∀ e ∈ before, (read e.1).1 = e.2) (hbad : (read d.1).1 = .bad ∨ (read d.1).1 = .histogram) :
    callback isFloat read r (r.samples.zipIdx) = some (before.filterMap (expectedObs meter (fun s => (read s).2))) := by
  obtain ⟨o, h1, h2, h3⟩ := register_spec meter (before ++ d :: after) ⟨[], [], []⟩
  rw [hr, Option.some.injEq] at h1
  subst h1
  obtain ⟨g1, g2, g3⟩ := h3 r rfl
  have hx : ∃ x, expectedReg meter d = some x ∧ x.2.1 = d.1 := by
    cases hs : seriesOf d.1 d.2 with
    | none => exact absurd hs hd
    | some s =>
      cases hm : meter s.1 with
      | none => exact absurd (h2.2 ⟨d, by simp, s, hs, hm⟩) (by simp)
      | some i => exact ⟨(i, d.1, s.2), by unfold expectedReg; rw [hs, Option.bind_some, hm]; rfl, rfl⟩
  obtain ⟨x, hx, hxn⟩ := hx
  simp only [List.nil_append] at g1 g2 g3
  rw [List.filterMap_append, List.filterMap_cons, hx] at g1 g2 g3
  dsimp only at g1 g2 g3
  have hc := callback_stops isFloat read r (before.filterMap (expectedReg meter)) d.1 ((after.filterMap (expectedReg meter)).map (·.2.1)) 0
    (fun j y hy => by
      have hlt := (List.getElem?_eq_some_iff.1 hy).1
      rw [Nat.zero_add, g1, g3, List.getElem?_map, List.getElem?_map, List.getElem?_append_left hlt, hy]
      exact ⟨rfl, rfl⟩)
    (fun y hy => by
      obtain ⟨e, he, hey⟩ := List.mem_filterMap.1 hy
      exact expectedReg_kind hmeter (hbefore e he) hey) hbad
  rw [g2, List.map_append, List.map_cons, hxn, hc, List.map_filterMap]
  refine congrArg (fun g => some (before.filterMap g)) (funext fun d => ?_)
  unfold expectedReg expectedObs
  cases seriesOf d.1 d.2 with
  | none => rfl
  | some s =>
    rw [Option.bind_some, Option.bind_some]
    cases meter s.1 <;> rfl

/-- Three metrics, the second of which cannot be read. -/
example : (match registerLoop (fun w : Want => some w) table
      ([(lit "/gc/heap/goal:bytes", .uint64)] ++ (lit "/gc/heap/allocs:bytes", .uint64) :: [(lit "/gc/heap/frees:bytes", .uint64)]) ⟨[], [], []⟩ with
    | some (some r) => decide (r.samples.length = 3 ∧
      (callback (fun w : Want => w.isFloat) (fun s => if s = lit "/gc/heap/allocs:bytes" then (VKind.bad, 0) else (VKind.uint64, s.length)) r
        (r.samples.zipIdx)).map (·.map (·.2.2)) = some [19])
    | _ => false) = true ∧ seriesOf (lit "/gc/heap/allocs:bytes") .uint64 ≠ none := by
  decide +kernel

theorem fixUnit_inj {a b : Str} (h : fixUnit a = fixUnit b) : a = b := by
  have hb : ∀ u : Str, lit "{" ++ u ++ lit "}" ≠ lit "By" ∧ lit "{" ++ u ++ lit "}" ≠ lit "s" ∧ lit "{" ++ u ++ lit "}" ≠ [] := by
    intro u
    rw [show lit "{" = [123] by decide +kernel, show lit "By" = [66, 121] by decide +kernel, show lit "s" = [115] by decide +kernel]
    refine ⟨?_, ?_, ?_⟩ <;> simp
  have k1 : lit "By" ≠ lit "s" := by decide +kernel
  have k2 : lit "By" ≠ [] := by decide +kernel
  have k3 : lit "s" ≠ [] := by decide +kernel
  have cases : ∀ u, (u = lit "bytes" ∧ fixUnit u = lit "By") ∨ (u = lit "seconds" ∧ fixUnit u = lit "s") ∨ (u = [] ∧ fixUnit u = []) ∨
      fixUnit u = lit "{" ++ u ++ lit "}" := by
    intro u
    unfold fixUnit
    by_cases h1 : u = lit "bytes"
    · exact Or.inl ⟨h1, if_pos h1⟩
    · rw [if_neg h1]
      by_cases h2 : u = lit "seconds"
      · exact Or.inr (Or.inl ⟨h2, if_pos h2⟩)
      · rw [if_neg h2]
        by_cases h3 : u = []
        · exact Or.inr (Or.inr (Or.inl ⟨h3, if_pos h3⟩))
        · rw [if_neg h3]; exact Or.inr (Or.inr (Or.inr rfl))
  rcases cases a with ⟨ea, ha⟩ | ⟨ea, ha⟩ | ⟨ea, ha⟩ | ha <;> rcases cases b with ⟨eb, hb'⟩ | ⟨eb, hb'⟩ | ⟨eb, hb'⟩ | hb' <;>
    rw [ha, hb'] at h
  · rw [ea, eb]
  · exact absurd h k1
  · exact absurd h k2
  · exact absurd h.symm (hb b).1
  · exact absurd h.symm k1
  · rw [ea, eb]
  · exact absurd h k3
  · exact absurd h.symm (hb b).2.1
  · exact absurd h.symm k2
  · exact absurd h.symm k3
  · rw [ea, eb]
  · exact absurd h.symm (hb b).2.2
  · exact absurd h (hb a).1
  · exact absurd h (hb a).2.1
  · exact absurd h (hb a).2.2
  · exact List.append_cancel_left (List.append_cancel_right h)

/-- The metric names a family can be reported under. -/
def outs (f : Family) : List Str :=
  if (42 : UInt8) ∉ f.pattern then [toOTelName (cutByte 58 f.pattern).1]
  else if (lit ":*").isSuffixOf f.pattern then [toOTelName (cutByte 58 f.pattern).1, toOTelName (cutByte 58 f.pattern).1 ++ lit "." ++ lit "objects"]
  else [fixClasses (toOTelName (cut (lit "/*:") f.pattern).1) (fixUnit (cut (lit "/*:") f.pattern).2)]

theorem table_outs : ∀ f ∈ table, ∀ g ∈ table, f ≠ g → ∀ x ∈ outs f, x ∉ outs g := by decide +kernel

theorem table_colon : ∀ f ∈ table, f.pattern.count 58 = 1 := by decide +kernel

theorem table_classes : ∀ f ∈ table, (42 : UInt8) ∉ f.pattern ∨ (lit ":*").isSuffixOf f.pattern = true →
    (lit ".classes").isSuffixOf (toOTelName (cutByte 58 f.pattern).1) = false ∧
    (lit ".classes").isSuffixOf (toOTelName (cutByte 58 f.pattern).1 ++ lit "." ++ lit "objects") = false := by decide +kernel

theorem split_at_colon {p : Str} (h : p.count 58 = 1) : ∃ a b, p = a ++ 58 :: b ∧ (58 : UInt8) ∉ a := by
  have : (58 : UInt8) ∈ p := List.count_pos_iff.1 (by omega)
  obtain ⟨a, b, rfl⟩ := List.append_of_mem this
  refine ⟨a, b, rfl, fun hx => ?_⟩
  have := List.count_pos_iff.2 hx
  rw [List.count_append, List.count_cons_self] at h
  omega

theorem fixClasses_same {n u : Str} (h : (lit ".classes").isSuffixOf n = false) : fixClasses n u = n := by
  unfold fixClasses; rw [if_neg (by rw [h]; simp)]

theorem classAttrs_inj {a b : List Str} (h : classAttrs a = classAttrs b) : a = b := by
  have : ∀ l : List Str, (classAttrs l).map (·.2) = l := by
    intro l
    unfold classAttrs
    rw [List.map_map]
    exact List.zipIdx_map_fst 0 l
  rw [← this a, h, this b]

/-- What distinguishes series within a family. -/
theorem series_family (f : Family) (hf : f ∈ table) (n1 n2 : Str) (m1 m2 : Match) (h1 : Reported f n1 m1) (h2 : Reported f n2 m2)
    (g1 : matchesPat f.pattern n1 = true) (g2 : matchesPat f.pattern n2 = true)
    (k1 : m1.kind ≠ .skip) (k2 : m2.kind ≠ .skip) (hu : m1.unit = m2.unit) (ha : m1.attrs = m2.attrs) : n1 = n2 := by
  obtain ⟨a, b, hab, hna⟩ := split_at_colon (table_colon f hf)
  have hform := table_ok.form f hf
  cases h1 with
  | full rest e1 e2 e3 =>
    cases h2 with
    | full rest' e1' e2' e3' =>
      rw [e3, e3'] at hu
      unfold plainMatch toOTelNameAndStatedUnit at hu
      rw [e1, e1', hab, List.append_assoc, List.cons_append, cutByte_append _ _ _ hna, List.append_assoc, List.cons_append,
        cutByte_append _ _ _ hna] at hu
      have := List.append_cancel_left (fixUnit_inj hu)
      rw [e1, e1', this]
    | unit p middle hp q1 _ _ => rw [q1] at e2; simp at e2
    | classes p s middle hp hs0 hs1 q1 _ _ => rw [q1] at e2; simp at e2
  | unit p middle hp e1 e2 e3 =>
    have hp58 : (58 : UInt8) ∉ p := by
      intro hx
      have c := table_colon f hf
      have := List.count_pos_iff.2 hx
      rw [e1, List.count_append] at c
      simp at c
      omega
    cases h2 with
    | full rest' q1 q2 q3 => rw [e1] at q2; simp at q2
    | unit p' middle' hp' q1 q2 q3 =>
      have hpp : p = p' := List.append_cancel_right (e1.symm.trans q1)
      subst hpp
      have key : ∀ mid, (objectMatch (p ++ 58 :: mid)).unit = if mid = lit "objects" then [] else fixUnit mid := by
        intro mid
        unfold objectMatch toOTelNameAndStatedUnit
        rw [cutByte_append _ _ _ hp58]
        dsimp only
        by_cases ho : mid = lit "objects"
        · rw [if_pos ho, if_pos ho]; exact (by decide +kernel : fixUnit [] = [])
        · rw [if_neg ho, if_neg ho]; rfl
      have ne : ∀ n mid, n = p ++ 58 :: mid → matchesPat f.pattern n = true → mid ≠ [] := by
        intro n mid hn hm h0
        unfold matchesPat at hm
        simp only [Bool.or_eq_true, Bool.and_eq_true, beq_iff_eq, decide_eq_true_eq] at hm
        rcases hm with ⟨hw, -⟩ | ⟨⟨hl, -⟩, -⟩
        · rw [wilds_zero, e1] at hw; simp at hw
        · rw [e1, hn, h0] at hl
          simp at hl
      have fne : ∀ mid, mid ≠ [] → fixUnit mid ≠ [] := by
        intro mid hne hz
        exact hne (fixUnit_inj (hz.trans (by decide +kernel : [] = fixUnit [])))
      rw [e3, q3, e2, q2, key, key] at hu
      have n1 := fne _ (ne _ _ e2 g1)
      have n2 := fne _ (ne _ _ q2 g2)
      by_cases o1 : middle = lit "objects" <;> by_cases o2 : middle' = lit "objects"
      · rw [e2, q2, o1, o2]
      · rw [if_pos o1, if_neg o2] at hu; exact absurd hu.symm n2
      · rw [if_neg o1, if_pos o2] at hu; exact absurd hu n1
      · rw [if_neg o1, if_neg o2] at hu
        rw [e2, q2, fixUnit_inj hu]
    | classes p' s middle' hp' hs0 hs1 q1 _ _ =>
      have := not_suffix_classes p' s hs0 hs1
      rw [← q1, e1, suffix_unit] at this
      cases this
  | classes p s middle hp hs0 hs1 e1 e2 e3 =>
    cases h2 with
    | full rest' q1 q2 q3 => rw [e1] at q2; simp at q2
    | unit p' middle' hp' q1 _ _ =>
      have := not_suffix_classes p s hs0 hs1
      rw [← e1, q1, suffix_unit] at this
      cases this
    | classes p' s' middle' hp' hs0' hs1' q1 q2 q3 =>
      have c1 := cut_wild p s hp
      rw [← e1, q1, cut_wild p' s' hp'] at c1
      cases c1
      rcases e3 with ⟨-, e3⟩ | ⟨-, e3⟩
      · exact absurd e3 k1
      · rcases q3 with ⟨-, q3⟩ | ⟨-, q3⟩
        · exact absurd q3 k2
        · rw [e3, q3] at ha
          have := classAttrs_inj ha
          rw [e2, q2, ← join_split 47 middle, this, join_split]

theorem series_name (f : Family) (hf : f ∈ table) (n : Str) (m : Match) (h : Reported f n m) (k : m.kind ≠ .skip) : m.name ∈ outs f := by
  obtain ⟨a, b, hab, ha⟩ := split_at_colon (table_colon f hf)
  have hc := table_classes f hf
  have hcut : (cutByte 58 f.pattern).1 = a := by rw [hab, cutByte_append _ _ _ ha]
  rw [hcut] at hc
  cases h with
  | full rest h1 h2 h3 =>
    unfold outs
    rw [if_pos h2, hcut, h3]
    unfold plainMatch toOTelNameAndStatedUnit
    rw [h1, hab, List.append_assoc, List.cons_append, cutByte_append _ _ _ ha]
    exact List.mem_singleton.2 (fixClasses_same (hc (Or.inl h2)).1)
  | unit p middle hp h1 h2 h3 =>
    have hsuf : (lit ":*").isSuffixOf f.pattern = true := h1 ▸ suffix_unit p
    have hpa : p = a := by
      have : (58 : UInt8) ∉ p := by
        intro hx
        have c := table_colon f hf
        have := List.count_pos_iff.2 hx
        rw [h1, List.count_append] at c
        simp at c
        omega
      rw [← hcut, h1, cutByte_append _ _ _ this]
    subst hpa
    unfold outs
    rw [if_neg (by rw [h1]; simp), if_pos hsuf, hcut, h3]
    unfold objectMatch toOTelNameAndStatedUnit
    rw [h2, cutByte_append _ _ _ ha]
    dsimp only
    by_cases ho : middle = lit "objects"
    · rw [if_pos ho, ho]
      exact List.mem_cons_of_mem _ (List.mem_singleton.2 (fixClasses_same (hc (Or.inr hsuf)).2))
    · rw [if_neg ho]
      exact List.mem_cons.2 (Or.inl (fixClasses_same (hc (Or.inr hsuf)).1))
  | classes p s middle hp hs0 hs1 h1 h2 h3 =>
    rcases h3 with ⟨-, h3⟩ | ⟨-, h3⟩
    · exact absurd h3 k
    · have hform := table_ok.form f hf
      unfold outs
      have hs : (lit ":*").isSuffixOf f.pattern = false := h1 ▸ not_suffix_classes p s hs0 hs1
      rw [if_neg (by rw [h1]; simp), if_neg (by rw [hs]; simp), h1, cut_wild p s hp, h3]
      exact List.mem_singleton.2 rfl

/-- C58. Two different runtime metrics are never reported as the same series: metric name, unit and attributes together tell them apart. -/
theorem C58_distinct (n1 n2 : Str) (k1 k2 : VKind) (w1 w2 : Want) (a1 a2 : List (Str × Str))
    (h1 : seriesOf n1 k1 = some (w1, a1)) (h2 : seriesOf n2 k2 = some (w2, a2)) (hname : w1.name = w2.name) (hunit : w1.unit = w2.unit)
    (hattrs : a1 = a2) : n1 = n2 := by
  have key : ∀ n k w a, seriesOf n k = some (w, a) →
      ∃ m f, f ∈ table ∧ matchesPat f.pattern n = true ∧ Reported f n m ∧ m.kind ≠ .skip ∧ m.name = w.name ∧ m.unit = w.unit ∧ m.attrs = a := by
    intro n k w a h
    obtain ⟨r, e, hr⟩ := findMatch_spec table table_ok n
    unfold seriesOf at h
    rw [e] at h
    cases r with
    | error e => cases h
    | ok m =>
      dsimp only at h
      by_cases hk : m.kind = .skip ∨ m.kind = .histogram
      · rw [if_pos hk] at h; cases h
      · rw [if_neg hk] at h
        cases hw : wanted m k with
        | none => rw [hw] at h; cases h
        | some w' =>
          rw [hw] at h
          cases h
          obtain ⟨f, hf, hm, hrep⟩ := hr
          refine ⟨m, f, hf, hm, hrep, fun h => hk (Or.inl h), ?_⟩
          unfold wanted at hw
          cases hkk : m.kind <;> cases k <;> rw [hkk] at hw <;> cases hw <;> exact ⟨rfl, rfl, rfl⟩
  obtain ⟨m1, f1, hf1, g1, r1, s1, e1, u1, t1⟩ := key _ _ _ _ h1
  obtain ⟨m2, f2, hf2, g2, r2, s2, e2, u2, t2⟩ := key _ _ _ _ h2
  have o1 := series_name f1 hf1 n1 m1 r1 s1
  have o2 := series_name f2 hf2 n2 m2 r2 s2
  have hf : f1 = f2 := by
    by_cases h : f1 = f2
    · exact h
    · exfalso
      rw [e1, hname, ← e2] at o1
      exact table_outs f1 hf1 f2 hf2 h _ o1 o2
  subst hf
  exact series_family f1 hf1 n1 n2 m1 m2 r1 r2 g1 g2 s1 s2 (by rw [u1, u2, hunit]) (by rw [t1, t2, hattrs])

instance exDecEq : DecidableEq (Want × List (Str × Str) × Nat) := inferInstance

/-- Two classes of one family and a plain counter: registered in order, and observed each on its own series. Here an instrument is its
description. -/
example : ∃ r, registerLoop some table
      [(lit "/gc/scan/heap:bytes", .uint64), (lit "/gc/pauses:seconds", .histogram), (lit "/gc/scan/stack:bytes", .uint64), (lit "/cpu/classes/idle:cpu-seconds", .float64)]
      ⟨[], [], []⟩ = some (some r) ∧
    callback (fun w : Want => w.isFloat) (fun s => (if s = lit "/cpu/classes/idle:cpu-seconds" then .float64 else .uint64, s.length)) r (r.samples.zipIdx) =
      some [(⟨.upDown, false, lit "process.runtime.go.gc.scan", lit "By", lit "/gc/scan/*:bytes"⟩, [(lit "class", lit "heap")], 19),
        (⟨.upDown, false, lit "process.runtime.go.gc.scan", lit "By", lit "/gc/scan/*:bytes"⟩, [(lit "class", lit "stack")], 20),
        (⟨.counter, true, lit "process.runtime.go.cpu.time", lit "{cpu-seconds}", lit "/cpu/classes/*:cpu-seconds"⟩, [(lit "class", lit "idle")], 29)] := by
  refine ⟨⟨[⟨.upDown, false, lit "process.runtime.go.gc.scan", lit "By", lit "/gc/scan/*:bytes"⟩,
      ⟨.upDown, false, lit "process.runtime.go.gc.scan", lit "By", lit "/gc/scan/*:bytes"⟩,
      ⟨.counter, true, lit "process.runtime.go.cpu.time", lit "{cpu-seconds}", lit "/cpu/classes/*:cpu-seconds"⟩],
    [lit "/gc/scan/heap:bytes", lit "/gc/scan/stack:bytes", lit "/cpu/classes/idle:cpu-seconds"],
    [[(lit "class", lit "heap")], [(lit "class", lit "stack")], [(lit "class", lit "idle")]]⟩, ?_, ?_⟩
  · decide +kernel
  · decide +kernel

end Verif.Runtime
