import Verif.Spec.Attr
import Verif.Proof.Number

/-! Helper file: lemmas about the attribute model. -/

namespace Verif.Attr
open Verif.Number

theorem str_irrefl (a : Str) : ¬ a < a := List.lt_irrefl a
theorem str_trans {a b c : Str} (h : a < b) (h' : b < c) : a < c := List.lt_trans h h'
theorem str_total (a b : Str) : a < b ∨ a = b ∨ b < a := by
  by_cases h : a < b
  · exact Or.inl h
  · by_cases h' : b < a
    · exact Or.inr (Or.inr h')
    · exact Or.inr (Or.inl (List.le_antisymm h' h))

/-! ### Fingerprints -/

theorem foldl_add_perm {α : Type} (f : α → UInt64) {l l' : List α} (h : l.Perm l') (z : UInt64) :
    l.foldl (fun acc x => acc + f x) z = l'.foldl (fun acc x => acc + f x) z := by
  induction h generalizing z with
  | nil => rfl
  | cons x _ ih => simp only [List.foldl_cons]; exact ih _
  | swap x y l =>
    simp only [List.foldl_cons]
    congr 1
    rw [UInt64.add_assoc, UInt64.add_assoc, UInt64.add_comm (f y)]
  | trans _ _ ih1 ih2 => rw [ih1, ih2]

theorem fingerprint_perm (farm : Str → UInt64) {l l' : List KV} (h : l.Perm l') : fingerprint farm l = fingerprint farm l' := by
  have := foldl_add_perm (fun kv : KV => mix (farm kv.key) (fpVal farm kv.val)) h 0
  unfold fingerprint
  exact this

/-! ### Equality -/

theorem sliceEqual_iff {α : Type} (eq : α → α → Bool) (a b : List α) :
    sliceEqual eq a b = true ↔ a.length = b.length ∧ ∀ (i : Nat) (x y : α), a[i]? = some x → b[i]? = some y → eq x y = true := by
  induction a generalizing b with
  | nil => cases b <;> simp [sliceEqual]
  | cons x xs ih =>
    cases b with
    | nil => simp [sliceEqual]
    | cons y ys =>
      simp only [sliceEqual, Bool.and_eq_true, ih, List.length_cons]
      constructor
      · rintro ⟨h1, h2, h3⟩
        refine ⟨by omega, ?_⟩
        intro i u v hu hv
        cases i with
        | zero => simp at hu hv; rw [← hu, ← hv]; exact h1
        | succ i => simp at hu hv; exact h3 i u v hu hv
      · rintro ⟨h1, h2⟩
        exact ⟨h2 0 x y (by simp) (by simp), by omega, fun i u v hu hv => h2 (i + 1) u v (by simpa using hu) (by simpa using hv)⟩

theorem sliceEqual_beq {α : Type} [BEq α] [LawfulBEq α] (a b : List α) : sliceEqual (· == ·) a b = true ↔ a = b := by
  rw [sliceEqual_iff]
  constructor
  · rintro ⟨h1, h2⟩
    apply List.ext_getElem? 
    intro i
    cases ha : a[i]? with
    | none =>
      rw [List.getElem?_eq_none_iff] at ha
      rw [eq_comm, List.getElem?_eq_none_iff]; omega
    | some x =>
      cases hb : b[i]? with
      | none =>
        rw [List.getElem?_eq_none_iff] at hb
        rw [List.getElem?_eq_none (by omega)] at ha; cases ha
      | some y => have := h2 i x y ha hb; rw [eq_of_beq this]
  · rintro rfl
    refine ⟨rfl, ?_⟩
    intro i x y hx hy
    rw [hx] at hy; simp at hy; simp [hy]

theorem fltEq_iff (x y : Bits) : fltEq x y = true ↔ NumEq x y := by
  unfold fltEq NumEq
  rw [← key_eq_iff, ← nan_iff, ← nan_iff]
  simp [and_assoc]

theorem valEqual_iff (v w : Val) : valEqual v w = true ↔ SameValue v w := by
  cases v <;> cases w <;> simp [valEqual, SameValue, sliceEqual_beq]
  rw [sliceEqual_iff]
  simp [fltEq_iff]

theorem attributesEqual_iff (a b : List KV) : attributesEqual a b = true ↔ SameList a b := by
  induction a generalizing b with
  | nil => cases b <;> simp [attributesEqual, SameList]
  | cons x xs ih =>
    cases b with
    | nil => simp [attributesEqual, SameList]
    | cons y ys =>
      simp only [attributesEqual, Bool.and_eq_true, beq_iff_eq, ih, valEqual_iff]
      unfold SameList
      simp only [List.length_cons]
      constructor
      · rintro ⟨⟨h1, h2⟩, h3, h4⟩
        refine ⟨by omega, ?_⟩
        intro i u v hu hv
        cases i with
        | zero => simp at hu hv; rw [← hu, ← hv]; exact ⟨h2, h1⟩
        | succ i => simp at hu hv; exact h4 i u v hu hv
      · rintro ⟨h1, h2⟩
        have h0 := h2 0 x y (by simp) (by simp)
        exact ⟨⟨h0.2, h0.1⟩, by omega, fun i u v hu hv => h2 (i + 1) u v (by simpa using hu) (by simpa using hv)⟩

theorem attributesEqual_refl {l : List KV} (h : ¬ HasNaNSlice l) : attributesEqual l l = true := by
  rw [attributesEqual_iff]
  refine ⟨rfl, ?_⟩
  intro i x y hx hy
  rw [hx] at hy; simp only [Option.some.injEq] at hy; subst hy
  refine ⟨rfl, ?_⟩
  have hm := List.mem_of_getElem? hx
  cases hv : x.val with
  | floats xs =>
    refine ⟨rfl, ?_⟩
    intro j u v hu hv'
    rw [hu] at hv'; simp only [Option.some.injEq] at hv'; subst hv'
    have : ¬ NaN u := fun hn => h ⟨x, hm, xs, hv, u, List.mem_of_getElem? hu, hn⟩
    exact ⟨this, this, rfl⟩
  | _ => rfl

theorem normFlt_eq {x y : Bits} (h : NumEq x y) : normFlt x = normFlt y := by
  have hk := (key_eq_iff x y).2 h.2.2
  unfold normFlt
  by_cases hz : key x = 0
  · rw [if_pos hz, if_pos (by rw [← hk]; exact hz)]
  · rw [if_neg hz, if_neg (by rw [← hk]; exact hz)]
    apply BitVec.eq_of_toNat_eq
    have hx := x.isLt
    have hy := y.isLt
    unfold key neg at hk hz
    simp only [decide_eq_true_eq] at hk hz
    split at hk <;> split at hk <;> simp_all <;> omega

theorem canonVal_same {v w : Val} (h : SameValue v w) : canonVal v = canonVal w := by
  cases v <;> cases w <;> simp_all [SameValue, canonVal]
  obtain ⟨h1, h2⟩ := h
  apply List.ext_getElem?
  intro i
  rename_i a b
  rw [List.getElem?_map, List.getElem?_map]
  cases ha : a[i]? with
  | none =>
    rw [List.getElem?_eq_none_iff] at ha
    rw [List.getElem?_eq_none (by omega)]
  | some x =>
    cases hb : b[i]? with
    | none =>
      rw [List.getElem?_eq_none_iff] at hb
      rw [List.getElem?_eq_none (by omega)] at ha; cases ha
    | some y => simp [normFlt_eq (h2 i x y ha hb)]

/-- The attributes with canonical values. -/
def canon (l : List KV) : List KV := l.map (fun kv => { key := kv.key, val := canonVal kv.val })

theorem newSet_canon (l : List KV) : newSet l = (canon l).foldl (fun acc kv => insertKV kv acc) [] := by
  unfold newSet canon
  rw [List.foldl_map]

theorem canon_same {a b : List KV} (h : SameList a b) : canon a = canon b := by
  obtain ⟨h1, h2⟩ := h
  apply List.ext_getElem?
  intro i
  unfold canon
  rw [List.getElem?_map, List.getElem?_map]
  cases ha : a[i]? with
  | none =>
    rw [List.getElem?_eq_none_iff] at ha
    rw [List.getElem?_eq_none (by omega)]
  | some x =>
    cases hb : b[i]? with
    | none =>
      rw [List.getElem?_eq_none_iff] at hb
      rw [List.getElem?_eq_none (by omega)] at ha; cases ha
    | some y =>
      have := h2 i x y ha hb
      simp [this.1, canonVal_same this.2]

theorem newSet_same {a b : List KV} (h : SameList a b) : newSet a = newSet b := by
  rw [newSet_canon, newSet_canon, canon_same h]

/-! ### Sets -/

/-- Strictly sorted by key. -/
def Sorted : List KV → Prop
  | [] => True
  | x :: xs => (∀ y ∈ xs, x.key < y.key) ∧ Sorted xs

theorem mem_insertKV {kv y : KV} {l : List KV} (h : y ∈ insertKV kv l) : y = kv ∨ y ∈ l := by
  induction l with
  | nil => simpa [insertKV] using h
  | cons x xs ih =>
    simp only [insertKV] at h
    split at h
    · grind
    · split at h
      · grind
      · grind

theorem insertKV_sorted {kv : KV} {l : List KV} (h : Sorted l) : Sorted (insertKV kv l) := by
  induction l with
  | nil => simp [insertKV, Sorted]
  | cons x xs ih =>
    simp only [insertKV]
    split
    · rename_i e
      exact ⟨fun y hy => by rw [e]; exact h.1 y hy, h.2⟩
    · split
      · rename_i e e'
        refine ⟨?_, h⟩
        intro y hy
        rcases List.mem_cons.1 hy with hy | hy
        · rw [hy]; exact e'
        · exact str_trans e' (h.1 y hy)
      · rename_i e e'
        refine ⟨?_, ih h.2⟩
        intro y hy
        rcases mem_insertKV hy with hy | hy
        · rw [hy]
          rcases str_total kv.key x.key with h' | h' | h'
          · exact absurd h' e'
          · exact absurd h' e
          · exact h'
        · exact h.1 y hy

theorem get_cons (k : Str) (x : KV) (xs : List KV) : get k (x :: xs) = if x.key = k then some x.val else get k xs := by
  unfold get
  rw [List.find?_cons]
  by_cases e : x.key = k
  · simp [e]
  · rw [beq_eq_false_iff_ne.2 e]; simp [e]

theorem get_insertKV {kv : KV} {l : List KV} (k : Str) (h : Sorted l) :
    get k (insertKV kv l) = if kv.key = k then some kv.val else get k l := by
  induction l with
  | nil => simp only [insertKV, get_cons]
  | cons x xs ih =>
    have ih := ih h.2
    simp only [insertKV]
    split
    · simp only [get_cons]; grind
    · split
      · simp only [get_cons]
      · simp only [get_cons, ih]; grind

theorem foldl_insert_sorted (l acc : List KV) (h : Sorted acc) : Sorted (l.foldl (fun acc kv => insertKV kv acc) acc) := by
  induction l generalizing acc with
  | nil => exact h
  | cons x xs ih => exact ih _ (insertKV_sorted h)

theorem newSet_sorted (l : List KV) : Sorted (newSet l) := by
  rw [newSet_canon]; exact foldl_insert_sorted _ _ trivial

theorem get_foldl (k : Str) (l acc : List KV) (h : Sorted acc) :
    get k (l.foldl (fun acc kv => insertKV kv acc) acc) = (lastValue k l).or (get k acc) := by
  induction l generalizing acc with
  | nil => simp [lastValue]
  | cons x xs ih =>
    rw [List.foldl_cons, ih _ (insertKV_sorted h), get_insertKV k h]
    unfold lastValue
    rw [List.reverse_cons, List.find?_append]
    cases hf : List.find? (fun kv => kv.key == k) xs.reverse with
    | some y => simp
    | none =>
      by_cases e : x.key = k <;> simp [e]

theorem lastValue_canon (k : Str) (l : List KV) : lastValue k (canon l) = (lastValue k l).map canonVal := by
  unfold lastValue canon
  rw [← List.map_reverse, List.find?_map]
  simp only [Function.comp_def, Option.map_map]

theorem get_newSet (k : Str) (l : List KV) : get k (newSet l) = (lastValue k l).map canonVal := by
  rw [newSet_canon, get_foldl k _ [] (by trivial), lastValue_canon]
  simp [get]

theorem get_of_mem {l : List KV} (h : Sorted l) {kv : KV} (hm : kv ∈ l) : get kv.key l = some kv.val := by
  induction l with
  | nil => cases hm
  | cons x xs ih =>
    unfold get at ih ⊢
    rw [List.find?_cons]
    rcases List.mem_cons.1 hm with hm | hm
    · rw [hm]; simp
    · have : x.key ≠ kv.key := by
        intro e
        have := h.1 kv hm
        rw [e] at this
        exact str_irrefl _ this
      rw [beq_eq_false_iff_ne.2 this]
      exact ih h.2 hm

theorem mem_of_get {l : List KV} {k : Str} {v : Val} (h : get k l = some v) : { key := k, val := v } ∈ l := by
  unfold get at h
  rw [Option.map_eq_some_iff] at h
  obtain ⟨x, h1, h2⟩ := h
  have h3 := List.find?_some h1
  have h4 := List.mem_of_find?_eq_some h1
  simp only [beq_iff_eq] at h3
  subst h2 h3
  exact h4

/-- Sets are determined by their values. -/
theorem set_ext {l l' : List KV} (h : Sorted l) (h' : Sorted l') (he : ∀ k, get k l = get k l') : l = l' := by
  induction l generalizing l' with
  | nil =>
    cases l' with
    | nil => rfl
    | cons y ys => have := he y.key; rw [get_of_mem h' (by simp)] at this; simp [get] at this
  | cons x xs ih =>
    cases l' with
    | nil => have := he x.key; rw [get_of_mem h (by simp)] at this; simp [get] at this
    | cons y ys =>
      have hx : x ∈ y :: ys := by
        have := he x.key
        rw [get_of_mem h (by simp)] at this
        exact mem_of_get this.symm
      have hy : y ∈ x :: xs := by
        have := he y.key
        rw [get_of_mem h' (by simp)] at this
        exact mem_of_get this
      have e : x = y := by
        rcases List.mem_cons.1 hx with h1 | h1
        · exact h1
        · rcases List.mem_cons.1 hy with h2 | h2
          · exact h2.symm
          · exact absurd (str_trans (h'.1 x h1) (h.1 y h2)) (str_irrefl _)
      subst e
      congr 1
      apply ih h.2 h'.2
      intro k
      have hk := he k
      by_cases e : x.key = k
      · subst e
        have n : ∀ zs : List KV, (∀ z ∈ zs, x.key < z.key) → get x.key zs = none := by
          intro zs hz
          unfold get
          rw [Option.map_eq_none_iff, List.find?_eq_none]
          intro z hz'
          simp only [beq_iff_eq]
          intro e; have := hz z hz'; rw [e] at this; exact str_irrefl _ this
        rw [n xs h.1, n ys h'.1]
      · unfold get at hk ⊢
        rw [List.find?_cons, List.find?_cons, beq_eq_false_iff_ne.2 e] at hk
        exact hk

theorem filter_sorted {l : List KV} (p : KV → Bool) (h : Sorted l) : Sorted (l.filter p) := by
  induction l with
  | nil => trivial
  | cons x xs ih =>
    rw [List.filter_cons]
    split
    · exact ⟨fun y hy => h.1 y (List.mem_filter.1 hy).1, ih h.2⟩
    · exact ih h.2

theorem get_filter {l : List KV} (p : KV → Bool) (q : Str → Bool) (hpq : ∀ kv ∈ l, p kv = q kv.key) (k : Str) :
    get k (l.filter p) = if q k then get k l else none := by
  induction l with
  | nil => simp [get]
  | cons x xs ih =>
    have ih := ih (fun kv hkv => hpq kv (List.mem_cons_of_mem _ hkv))
    have hx := hpq x (List.mem_cons_self)
    rw [List.filter_cons]
    unfold get at ih ⊢
    by_cases e : x.key = k
    · subst e
      cases hq : q x.key with
      | true => rw [hx, hq]; simp
      | false => 
        rw [hx, hq]
        rw [hq] at ih
        simpa using ih
    · have e' := beq_eq_false_iff_ne.2 e
      split
      · rw [List.find?_cons, List.find?_cons, e']; exact ih
      · rw [List.find?_cons, e']; exact ih

theorem applyKeysFilter_sorted {f : Option (List Str)} {l : List KV} (h : Sorted l) : Sorted (applyKeysFilter f l) := by
  unfold applyKeysFilter
  dsimp only
  split
  · exact h
  · exact filter_sorted _ h
  · exact filter_sorted _ h
  · exact filter_sorted _ h

theorem get_applyKeysFilter (f : Option (List Str)) (l : List KV) (k : Str) :
    get k (applyKeysFilter f l) =
      if k ≠ [] ∧ (∀ ks, f = some ks → k ∈ ks) then get k l else none := by
  unfold applyKeysFilter
  have hval : ∀ kv : KV, isValidAttribute kv = (fun k : Str => k != []) kv.key := fun kv => rfl
  cases hinv : l.any (fun kv => !isValidAttribute kv) with
  | false =>
    have hno : ∀ kv ∈ l, kv.key ≠ [] := by
      rw [List.any_eq_false] at hinv
      intro kv hkv e
      have := hinv kv hkv
      simp [isValidAttribute, e] at this
    have hnil : get [] l = none := by
      unfold get
      rw [Option.map_eq_none_iff, List.find?_eq_none]
      intro x hx; simp [hno x hx]
    cases f with
    | none =>
      simp only
      by_cases e : k = []
      · subst e; simp [hnil]
      · simp [e]
    | some ks =>
      simp only
      rw [get_filter (keyFilter ks) (fun k => ks.contains k) (fun kv _ => rfl)]
      by_cases e : k = []
      · subst e; simp [hnil]
      · simp [e]
  | true =>
    cases f with
    | none =>
      simp only
      rw [get_filter (fun kv => isValidAttribute kv) (fun k => k != []) (fun kv _ => rfl)]
      by_cases e : k = [] <;> simp [e]
    | some ks =>
      simp only
      rw [get_filter (fun kv => isValidAttribute kv && keyFilter ks kv) (fun k => k != [] && ks.contains k) (fun kv _ => rfl)]
      by_cases e : k = [] <;> simp [e]

end Verif.Attr
