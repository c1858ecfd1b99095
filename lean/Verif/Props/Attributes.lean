import Verif.Model.Front
import Verif.Proof.Attr
import Verif.Proof.SyncUnique
import Verif.Props.SyncAccounting

/-!
# Attributes: identity (C17), truncation (C18), key filters (C19), the caller's slice (C55)
-/

namespace Verif.Props
open Verif Verif.Number Verif.Attr Verif.Front Verif.Sync

/-! ## C17 identity -/

/-- C17 (order). The fingerprint does not depend on the order of the attributes, whatever the string hash. -/
theorem C17_fingerprint_order (farm : Str → UInt64) (a b : List KV) (h : a.Perm b) : fingerprint farm a = fingerprint farm b :=
  fingerprint_perm farm h

/-- C17 (equality). Two lists are considered equal exactly when they are the same list of keys, types and values, where
elements of float slices are compared as numbers. -/
theorem C17_equal_iff (a b : List KV) : attributesEqual a b = true ↔ SameList a b := attributesEqual_iff a b

/-- No float slices in the list. -/
def NoFloatSlice (l : List KV) : Prop := ∀ kv ∈ l, ∀ xs, kv.val ≠ .floats xs

/-- C17 (equality, without float slices). Then equality is plain equality of keys, types and bit patterns: scalar NaN
payloads and the sign of zero are significant. -/
theorem C17_equal_iff_eq (a b : List KV) (h : NoFloatSlice a) : attributesEqual a b = true ↔ a = b := by
  rw [attributesEqual_iff]
  unfold SameList
  constructor
  · rintro ⟨h1, h2⟩
    apply List.ext_getElem?
    intro i
    by_cases hi : i < a.length
    · have e1 := List.getElem?_eq_getElem hi
      have e2 := List.getElem?_eq_getElem (h1 ▸ hi : i < b.length)
      have := h2 i _ _ e1 e2
      rw [e1, e2]
      have hn := h a[i] (List.getElem_mem hi)
      revert this hn
      generalize a[i] = x
      generalize b[i] = y
      intro this hn
      cases x with | mk kx vx => cases y with | mk ky vy =>
      simp only [Option.some.injEq, KV.mk.injEq]
      refine ⟨this.1, ?_⟩
      have hv := this.2
      cases vx <;> cases vy <;> first | exact hv | exact absurd rfl (hn _)
    · rw [List.getElem?_eq_none (by omega), List.getElem?_eq_none (by omega)]
  · rintro rfl
    refine ⟨rfl, ?_⟩
    intro i x y hx hy
    rw [hx] at hy; cases hy
    refine ⟨rfl, ?_⟩
    have hn := h x (List.mem_of_getElem? hx)
    revert hn
    generalize x.val = v
    intro hn
    cases v <;> first | exact rfl | exact absurd rfl (hn _)

/-- C17 (safety). Lists considered equal denote the same attribute set, so sharing a record never mixes series. -/
theorem C17_equal_same_set (a b : List KV) (h : attributesEqual a b = true) : newSet a = newSet b :=
  newSet_same ((attributesEqual_iff a b).1 h)

section
variable {S : Type} {farm : Str → UInt64} {u : Setup S} {s : State (List KV) (List KV) Bits S} {n0 : Bits}

/-- C17 (found again, part). While a record with these attributes is in the table, a lookup of the same list finds a
record with equal attributes, whatever collisions there are. Missing: lists with a NaN inside a float slice, for which
this is false, see `C17_nan_slice_fails`. -/
theorem C17_same_list_found_partial (hic : u.ignoreColl = false) (o r : Nat) (a : List KV) (hr : r ∈ s.table o)
    (ha : (s.recs r).attrs = a) (hn : ¬ HasNaNSlice a) :
    ∃ r', findRead (realCfg farm u) s o a = some r' ∧ r' ∈ s.table o ∧ SameList a (s.recs r').attrs := by
  have hfind : ∃ r', findRead (realCfg farm u) s o a = some r' := by
    unfold findRead
    rw [if_neg (by simp [realCfg, hic])]
    cases hf : List.find? (fun r => (realCfg farm u).eqv a (s.recs r).attrs) (chain (realCfg farm u) s o ((realCfg farm u).fp a)) with
    | some r' => exact ⟨r', rfl⟩
    | none =>
      rw [List.find?_eq_none] at hf
      have := hf r (by simp [chain, realCfg, hr, ha])
      rw [ha] at this
      exact absurd (attributesEqual_refl hn) this
  obtain ⟨r', h⟩ := hfind
  refine ⟨r', h, ?_⟩
  unfold findRead at h
  simp only [realCfg, hic, Bool.false_eq_true, if_false] at h
  have h1 := List.mem_of_find?_eq_some h
  have h2 := List.find?_some h
  simp only [chain, List.mem_filter] at h1
  exact ⟨h1.1, (attributesEqual_iff _ _).1 h2⟩

/-- C17 (one record). In every reachable state two records of an instrument have the same attribute list only if they
are the same record, unless a float slice contains a NaN. -/
theorem C17_one_record_partial (hr : Reachable (realCfg farm u) n0 s) (o r r' : Nat) (h : r ∈ s.table o) (h' : r' ∈ s.table o)
    (he : (s.recs r).attrs = (s.recs r').attrs) (hn : ¬ HasNaNSlice (s.recs r).attrs) : r = r' := by
  have hd := reachable_distinct hr
  have refl : attributesEqual (s.recs r).attrs (s.recs r).attrs = true := attributesEqual_refl hn
  rcases Nat.lt_trichotomy r r' with hlt | heq | hlt
  · have := (hd o r r' h h' hlt (by rw [he])).2
    simp only [realCfg] at this
    rw [← he, refl] at this
    cases this
  · exact heq
  · have := (hd o r' r h' h hlt (by rw [he])).2
    simp only [realCfg] at this
    rw [← he, refl] at this
    cases this

/-- C17 (fails for NaN in float slices). Such a list is never found again: the lookup misses whatever the table holds, so
every call with it builds another record until the cardinality limit is reached. -/
theorem C17_nan_slice_fails (hic : u.ignoreColl = false) (o : Nat) (a : List KV) (hn : HasNaNSlice a) :
    findRead (realCfg farm u) s o a = none ∧ findWrite (realCfg farm u) s o a = none := by
  have key : ∀ b, attributesEqual a b = false ∧ attributesEqual b a = false := by
    have one : ∀ b, ¬ SameList a b := by
      rintro b ⟨hl, h⟩
      obtain ⟨kv, hkv, xs, hxs, x, hx, hnan⟩ := hn
      obtain ⟨i, hi, hkvi⟩ := List.mem_iff_getElem.1 hkv
      have e1 := List.getElem?_eq_getElem hi
      have e2 := List.getElem?_eq_getElem (hl ▸ hi : i < b.length)
      have := (h i _ _ e1 e2).2
      rw [hkvi, hxs] at this
      generalize (b[i]'(hl ▸ hi)).val = w at this
      cases w with
      | floats ys =>
        obtain ⟨h3, h4⟩ := this
        obtain ⟨j, hj, hxj⟩ := List.mem_iff_getElem.1 hx
        have := h4 j _ _ (List.getElem?_eq_getElem hj) (List.getElem?_eq_getElem (h3 ▸ hj))
        rw [hxj] at this
        exact this.1 hnan
      | _ => exact absurd this (by simp [SameValue])
    have two : ∀ b, ¬ SameList b a := by
      rintro b ⟨hl, h⟩
      obtain ⟨kv, hkv, xs, hxs, x, hx, hnan⟩ := hn
      obtain ⟨i, hi, hkvi⟩ := List.mem_iff_getElem.1 hkv
      have e1 := List.getElem?_eq_getElem hi
      have e2 := List.getElem?_eq_getElem (hl.symm ▸ hi : i < b.length)
      have := (h i _ _ e2 e1).2
      rw [hkvi, hxs] at this
      generalize (b[i]'(hl.symm ▸ hi)).val = w at this
      cases w with
      | floats ys =>
        obtain ⟨h3, h4⟩ := this
        obtain ⟨j, hj, hxj⟩ := List.mem_iff_getElem.1 hx
        have := h4 j _ _ (List.getElem?_eq_getElem (h3.symm ▸ hj)) (List.getElem?_eq_getElem hj)
        rw [hxj] at this
        exact this.2.1 hnan
      | _ => exact absurd this (by simp [SameValue])
    intro b
    constructor
    · cases h : attributesEqual a b with
      | false => rfl
      | true => exact absurd ((attributesEqual_iff _ _).1 h) (one b)
    · cases h : attributesEqual b a with
      | false => rfl
      | true => exact absurd ((attributesEqual_iff _ _).1 h) (two b)
  constructor
  · unfold findRead
    simp only [realCfg, hic, Bool.false_eq_true, if_false]
    rw [List.find?_eq_none]
    intro r _
    simp [(key _).1]
  · unfold findWrite
    simp only [realCfg, hic, Bool.false_or]
    rw [List.find?_eq_none]
    intro r _
    simp [(key _).2]

/-- C17 (fails for zeros in float slices). Equality identifies negative and positive zero inside slices, but their
fingerprints can differ, so lists considered equal need not find the same record. (Witness with a constant string hash.) -/
theorem C17_zero_slice_fails (hic : u.ignoreColl = false) : ∃ (farm : Str → UInt64) (a b : List KV),
    attributesEqual a b = true ∧
    ∀ (s : State (List KV) (List KV) Bits S) (o : Nat), (∀ r ∈ s.table o, (s.recs r).attrs = b) →
      findRead (realCfg farm u) s o a = none := by
  refine ⟨fun _ => 0, [{ key := [107], val := .floats [0x8000000000000000] }], [{ key := [107], val := .floats [0] }], by decide, ?_⟩
  intro s o h
  unfold findRead
  rw [if_neg (by simp [realCfg, hic]), List.find?_eq_none]
  intro x hx
  simp only [chain, List.mem_filter, beq_iff_eq] at hx
  obtain ⟨h1, hx⟩ := hx
  rw [h x h1] at hx
  exact absurd hx (by simp only [realCfg]; decide)

/-- C03 for the actual attribute functions. Every measurement with collision safety on is reported under its own
attribute set after the view's key filter, or under an overflow series. -/
theorem C03_attribution_real (hr : Reachable (realCfg farm u) n0 s) (hic : u.ignoreColl = false)
    (e : Emit (List KV) S) (he : e ∈ s.emits) (i sq : Nat) (hi : (i, sq) ∈ e.ops) :
    e.key = applyKeysFilter (u.keys e.leaf) (newSet (s.op i).attrs) ∨ e.key = overflowSet ∨
      e.key = applyKeysFilter (u.keys e.leaf) overflowSet :=
  C03_reported_attribution hr hic C17_equal_same_set e he i sq hi

end

/-- Permuted lists share a fingerprint but are different records; scalar NaNs are found again; a NaN slice is not. -/
example :
    let a : List KV := [⟨[97], .int 1⟩, ⟨[98], .float 0x7ff8000000000001⟩]
    let b : List KV := [⟨[98], .float 0x7ff8000000000001⟩, ⟨[97], .int 1⟩]
    let n : List KV := [⟨[97], .floats [0x7ff8000000000001]⟩]
    a.Perm b ∧ attributesEqual a b = false ∧ attributesEqual a a = true ∧ ¬ HasNaNSlice a ∧
    attributesEqual n n = false ∧ HasNaNSlice n ∧ newSet a = newSet b := by
  refine ⟨List.Perm.swap _ _ _, by decide, by decide, ?_, by decide, ?_, by decide⟩
  · rintro ⟨kv, hkv, xs, hxs, _⟩
    simp at hkv
    rcases hkv with rfl | rfl <;> cases hxs
  · exact ⟨_, List.mem_singleton.2 rfl, _, rfl, _, List.mem_singleton.2 rfl, by decide⟩

/-! ## C18 truncation -/

/-- The bytes of a value that count against the limit. -/
def strings : Val → List Str
  | .str s => [s]
  | .strs l => l
  | _ => []

/-- The same non-string content: type, and value unless string. -/
def SameButStrings : Val → Val → Prop
  | .str _, .str _ => True
  | .strs l, .strs l' => l.length = l'.length
  | v, w => v = w

theorem truncStr_spec (L : Nat) (s : Str) : (truncStr L s).length ≤ L ∧ truncStr L s <+: s ∧ (s.length ≤ L → truncStr L s = s) := by
  unfold truncStr
  split
  · refine ⟨?_, List.take_prefix _ _, by omega⟩
    rw [List.length_take]; omega
  · exact ⟨by omega, List.prefix_refl _, fun _ => rfl⟩

/-- `truncStr` keeps as much as allowed. -/
theorem truncStr_length (L : Nat) (s : Str) : (truncStr L s).length = min L s.length := by
  unfold truncStr
  split
  · rw [List.length_take]
  · omega

/-- C18. With limit `L > 0`: the number of attributes is kept; the i-th attribute is the i-th the caller gave, with its key
and strings replaced by their prefixes of length `min L`, everything else unchanged. -/
theorem C18_truncation (L : Nat) (hL : L ≠ 0) (l : List KV) :
    (truncate L l).length = l.length ∧
    ∀ (i : Nat) (x y : KV), l[i]? = some x → (truncate L l)[i]? = some y →
      (y.key <+: x.key ∧ y.key.length = min L x.key.length) ∧
      SameButStrings x.val y.val ∧
      (∀ (j : Nat) (p q : Str), (strings x.val)[j]? = some p → (strings y.val)[j]? = some q → q <+: p ∧ q.length = min L p.length) := by
  unfold truncate
  rw [if_neg hL]
  refine ⟨by simp, ?_⟩
  intro i x y hx hy
  rw [List.getElem?_map, hx] at hy
  simp only [Option.map_some, Option.some.injEq] at hy
  subst hy
  refine ⟨⟨(truncStr_spec L x.key).2.1, truncStr_length L x.key⟩, ?_, ?_⟩
  · cases x.val <;> simp [truncVal, SameButStrings]
  · intro j p q hp hq
    cases hv : x.val with
    | str s =>
      simp only [hv, truncVal, strings] at hp hq
      cases j with
      | zero =>
        simp only [List.getElem?_cons_zero, Option.some.injEq] at hp hq
        subst hp; subst hq
        exact ⟨(truncStr_spec L s).2.1, truncStr_length L s⟩
      | succ j => simp at hp
    | strs ss =>
      simp only [hv, truncVal, strings, List.getElem?_map] at hp hq
      rw [hp] at hq
      simp only [Option.map_some, Option.some.injEq] at hq
      subst hq
      exact ⟨(truncStr_spec L p).2.1, truncStr_length L p⟩
    | _ => simp [hv, strings] at hp

theorem truncVal_id (L : Nat) (v : Val) (h : ∀ s ∈ strings v, s.length ≤ L) : truncVal L v = v := by
  cases v with
  | str s => simp only [truncVal]; rw [(truncStr_spec L s).2.2 (h s (by simp [strings]))]
  | strs l =>
    simp only [truncVal, Val.strs.injEq]
    rw [List.map_congr_left (f := truncStr L) (g := id) (l := l) (fun s hs => (truncStr_spec L s).2.2 (h s hs)), List.map_id]
  | _ => rfl

/-- C18 (short). A list in which no key and no string exceeds the limit is unchanged. -/
theorem C18_short_unchanged (L : Nat) (l : List KV)
    (h : ∀ kv ∈ l, kv.key.length ≤ L ∧ ∀ s ∈ strings kv.val, s.length ≤ L) : truncate L l = l := by
  unfold truncate
  split
  · rfl
  · rw [List.map_congr_left (g := id) ?_, List.map_id]
    intro kv hkv
    obtain ⟨h1, h2⟩ := h kv hkv
    rw [(truncStr_spec L kv.key).2.2 h1, truncVal_id L kv.val h2]
    rfl

/-- C18 (idempotent). -/
theorem C18_idempotent (L : Nat) (l : List KV) : truncate L (truncate L l) = truncate L l := by
  by_cases hL : L = 0
  · simp [truncate, hL]
  · apply C18_short_unchanged
    intro kv hkv
    simp only [truncate, hL, if_false, List.mem_map] at hkv
    obtain ⟨x, _, rfl⟩ := hkv
    refine ⟨(truncStr_spec L _).1, ?_⟩
    intro s hs
    cases hv : x.val with
    | str t =>
      simp only [hv, truncVal, strings, List.mem_singleton] at hs
      subst hs; exact (truncStr_spec L _).1
    | strs ss =>
      simp only [hv, truncVal, strings, List.mem_map] at hs
      obtain ⟨t, _, rfl⟩ := hs
      exact (truncStr_spec L _).1
    | _ => simp [hv, truncVal, strings] at hs

/-- C18 (default). After validation the limit is never zero: a zero limit becomes 8192, any other is kept. -/
theorem C18_default (n : Nat) : validateSizeLimit n ≠ 0 ∧ (n = 0 → validateSizeLimit n = 8192) ∧ (n ≠ 0 → validateSizeLimit n = n) := by
  unfold validateSizeLimit defaultAttributeSizeLimit
  split <;> simp_all

/-- C18 (used). The list the pipeline uses when no measurement processor is installed is the truncated list. -/
theorem C18_used {S : Type} (c : Cfg (List KV) (List KV) Bits S) (s : State (List KV) (List KV) Bits S) (i : Inst)
    (kvs : List KV) (num : Bits) (hp : i.proc = none) (h : rangeTest i.num num i.kind = true) :
    ((observe c s (some i) kvs num).op s.nextOp).attrs = truncate i.sizeLimit kvs := by
  simp [observe, h, step, Inst.attrs, hp]

example : truncate 2 [⟨[1, 2, 3], .str [4, 5, 6]⟩, ⟨[7], .strs [[8, 9, 10], []]⟩, ⟨[], .ints [1, 2, 3]⟩] =
    [⟨[1, 2], .str [4, 5]⟩, ⟨[7], .strs [[8, 9], []]⟩, ⟨[], .ints [1, 2, 3]⟩] := by decide

/-! ## C55 the caller's slice -/

/-- C55 (fails). The slice the caller passed is overwritten by truncation: after the call it holds the truncated
attributes. (Truncation writes into the slice it is given, performance.go:105-128, and synchronous instruments pass
the caller's slice, sync.go:343-350.) -/
theorem C55_caller_slice_fails : ∃ (L : Nat) (kvs : List KV), truncate L kvs ≠ kvs :=
  ⟨1, [⟨[97, 98], .int 0⟩], by decide⟩

/-- C55 (part). The caller's slice keeps its content when nothing exceeds the limit. -/
theorem C55_caller_slice_partial (L : Nat) (l : List KV)
    (h : ∀ kv ∈ l, kv.key.length ≤ L ∧ ∀ s ∈ strings kv.val, s.length ≤ L) : truncate L l = l :=
  C18_short_unchanged L l h

/-! ## C19 key filters -/

/-- C19 (content). The attributes of the series for a caller's list, under a view with the optional key list `f`: a key is
present exactly if the caller gave it, it is not empty and it is listed; its value is the caller's (last) value. (The
value is the canonical one: negative zeros inside float slices count as zeros.) -/
theorem C19_filtered_attributes (f : Option (List Str)) (l : List KV) (k : Str) :
    get k (applyKeysFilter f (newSet l)) =
      if k ≠ [] ∧ (∀ ks, f = some ks → k ∈ ks) then (lastValue k l).map canonVal else none := by
  rw [get_applyKeysFilter, get_newSet]

theorem sorted_pairwise {l : List KV} (h : Sorted l) : l.Pairwise (fun x y => x.key < y.key) := by
  induction l with
  | nil => exact List.Pairwise.nil
  | cons x xs ih => exact List.Pairwise.cons h.1 (ih h.2)

/-- C19 (no more). The series lists each key at most once, in increasing order. -/
theorem C19_sorted_keys (f : Option (List Str)) (l : List KV) :
    (applyKeysFilter f (newSet l)).Pairwise (fun x y => x.key < y.key) :=
  sorted_pairwise (applyKeysFilter_sorted (newSet_sorted l))

/-- C19 (equality). Two callers' lists that agree on the listed non-empty keys have the same filtered set. -/
theorem C19_equal_after_filter (f : Option (List Str)) (l l' : List KV)
    (h : ∀ k, k ≠ [] → (∀ ks, f = some ks → k ∈ ks) → (lastValue k l).map canonVal = (lastValue k l').map canonVal) :
    applyKeysFilter f (newSet l) = applyKeysFilter f (newSet l') := by
  apply set_ext (applyKeysFilter_sorted (newSet_sorted l)) (applyKeysFilter_sorted (newSet_sorted l'))
  intro k
  rw [C19_filtered_attributes, C19_filtered_attributes]
  split
  · rename_i hc; exact h k hc.1 hc.2
  · rfl

section
variable {KS AL N S : Type} [DecidableEq KS] {c : Cfg AL KS N S} {s : State AL KS N S} {n0 : N}

/-- C19 (sharing). At any time, live accumulators of one view with equal series keys (whatever records they belong to)
write to one and the same series. -/
theorem C19_shared_series (hr : Reachable c n0 s) (a a' : Nat) (ha : a < s.nextAcc) (ha' : a' < s.nextAcc)
    (hl : (s.acc a).leaf = (s.acc a').leaf) (hk : (s.acc a).key = (s.acc a').key)
    (hrel : (s.acc a).released = false) (hrel' : (s.acc a').released = false) :
    (s.acc a).holder = (s.acc a').holder := by
  have hi := (reachable_more hr).full.inv
  have mem : ∀ a, a < s.nextAcc → (s.acc a).released = false → ((s.acc a).key, (s.acc a).holder) ∈ s.data (s.acc a).leaf := by
    intro a ha hrel
    obtain ⟨h1, h2, h3⟩ := hi.wf.accHold a ha
    by_cases hm : ((s.hold (s.acc a).holder).key, (s.acc a).holder) ∈ s.data (s.hold (s.acc a).holder).leaf
    · rw [h2, h3] at hm; exact hm
    · have := (hi.stranded _ h1 hm).2 a ha rfl
      rw [hrel] at this; cases this
  have m1 := mem a ha hrel
  have m2 := mem a' ha' hrel'
  rw [hl, hk] at m1
  exact keys_unique (hi.wf.dataKeys _) m1 m2

end

section
variable {S : Type} {farm : Str → UInt64} {u : Setup S} {s : State (List KV) (List KV) Bits S} {n0 : Bits}

/-- C19 (reports). In every reachable state every measurement contained in a reported point is reported under exactly
its listed attributes, or under an overflow series. -/
theorem C19_reported_attributes (hr : Reachable (realCfg farm u) n0 s) (hic : u.ignoreColl = false)
    (e : Emit (List KV) S) (he : e ∈ s.emits) (i sq : Nat) (hi : (i, sq) ∈ e.ops) :
    e.key = overflowSet ∨ e.key = applyKeysFilter (u.keys e.leaf) overflowSet ∨
    ∀ k, get k e.key = if k ≠ [] ∧ (∀ ks, u.keys e.leaf = some ks → k ∈ ks) then (lastValue k (s.op i).attrs).map canonVal else none := by
  rcases C03_attribution_real hr hic e he i sq hi with h | h | h
  · right; right; intro k; rw [h, C19_filtered_attributes]
  · left; exact h
  · right; left; exact h

end

open Verif.Examples in
/-- Two records (colliding attribute lists 1 and 5) share the series of view 1, which keeps no attributes. -/
example : ∃ s, s0 = some s ∧ (s.acc 1).leaf = 1 ∧ (s.acc 3).leaf = 1 ∧ (s.acc 1).rc ≠ (s.acc 3).rc ∧ 3 < s.nextAcc ∧
    (s.acc 1).key = (s.acc 3).key ∧ (s.acc 1).released = false ∧ (s.acc 3).released = false ∧
    (s.acc 1).holder = (s.acc 3).holder :=
  exists_of_eval (by decide +kernel)

/-- Filtering on key "b" merges lists that differ elsewhere, takes the last value, and drops empty keys. -/
example :
    let l1 : List KV := [⟨[97], .int 1⟩, ⟨[98], .int 2⟩, ⟨[98], .int 3⟩, ⟨[], .int 9⟩]
    let l2 : List KV := [⟨[98], .int 3⟩, ⟨[97], .int 7⟩]
    applyKeysFilter (some [[98], []]) (newSet l1) = [⟨[98], .int 3⟩] ∧
    applyKeysFilter (some [[98], []]) (newSet l1) = applyKeysFilter (some [[98], []]) (newSet l2) ∧
    applyKeysFilter none (newSet l1) = [⟨[97], .int 1⟩, ⟨[98], .int 3⟩] := by decide

end Verif.Props
