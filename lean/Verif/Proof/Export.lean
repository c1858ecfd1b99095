import Verif.Spec.Export
import Verif.Proof.Attr
import Verif.Proof.Number

/-! Lemmas about the conversion to the OTLP data model. -/

namespace Verif.Export
open Verif Verif.Attr Verif.Number

theorem pointwise_nil {α β : Type} (R : α → β → Prop) : Pointwise R [] [] := ⟨rfl, by simp⟩

theorem pointwise_cons {α β : Type} {R : α → β → Prop} {a : α} {b : β} {l : List α} {l' : List β} (h : R a b) (hl : Pointwise R l l') :
    Pointwise R (a :: l) (b :: l') := by
  refine ⟨by simp [hl.1], ?_⟩
  intro i x y hx hy
  cases i with
  | zero => simp only [List.getElem?_cons_zero, Option.some.injEq] at hx hy; subst hx; subst hy; exact h
  | succ i => simp only [List.getElem?_cons_succ] at hx hy; exact hl.2 i x y hx hy

theorem pointwise_map {α β : Type} (f : α → β) (l : List α) : Pointwise (fun a b => b = f a) l (l.map f) := by
  refine ⟨by simp, ?_⟩
  intro i a b ha hb
  rw [List.getElem?_map, ha] at hb
  simpa using hb.symm

theorem mapM_pointwise {α β : Type} {f : α → Option β} {R : α → β → Prop} {l : List α} (h : ∀ a ∈ l, ∃ b, f a = some b ∧ R a b) :
    ∃ l', mapM f l = some l' ∧ Pointwise R l l' := by
  induction l with
  | nil => exact ⟨[], rfl, pointwise_nil R⟩
  | cons a l ih =>
    obtain ⟨b, h1, h2⟩ := h a (List.mem_cons_self)
    obtain ⟨l', h3, h4⟩ := ih (fun x hx => h x (List.mem_cons_of_mem _ hx))
    exact ⟨b :: l', by simp [mapM, h1, h3], pointwise_cons h2 h4⟩

theorem convert_valueOf {v : Val} (h : v ≠ .invalid) : ∃ p, convert v = some p ∧ ValueOf v p := by
  cases v with
  | invalid => exact absurd rfl h
  | bool _ => exact ⟨_, rfl, rfl⟩
  | int _ => exact ⟨_, rfl, rfl⟩
  | float _ => exact ⟨_, rfl, rfl⟩
  | str _ => exact ⟨_, rfl, rfl⟩
  | bools _ => exact ⟨_, rfl, pointwise_map _ _⟩
  | ints _ => exact ⟨_, rfl, pointwise_map _ _⟩
  | floats _ => exact ⟨_, rfl, pointwise_map _ _⟩
  | strs _ => exact ⟨_, rfl, pointwise_map _ _⟩

theorem put_new {k : Str} {v : PVal} {m : PMap} (h : ∀ e ∈ m, e.1 ≠ k) : put k v m = m ++ [(k, v)] := by
  induction m with
  | nil => rfl
  | cons e m ih =>
    obtain ⟨k', v'⟩ := e
    have h1 := h (k', v') (List.mem_cons_self)
    rw [put, if_neg h1, ih (fun e he => h e (List.mem_cons_of_mem _ he))]
    rfl

theorem copyAttributes_acc {l : List KV} {dest : PMap} (hv : ∀ kv ∈ l, kv.val ≠ .invalid) (hd : l.Pairwise (fun x y => x.key ≠ y.key))
    (hf : ∀ kv ∈ l, ∀ e ∈ dest, e.1 ≠ kv.key) : ∃ m, copyAttributes dest l = some (dest ++ m) ∧ AttrsOf l m := by
  induction l generalizing dest with
  | nil => exact ⟨[], by simp [copyAttributes], pointwise_nil _⟩
  | cons kv l ih =>
    obtain ⟨p, h1, h2⟩ := convert_valueOf (hv kv (List.mem_cons_self))
    rw [List.pairwise_cons] at hd
    have hput := put_new (v := p) (hf kv (List.mem_cons_self))
    obtain ⟨m, h3, h4⟩ := ih (dest := dest ++ [(kv.key, p)]) (fun x hx => hv x (List.mem_cons_of_mem _ hx)) hd.2 (by
      intro x hx e he
      rcases List.mem_append.1 he with he | he
      · exact hf x (List.mem_cons_of_mem _ hx) e he
      · rw [List.mem_singleton] at he; subst he; exact hd.1 x hx)
    refine ⟨(kv.key, p) :: m, ?_, pointwise_cons ⟨rfl, h2⟩ h4⟩
    rw [copyAttributes, h1, Option.bind_some, hput, h3]
    simp

theorem copyAttributes_ok {l : List KV} (h : Exportable l) : ∃ m, copyAttributes [] l = some m ∧ AttrsOf l m := by
  obtain ⟨m, h1, h2⟩ := copyAttributes_acc (dest := []) h.1 h.2 (by simp)
  exact ⟨m, by simpa using h1, h2⟩

theorem copyAttributes_none {l : List KV} {dest : PMap} (h : ∃ kv ∈ l, kv.val = .invalid) : copyAttributes dest l = none := by
  induction l generalizing dest with
  | nil => obtain ⟨_, h, _⟩ := h; cases h
  | cons kv l ih =>
    obtain ⟨x, hx, hi⟩ := h
    rw [copyAttributes]
    rcases List.mem_cons.1 hx with rfl | hx
    · rw [hi]; rfl
    · cases convert kv.val with
      | none => rfl
      | some v => exact ih ⟨x, hx, hi⟩

/-! ### Points -/

theorem sumPoint_ok {p : Point} (ha : Exportable p.attrs) (hk : p.agg.dataKind = .monotonic ∨ p.agg.dataKind = .nonMonotonic) :
    ∃ d, sumPoint p = some d ∧ SumPointOf p d := by
  obtain ⟨m, h1, h2⟩ := copyAttributes_ok ha
  unfold sumPoint
  rw [h1]
  cases hagg : p.agg <;> rw [hagg] at hk <;> simp only [Agg.dataKind] at hk <;> try (rcases hk with hk | hk <;> cases hk)
  all_goals
    refine ⟨_, rfl, rfl, rfl, h2, ?_⟩
    intro k v hkv
    rw [hagg] at hkv
    rcases hkv with hkv | hkv <;> cases hkv
    rename_i k _
    cases k <;> rfl

theorem gaugePoint_ok {p : Point} (ha : Exportable p.attrs) (hk : p.agg.dataKind = .gauge) :
    ∃ d, gaugePoint p = some d ∧ GaugePointOf p d := by
  obtain ⟨m, h1, h2⟩ := copyAttributes_ok ha
  unfold gaugePoint
  rw [h1]
  cases hagg : p.agg <;> rw [hagg] at hk <;> simp only [Agg.dataKind] at hk <;> try cases hk
  refine ⟨_, rfl, rfl, rfl, h2, ?_⟩
  intro k v hkv
  rw [hagg] at hkv
  cases hkv
  rename_i k _
  cases k <;> rfl

theorem statOf_coerced (k : Kind) (v : Bits) : StatOf k v (coerced k v) := by
  cases k with
  | float64 => rfl
  | int64 =>
    intro h
    have h1 : v.toInt = (v.toNat : Int) := by
      have := BitVec.toInt_eq_toNat_cond v
      have := v.isLt
      omega
    have := natToFloat_rounds v.isLt
    rw [← h1] at this
    exact this

theorem extremeOf_coerced (k : Kind) (n : Nat) (v : Bits) : ExtremeOf k n v (if n ≠ 0 then some (coerced k v) else none) := by
  refine ⟨fun h => if_neg (fun h' => h' h), fun h => ⟨coerced k v, if_pos h, statOf_coerced k v⟩⟩

theorem expPoint_ok {p : Point} (ha : Exportable p.attrs) (hk : p.agg.dataKind = .hist) :
    ∃ d, expPoint p = some d ∧ ExpPointOf p d := by
  obtain ⟨m, h1, h2⟩ := copyAttributes_ok ha
  unfold expPoint
  rw [h1]
  cases hagg : p.agg <;> rw [hagg] at hk <;> simp only [Agg.dataKind] at hk <;> try cases hk
  refine ⟨_, rfl, rfl, rfl, h2, ?_⟩
  intro k h hkv
  rw [hagg] at hkv
  cases hkv
  have hb : ∀ o l, BucketsOf o l (expBuckets o l) := by
    intro o l
    unfold expBuckets BucketsOf
    cases l <;> simp
  exact ⟨rfl, rfl, rfl, hb _ _, hb _ _, statOf_coerced _ _, extremeOf_coerced _ _ _, extremeOf_coerced _ _ _⟩

theorem mmscPoint_ok {p : Point} (ha : Exportable p.attrs) (hk : p.agg.dataKind = .mmsc) :
    ∃ d, mmscPoint p = some d ∧ HistPointOf p d := by
  obtain ⟨m, h1, h2⟩ := copyAttributes_ok ha
  unfold mmscPoint
  rw [h1]
  cases hagg : p.agg <;> rw [hagg] at hk <;> simp only [Agg.dataKind] at hk <;> try cases hk
  refine ⟨_, rfl, rfl, rfl, h2, ?_, ?_⟩
  · intro k h hkv; rw [hagg] at hkv; cases hkv
  · intro k s hkv
    rw [hagg] at hkv
    cases hkv
    refine ⟨rfl, statOf_coerced _ _, ?_, rfl, rfl⟩
    intro hk
    subst hk
    exact ⟨extremeOf_coerced .float64 _ _, extremeOf_coerced .float64 _ _⟩

theorem explicitBuckets_some {m : Mapping} {h : ExpHist} (hm : h.pos ≠ [] → m h.scale ≠ none) : ∃ r, explicitBuckets m h = some r := by
  unfold explicitBuckets
  split
  · exact ⟨_, rfl⟩
  · rename_i hp
    have := hm (by intro e; rw [e] at hp; exact hp rfl)
    cases hs : m h.scale with
    | none => exact absurd hs this
    | some l => exact ⟨_, rfl⟩

theorem explicitPoint_ok {m : Mapping} {p : Point} (ha : Exportable p.attrs) (hk : p.agg.dataKind = .hist) (hm : HasMapping m p) :
    ∃ d, explicitPoint m p = some d ∧ HistPointOf p d := by
  obtain ⟨a, h1, h2⟩ := copyAttributes_ok ha
  unfold explicitPoint
  rw [h1]
  cases hagg : p.agg <;> rw [hagg] at hk <;> simp only [Agg.dataKind] at hk <;> try cases hk
  rename_i k h
  obtain ⟨r, hr⟩ := explicitBuckets_some (hm k h hagg)
  simp only [Option.bind_some, hr, Option.map_some]
  refine ⟨_, rfl, rfl, rfl, h2, ?_, ?_⟩
  · intro k h hkv
    rw [hagg] at hkv
    cases hkv
    exact ⟨rfl, statOf_coerced _ _, extremeOf_coerced _ _ _, extremeOf_coerced _ _ _⟩
  · intro k s hkv; rw [hagg] at hkv; cases hkv

theorem toTemporality_of (t : Temporality) : TempoOf t (toTemporality t) := by cases t <;> rfl

theorem copyPoints_ok {m : Mapping} {useExp : Bool} {i : Instrument} {p0 : Point} {ps : List Point} (hi : i.points = p0 :: ps)
    (hu : Uniform i) (hm : useExp = false → ∀ p ∈ i.points, HasMapping m p) :
    ∃ d, copyPoints m useExp p0 i.points = some d ∧ ∀ p ∈ i.points, DataOf useExp p.agg.dataKind p.temporality i.points d := by
  have h0 : p0 ∈ i.points := by rw [hi]; exact List.mem_cons_self
  have hk : ∀ p ∈ i.points, p.agg.dataKind = p0.agg.dataKind := fun p hp => hu.kind p hp p0 h0
  have ht : ∀ p ∈ i.points, p.temporality = p0.temporality := fun p hp => hu.tempo p hp p0 h0
  suffices ∃ d, copyPoints m useExp p0 i.points = some d ∧ DataOf useExp p0.agg.dataKind p0.temporality i.points d by
    obtain ⟨d, h1, h2⟩ := this
    exact ⟨d, h1, fun p hp => by rw [hk p hp, ht p hp]; exact h2⟩
  unfold copyPoints
  dsimp only
  cases hagg : p0.agg <;> dsimp only <;> (rw [hagg] at hk; simp only [Agg.dataKind] at hk ⊢)
  case monotonic =>
    obtain ⟨l, h1, h2⟩ := mapM_pointwise (fun p hp => sumPoint_ok (hu.attrs p hp) (Or.inl (hk p hp)))
    exact ⟨.sum true (toTemporality p0.temporality) l, by rw [h1]; rfl, Or.inl ⟨rfl, rfl⟩, toTemporality_of _, h2⟩
  case nonMonotonic =>
    obtain ⟨l, h1, h2⟩ := mapM_pointwise (fun p hp => sumPoint_ok (hu.attrs p hp) (Or.inr (hk p hp)))
    exact ⟨.sum false (toTemporality p0.temporality) l, by rw [h1]; rfl, Or.inr ⟨rfl, rfl⟩, toTemporality_of _, h2⟩
  case gauge =>
    obtain ⟨l, h1, h2⟩ := mapM_pointwise (fun p hp => gaugePoint_ok (hu.attrs p hp) (hk p hp))
    exact ⟨.gauge l, by rw [h1]; rfl, rfl, h2⟩
  case hist =>
    cases useExp with
    | true =>
      obtain ⟨l, h1, h2⟩ := mapM_pointwise (fun p hp => expPoint_ok (hu.attrs p hp) (hk p hp))
      exact ⟨.exp (toTemporality p0.temporality) l, by rw [h1]; rfl, rfl, rfl, toTemporality_of _, h2⟩
    | false =>
      obtain ⟨l, h1, h2⟩ := mapM_pointwise (fun p hp => explicitPoint_ok (hu.attrs p hp) (hk p hp) (hm rfl p hp))
      exact ⟨.hist (toTemporality p0.temporality) l, by rw [h1]; rfl, Or.inl ⟨rfl, rfl⟩, toTemporality_of _, h2⟩
  case mmsc =>
    obtain ⟨l, h1, h2⟩ := mapM_pointwise (fun p hp => mmscPoint_ok (hu.attrs p hp) (hk p hp))
    exact ⟨.hist (toTemporality p0.temporality) l, by rw [h1]; rfl, Or.inr rfl, toTemporality_of _, h2⟩

theorem copyInstruments_ok {m : Mapping} {useExp : Bool} {is : List Instrument} (hu : ∀ i ∈ is, Uniform i)
    (hm : useExp = false → ∀ i ∈ is, ∀ p ∈ i.points, HasMapping m p) :
    ∃ ms, copyInstruments m useExp is = some ms ∧ Pointwise (MetricOf useExp) (is.filter (fun i => !i.points.isEmpty)) ms := by
  induction is with
  | nil => exact ⟨[], rfl, pointwise_nil _⟩
  | cons i is ih =>
    obtain ⟨ms, h1, h2⟩ := ih (fun x hx => hu x (List.mem_cons_of_mem _ hx)) (fun e x hx => hm e x (List.mem_cons_of_mem _ hx))
    rw [copyInstruments]
    cases hp : i.points with
    | nil => exact ⟨ms, h1, by simpa [hp] using h2⟩
    | cons p0 ps =>
      obtain ⟨d, h3, h4⟩ := copyPoints_ok hp (hu i (List.mem_cons_self)) (fun e => hm e i (List.mem_cons_self))
      rw [hp] at h3
      dsimp only
      rw [h3, h1]
      refine ⟨_, rfl, ?_⟩
      rw [List.filter_cons_of_pos (by simp [hp])]
      exact pointwise_cons ⟨rfl, rfl, rfl, h4⟩ h2

theorem copyScope_ok {m : Mapping} {useExp : Bool} {s : Scope} (hu : ∀ i ∈ s.instruments, Uniform i)
    (hm : useExp = false → ∀ i ∈ s.instruments, ∀ p ∈ i.points, HasMapping m p) :
    ∃ e, copyScope m useExp s = some e ∧ ScopeOf useExp s e := by
  obtain ⟨ms, h1, h2⟩ := copyInstruments_ok hu hm
  exact ⟨_, by rw [copyScope, h1]; rfl, rfl, h2⟩

/-! ### Explicit buckets -/

theorem explicitLoop_pos (lower : Int → Bits) (offset : Int) (e : Nat) (l : List Nat) (he : e ≠ 0) :
    explicitLoop lower offset e l = ((List.range l.length).map (fun (i : Nat) => lower (offset + e + i + 1)), l) := by
  induction l generalizing e with
  | nil => rfl
  | cons c l ih =>
    rw [explicitLoop, ih (e + 1) (by omega)]
    simp only [he, if_false, List.length_cons, List.range_succ_eq_map, List.map_cons, List.map_map, Prod.mk.injEq, List.cons.injEq,
      and_true]
    refine ⟨by congr 1; omega, ?_⟩
    apply List.map_congr_left
    intro i _
    simp only [Function.comp_apply]
    congr 1; omega

theorem explicitLoop_zero (lower : Int → Bits) (offset : Int) (c : Nat) (l : List Nat) :
    explicitLoop lower offset 0 (c :: l) =
      ((List.range (l.length + 2)).map (fun (i : Nat) => lower (offset + i)), 0 :: c :: l) := by
  rw [explicitLoop, explicitLoop_pos _ _ _ _ (by omega)]
  simp only [if_true, List.range_succ_eq_map, List.map_cons, List.map_map, Prod.mk.injEq, List.cons.injEq, and_true]
  refine ⟨by congr 1; omega, by congr 1; omega, ?_⟩
  apply List.map_congr_left
  intro i _
  simp only [Function.comp_apply]
  congr 1; omega

theorem explicitBuckets_eq {m : Mapping} {h : ExpHist} {lower : Int → Bits} (hp : h.pos ≠ []) (hm : m h.scale = some lower) :
    explicitBuckets m h = some (fzero :: (List.range (h.pos.length + 1)).map (fun (i : Nat) => lower (h.posOffset + i)),
      h.zeroCount :: 0 :: h.pos ++ [0]) := by
  unfold explicitBuckets
  cases hl : h.pos with
  | nil => exact absurd hl hp
  | cons c l =>
    rw [hm]
    simp only [List.isEmpty_cons, Bool.false_eq_true, if_false, explicitLoop_zero, List.length_cons]

theorem less_trans {a b c : Bits} (h1 : Less a b) (h2 : Less b c) : Less a c :=
  ⟨h1.1, h2.2.1, Int.lt_trans h1.2.2 h2.2.2⟩

theorem increasing_pairwise {f : Nat → Bits} {n : Nat} (h : ∀ i, i + 1 < n → Less (f i) (f (i + 1))) :
    ((List.range n).map f).Pairwise Less := by
  have key : ∀ i j, i < j → j < n → Less (f i) (f j) := by
    intro i j hij
    induction j with
    | zero => omega
    | succ j ih =>
      intro hj
      by_cases e : i = j
      · subst e; exact h i hj
      · exact less_trans (ih (by omega) (by omega)) (h j hj)
  rw [List.pairwise_map]
  refine (List.pairwise_lt_range (n := n)).imp_of_mem ?_
  intro a b _ hb hab
  exact key a b hab (List.mem_range.1 hb)

end Verif.Export
