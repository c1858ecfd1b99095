import Verif.Model.Instruments
import Verif.Props.Attributes
import Verif.Props.Numbers
import Verif.Props.ViewOptions

/-!
# Instruments: the ways to pass attributes (C67), constructors (C68)
-/

namespace Verif.Props
open Verif Verif.Attr Verif.Front Verif.Views Verif.Instruments Verif.Sync Verif.Number

/-! ## C67 -/

/-- The same value for every key (with the usual identification of zeros inside float slices). -/
def SameContent (l l' : List KV) : Prop := ∀ k, (lastValue k l).map canonVal = (lastValue k l').map canonVal

/-- Cutting keys to the limit does not make two different keys of the list equal. -/
def KeysStayApart (L : Nat) (l : List KV) : Prop := ∀ a ∈ l, ∀ b ∈ l, a.key.take L = b.key.take L → a.key = b.key

theorem truncStr_take (L : Nat) (s : Str) : truncStr L s = s.take L := by
  unfold truncStr
  split
  · rfl
  · rw [List.take_of_length_le (by omega)]

theorem lastValue_none {k : Str} {l : List KV} : lastValue k l = none ↔ ∀ kv ∈ l, kv.key ≠ k := by
  unfold lastValue
  rw [Option.map_eq_none_iff, List.find?_eq_none]
  simp

theorem lastValue_cons (k : Str) (x : KV) (l : List KV) :
    lastValue k (x :: l) = (lastValue k l).or (if x.key = k then some x.val else none) := by
  unfold lastValue
  rw [List.reverse_cons, List.find?_append]
  cases List.find? (fun kv => kv.key == k) l.reverse with
  | some y => simp
  | none => by_cases e : x.key = k <;> simp [e]

theorem lastValue_truncate {L : Nat} (h0 : L ≠ 0) {l : List KV} {k : Str} (hinj : ∀ b ∈ l, b.key.take L = k.take L → b.key = k) :
    lastValue (k.take L) (truncate L l) = (lastValue k l).map (truncVal L) := by
  unfold truncate
  rw [if_neg h0]
  induction l with
  | nil => rfl
  | cons x xs ih =>
    rw [List.map_cons, lastValue_cons, lastValue_cons, ih (fun b hb => hinj b (List.mem_cons_of_mem _ hb))]
    have : (truncStr L x.key = k.take L) ↔ x.key = k := by
      rw [truncStr_take]
      exact ⟨hinj x (List.mem_cons_self ..), fun h => by rw [h]⟩
    cases lastValue k xs with
    | some v => rfl
    | none =>
      simp only [this]
      by_cases hx : x.key = k <;> simp [hx]

theorem canon_trunc (L : Nat) (v : Val) : canonVal (truncVal L v) = truncVal L (canonVal v) := by cases v <;> rfl

theorem canon_idem (v : Val) : canonVal (canonVal v) = canonVal v := by
  cases v <;> simp only [canonVal]
  congr 1
  rw [List.map_map]
  apply List.map_congr_left
  intro x _
  simp only [Function.comp_apply, normFlt]
  split
  · decide
  · simp_all

theorem sameContent_newSet (l : List KV) : SameContent l (newSet l) := by
  intro k
  have h1 : lastValue k (newSet l) = Attr.get k (newSet l) := by
    have hs := newSet_sorted l
    generalize newSet l = m at hs
    induction m with
    | nil => rfl
    | cons x xs ih =>
      rw [lastValue_cons, get_cons, ih hs.2]
      by_cases e : x.key = k
      · rw [if_pos e, if_pos e]
        have : Attr.get k xs = none := by
          unfold Attr.get
          rw [Option.map_eq_none_iff, List.find?_eq_none]
          intro y hy hyk
          have := hs.1 y hy
          rw [beq_iff_eq] at hyk
          rw [hyk, e] at this
          exact str_irrefl _ this
        rw [this]; rfl
      · simp [e]
  rw [h1, get_newSet, Option.map_map]
  cases lastValue k l with
  | none => rfl
  | some v => simp [canon_idem]

/-- **C67** (part). Lists giving the same value to every key denote the same series, whatever the order of the attributes and
their repetition, as long as no two different keys are equal up to the size limit. (No measurement processor.) -/
theorem C67_same_content_partial (i : Inst) (hp : i.proc = none) {l l' : List KV} (h : SameContent l l') (hk : KeysStayApart i.sizeLimit l) :
    newSet (i.attrs l) = newSet (i.attrs l') := by
  unfold Inst.attrs
  rw [hp]
  dsimp only
  generalize i.sizeLimit = L at hk
  apply set_ext (newSet_sorted _) (newSet_sorted _)
  intro k
  rw [get_newSet, get_newSet]
  by_cases h0 : L = 0
  · unfold truncate
    rw [if_pos h0, if_pos h0]; exact h k
  -- the same keys occur
  have keys : ∀ k, (∃ a ∈ l, a.key = k) ↔ ∃ a ∈ l', a.key = k := by
    intro k
    have := h k
    constructor
    · intro hx
      refine Decidable.byContradiction fun hn => ?_
      have h2 : lastValue k l' = none := lastValue_none.2 (fun kv hkv e => hn ⟨kv, hkv, e⟩)
      rw [h2, Option.map_none, Option.map_eq_none_iff] at this
      obtain ⟨a, ha, e⟩ := hx
      exact lastValue_none.1 this a ha e
    · intro hx
      refine Decidable.byContradiction fun hn => ?_
      have h2 : lastValue k l = none := lastValue_none.2 (fun kv hkv e => hn ⟨kv, hkv, e⟩)
      rw [h2, Option.map_none] at this
      have := Option.map_eq_none_iff.1 this.symm
      obtain ⟨a, ha, e⟩ := hx
      exact lastValue_none.1 this a ha e
  by_cases hx : ∃ a ∈ l, a.key.take L = k
  · obtain ⟨a, ha, rfl⟩ := hx
    rw [lastValue_truncate h0 (fun b hb e => hk b hb a ha e), lastValue_truncate h0 (k := a.key) (l := l')]
    · have := h a.key
      rw [Option.map_map, Option.map_map]
      have e : (canonVal ∘ truncVal L) = (truncVal L ∘ canonVal) := funext (canon_trunc L)
      rw [e, ← Option.map_map, ← Option.map_map, this]
    · intro b hb e
      obtain ⟨b', hb', e'⟩ := (keys b.key).2 ⟨b, hb, rfl⟩
      rw [← e'] at e ⊢
      exact hk b' hb' a ha e
  · have n1 : lastValue k (truncate L l) = none := by
      rw [lastValue_none]
      intro kv hkv e
      unfold truncate at hkv
      rw [if_neg h0, List.mem_map] at hkv
      obtain ⟨a, ha, rfl⟩ := hkv
      simp only [truncStr_take] at e
      exact hx ⟨a, ha, e⟩
    have n2 : lastValue k (truncate L l') = none := by
      rw [lastValue_none]
      intro kv hkv e
      unfold truncate at hkv
      rw [if_neg h0, List.mem_map] at hkv
      obtain ⟨a, ha, rfl⟩ := hkv
      simp only [truncStr_take] at e
      obtain ⟨b, hb, e'⟩ := (keys a.key).2 ⟨a, ha, rfl⟩
      exact hx ⟨b, hb, by rw [e']; exact e⟩
    rw [n1, n2]

theorem fastConfig_list (l : List KV) : (fastConfig l).list = l := by
  cases l <;> rfl

/-- **C67** (part). `AddWithKeyValues(attributes)`, and `Add` with options carrying the same attributes split in any way, denote
the same series, under the same condition. -/
theorem C67_paths_agree_partial (i : Inst) (hp : i.proc = none) (opts : List (List KV)) (hk : KeysStayApart i.sizeLimit opts.flatten) :
    newSet (i.attrs (fastConfig opts.flatten).list) = newSet (i.attrs (optionConfig opts).list) := by
  rw [fastConfig_list]
  exact C67_same_content_partial i hp (sameContent_newSet _) hk

/-- **C67** (part). With different keys the order of the attributes makes no difference, under the same condition. -/
theorem C67_order_partial (i : Inst) (hp : i.proc = none) {l l' : List KV} (h : l.Perm l') (hn : (l.map (·.key)).Nodup)
    (hk : KeysStayApart i.sizeLimit l) : newSet (i.attrs (fastConfig l).list) = newSet (i.attrs (fastConfig l').list) := by
  rw [fastConfig_list, fastConfig_list]
  refine C67_same_content_partial i hp ?_ hk
  intro k
  congr 1
  have once : ∀ m : List KV, (m.map (·.key)).Nodup → ∀ a ∈ m, lastValue a.key m = some a.val := by
    intro m
    induction m with
    | nil => intro _ a ha; cases ha
    | cons x xs ih =>
      intro hm a ha
      rw [List.map_cons, List.nodup_cons] at hm
      rw [lastValue_cons]
      rcases List.mem_cons.1 ha with e | ha'
      · subst e
        have : lastValue a.key xs = none := lastValue_none.2 (fun kv hkv e => hm.1 (e ▸ List.mem_map_of_mem hkv))
        simp [this]
      · rw [ih hm.2 a ha']; rfl
  by_cases hx : ∃ a ∈ l, a.key = k
  · obtain ⟨a, ha, rfl⟩ := hx
    rw [once l hn a ha, once l' ((h.map (fun x : KV => x.key)).nodup_iff.1 hn) a (h.mem_iff.1 ha)]
  · rw [lastValue_none.2 (fun kv hkv e => hx ⟨kv, hkv, e⟩), lastValue_none.2 (fun kv hkv e => hx ⟨kv, h.mem_iff.2 hkv, e⟩)]

section
variable {S : Type} {farm : Str → UInt64} {u : Setup S} {n0 : Nat} {s : State (List KV) (List KV) Bits S}

/-- **C67** (part, as reported). Two calls on an instrument, one made with a list of attributes, the other with options carrying
the same attributes: wherever a view reports both, it reports them in the same series, overflow series aside. -/
theorem C67_reported_together_partial (hr : Reachable (realCfg farm u) n0 s) (hic : u.ignoreColl = false) (i : Inst) (hp : i.proc = none)
    (opts : List (List KV)) (hk : KeysStayApart i.sizeLimit opts.flatten) (a b : Nat)
    (ha : (s.op a).attrs = i.attrs (fastConfig opts.flatten).list) (hb : (s.op b).attrs = i.attrs (optionConfig opts).list)
    (e e' : Emit (List KV) S) (he : e ∈ s.emits) (he' : e' ∈ s.emits) (hl : e.leaf = e'.leaf) (sq sq' : Nat)
    (hia : (a, sq) ∈ e.ops) (hib : (b, sq') ∈ e'.ops)
    (ho : ∀ k, k = e.key ∨ k = e'.key → k ≠ overflowSet ∧ k ≠ applyKeysFilter (u.keys e.leaf) overflowSet) : e.key = e'.key := by
  have h1 := C03_attribution_real hr hic e he a sq hia
  have h2 := C03_attribution_real hr hic e' he' b sq' hib
  have o1 := ho _ (Or.inl rfl)
  have o2 := ho _ (Or.inr rfl)
  rcases h1 with h1 | h1 | h1
  · rcases h2 with h2 | h2 | h2
    · rw [h1, h2, ha, hb, hl, C67_paths_agree_partial i hp opts hk]
    · exact absurd h2 o2.1
    · rw [← hl] at h2; exact absurd h2 o2.2
  · exact absurd h1 o1.1
  · exact absurd h1 o1.2
end

/-- **C67** (part, observables). An observation made with options denotes the series a call with the list of all their attributes
would denote, under the same condition. -/
theorem C67_observable_partial (L : Nat) (opts : List (List KV)) (hk : KeysStayApart L opts.flatten) :
    asyncSet L opts = newSet (truncate L opts.flatten) :=
  (C67_paths_agree_partial { id := 0, kind := .asyncCounter, num := .int64, sizeLimit := L, proc := none } rfl opts hk).symm.trans
    (by rw [fastConfig_list]; rfl)

/-- A counter with a size limit of four bytes. -/
def exCounter : Inst := { id := 0, kind := .syncCounter, num := .int64, sizeLimit := 4, proc := none }

/-- **C67** (fails). When keys become equal by truncation, the same attributes denote different series depending on how they are passed:
the list keeps the value given last, the options the value of the greater key. -/
theorem C67_paths_agree_fails : ∃ (l : List KV), (l.map (·.key)).Nodup ∧
    newSet (exCounter.attrs (fastConfig l).list) ≠ newSet (exCounter.attrs (optionConfig [l]).list) :=
  ⟨[⟨lit "route2", .int 2⟩, ⟨lit "route1", .int 1⟩], by decide +kernel, by decide +kernel⟩

/-- **C67** (fails). Likewise the order of attributes with different keys then makes a difference. -/
theorem C67_order_fails : ∃ (l l' : List KV), l.Perm l' ∧ (l.map (·.key)).Nodup ∧
    newSet (exCounter.attrs (fastConfig l).list) ≠ newSet (exCounter.attrs (fastConfig l').list) :=
  ⟨[⟨lit "route2", .int 2⟩, ⟨lit "route1", .int 1⟩], [⟨lit "route1", .int 1⟩, ⟨lit "route2", .int 2⟩],
    List.Perm.swap _ _ _, by decide +kernel, by decide +kernel⟩

/-- **C67** (fails). Lists denoting the same series need not share a record, so one series can count several times towards the
instrument's cardinality limit. -/
theorem C67_one_record_fails {S : Type} (farm : Str → UInt64) (u : Setup S) (hic : u.ignoreColl = false) : ∃ (a b : List KV),
    a.Perm b ∧ newSet (exCounter.attrs (fastConfig a).list) = newSet (exCounter.attrs (fastConfig b).list) ∧
    ∀ (s : State (List KV) (List KV) Bits S) (o : Nat), (∀ r ∈ s.table o, (s.recs r).attrs = exCounter.attrs (fastConfig a).list) →
      findRead (realCfg farm u) s o (exCounter.attrs (fastConfig b).list) = none := by
  refine ⟨[⟨lit "a", .int 1⟩, ⟨lit "b", .int 2⟩], [⟨lit "b", .int 2⟩, ⟨lit "a", .int 1⟩], List.Perm.swap _ _ _, by decide +kernel, ?_⟩
  intro s o h
  unfold findRead
  rw [if_neg (by simp [realCfg, hic]), List.find?_eq_none]
  intro x hx
  simp only [chain, List.mem_filter] at hx
  rw [h x hx.1]
  simp only [realCfg]
  decide +kernel

/-- C67: repeated keys, any split; the limit cuts keys and values. -/
example : let opts : List (List KV) := [[⟨lit "user_id", .str (lit "alice")⟩, ⟨lit "zone", .int 1⟩], [], [⟨lit "user_id", .str (lit "bobby")⟩]]
    newSet (exCounter.attrs (fastConfig opts.flatten).list) = [⟨lit "user", .str (lit "bobb")⟩, ⟨lit "zone", .int 1⟩] ∧
    newSet (exCounter.attrs (optionConfig opts).list) = [⟨lit "user", .str (lit "bobb")⟩, ⟨lit "zone", .int 1⟩] := by decide +kernel
example : KeysStayApart 4 [⟨lit "user_id", .str (lit "alice")⟩, ⟨lit "zone", .int 1⟩, ⟨lit "user_id", .str (lit "bobby")⟩] := by
  unfold KeysStayApart; decide +kernel

/-! ## C68 -/

/-- What the API documentation says of the output of an instrument. -/
inductive Output where
  | monotonicSum | sum | gauge | histogram
deriving DecidableEq

/-- Whether the output of an instrument is of that sort. -/
def Output.is : Output → AggKind → Prop
  | .monotonicSum, k => k = .monoSum
  | .sum, k => k = .nonMonoSum
  | .gauge, k => k = .gauge
  | .histogram, k => k = .histogram

/-- The documented behavior of each constructor: number type, output, whether negative values are allowed, and whether values come from callbacks. -/
structure Promise where
  num : Number.Kind
  output : Output
  negative : Bool
  observed : Bool

def promise : Ctor → Promise
  | .int64Counter => ⟨.int64, .monotonicSum, false, false⟩
  | .float64Counter => ⟨.float64, .monotonicSum, false, false⟩
  | .int64UpDownCounter => ⟨.int64, .sum, true, false⟩
  | .float64UpDownCounter => ⟨.float64, .sum, true, false⟩
  | .int64Gauge => ⟨.int64, .gauge, true, false⟩
  | .float64Gauge => ⟨.float64, .gauge, true, false⟩
  | .int64Histogram => ⟨.int64, .histogram, false, false⟩
  | .float64Histogram => ⟨.float64, .histogram, false, false⟩
  | .int64ObservableCounter => ⟨.int64, .monotonicSum, true, true⟩
  | .float64ObservableCounter => ⟨.float64, .monotonicSum, true, true⟩
  | .int64ObservableUpDownCounter => ⟨.int64, .sum, true, true⟩
  | .float64ObservableUpDownCounter => ⟨.float64, .sum, true, true⟩
  | .int64ObservableGauge => ⟨.int64, .gauge, true, true⟩
  | .float64ObservableGauge => ⟨.float64, .gauge, true, true⟩

/-- The kinds of instruments whose values come from callbacks. -/
def FromCallbacks (k : IKind) : Prop := k = .asyncCounter ∨ k = .asyncUpDownCounter ∨ k = .asyncGauge

/-- **C68** (output). A reader without views and hints: an instrument made by any constructor has one output metric, with the name and unit
given, of the constructor's number type and documented sort, without key filter, fed by callbacks exactly if the constructor is of an observable
instrument. -/
theorem C68_output {H : Type} [DecidableEq H] (x : Ext H) (zero : H) (reader : Str) (limit : Nat) (lib : Views.Scope) (ds : List Desc)
    (c : Ctor) (name description unit : Str) (hn : ¬ (123 : UInt8) ∈ description) :
    let v := readerViews x zero reader limit []
    let r := compile x v lib (registerAll x v lib State.new ds) (c.desc name description unit)
    r.2.1.length = 1 ∧ ∃ l, WritesAt r 0 l ∧ l.desc.name = name ∧ l.desc.unit = unit ∧ l.desc.num = (promise c).num ∧
      (promise c).output.is l.kind ∧ l.keys = none ∧ (FromCallbacks l.desc.kind ↔ (promise c).observed = true) := by
  intro v r
  have hd := fun k => (C66_defaults x zero reader limit [] k)
  have h := (C26_defaults x v lib ds (c.desc name description unit) hn (by
    intro cl hcl
    have : v.clauses = [] := by
      have := (C66_clauses x zero reader limit []).1
      exact List.length_eq_zero_iff.1 this
    rw [this] at hcl; cases hcl)).2
  have hagg : v.defaults.agg (c.desc name description unit).kind = standardAgg (c.desc name description unit).kind := by
    have := (hd (c.desc name description unit).kind).1
    rw [this]
    cases c <;> rfl
  rw [hagg] at h
  obtain ⟨h1, l, hw, a1, a2, a3, a4, a5, _, a6⟩ := h (by cases c <;> exact (fun h => by cases h))
  refine ⟨h1, l, hw, a1, a2, ?_, ?_, a4, ?_⟩
  · rw [a3]; cases c <;> rfl
  · have := a6 (by cases c <;> simp [Ctor.desc, Ctor.kinds, standardAgg, Legal])
    rw [this]
    cases c <;> rfl
  · have e : FromCallbacks l.desc.kind ↔ l.desc.kind.synchronous = false := by
      unfold FromCallbacks
      cases l.desc.kind <;> simp [IKind.synchronous]
    rw [e, a5]
    cases c <;> simp [Ctor.desc, Ctor.kinds, IKind.synchronous, promise]

/-- **C68** (values). A finite value is refused exactly if it is negative and the instrument does not allow that; NaN and infinities always. -/
theorem C68_values (c : Ctor) (name description unit : Str) (b : Bits) :
    let d := c.desc name description unit
    rangeTest d.num b d.kind = true ↔
      match (promise c).num with
      | .int64 => (promise c).negative = true ∨ 0 ≤ b.toInt
      | .float64 => Finite b ∧ ((promise c).negative = true ∨ 0 ≤ scaled b) := by
  intro d
  have h := C09_range_test d.num d.kind b
  have h' : rangeTest d.num b d.kind = true ↔ ¬ Rejected d.num d.kind b := by
    rw [← h]; cases rangeTest d.num b d.kind <;> simp
  rw [h']
  unfold Rejected
  cases c <;> simp [d, Ctor.desc, Ctor.kinds, promise]
  all_goals
    by_cases hf : Finite b <;> simp [hf] <;> omega

/-- C68: an up-down counter beside another instrument, and a negative float. -/
example : (let v := readerViews ViewEx.x 0 (lit "r") 0 []
    let d := Ctor.float64UpDownCounter.desc (lit "queue") (lit "items") (lit "1")
    let r := compile ViewEx.x v ViewEx.lib (registerAll ViewEx.x v ViewEx.lib State.new [Ctor.int64Gauge.desc (lit "g") [] []]) d
    r.2.1.length = 1 ∧ r.1.collectors.map (fun l => (l.desc.name, l.desc.num, l.kind)) =
      [(lit "g", .int64, .gauge), (lit "queue", .float64, .nonMonoSum)] ∧
    rangeTest d.num 0xbff0000000000000 d.kind = true ∧
    rangeTest (Ctor.float64Counter.desc [] [] []).num 0xbff0000000000000 (Ctor.float64Counter.desc [] [] []).kind = false) := by
  decide +kernel

end Verif.Props
