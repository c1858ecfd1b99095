import Verif.Proof.AsyncSent
import Verif.Proof.AsyncProgram
import Verif.Examples.PipelineCfg

/-!
C75: what callbacks observe is what is sent.
-/

namespace Verif.Props
open Verif Verif.Attr Verif.Number Verif.Export Verif.Async Verif.AsyncPipeline
open Verif.Pipeline (Reader Out Only numbers pointsIn sentPoints ints NoEmptyList PayloadFor attrsOf_inj)
variable {H : Type} {u : AsyncPipeline.Setup} {R : Reader H} {acts : List AsyncPipeline.Act} {x : AsyncPipeline.Sys}

/-- C75 (payloads). Every collection sends exactly one payload, in order; it has the resource's attributes, all scopes in order, and metrics for some of
their output metrics in order, with name, unit, description, sort of data, temporality, number type and times as configured. -/
theorem C75_payloads (hres : Exportable R.resource) (ht : AsyncPipeline.Typed acts) (ho : Orderly u R (AsyncPipeline.initial u) acts)
    (hr : AsyncPipeline.run u R (AsyncPipeline.initial u) acts = some x) (hall : ∀ sc ∈ R.scopes, ∀ o ∈ sc.2, Agrees u o) :
    Pointwise (PayloadFor R u.delta) (collections acts) x.sent := by
  obtain ⟨res, hc, ha⟩ := copyAttributes_ok hres
  have hi := reached hc ha ht ho hr
  exact ⟨by rw [hi.colls, hi.count], fun n q p hq hp => payloadFor hall (hi.sent n q p hq hp)⟩

/-- C75 (cumulative sums and gauges). For every collection in which the observed sets fit: the payload has exactly one point for each attribute set
shown for an observation of this collection, with exactly these attributes, and its value is made of the last value observed, in this collection, for each
instrument and attribute set shown so. -/
theorem C75_cumulative (hres : Exportable R.resource) (ht : AsyncPipeline.Typed acts) (ho : Orderly u R (AsyncPipeline.initial u) acts)
    (hr : AsyncPipeline.run u R (AsyncPipeline.initial u) acts = some x) {lib : Library} {name : Str} {o : Out} (hs : FedOnce u o.leaf) (hon : Only R lib name o)
    (hag : Agrees u o) (hcum : u.delta o.leaf = false ∨ u.gauge o.leaf = true) {n : Nat} (hn : n < (collections acts).length)
    (hf : FitsIn u x.s.log o.leaf n) :
    ∃ p, x.sent[n]? = some p ∧ ∃ ks : List (List KV), ks.Nodup ∧ (∀ k, k ∈ ks ↔ Observed u x.s.log o.leaf n k) ∧
      Pointwise (fun k d => AttrsOf k d.attrs ∧ ∃ v, CumAt u x.s.log o.leaf n k v ∧ NumOf o.num v d.value) ks (pointsIn numbers lib name p) := by
  obtain ⟨res, hc, ha⟩ := copyAttributes_ok hres
  have hA := reached hc ha ht ho hr
  have hi := quiet_inv hA.quiet
  rw [hA.colls] at hn
  have hd : (cfg u).delta o.leaf = false := by
    show (u.delta o.leaf && !u.gauge o.leaf) = false
    rcases hcum with h | h <;> rw [h] <;> simp
  have hb : ∀ k, Storage.has (baseAt (cfg u) x.s n o.leaf) k = false := by
    intro k
    cases h : Storage.has (baseAt (cfg u) x.s n o.leaf) k with
    | false => rfl
    | true => have := (base_ovf h).1; rw [hd] at this; cases this
  obtain ⟨q, hq⟩ : ∃ q, (collections acts)[n]? = some q := ⟨_, List.getElem?_eq_getElem (by rw [hA.colls]; exact hn)⟩
  obtain ⟨p, hp⟩ : ∃ p, x.sent[n]? = some p := ⟨_, List.getElem?_eq_getElem (by rw [hA.count]; exact hn)⟩
  have hex : ∀ l, ∀ e ∈ x.s.out n l, Exportable e.1 := fun l e he => seen_exportable hi hA.log hn (out_sub_seen hi hn he)
  have hpts := built_points hon hag hex (hA.sent n q p hq hp)
  have hout := hi.out n o.leaf hn
  rw [hd] at hout
  have hout : x.s.out n o.leaf = x.s.seen n o.leaf := hout
  rw [hout] at hpts
  have hnd := (hi.past n o.leaf hn).nodup
  refine ⟨p, hp, (x.s.seen n o.leaf).map (·.1), hnd, ?_, ?_⟩
  · intro k
    rw [← has_iff]
    exact seen_iff hi hn hf hb k
  · refine pointwise_keys (Pipeline.pointwise_imp hpts ?_)
    intro e d he h
    exact ⟨h.1, e.2, seen_value hi hs hn hf hb (find_of_mem hnd he), h.2⟩

/-- C75 (gauges). The value of a gauge observed by one instrument without merging of attribute sets is the last value observed. -/
theorem C75_gauge_value {log : Log} {l n i : Nat} {k : List KV} {v : Bits} (hg : u.gauge l = true) (h : CumAt u log l n k v)
    (hone : ∀ o set y, l ∈ u.leavesOf o → applyKeysFilter (u.keys l) set = k → lastObs log n o set = some y → o = i ∧ set = k) :
    lastObs log n i k = some v := by
  obtain ⟨ps, _, hv, hcomb⟩ := h
  unfold Combines at hcomb
  rw [hg] at hcomb
  dsimp only at hcomb
  obtain ⟨⟨o, set, y⟩, hp, e⟩ := List.mem_map.1 hcomb
  have e : y = v := e
  subst e
  obtain ⟨h1, h2, h3⟩ := (hv.2 o set y).1 hp
  obtain ⟨e1, e2⟩ := hone o set y h1 h2 h3
  rw [← e1, ← e2]
  exact h3

/-- C75 (integer delta sums). When the sets of all collections fit: the payload of every collection has exactly one point for each attribute set shown for
an observation of this collection whose value changed since the collection before or which was not observed in that one; its value is the
difference, or the whole value. -/
theorem C75_delta (hres : Exportable R.resource) (ht : AsyncPipeline.Typed acts) (ho : Orderly u R (AsyncPipeline.initial u) acts)
    (hr : AsyncPipeline.run u R (AsyncPipeline.initial u) acts = some x) {lib : Library} {name : Str} {o : Out} (hs : FedOnce u o.leaf) (hon : Only R lib name o)
    (hag : Agrees u o) (hd : u.delta o.leaf = true) (hg : u.gauge o.leaf = false) (hk : o.num = .int64)
    (hf : ∀ n, n < (collections acts).length → FitsIn u x.s.log o.leaf n)
    (hov : ∀ v ∈ x.s.log, o.leaf ∈ u.leavesOf v.obs → applyKeysFilter (u.keys o.leaf) v.set ≠ overflowSet)
    {n : Nat} (hn : n < (collections acts).length) :
    ∃ p, x.sent[n]? = some p ∧ ∃ ks : List (List KV), ks.Nodup ∧
      (∀ k, k ∈ ks ↔ ∃ v, CumAt u x.s.log o.leaf n k v ∧ ¬ Before u x.s.log o.leaf n k v) ∧
      Pointwise (fun k d => AttrsOf k d.attrs ∧ ∃ v, CumAt u x.s.log o.leaf n k v ∧
        ((∃ b, Before u x.s.log o.leaf n k b ∧ d.value = .int (v - b)) ∨ ((∀ b, ¬ Before u x.s.log o.leaf n k b) ∧ d.value = .int v)))
        ks (pointsIn numbers lib name p) := by
  obtain ⟨res, hc, ha⟩ := copyAttributes_ok hres
  have hA := reached hc ha ht ho hr
  have hi := quiet_inv hA.quiet
  rw [hA.colls] at hn hf
  have hnum : u.num o.leaf = .int64 := by rw [hag.num, hk]
  have hd' : (cfg u).delta o.leaf = true := by
    show (u.delta o.leaf && !u.gauge o.leaf) = true
    rw [hd, hg]; rfl
  have hagg : (cfg u).agg o.leaf = intSum := by
    show (if u.gauge o.leaf then gaugeAgg else sumAgg u.fadd u.fsub (u.num o.leaf)) = _
    rw [hg, hnum]; rfl
  have hb : ∀ m, m < x.s.coll → ∀ k, Storage.has (baseAt (cfg u) x.s m o.leaf) k = false := fun m hm k => delta_base hi hf hov hm k
  obtain ⟨q, hq⟩ : ∃ q, (collections acts)[n]? = some q := ⟨_, List.getElem?_eq_getElem (by rw [hA.colls]; exact hn)⟩
  obtain ⟨p, hp⟩ : ∃ p, x.sent[n]? = some p := ⟨_, List.getElem?_eq_getElem (by rw [hA.count]; exact hn)⟩
  have hex : ∀ l, ∀ e ∈ x.s.out n l, Exportable e.1 := fun l e he => seen_exportable hi hA.log hn (out_sub_seen hi hn he)
  have hpts := built_points hon hag hex (hA.sent n q p hq hp)
  have hout := hi.out n o.leaf hn
  rw [hd', hagg] at hout
  have hout : x.s.out n o.leaf = deltaPoints intSum (prevTable x.s n o.leaf) (x.s.seen n o.leaf) := hout
  rw [hout] at hpts
  have hnd := (hi.past n o.leaf hn).nodup
  -- the table of a collection is what was observed
  have hcum : ∀ m, m < x.s.coll → ∀ k v, Storage.find (x.s.seen m o.leaf) k = some v ↔ CumAt u x.s.log o.leaf m k v := by
    intro m hm k v
    constructor
    · exact seen_value hi hs hm (hf m hm) (hb m hm)
    · intro h
      have hob := (seen_iff hi hm (hf m hm) (hb m hm) k).2 (cumAt_observed h)
      rw [has_eq] at hob
      cases hfi : Storage.find (x.s.seen m o.leaf) k with
      | none => rw [hfi] at hob; cases hob
      | some w => rw [cumAt_unique hg hnum h (seen_value hi hs hm (hf m hm) (hb m hm) hfi)]
  have hbef : ∀ k b, Storage.find (prevTable x.s n o.leaf) k = some b ↔ Before u x.s.log o.leaf n k b := by
    intro k b
    cases n with
    | zero =>
      constructor
      · intro h; cases h
      · rintro ⟨m, e, _⟩; cases e
    | succ m =>
      constructor
      · intro h; exact ⟨m, rfl, (hcum m (by omega) k b).1 h⟩
      · rintro ⟨m', e, h⟩
        cases e
        exact (hcum m (by omega) k b).2 h
  refine ⟨p, hp, (deltaPoints intSum (prevTable x.s n o.leaf) (x.s.seen n o.leaf)).map (·.1), delta_keys hnd, ?_, ?_⟩
  · intro k
    constructor
    · intro h
      obtain ⟨⟨k', w⟩, hm, e⟩ := List.mem_map.1 h
      have e : k' = k := e
      subst e
      obtain ⟨v, hv, h1⟩ := mem_delta.1 hm
      refine ⟨v, (hcum n hn _ _).1 (find_of_mem hnd hv), ?_⟩
      intro hbv
      rcases h1 with ⟨h1, _⟩ | ⟨b, h1, h2, _⟩
      · rw [(hbef _ _).2 hbv] at h1; cases h1
      · rw [(hbef _ _).2 hbv] at h1
        cases h1
        simp [intSum] at h2
    · rintro ⟨v, h1, h2⟩
      have hv := (hcum n hn k v).2 h1
      refine List.mem_map.2 ?_
      cases hpr : Storage.find (prevTable x.s n o.leaf) k with
      | none => exact ⟨(k, v), mem_delta.2 ⟨v, mem_of_find hv, .inl ⟨hpr, rfl⟩⟩, rfl⟩
      | some b =>
        refine ⟨(k, v - b), mem_delta.2 ⟨v, mem_of_find hv, .inr ⟨b, hpr, ?_, rfl⟩⟩, rfl⟩
        simp only [intSum, bne_iff_ne, ne_eq]
        intro e
        have : v = b := by
          have h3 : v - b + b = v := BitVec.sub_add_cancel v b
          rw [e] at h3
          rw [← h3]; exact BitVec.zero_add b
        rw [this] at h2
        exact h2 ((hbef _ _).1 hpr)
  · refine pointwise_keys (Pipeline.pointwise_imp hpts ?_)
    rintro ⟨k, w⟩ d he ⟨h1, h2⟩
    obtain ⟨v, hv, h3⟩ := mem_delta.1 he
    rw [hk] at h2
    have h2 : d.value = .int w := h2
    refine ⟨h1, v, (hcum n hn _ _).1 (find_of_mem hnd hv), ?_⟩
    rcases h3 with ⟨h3, rfl⟩ | ⟨b, h3, _, rfl⟩
    · right
      refine ⟨?_, h2⟩
      intro b hbb
      rw [(hbef _ _).2 hbb] at h3
      cases h3
    · exact .inl ⟨b, (hbef _ _).1 h3, h2⟩

/-- The two zeros of `float64`. -/
def FloatZero (b : Bits) : Prop := b = 0 ∨ b = 0x8000000000000000

theorem floatZero_iff (fadd : Bits → Bits → Bits) (b : Bits) : (fltOps fadd).nonzero b = false ↔ FloatZero b := by
  show (isNaN b || Number.key b != 0) = false ↔ _
  constructor
  · intro h
    rw [Bool.or_eq_false_iff] at h
    have hk : Number.key b = 0 := by simpa using h.2
    unfold Number.key at hk
    have hlt := b.isLt
    split at hk
    · rename_i hn
      simp only [neg, decide_eq_true_eq] at hn
      right
      apply BitVec.eq_of_toNat_eq
      show b.toNat = 2 ^ 63
      omega
    · left
      apply BitVec.eq_of_toNat_eq
      show b.toNat = 0
      omega
  · rintro (rfl | rfl) <;> decide +kernel

/-- C75 (float delta sums). When the sets of all collections fit: each point of the payload is for a series of this collection; its value is the float
difference of its cumulative value and the one in the collection before, and is not zero, or its whole value when it was not observed in that one; a series of
this collection without a point has a zero difference. (The order in which the values of merged series are added is not determined.) -/
theorem C75_delta_float (hres : Exportable R.resource) (ht : AsyncPipeline.Typed acts) (ho : Orderly u R (AsyncPipeline.initial u) acts)
    (hr : AsyncPipeline.run u R (AsyncPipeline.initial u) acts = some x) {lib : Library} {name : Str} {o : Out} (hs : FedOnce u o.leaf) (hon : Only R lib name o)
    (hag : Agrees u o) (hd : u.delta o.leaf = true) (hg : u.gauge o.leaf = false) (hk : o.num = .float64)
    (hf : ∀ n, n < (collections acts).length → FitsIn u x.s.log o.leaf n)
    (hov : ∀ v ∈ x.s.log, o.leaf ∈ u.leavesOf v.obs → applyKeysFilter (u.keys o.leaf) v.set ≠ overflowSet)
    {n : Nat} (hn : n < (collections acts).length) :
    ∃ p, x.sent[n]? = some p ∧ ∃ ks : List (List KV), ks.Nodup ∧ (∀ k ∈ ks, Observed u x.s.log o.leaf n k) ∧
      (∀ k, Observed u x.s.log o.leaf n k → k ∉ ks →
        ∃ v b, CumAt u x.s.log o.leaf n k v ∧ Before u x.s.log o.leaf n k b ∧ FloatZero (u.fsub v b)) ∧
      Pointwise (fun k d => AttrsOf k d.attrs ∧ ∃ v, CumAt u x.s.log o.leaf n k v ∧
        ((∃ b, Before u x.s.log o.leaf n k b ∧ ¬ FloatZero (u.fsub v b) ∧ d.value = .double (u.fsub v b)) ∨
          ((∀ b, ¬ Before u x.s.log o.leaf n k b) ∧ d.value = .double v)))
        ks (pointsIn numbers lib name p) := by
  obtain ⟨res, hc, ha⟩ := copyAttributes_ok hres
  have hA := reached hc ha ht ho hr
  have hi := quiet_inv hA.quiet
  rw [hA.colls] at hn hf
  have hnum : u.num o.leaf = .float64 := by rw [hag.num, hk]
  have hd' : (cfg u).delta o.leaf = true := by
    show (u.delta o.leaf && !u.gauge o.leaf) = true
    rw [hd, hg]; rfl
  have hagg : (cfg u).agg o.leaf = sumAgg u.fadd u.fsub .float64 := by
    show (if u.gauge o.leaf then gaugeAgg else sumAgg u.fadd u.fsub (u.num o.leaf)) = _
    rw [hg, hnum]; rfl
  have hsub : ∀ p v, (sumAgg u.fadd u.fsub .float64).sub p v = u.fsub v p := fun _ _ => rfl
  have hch : ∀ w, (sumAgg u.fadd u.fsub .float64).hasChange w = (fltOps u.fadd).nonzero w := fun _ => rfl
  have hb : ∀ m, m < x.s.coll → ∀ k, Storage.has (baseAt (cfg u) x.s m o.leaf) k = false := fun m hm k => delta_base hi hf hov hm k
  obtain ⟨q, hq⟩ : ∃ q, (collections acts)[n]? = some q := ⟨_, List.getElem?_eq_getElem (by rw [hA.colls]; exact hn)⟩
  obtain ⟨p, hp⟩ : ∃ p, x.sent[n]? = some p := ⟨_, List.getElem?_eq_getElem (by rw [hA.count]; exact hn)⟩
  have hex : ∀ l, ∀ e ∈ x.s.out n l, Exportable e.1 := fun l e he => seen_exportable hi hA.log hn (out_sub_seen hi hn he)
  have hpts := built_points hon hag hex (hA.sent n q p hq hp)
  have hout := hi.out n o.leaf hn
  rw [hd', hagg] at hout
  have hout : x.s.out n o.leaf = deltaPoints (sumAgg u.fadd u.fsub .float64) (prevTable x.s n o.leaf) (x.s.seen n o.leaf) := hout
  rw [hout] at hpts
  have hnd := (hi.past n o.leaf hn).nodup
  have hcum : ∀ m, m < x.s.coll → ∀ k v, Storage.find (x.s.seen m o.leaf) k = some v → CumAt u x.s.log o.leaf m k v :=
    fun m hm k v => seen_value hi hs hm (hf m hm) (hb m hm)
  have hsome : ∀ m, m < x.s.coll → ∀ k, Observed u x.s.log o.leaf m k → ∃ v, Storage.find (x.s.seen m o.leaf) k = some v := by
    intro m hm k h
    have hob := (seen_iff hi hm (hf m hm) (hb m hm) k).2 h
    rw [has_eq] at hob
    exact Option.isSome_iff_exists.1 hob
  have hbef : ∀ k b, Storage.find (prevTable x.s n o.leaf) k = some b → Before u x.s.log o.leaf n k b := by
    intro k b h
    cases n with
    | zero => cases h
    | succ m => exact ⟨m, rfl, hcum m (by omega) k b h⟩
  have hnobef : ∀ k, Storage.find (prevTable x.s n o.leaf) k = none → ∀ b, ¬ Before u x.s.log o.leaf n k b := by
    rintro k h b ⟨m, rfl, h1⟩
    obtain ⟨v, hv⟩ := hsome m (by omega) k (cumAt_observed h1)
    have h : Storage.find (x.s.seen m o.leaf) k = none := h
    rw [hv] at h
    cases h
  refine ⟨p, hp, (deltaPoints (sumAgg u.fadd u.fsub .float64) (prevTable x.s n o.leaf) (x.s.seen n o.leaf)).map (·.1), delta_keys hnd, ?_, ?_, ?_⟩
  · intro k h
    obtain ⟨⟨k', w⟩, hm, e⟩ := List.mem_map.1 h
    have e : k' = k := e
    subst e
    obtain ⟨v, hv, _⟩ := mem_delta.1 hm
    exact cumAt_observed (hcum n hn _ _ (find_of_mem hnd hv))
  · intro k hob hnk
    obtain ⟨v, hv⟩ := hsome n hn k hob
    cases hpr : Storage.find (prevTable x.s n o.leaf) k with
    | none => exact absurd (List.mem_map.2 ⟨(k, v), mem_delta.2 ⟨v, mem_of_find hv, .inl ⟨hpr, rfl⟩⟩, rfl⟩) hnk
    | some b =>
      refine ⟨v, b, hcum n hn k v hv, hbef k b hpr, ?_⟩
      rw [← floatZero_iff u.fadd]
      cases hz : (fltOps u.fadd).nonzero (u.fsub v b) with
      | false => rfl
      | true => exact absurd (List.mem_map.2 ⟨(k, u.fsub v b), mem_delta.2 ⟨v, mem_of_find hv, .inr ⟨b, hpr, hz, rfl⟩⟩, rfl⟩) hnk
  · refine pointwise_keys (Pipeline.pointwise_imp hpts ?_)
    rintro ⟨k, w⟩ d he ⟨h1, h2⟩
    obtain ⟨v, hv, h3⟩ := mem_delta.1 he
    rw [hk] at h2
    have h2 : d.value = .double w := h2
    refine ⟨h1, v, hcum n hn _ _ (find_of_mem hnd hv), ?_⟩
    rcases h3 with ⟨h3, rfl⟩ | ⟨b, h3, h4, rfl⟩
    · exact .inr ⟨hnobef k h3, h2⟩
    · refine .inl ⟨b, hbef k b h3, ?_, h2⟩
      rw [← floatZero_iff u.fadd]
      rw [hch, hsub] at h4
      rw [h4]
      simp

/-- C75 (delta totals). If moreover a series has been observed in every collection since its first one, all values sent for it add up to its last
cumulative value. -/
theorem C75_delta_total (hres : Exportable R.resource) (ht : AsyncPipeline.Typed acts) (ho : Orderly u R (AsyncPipeline.initial u) acts)
    (hr : AsyncPipeline.run u R (AsyncPipeline.initial u) acts = some x) {lib : Library} {name : Str} {o : Out} (hs : FedOnce u o.leaf) (hon : Only R lib name o)
    (hag : Agrees u o) (hd : u.delta o.leaf = true) (hg : u.gauge o.leaf = false) (hk : o.num = .int64)
    (hf : ∀ n, n < (collections acts).length → FitsIn u x.s.log o.leaf n)
    (hov : ∀ v ∈ x.s.log, o.leaf ∈ u.leavesOf v.obs → applyKeysFilter (u.keys o.leaf) v.set ≠ overflowSet)
    {k : List KV} (hne : NoEmptyList k) {a m : Nat} (hm : (collections acts).length = m + 1) (ham : a ≤ m)
    (hno : ∀ n, n < a → ¬ Observed u x.s.log o.leaf n k) (hobs : ∀ n, a ≤ n → n ≤ m → Observed u x.s.log o.leaf n k)
    {v : Bits} (hv : CumAt u x.s.log o.leaf m k v) :
    Verif.Spec.total64 (ints ((sentPoints numbers lib name x.sent).filter (fun d => @decide (AttrsOf k d.attrs) (Classical.propDecidable _)))) = v := by
  obtain ⟨res, hc, ha⟩ := copyAttributes_ok hres
  have hA := reached hc ha ht ho hr
  have hi := quiet_inv hA.quiet
  rw [hA.colls] at hf hm
  have hnum : u.num o.leaf = .int64 := by rw [hag.num, hk]
  have hd' : (cfg u).delta o.leaf = true := by
    show (u.delta o.leaf && !u.gauge o.leaf) = true
    rw [hd, hg]; rfl
  have hagg : (cfg u).agg o.leaf = intSum := by
    show (if u.gauge o.leaf then gaugeAgg else sumAgg u.fadd u.fsub (u.num o.leaf)) = _
    rw [hg, hnum]; rfl
  have hb : ∀ m, m < x.s.coll → ∀ k, Storage.has (baseAt (cfg u) x.s m o.leaf) k = false := fun m hm k => delta_base hi hf hov hm k
  have hcobs : ∀ n, n < x.s.coll → (cumulative x.s n o.leaf k ≠ none ↔ Observed u x.s.log o.leaf n k) := by
    intro n hn
    rw [← seen_iff hi hn (hf n hn) (hb n hn) k, has_eq]
    unfold cumulative
    cases Storage.find (x.s.seen n o.leaf) k <;> simp
  obtain ⟨w, hw1, hw2⟩ := C22_telescopes_partial hA.quiet o.leaf hd' hagg k a m ham (by omega)
    (fun n hn => Classical.byContradiction fun h => hno n hn ((hcobs n (by omega)).1 h))
    (fun n h1 h2 => (hcobs n (by omega)).2 (hobs n h1 h2))
  have hwv : w = v := cumAt_unique hg hnum (seen_value hi hs (by omega) (hf m (by omega)) (hb m (by omega)) hw1) hv
  have key : ∀ j, j ≤ x.s.coll → Verif.Spec.total64 (ints ((sentPoints numbers lib name (x.sent.take j)).filter
      (fun d => @decide (AttrsOf k d.attrs) (Classical.propDecidable _)))) = totalTo j (deltaOf x.s o.leaf k) := by
    intro j
    induction j with
    | zero => intro _; rfl
    | succ j ih =>
      intro hj
      obtain ⟨q, hq⟩ : ∃ q, (collections acts)[j]? = some q := ⟨_, List.getElem?_eq_getElem (by rw [hA.colls]; omega)⟩
      obtain ⟨p, hp⟩ : ∃ p, x.sent[j]? = some p := ⟨_, List.getElem?_eq_getElem (by rw [hA.count]; omega)⟩
      have hex : ∀ l, ∀ e ∈ x.s.out j l, Exportable e.1 := fun l e he => seen_exportable hi hA.log (by omega) (out_sub_seen hi (by omega) he)
      have hpts := built_points hon hag hex (hA.sent j q p hq hp)
      rw [hk] at hpts
      have hnd : ((x.s.out j o.leaf).map (·.1)).Nodup := by
        have := hi.out j o.leaf (by omega)
        rw [hd'] at this
        rw [this]
        exact delta_keys (hi.past j o.leaf (by omega)).nodup
      have h1 := total_points hne hnd hpts
      rw [List.take_add_one, hp]
      unfold sentPoints at ih ⊢
      rw [List.flatMap_append, List.filter_append]
      unfold ints at ih h1 ⊢
      rw [List.filterMap_append, Aggr.total64_append, ih (by omega)]
      show totalTo j (deltaOf x.s o.leaf k) + Verif.Spec.total64 ((([p].flatMap (pointsIn numbers lib name)).filter _).filterMap _) = totalTo j _ + deltaOf x.s o.leaf k j
      rw [List.flatMap_cons, List.flatMap_nil, List.append_nil, h1]
      rfl
  have hlen := hA.count
  have := key (m + 1) (by omega)
  rw [List.take_of_length_le (by omega), hw2, hwv] at this
  exact this

/-- C75 (programs). Callbacks which observe one after the other may do so freely: each such program runs, for some order in which the results of
each collection are taken; and whenever it runs, it meets the condition of the theorems above, its collections are the given ones, and the log is what the
callbacks observed with declared, enabled instruments and values in range. -/
theorem C75_programs :
    (∀ todo : List (List CbRun × Times.Seq), ∃ prog : Program, prog.map (fun c => (c.1, c.2.2)) = todo ∧
      ∃ x, AsyncPipeline.run u R (AsyncPipeline.initial u) (progActs u 0 0 prog) = some x) ∧
    ∀ (prog : Program) (x : AsyncPipeline.Sys), AsyncPipeline.run u R (AsyncPipeline.initial u) (progActs u 0 0 prog) = some x →
      Orderly u R (AsyncPipeline.initial u) (progActs u 0 0 prog) ∧ collections (progActs u 0 0 prog) = prog.map (fun c => c.2.2) ∧
      x.s.log.map (fun v => (v.coll, v.obs, v.set, v.val)) = made u 0 prog := by
  refine ⟨fun todo => ?_, fun prog x hr => ?_⟩
  · obtain ⟨prog, h1, h2⟩ := prog_runs (u := u) (R := R) todo Rest.initial
    exact ⟨prog, h1, Option.isSome_iff_exists.1 h2⟩
  · obtain ⟨h1, h2⟩ := run_prog (R := R) prog Rest.initial hr
    exact ⟨h1, collections_prog prog 0 0, h2⟩

section Example
open Verif.Examples Verif.Examples.Pipe

/-- Instrument 0 is an integer counter feeding output metrics 0 (cumulative, of key `a` only) and 1 (delta); instrument 1 a float gauge feeding 2, for which
delta temporality is configured. -/
def c75Setup : AsyncPipeline.Setup where
  inst := fun o => if o = 0 then { id := 0, kind := .asyncCounter, num := .int64, sizeLimit := 100, proc := none }
    else { id := 1, kind := .asyncGauge, num := .float64, sizeLimit := 100, proc := none }
  leavesOf := fun o => if o = 0 then [0, 1] else if o = 1 then [2] else []
  keys := fun l => if l = 0 then some [[97]] else none
  lim := fun _ => 4
  delta := fun l => l = 1 || l = 2
  gauge := fun l => l = 2
  num := fun l => if l = 2 then .float64 else .int64
  fadd := fun a _ => a
  fsub := fun a _ => a

def c75Reader : Reader Nat :=
  { rd with scopes := [(lib, [out 0 .int64 .monotonic, out 1 .int64 .monotonic, out 2 .float64 .gauge])] }

/-- Two callbacks, three collections. In the first, the second observation of a set replaces the first, and an instrument which was not declared and an
infinite value are ignored. -/
def c75Todo : List (List CbRun × Times.Seq) :=
  [([⟨[0], [(0, [kvb 97 true], 3), (0, [kvb 97 true], 7), (0, [kvb 98 true, kvb 97 true], 5), (1, [], 1)]⟩, ⟨[1], [(1, [], 0x3ff0000000000000), (1, [], 0x7ff0000000000000)]⟩],
      ⟨1, 1, 2⟩),
    ([⟨[0], [(0, [kvb 97 true], 10), (0, [kvb 97 true, kvb 98 true], 5)]⟩], ⟨1, 2, 3⟩),
    ([⟨[0], [(0, [kvb 97 true], 11)]⟩, ⟨[1], [(1, [], 0x4000000000000000)]⟩], ⟨1, 3, 4⟩)]

def c75E (o : Nat) (set : List KV) (keys : List (Nat × List KV)) (v : Bits) : Async.Entry (List KV) Bits := ⟨o, set, keys, v⟩

def c75Prog : Program := List.zipWith (fun c order => (c.1, order, c.2)) c75Todo
  [ [c75E 0 [kvb 97 true, kvb 98 true] [(0, [kvb 97 true]), (1, [kvb 97 true, kvb 98 true])] 5,
      c75E 0 [kvb 97 true] [(0, [kvb 97 true]), (1, [kvb 97 true])] 7, c75E 1 [] [(2, [])] 0x3ff0000000000000],
    [c75E 0 [kvb 97 true] [(0, [kvb 97 true]), (1, [kvb 97 true])] 10,
      c75E 0 [kvb 97 true, kvb 98 true] [(0, [kvb 97 true]), (1, [kvb 97 true, kvb 98 true])] 5],
    [c75E 0 [kvb 97 true] [(0, [kvb 97 true]), (1, [kvb 97 true])] 11, c75E 1 [] [(2, [])] 0x4000000000000000] ]

def c75Acts : List AsyncPipeline.Act := progActs c75Setup 0 0 c75Prog

/-- The static hypotheses. -/
example : Exportable c75Reader.resource ∧ AsyncPipeline.Typed c75Acts ∧ (∀ l, FedOnce c75Setup l) ∧ (∀ sc ∈ c75Reader.scopes, ∀ o ∈ sc.2, Agrees c75Setup o) ∧
    (∀ o ∈ [out 0 .int64 .monotonic, out 1 .int64 .monotonic, out 2 .float64 .gauge], Only c75Reader lib o.name o) ∧
    c75Prog.map (fun c => (c.1, c.2.2)) = c75Todo := by
  refine ⟨by unfold Exportable; decide, ?_, ?_, ?_, ?_, rfl⟩
  · intro cb o as v h kv hkv
    have hd : ∀ a ∈ c75Acts, (match a with | .cb (.observe _ _ as _) => as.all (fun kv => decide (kv.val ≠ .invalid)) | _ => true) = true := by decide
    have := hd _ h
    dsimp only at this
    rw [List.all_eq_true] at this
    exact of_decide_eq_true (this kv hkv)
  · intro l o
    refine List.nodup_iff_count.1 ?_ l
    show (if o = 0 then [0, 1] else if o = 1 then [2] else [] : List Nat).Nodup
    split
    · decide
    · split <;> decide
  · intro sc hsc o ho
    simp only [c75Reader, List.mem_cons, List.not_mem_nil, or_false] at hsc
    subst hsc
    simp only [List.mem_cons, List.not_mem_nil, or_false] at ho
    rcases ho with rfl | rfl | rfl
    · exact ⟨rfl, .inl rfl⟩
    · exact ⟨rfl, .inl rfl⟩
    · exact ⟨rfl, rfl⟩
  · intro o ho
    simp only [List.mem_cons, List.not_mem_nil, or_false] at ho
    rcases ho with rfl | rfl | rfl <;> rfl

/-- The program runs, all sets fit, and these values are sent: cumulative sums 12, 15, 11; deltas 5 and 7 (two sets), 3, 1; the gauge where it was
observed. -/
example : ∃ x, AsyncPipeline.run c75Setup c75Reader (AsyncPipeline.initial c75Setup) c75Acts = some x ∧
    ((∀ v ∈ x.s.log, ∀ l ∈ c75Setup.leavesOf v.obs,
      applyKeysFilter (c75Setup.keys l) v.set ∈ [[kvb 97 true], [kvb 97 true, kvb 98 true], []]) ∧
    x.sent.map (fun p => (pointsIn numbers lib [109, 0] p).map (·.value)) = [[.int 12], [.int 15], [.int 11]] ∧
    x.sent.map (fun p => (pointsIn numbers lib [109, 1] p).map (·.value)) = [[.int 5, .int 7], [.int 3], [.int 1]] ∧
    x.sent.map (fun p => (pointsIn numbers lib [109, 2] p).map (·.value)) = [[.double 0x3ff0000000000000], [], [.double 0x4000000000000000]]) :=
  exists_of_eval (by decide +kernel)

/-- A float counter with delta temporality. The differences are the code's as far as they are used: 2.0 - 1.0 and 2.0 - 2.0. -/
def c75Flt : AsyncPipeline.Setup where
  inst := fun _ => { id := 0, kind := .asyncCounter, num := .float64, sizeLimit := 100, proc := none }
  leavesOf := fun o => if o = 0 then [0] else []
  keys := fun _ => none
  lim := fun _ => 4
  delta := fun _ => true
  gauge := fun _ => false
  num := fun _ => .float64
  fadd := fun a b => if a = 0 then b else a
  fsub := fun a b => if a = b then 0 else if a = 0x4000000000000000 ∧ b = 0x3ff0000000000000 then 0x3ff0000000000000 else a

/-- It observes 1.0, then 2.0, then 2.0 again: 1.0 is sent, then the difference 1.0, then nothing. -/
example : ∃ x, AsyncPipeline.run c75Flt { rd with scopes := [(lib, [out 0 .float64 .monotonic])] } (AsyncPipeline.initial c75Flt)
    (progActs c75Flt 0 0 [([⟨[0], [(0, [kvb 97 true], 0x3ff0000000000000)]⟩], [c75E 0 [kvb 97 true] [(0, [kvb 97 true])] 0x3ff0000000000000], ⟨1, 1, 2⟩),
      ([⟨[0], [(0, [kvb 97 true], 0x4000000000000000)]⟩], [c75E 0 [kvb 97 true] [(0, [kvb 97 true])] 0x4000000000000000], ⟨1, 2, 3⟩),
      ([⟨[0], [(0, [kvb 97 true], 0x4000000000000000)]⟩], [c75E 0 [kvb 97 true] [(0, [kvb 97 true])] 0x4000000000000000], ⟨1, 3, 4⟩)]) = some x ∧
    (x.sent.map (fun p => (pointsIn numbers lib [109, 0] p).map (·.value)) = [[.double 0x3ff0000000000000], [.double 0x3ff0000000000000], []]) :=
  exists_of_eval (by decide +kernel)

end Example

end Verif.Props
