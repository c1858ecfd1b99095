import Verif.Proof.AssemblyWired
import Verif.Spec.AsyncAssembly

/-!
The wiring of asynchronous instruments.
-/

namespace Verif.Assembly
open Verif.Attr Verif.Number Verif.Front Verif.Views Verif.Provider Verif.Instruments
variable {C G ν : Type} [DecidableEq C]

/-! ### What holds of every output metric -/

theorem place_all {P : Leaf C → Prop} (hb : ∀ b, P (buildLeaf b)) (hm : ∀ l d, P l → P (mergeDescription l d)) {s : State C}
    (h : ∀ f ∈ s.collectors, P f) (b : Behavior C) : ∀ f ∈ (place s b).1.collectors, P f := by
  unfold place
  split
  · intro f hf
    obtain ⟨j, hj⟩ := List.getElem?_of_mem hf
    dsimp only at hj
    rw [List.getElem?_modify] at hj
    cases hc : s.collectors[j]? with
    | none => rw [hc] at hj; cases hj
    | some f0 =>
      rw [hc] at hj
      have h0 := h f0 (List.mem_of_getElem? hc)
      simp only [Option.map_eq_map, Option.map_some, Option.some.injEq] at hj
      split at hj
      · rw [← hj]; exact hm _ _ h0
      · rw [← hj]; exact h0
  · intro f hf
    rcases List.mem_append.1 hf with hf | hf
    · exact h f hf
    · rw [List.mem_singleton] at hf
      rw [hf]; exact hb b

theorem loop_all {P : Leaf C → Prop} (hb : ∀ b, P (buildLeaf b)) (hm : ∀ l d, P l → P (mergeDescription l d)) (ik : IKind) (bs : List (Behavior C)) {s : State C}
    (h : ∀ f ∈ s.collectors, P f) : ∀ f ∈ (compileLoop ik s bs).1.collectors, P f := by
  induction bs generalizing s with
  | nil => exact h
  | cons b bs ih => exact ih (place_all hb hm h _)

theorem register_all {P : Leaf C → Prop} (hb : ∀ b, P (buildLeaf b)) (hm : ∀ l d, P l → P (mergeDescription l d)) (x : Ext C) (v : Views C) (sc : Scope) (ds : List Desc)
    {s : State C} (h : ∀ f ∈ s.collectors, P f) : ∀ f ∈ (registerAll x v sc s ds).collectors, P f := by
  induction ds generalizing s with
  | nil => exact h
  | cons d ds ih =>
    refine ih ?_
    show ∀ f ∈ (compile x v sc s d).1.collectors, P f
    rw [compile_eq]
    exact loop_all hb hm d.kind _ h

theorem Assembled.leaves {x : Ext C} {views : List (Views C)} {cs : List (Call ν)} {p : Provider C ν} (h : Assembled x views cs p) {P : Leaf C → Prop}
    (hb : ∀ b, P (buildLeaf b)) (hm : ∀ l d, P l → P (mergeDescription l d)) {k : Nat} {m : Meter C ν} (hk : p.ordered[k]? = some m) {pipe : Nat} {s : State C}
    (hs : m.comps[pipe]? = some s) : ∀ f ∈ s.collectors, P f := by
  obtain ⟨ds, -, ht⟩ := h.traced k m hk
  have hok := h.ok.meters m (List.mem_of_getElem? hk)
  rw [h.same_views] at hok
  have hlt : pipe < views.length := by rw [← hok.comps]; exact (List.getElem?_eq_some_iff.1 hs).1
  rw [ht.comps pipe _ s (List.getElem?_eq_getElem hlt) hs]
  exact register_all hb hm x _ _ ds (by simp [State.new])

/-- An asynchronous output metric is a sum or a gauge; with delta temporality it is a sum. -/
structure AsyncKind (f : Leaf C) : Prop where
  kind : f.desc.kind.synchronous = false → f.kind = .monoSum ∨ f.kind = .nonMonoSum ∨ f.kind = .gauge
  delta : f.desc.kind.synchronous = false → f.delta = true → f.kind ≠ .gauge

omit [DecidableEq C] in
theorem asyncKind_build (b : Behavior C) : AsyncKind (buildLeaf b) := by
  constructor
  · intro hs
    have hs : b.desc.kind.synchronous = false := hs
    unfold buildLeaf
    simp only [hs, Bool.false_eq_true, if_false]
    cases b.kind <;> simp [asyncMethods]
  · intro hs hd
    have hs : b.desc.kind.synchronous = false := hs
    unfold buildLeaf at hd ⊢
    simp only [hs, Bool.false_eq_true, if_false, decide_eq_true_eq] at hd ⊢
    exact hd.2

omit [DecidableEq C] in
theorem asyncKind_merge (l : Leaf C) (d : Str) (h : AsyncKind l) : AsyncKind (mergeDescription l d) := by
  unfold mergeDescription
  split
  · exact ⟨h.kind, h.delta⟩
  · exact h

theorem Assembled.asyncKind {x : Ext C} {views : List (Views C)} {cs : List (Call ν)} {p : Provider C ν} (h : Assembled x views cs p) {k : Nat} {m : Meter C ν}
    (hk : p.ordered[k]? = some m) {pipe : Nat} {s : State C} (hs : m.comps[pipe]? = some s) : ∀ f ∈ s.collectors, AsyncKind f :=
  h.leaves asyncKind_build asyncKind_merge hk hs

/-- All output metrics of the reader are what the setup says. -/
theorem async_agrees (w : World C G) (fsub : Bits → Bits → Bits) {x : Ext C} {views : List (Views C)} {cs : List (Call ν)} {p : Provider C ν}
    (h : Assembled x views cs p) (pipe : Nat) : ∀ sc ∈ (asyncReader w p pipe).scopes, ∀ o ∈ sc.2, AsyncPipeline.Agrees (asyncSetup w fsub p pipe) o := by
  intro sc hsc o ho
  obtain ⟨⟨m, k⟩, h1, rfl⟩ := List.mem_map.1 hsc
  have hk := List.mem_zipIdx_iff_getElem?.1 h1
  obtain ⟨⟨f, j⟩, h2, h3⟩ := List.mem_flatMap.1 ho
  have hj := List.mem_zipIdx_iff_getElem?.1 h2
  dsimp only at hk hj h3
  cases hc : m.comps[pipe]? with
  | none => rw [hc] at hj; simp at hj
  | some s =>
    rw [hc] at hj
    simp only [Option.map_some, Option.getD_some] at hj
    split at h3
    · rename_i hs
      rw [List.mem_singleton] at h3
      subst h3
      have hat : leafAt p (leafAddr k pipe j) = some f := by
        rw [leafAt_addr, hk]
        simp only [Option.bind_some, hc, hj]
      have hak := h.asyncKind hk hc f (List.mem_of_getElem? hj)
      simp only [Bool.not_eq_true'] at hs
      constructor
      · show ((leafAt p (leafAddr k pipe j)).map (·.desc.num)).getD .int64 = f.desc.num
        rw [hat]; rfl
      · show if ((leafAt p (leafAddr k pipe j)).map (fun f => decide (f.kind = .gauge))).getD false = true then _ else _
        rw [hat]
        simp only [Option.map_some, Option.getD_some, decide_eq_true_eq]
        rcases hak.kind hs with e | e | e
        · rw [if_neg (by rw [e]; decide)]
          exact .inl (by simp [outOf, e, shapeOf])
        · rw [if_neg (by rw [e]; decide)]
          exact .inr (by simp [outOf, e, shapeOf])
        · rw [if_pos e]
          simp [outOf, e, shapeOf]
    · cases h3

/-! ### The output metric of a name -/

/-- What the views and the requests make of a name. -/
structure AsyncWired (w : World C G) (fsub : Bits → Bits → Bits) (p : Provider C ν) (pipe k : Nat) (sc : Scope) (v : Views C) (c : Ctor) (n unit : Str) (o : Pipeline.Out) :
    Prop where
  only : Pipeline.Only (asyncReader w p pipe) (libOf sc) n o
  agrees : AsyncPipeline.Agrees (asyncSetup w fsub p pipe) o
  once : AsyncPipeline.FedOnce (asyncSetup w fsub p pipe) o.leaf
  feeds : ∀ id, o.leaf ∈ (asyncSetup w fsub p pipe).leavesOf id ↔ Called p k n id
  keys : (asyncSetup w fsub p pipe).keys o.leaf = none
  lim : (asyncSetup w fsub p pipe).lim o.leaf = (v.defaults.acfg c.kinds.2 c.kinds.1).limit
  delta : (asyncSetup w fsub p pipe).delta o.leaf = deltaFor v c
  gauge : (asyncSetup w fsub p pipe).gauge o.leaf = decide (v.defaults.agg c.kinds.2 = .gauge)
  num : o.num = c.kinds.1
  unit : o.unit = unit
  shape : o.shape = shapeOf (v.defaults.agg c.kinds.2)

theorem async_wired (w : World C G) (fsub : Bits → Bits → Bits) {x : Ext C} {views : List (Views C)} {cs : List (Call ν)} {p : Provider C ν} {pipe k : Nat}
    {v : Views C} {sc : Scope} {c : Ctor} {n unit : Str} (h : Observable x views cs p pipe k v sc c n unit) :
    ∃ o, AsyncWired w fsub p pipe k sc v c n unit o := by
  obtain ⟨m, i0, hk, h2, h3, h4⟩ := h.inst
  have ha : Assembled x views cs p := by rw [h.made]; exact assembled x views cs
  subst h2
  obtain ⟨s, j, f, hL⟩ := located ha h.reader hk h.plain h.legal ⟨i0, h3, h4⟩
  have hat : leafAt p (leafAddr k pipe j) = some f := by
    rw [leafAt_addr, hk]
    simp only [Option.bind_some, hL.comp, hL.leaf]
  have hid := hL.identity
  have hsy : f.desc.kind.synchronous = false := (congrArg Identity.synchronous hid).trans h.async
  have honly := hL.only ha hk (fun l => !l.desc.kind.synchronous) (by rw [hsy]; rfl)
  have hmem : ∀ id, leafAddr k pipe j ∈ asyncLeavesOf p pipe id ↔ Called p k n id := by
    intro id
    constructor
    · intro hm
      unfold asyncLeavesOf at hm
      cases hio : instAt p id with
      | none => rw [hio] at hm; cases hm
      | some o =>
        rw [hio] at hm
        dsimp only at hm
        split at hm
        · cases hm
        · obtain ⟨b, hb, he⟩ := List.mem_map.1 hm
          obtain ⟨e1, -, e3⟩ := leafAddr_inj he
          subst e3
          unfold instAt at hio
          rw [e1, hk] at hio
          simp only [Option.bind_some] at hio
          have ho := List.mem_of_getElem? hio
          obtain ⟨ls, a1, -, a3⟩ := hL.insts o ho
          rw [a1, Option.getD_some] at hb
          refine ⟨m, (unpair id).2, o, hk, hio, ?_, ?_⟩
          · exact Classical.byContradiction fun hne => a3 hne hb
          · have := pair_unpair id
            rw [e1] at this
            exact this.symm
    · rintro ⟨m', i, o, h1, h2, h3, rfl⟩
      rw [hk] at h1
      cases h1
      have ho := List.mem_of_getElem? h2
      obtain ⟨text, e⟩ := hL.ctor o ho h3
      have hos : o.desc.kind.synchronous = false := by rw [e]; exact h.async
      obtain ⟨ls, a1, a2, -⟩ := hL.insts o ho
      unfold asyncLeavesOf
      rw [instAt_addr, hk]
      simp only [Option.bind_some, h2, hos, Bool.false_eq_true, if_false, a1, Option.getD_some, a2 h3]
      have hu : (unpair (instAddr k i)).1 = k := by unfold instAddr; rw [unpair_pair]
      rw [hu]
      exact List.mem_singleton.2 rfl
  have hmemo : (∃ sc ∈ (asyncReader w p pipe).scopes, outOf (leafAddr k pipe j) f ∈ sc.2) := by
    refine ⟨(libOf m.scope, asyncOutsOf k pipe m), List.mem_map.2 ⟨(m, k), List.mem_zipIdx_iff_getElem?.2 hk, rfl⟩, ?_⟩
    unfold asyncOutsOf
    rw [hL.comp]
    refine List.mem_flatMap.2 ⟨(f, j), List.mem_zipIdx_iff_getElem?.2 hL.leaf, ?_⟩
    simp [hsy]
  refine ⟨outOf (leafAddr k pipe j) f, ?_⟩
  refine { only := honly, agrees := ?_, once := ?_, feeds := hmem, keys := ?_, lim := ?_, delta := ?_, gauge := ?_, num := ?_, unit := ?_, shape := ?_ }
  · obtain ⟨sc', h1, h2⟩ := hmemo
    exact async_agrees w fsub ha pipe sc' h1 _ h2
  · intro id
    show (asyncLeavesOf p pipe id).count (leafAddr k pipe j) ≤ 1
    by_cases hc : Called p k n id
    · obtain ⟨m', i, o, h1, h2, h3, rfl⟩ := hc
      rw [hk] at h1
      cases h1
      have ho := List.mem_of_getElem? h2
      obtain ⟨text, e⟩ := hL.ctor o ho h3
      have hos : o.desc.kind.synchronous = false := by rw [e]; exact h.async
      obtain ⟨ls, a1, a2, -⟩ := hL.insts o ho
      unfold asyncLeavesOf
      rw [instAt_addr, hk]
      simp only [Option.bind_some, h2, hos, Bool.false_eq_true, if_false, a1, Option.getD_some, a2 h3]
      exact List.count_le_length
    · rw [List.count_eq_zero.2 (fun hm => hc ((hmem id).1 hm))]
      omega
  · show (leafAt p (leafAddr k pipe j)).bind (·.keys) = none
    rw [hat]; exact hL.keys
  · show ((leafAt p (leafAddr k pipe j)).map (·.acfg.limit)).getD 0 = _
    rw [hat]
    exact congrArg (fun I => I.acfg.limit) hid
  · show ((leafAt p (leafAddr k pipe j)).map (·.delta)).getD false = _
    rw [hat]; exact hL.delta
  · show ((leafAt p (leafAddr k pipe j)).map (fun f => decide (f.kind = .gauge))).getD false = _
    rw [hat]
    exact congrArg (fun I => decide (I.kind = .gauge)) hid
  · exact congrArg Identity.num hid
  · exact congrArg Identity.unit hid
  · exact congrArg (fun I => shapeOf I.kind) hid

/-! ### Observations -/

omit [DecidableEq C] in
theorem lastSeen_log (log : AsyncPipeline.Log) (t id : Nat) (a : List KV) :
    lastSeen (log.map (fun v => (v.coll, v.obs, v.set, v.val))) t id a = Async.lastObs log t id a := by
  unfold lastSeen Async.lastObs
  rw [← List.head?_filter, List.filter_reverse, List.head?_reverse, List.filter_map, List.getLast?_map, Option.map_map]
  refine congrArg (fun l : AsyncPipeline.Log => l.getLast?.map (·.val)) (List.filter_congr fun e _ => ?_)
  rw [Bool.eq_iff_iff]
  simp [and_assoc]

omit [DecidableEq C] in
theorem shown_eq (keys : Option (List Str)) (a : List KV) : applyKeysFilter keys a = shown keys a := by
  unfold applyKeysFilter shown
  have hv : ∀ kv : KV, isValidAttribute kv = true ↔ kv.key ≠ [] := by
    intro kv
    unfold isValidAttribute
    simp
  dsimp only
  cases h : a.any (fun kv => !isValidAttribute kv) with
  | true =>
    cases keys with
    | none =>
      refine List.filter_congr fun kv _ => ?_
      rw [Bool.eq_iff_iff, hv kv]
      simp
    | some ks =>
      refine List.filter_congr fun kv _ => ?_
      rw [Bool.eq_iff_iff, Bool.and_eq_true, hv kv]
      simp [keyFilter]
  | false =>
    rw [List.any_eq_false] at h
    have hne : ∀ kv ∈ a, kv.key ≠ [] := fun kv hkv => (hv kv).1 (by simpa using h kv hkv)
    cases keys with
    | none =>
      refine (List.filter_eq_self.2 ?_).symm
      intro kv hkv
      simpa using hne kv hkv
    | some ks =>
      refine List.filter_congr fun kv hkv => ?_
      rw [Bool.eq_iff_iff]
      simp [keyFilter, hne kv hkv]

section
omit [DecidableEq C]
variable {w : World C G} {fsub : Bits → Bits → Bits} {p : Provider C ν} {pipe k : Nat} {sc : Scope} {v : Views C} {c : Ctor} {n unit : Str} {o : Pipeline.Out}

theorem AsyncWired.observed (h : AsyncWired w fsub p pipe k sc v c n unit o) (s : AsyncPipeline.Sys) (t : Nat) (a : List KV) :
    AsyncPipeline.Observed (asyncSetup w fsub p pipe) s.s.log o.leaf t a ↔ Shows (Called p k n) none (seenIn s) t a := by
  unfold AsyncPipeline.Observed Shows seenIn
  constructor
  · rintro ⟨e, he, h1, h2, h3⟩
    rw [h.keys, shown_eq] at h3
    exact ⟨_, List.mem_map_of_mem he, h1, (h.feeds _).1 h2, h3⟩
  · rintro ⟨e, he, h1, h2, h3⟩
    obtain ⟨e', he', rfl⟩ := List.mem_map.1 he
    exact ⟨e', he', h1, (h.feeds _).2 h2, by rw [h.keys, shown_eq]; exact h3⟩

theorem AsyncWired.values (h : AsyncWired w fsub p pipe k sc v c n unit o) (s : AsyncPipeline.Sys) (t : Nat) (a : List KV) (ps : List (Nat × List KV × Bits)) :
    AsyncPipeline.Values (asyncSetup w fsub p pipe) s.s.log t o.leaf a ps ↔ LastValues (Called p k n) none (seenIn s) t a ps := by
  unfold AsyncPipeline.Values LastValues seenIn
  refine and_congr_right fun _ => ?_
  refine forall_congr' fun id => forall_congr' fun set => forall_congr' fun y => ?_
  rw [h.keys, shown_eq, h.feeds id, lastSeen_log]

theorem AsyncWired.combines (h : AsyncWired w fsub p pipe k sc v c n unit o) (vals : List Bits) (y : Bits) :
    AsyncPipeline.Combines (asyncSetup w fsub p pipe) o.leaf vals y ↔ Combined w (v.defaults.agg c.kinds.2) c.kinds.1 vals y := by
  unfold AsyncPipeline.Combines Combined
  rw [h.gauge, h.agrees.num, h.num]
  by_cases hg : v.defaults.agg c.kinds.2 = .gauge
  · rw [decide_eq_true hg, if_pos hg]
  · rw [decide_eq_false hg, if_neg hg]
    cases c.kinds.1 <;> rfl

theorem AsyncWired.amount (h : AsyncWired w fsub p pipe k sc v c n unit o) (s : AsyncPipeline.Sys) (t : Nat) (a : List KV) (y : Bits) :
    AsyncPipeline.CumAt (asyncSetup w fsub p pipe) s.s.log o.leaf t a y ↔ Amount w (Called p k n) none (v.defaults.agg c.kinds.2) c.kinds.1 (seenIn s) t a y := by
  unfold AsyncPipeline.CumAt Amount
  refine exists_congr fun ps => and_congr_right fun _ => ?_
  rw [h.values, h.combines]

theorem AsyncWired.before (h : AsyncWired w fsub p pipe k sc v c n unit o) (s : AsyncPipeline.Sys) (t : Nat) (a : List KV) (y : Bits) :
    AsyncPipeline.Before (asyncSetup w fsub p pipe) s.s.log o.leaf t a y ↔
      AmountBefore w (Called p k n) none (v.defaults.agg c.kinds.2) c.kinds.1 (seenIn s) t a y := by
  unfold AsyncPipeline.Before AmountBefore
  refine exists_congr fun t' => and_congr_right fun _ => h.amount s t' a y

theorem AsyncWired.fits (h : AsyncWired w fsub p pipe k sc v c n unit o) {s : AsyncPipeline.Sys} {t : Nat}
    (hf : FewSets (Called p k n) none (v.defaults.acfg c.kinds.2 c.kinds.1).limit (seenIn s) t) : AsyncPipeline.FitsIn (asyncSetup w fsub p pipe) s.s.log o.leaf t := by
  obtain ⟨B, h1, h2⟩ := hf
  refine ⟨B, by rw [h.lim]; exact h1, ?_⟩
  intro e he h3 h4
  rw [h.keys, shown_eq]
  exact h2 _ (List.mem_map_of_mem he) h3 ((h.feeds _).1 h4)

end

end Verif.Assembly
