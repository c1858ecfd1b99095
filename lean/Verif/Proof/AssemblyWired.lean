import Verif.Proof.Assembly

/-!
From the wiring to the running system.
-/

namespace Verif.Assembly
open Verif.Attr Verif.Number Verif.Aggr Verif.Front Verif.Views Verif.Provider Verif.Instruments
variable {C G ν : Type} [DecidableEq C]

/-! ### Lists with positions -/

theorem sentScope_eq (sc : Scope) : sentScope sc = libOf sc := rfl

theorem zip_only_from {α β : Type} (g : α × Nat → List β) (l : List α) (n k : Nat) (a : α) (h : l[k]? = some a)
    (hj : ∀ (j : Nat) (b : α), j ≠ k → l[j]? = some b → g (b, n + j) = []) : (l.zipIdx n).flatMap g = g (a, n + k) := by
  induction l generalizing n k with
  | nil => cases h
  | cons x l ih =>
    rw [List.zipIdx_cons, List.flatMap_cons]
    cases k with
    | zero =>
      rw [List.getElem?_cons_zero] at h
      cases h
      have : (l.zipIdx (n + 1)).flatMap g = [] := by
        rw [List.flatMap_eq_nil_iff]
        rintro ⟨b, j⟩ he
        obtain ⟨h1, h2, h3⟩ := List.mem_zipIdx he
        have := hj (j - n) b (by omega) (by
          rw [show j - n = (j - (n + 1)) + 1 by omega, List.getElem?_cons_succ, h3]
          exact List.getElem?_eq_getElem _)
        rwa [show n + (j - n) = j by omega] at this
      rw [this, List.append_nil, Nat.add_zero]
    | succ k =>
      rw [List.getElem?_cons_succ] at h
      have h0 := hj 0 x (by omega) List.getElem?_cons_zero
      rw [Nat.add_zero] at h0
      rw [h0, List.nil_append, ih (n + 1) k h ?_, show n + 1 + k = n + (k + 1) by omega]
      intro j b hjk hb
      have := hj (j + 1) b (by omega) (by rw [List.getElem?_cons_succ]; exact hb)
      rwa [show n + (j + 1) = n + 1 + j by omega] at this

theorem zip_only {α β : Type} (g : α × Nat → List β) (l : List α) (k : Nat) (a : α) (h : l[k]? = some a)
    (hj : ∀ (j : Nat) (b : α), j ≠ k → l[j]? = some b → g (b, j) = []) : l.zipIdx.flatMap g = g (a, k) := by
  have := zip_only_from g l 0 k a h (by intro j b h1 h2; rw [Nat.zero_add]; exact hj j b h1 h2)
  rwa [Nat.zero_add] at this

theorem filter_map_flat {α β : Type} (f : α → β) (p : β → Bool) (l : List α) :
    (l.map f).filter p = l.flatMap (fun e => if p (f e) then [f e] else []) := by
  induction l with
  | nil => rfl
  | cons a l ih =>
    rw [List.map_cons, List.filter_cons, List.flatMap_cons, ih]
    split <;> rfl

/-! ### The output metric in the payloads -/

/-- Only one scope and one output metric have these names. -/
theorem only_at {ν' : Type} {x : Ext C} {views : List (Views C)} {cs : List (Call ν')} {p : Provider C ν'} (h : Assembled x views cs p) {pipe k : Nat}
    {m : Meter C ν'} (hk : p.ordered[k]? = some m) {n : Str} {s : State C} {j : Nat} {f : Leaf C} (hcomp : m.comps[pipe]? = some s)
    (hleaf : s.collectors[j]? = some f) (hname : f.desc.name = n) (huniq : ∀ (i : Nat) (g : Leaf C), s.collectors[i]? = some g → g.desc.name = n → i = j)
    (q : Leaf C → Bool) (hq : q f = true) :
    (p.ordered.zipIdx.map (fun e => (libOf e.1.scope, (((e.1.comps[pipe]?).map (·.collectors)).getD []).zipIdx.flatMap (fun l =>
      if q l.1 then [outOf (leafAddr e.2 pipe l.2) l.1] else [])))).flatMap
      (fun sc => sc.2.filter (fun o => sc.1 = libOf m.scope ∧ o.name = n)) = [outOf (leafAddr k pipe j) f] := by
  rw [List.flatMap_map]
  rw [zip_only (fun e : Meter C ν' × Nat => ((((e.1.comps[pipe]?).map (·.collectors)).getD []).zipIdx.flatMap (fun l =>
      if q l.1 then [outOf (leafAddr e.2 pipe l.2) l.1] else [])).filter (fun o => decide (libOf e.1.scope = libOf m.scope ∧ o.name = n))) p.ordered k m hk ?_]
  · rw [hcomp, List.filter_flatMap]
    simp only [Option.map_some, Option.getD_some]
    rw [zip_only (fun e : Leaf C × Nat => (if q e.1 = true then [outOf (leafAddr k pipe e.2) e.1] else []).filter
      (fun o => decide (True ∧ o.name = n))) s.collectors j f hleaf ?_]
    · have : (outOf (leafAddr k pipe j) f).name = n := hname
      simp [this, hq]
    · intro i g hij hg
      have : ¬ (outOf (leafAddr k pipe i) g).name = n := fun hgn => hij (huniq i g hg hgn)
      dsimp only
      split
      · simp [this]
      · rfl
  · intro k' m' hkk hm'
    refine List.filter_eq_nil_iff.2 fun o _ ho => hkk ?_
    simp only [decide_eq_true_eq] at ho
    have hsc' : m'.scope = m.scope := by
      have := ho.1
      unfold libOf at this
      simp only [Export.Library.mk.injEq] at this
      cases h1 : m'.scope
      cases h2 : m.scope
      rw [h1, h2] at this
      simp only at this
      rw [this.1, this.2.1, this.2.2]
    have hnd := h.nodup
    have a1 : (p.ordered.map (·.scope))[k']? = some m.scope := by rw [List.getElem?_map, hm', Option.map_some, hsc']
    have a2 : (p.ordered.map (·.scope))[k]? = some m.scope := by rw [List.getElem?_map, hk, Option.map_some]
    obtain ⟨l1, e1⟩ := List.getElem?_eq_some_iff.1 a1
    obtain ⟨l2, e2⟩ := List.getElem?_eq_some_iff.1 a2
    exact (List.getElem_inj hnd).1 (e1.trans e2.symm)

theorem Located.only {ν' : Type} {x : Ext C} {views : List (Views C)} {cs : List (Call ν')} {p : Provider C ν'} (h : Assembled x views cs p) {pipe k : Nat}
    {v : Views C} {m : Meter C ν'} (hk : p.ordered[k]? = some m) {c : Ctor} {n unit : Str} {s : State C} {j : Nat} {f : Leaf C}
    (hl : Located m pipe v c n unit s j f) (q : Leaf C → Bool) (hq : q f = true) :
    (p.ordered.zipIdx.map (fun e => (libOf e.1.scope, (((e.1.comps[pipe]?).map (·.collectors)).getD []).zipIdx.flatMap (fun l =>
      if q l.1 then [outOf (leafAddr e.2 pipe l.2) l.1] else [])))).flatMap
      (fun sc => sc.2.filter (fun o => sc.1 = libOf m.scope ∧ o.name = n)) = [outOf (leafAddr k pipe j) f] :=
  only_at h hk hl.comp hl.leaf hl.name hl.uniq q hq

omit [DecidableEq C] in
theorem map_flat {α β : Type} (g : α → β) (l : List α) : l.map g = l.flatMap (fun e => if true = true then [g e] else []) := by
  induction l with
  | nil => rfl
  | cons a l ih => rw [List.map_cons, List.flatMap_cons, ← ih]; rfl

/-- What the views and the requests make of a name. -/
structure Wired (w : World C G) (p : Provider C ν) (pipe k : Nat) (sc : Scope) (v : Views C) (c : Ctor) (n unit : Str) (o : Pipeline.Out)
    (f : Leaf C) : Prop where
  only : Pipeline.Only (reader w p pipe) (libOf sc) n o
  mem : ∃ s ∈ (reader w p pipe).scopes, o ∈ s.2
  out : ∃ l, o = outOf l f
  leaf : leafAt p o.leaf = some f
  sync : f.desc.kind.synchronous = true
  kind : f.kind = v.defaults.agg c.kinds.2
  num : f.desc.num = c.kinds.1
  unit : f.desc.unit = unit
  delta : f.delta = decide (v.defaults.tempo c.kinds.2 = .delta)
  keys : f.keys = none
  acfg : f.acfg = v.defaults.acfg c.kinds.2 c.kinds.1
  called : ∀ id, Called p k n id → (leavesOf p id).count o.leaf = 1
  others : ∀ id, ¬ Called p k n id → o.leaf ∉ leavesOf p id

theorem wired (w : World C G) {x : Ext C} {views : List (Views C)} {cs : List (Call ν)} {p : Provider C ν} (h : Assembled x views cs p) {pipe k : Nat}
    {v : Views C} {m : Meter C ν} (hv : views[pipe]? = some v) (hk : p.ordered[k]? = some m) {c : Ctor} {n unit : Str}
    (hp : Plain v m.scope (requests k cs) c n unit) (hl : Legal c.kinds.2 (v.defaults.agg c.kinds.2)) (hs : c.kinds.2.synchronous = true)
    (hi : ∃ o ∈ m.insts, o.desc.name = n) : ∃ o f, Wired w p pipe k m.scope v c n unit o f := by
  obtain ⟨s, j, f, hL⟩ := located h hv hk hp hl hi
  have hat : leafAt p (leafAddr k pipe j) = some f := by
    rw [leafAt_addr, hk]
    simp only [Option.bind_some, hL.comp, hL.leaf]
  have hid := hL.identity
  refine ⟨outOf (leafAddr k pipe j) f, f, ?_⟩
  refine { only := ?_, mem := ?_, out := ⟨_, rfl⟩, leaf := hat, sync := (congrArg Identity.synchronous hid).trans hs, kind := ?_, num := ?_, unit := ?_, delta := ?_, keys := hL.keys, acfg := ?_, called := ?_, others := ?_ }
  · have := hL.only h hk (fun _ => true) rfl
    unfold Pipeline.Only reader outsOf
    simp only [map_flat (fun e : Leaf C × Nat => outOf (leafAddr _ pipe e.2) e.1)]
    exact this
  · refine ⟨(libOf m.scope, outsOf k pipe m), ?_, ?_⟩
    · refine List.mem_map.2 ⟨(m, k), ?_, rfl⟩
      exact List.mem_zipIdx_iff_getElem?.2 hk
    · unfold outsOf
      rw [hL.comp]
      exact List.mem_map.2 ⟨(f, j), List.mem_zipIdx_iff_getElem?.2 hL.leaf, rfl⟩
  · exact congrArg Identity.kind hid
  · exact congrArg Identity.num hid
  · exact congrArg Identity.unit hid
  · rw [hL.delta, deltaFor_sync v hs]
  · exact congrArg Identity.acfg hid
  · rintro id ⟨m', i, o, h1, h2, h3, rfl⟩
    rw [hk] at h1
    cases h1
    have ho := List.mem_of_getElem? h2
    have hsync : o.desc.kind.synchronous = true := by
      obtain ⟨t, e⟩ := hL.ctor o ho h3
      rw [e]
      exact hs
    obtain ⟨ls, a1, a2, -⟩ := hL.insts o ho
    have hls1 := a2 h3
    subst hls1
    unfold leavesOf
    rw [instAt_addr, hk]
    simp only [Option.bind_some, h2, hsync, if_true]
    have hu : (unpair (instAddr k i)).1 = k := by unfold instAddr; rw [unpair_pair]
    rw [hu, List.count_eq_length_filter, List.filter_flatMap]
    rw [zip_only (fun e : List Nat × Nat => (e.1.map (leafAddr k e.2)).filter (fun x => x == (outOf (leafAddr k pipe j) f).leaf)) o.leaves pipe [j] a1 ?_]
    · simp [outOf]
    · intro q ls' hq _
      refine List.filter_eq_nil_iff.2 fun a ha he => hq ?_
      obtain ⟨b, -, rfl⟩ := List.mem_map.1 ha
      exact (leafAddr_inj (eq_of_beq he)).2.1
  · intro id hnc hmem
    unfold leavesOf at hmem
    cases hio : instAt p id with
    | none => rw [hio] at hmem; cases hmem
    | some o =>
      rw [hio] at hmem
      dsimp only at hmem
      split at hmem
      · obtain ⟨⟨ls, q⟩, h1, h2⟩ := List.mem_flatMap.1 hmem
        obtain ⟨b, hb, he⟩ := List.mem_map.1 h2
        obtain ⟨e1, e2, e3⟩ := leafAddr_inj he
        dsimp only at e1 e2 e3 hb
        subst e2
        subst e3
        have hls' := List.mem_zipIdx_iff_getElem?.1 h1
        dsimp only at hls'
        unfold instAt at hio
        rw [e1, hk] at hio
        simp only [Option.bind_some] at hio
        have ho := List.mem_of_getElem? hio
        refine hnc ⟨m, (unpair id).2, o, hk, hio, ?_, ?_⟩
        · refine Classical.byContradiction fun hne => ?_
          obtain ⟨ls2, a1, -, a3⟩ := hL.insts o ho
          rw [hls'] at a1
          cases a1
          exact a3 hne hb
        · have := pair_unpair id
          rw [e1] at this
          exact this.symm
      · cases hmem

/-! ### The running system -/

section
omit [DecidableEq C]
variable {w : World C G} {p : Provider C ν} {pipe k : Nat} {sc : Scope} {v : Views C} {c : Ctor} {n unit : Str} {o : Pipeline.Out} {f : Leaf C}

theorem Wired.feeds (h : Wired w p pipe k sc v c n unit o f) (id : Nat) : o.leaf ∈ leavesOf p id ↔ Called p k n id := by
  constructor
  · intro hm
    exact Classical.byContradiction fun hn => h.others id hn hm
  · intro hc
    have := h.called id hc
    exact List.count_pos_iff.1 (by omega)

open Classical in
theorem Wired.recorded (h : Wired w p pipe k sc v c n unit o f) (Q : List KV → Prop) (acts : List Pipeline.Act) :
    Pipeline.recordedOn (setup w p).leavesOf o.leaf Q acts = recordedBy p k n Q acts := by
  unfold Pipeline.recordedOn recordedBy
  generalize Pipeline.calls acts = l
  induction l with
  | nil => rfl
  | cons e l ih =>
    rw [List.flatMap_cons, ih, List.filter_cons]
    by_cases hc : Called p k n e.1.id
    · have : (setup w p).leavesOf e.1.id = leavesOf p e.1.id := rfl
      rw [this, h.called _ hc]
      by_cases hq : ¬ Props.Rejected e.1.num e.1.kind e.2.2 ∧ Q (e.1.attrs e.2.1)
      · rw [if_pos hq, if_pos (decide_eq_true ⟨hq.1, hq.2, hc⟩)]
        rfl
      · rw [if_neg hq, if_neg (by rw [decide_eq_true_eq]; exact fun h => hq ⟨h.1, h.2.1⟩)]
        rfl
    · have : (setup w p).leavesOf e.1.id = leavesOf p e.1.id := rfl
      rw [this, List.count_eq_zero.2 (h.others _ hc)]
      rw [if_neg (c := decide _ = true) (by rw [decide_eq_true_eq]; exact fun h => hc h.2.2)]
      split <;> rfl

theorem Wired.setup_keys (h : Wired w p pipe k sc v c n unit o f) : (setup w p).keys o.leaf = none := by
  show (leafAt p o.leaf).bind (·.keys) = none
  rw [h.leaf]
  exact h.keys

theorem Wired.setup_lim (h : Wired w p pipe k sc v c n unit o f) : (setup w p).lim o.leaf = (v.defaults.acfg c.kinds.2 c.kinds.1).limit := by
  show ((leafAt p o.leaf).map (·.acfg.limit)).getD 0 = _
  rw [h.leaf, ← h.acfg]
  rfl

theorem Wired.setup_delta (h : Wired w p pipe k sc v c n unit o f) : (setup w p).delta o.leaf = decide (v.defaults.tempo c.kinds.2 = .delta) := by
  show ((leafAt p o.leaf).map (·.delta)).getD false = _
  rw [h.leaf, ← h.delta]
  rfl

theorem Wired.setup_agg (h : Wired w p pipe k sc v c n unit o f) :
    (setup w p).agg o.leaf = w.agg (v.defaults.agg c.kinds.2) c.kinds.1 (v.defaults.acfg c.kinds.2 c.kinds.1).hist := by
  show (match leafAt p o.leaf with | some f => w.agg f.kind f.desc.num f.acfg.hist | none => sumAgg intOps w.noHist) = _
  rw [h.leaf, ← h.acfg, ← h.kind, ← h.num]

theorem Wired.num_eq (h : Wired w p pipe k sc v c n unit o f) : o.num = c.kinds.1 := by
  obtain ⟨l, e⟩ := h.out
  rw [← h.num, e]
  rfl

theorem Wired.shape_eq (h : Wired w p pipe k sc v c n unit o f) : o.shape = shapeOf (v.defaults.agg c.kinds.2) := by
  obtain ⟨l, e⟩ := h.out
  rw [← h.kind, e]
  rfl

theorem Wired.fits (h : Wired w p pipe k sc v c n unit o f) {acts : List Pipeline.Act}
    (hf : FewAttributes w p k n (v.defaults.acfg c.kinds.2 c.kinds.1).limit acts) : Pipeline.Fits (setup w p) o.leaf acts := by
  obtain ⟨A, B, h1, h2, h3, h4⟩ := hf
  refine ⟨A, B, fun id hid => h1 id ((h.feeds id).1 hid), ?_, fun e he hl => h3 e he ((h.feeds _).1 hl), fun id hid => ?_⟩
  · rw [h.setup_lim]; exact h2
  · rw [h.setup_keys]
    exact h4 id ((h.feeds id).1 hid)

theorem Wired.session (h : Wired w p pipe k sc v c n unit o f) {farm : Str → UInt64} {acts coll : List Pipeline.Act} {x x' : Pipeline.Sys G}
    (hp : Program farm w p pipe acts coll x x') {shapes : List Pipeline.Shape} (hs : o.shape ∈ shapes) :
    Pipeline.Session farm (setup w p) (reader w p pipe) (libOf sc) n o shapes acts coll x x' := by
  obtain ⟨s, h1, h2⟩ := h.mem
  exact ⟨hp.resource, h.only, hs, hp.typed, hp.few, hp.before, hp.returned, hp.collected s h1 o h2 (by unfold syncLeaf; rw [h.leaf]; exact h.sync), hp.quiet⟩

theorem Wired.sequential (h : Wired w p pipe k sc v c n unit o f) {farm : Str → UInt64} {acts : List Pipeline.Act} (hq : OneByOne farm w p pipe k n acts) :
    Pipeline.Sequential (realCfg farm (setup w p)) (reader w p pipe) o.leaf acts := by
  intro before i kvs b after y e hr hl j hj hlj
  exact hq before i kvs b after y e hr ((h.feeds _).1 hl) j hj ((h.feeds _).1 hlj)

theorem Wired.calls_num [DecidableEq C] (h : Wired w p pipe k sc v c n unit o f) {x : Ext C} {views : List (Views C)} {cs : List (Call ν)} (ha : Assembled x views cs p) {m : Meter C ν}
    (hk : p.ordered[k]? = some m) (hp : Plain v m.scope (requests k cs) c n unit) {acts : List Pipeline.Act} (hg : Genuine w p acts) :
    ∀ e ∈ Pipeline.calls acts, o.leaf ∈ (setup w p).leavesOf e.1.id → e.1.num = c.kinds.1 := by
  intro e he hl
  obtain ⟨m1, i, o1, h1, h2, h3, h4⟩ := (h.feeds _).1 hl
  obtain ⟨k', i', m', o', proc, g1, g2, g3, g4⟩ := hg e he
  rw [g4] at h4 ⊢
  obtain ⟨e1, e2⟩ := pair_inj (show pair k' i' = pair k i from h4)
  subst e1
  subst e2
  rw [g1] at h1
  cases h1
  rw [g2, Option.some.injEq] at h2
  subst h2
  rw [g1] at hk
  cases hk
  obtain ⟨ds, hds, ht⟩ := ha.traced _ _ g1
  obtain ⟨⟨t, e⟩, -⟩ := hp o'.desc (hds _ (ht.insts o' (List.mem_of_getElem? g2))) (.inl h3)
  show o'.desc.num = _
  rw [e]
  rfl

end

end Verif.Assembly
