import Verif.Proof.Pipeline
import Verif.Proof.SyncRoom
import Verif.Props.Attributes

/-!
Helper file: the end of a run, when every call has returned and everything has been collected and exported.
-/

namespace Verif.Sync
open Verif
variable {AL KS N S : Type} [DecidableEq KS] {c : Cfg AL KS N S} {s s' : State AL KS N S}

omit [DecidableEq KS] in
/-- Anything computed from the calls in order. -/
theorem CallsAre.flatMap {β : Type} {L : List (Nat × AL × N)} (h : CallsAre s L) (g : Nat × AL × N → List β) :
    (List.range s.nextOp).flatMap (fun i => g ((s.op i).obs, (s.op i).attrs, (s.op i).num)) = L.flatMap g := by
  rw [h.1]
  have key : ∀ (L : List (Nat × AL × N)) (f : Nat → Nat × AL × N), (∀ i e, L[i]? = some e → f i = e) →
      (List.range L.length).flatMap (fun i => g (f i)) = L.flatMap g := by
    intro L
    induction L with
    | nil => intro f _; rfl
    | cons e L ih =>
      intro f hf
      rw [List.length_cons, List.range_succ_eq_map, List.flatMap_cons, List.flatMap_cons, List.flatMap_map, hf 0 e rfl]
      congr 1
      exact ih (fun i => f (i + 1)) (fun i e' he => hf (i + 1) e' (by rw [List.getElem?_cons_succ]; exact he))
  refine key L (fun i => ((s.op i).obs, (s.op i).attrs, (s.op i).num)) ?_
  intro i e he
  obtain ⟨h1, h2, h3⟩ := h.2 i e he
  rw [h1, h2, h3]

/-- The updates of a view with their series. -/
def keyedApplied (s : State AL KS N S) (l : Nat) : List (KS × Nat × Nat) := (s.applied.filter (fun e => e.1 == l)).map (·.2)

/-- The calls feeding a view with property `Q`, in order. -/
def idsOn (c : Cfg AL KS N S) (s : State AL KS N S) (l : Nat) (Q : AL → Bool) : List Nat :=
  ((List.range s.nextOp).flatMap (fun j => List.replicate ((c.leavesOf (s.op j).obs).count l) j)).filter (fun j => Q (s.op j).attrs)

/-- When all calls have returned: the updates applied to a view under keys with property `P` are those of the calls with property `Q`. -/
theorem applied_ids_on (hm : More c s) (l : Nat) (hall : ∀ i, i < s.nextOp → (s.op i).pc = .done) (P : KS → Bool) (Q : AL → Bool)
    (hPQ : ∀ k i sq, (l, k, i, sq) ∈ s.applied → P k = Q (s.op i).attrs) :
    (((keyedApplied s l).filter (fun e => P e.1)).map (·.2.1)).Perm (idsOn c s l Q) := by
  unfold idsOn
  have e1 : ((keyedApplied s l).filter (fun e => P e.1)).map (·.2.1) = ((keyedApplied s l).map (·.2.1)).filter (fun j => Q (s.op j).attrs) := by
    rw [List.filter_map]
    congr 1
    apply List.filter_congr
    intro e he
    unfold keyedApplied at he
    obtain ⟨⟨l', k, i, sq⟩, h1, h2⟩ := List.mem_map.1 he
    rw [List.mem_filter] at h1
    have hl : l' = l := by simpa using h1.2
    subst hl
    dsimp only at h2
    rw [← h2]
    exact hPQ k i sq h1.1
  rw [e1]
  refine List.Perm.filter _ ?_
  rw [List.perm_iff_count]
  intro i
  rw [count_range_replicate]
  have hc : ((keyedApplied s l).map (·.2.1)).count i = s.applied.countP (fun e => e.1 == l && e.2.2.1 == i) := by
    unfold keyedApplied
    rw [List.count, List.countP_map, List.countP_map, List.countP_filter]
    apply List.countP_congr
    intro e _
    simp [and_comm]
  rw [hc, hm.full.vals.p.prog i l]
  by_cases hi : i < s.nextOp
  · rw [if_pos hi, done_prog (hall i hi)]
  · rw [if_neg hi]
    have := hm.full.inv.wf.opIdle i (by omega)
    simp [progOf, this]

omit [DecidableEq KS] in
theorem idsOn_map {β : Type} (l : Nat) (Q : AL → Bool) (f : Nat → β) : (idsOn c s l Q).map f =
    (List.range s.nextOp).flatMap (fun j => if Q (s.op j).attrs then List.replicate ((c.leavesOf (s.op j).obs).count l) (f j) else []) := by
  unfold idsOn
  rw [List.filter_flatMap, List.map_flatMap]
  congr 1
  funext j
  by_cases hq : Q (s.op j).attrs = true
  · rw [if_pos hq, List.filter_replicate, if_pos hq, List.map_replicate]
  · rw [if_neg hq, List.filter_replicate, if_neg hq]
    rfl

/-- Their values. -/
theorem applied_calls_on (hm : More c s) (l : Nat) (hall : ∀ i, i < s.nextOp → (s.op i).pc = .done) (P : KS → Bool) (Q : AL → Bool)
    (hPQ : ∀ k i sq, (l, k, i, sq) ∈ s.applied → P k = Q (s.op i).attrs) :
    ((keyedApplied s l).filter (fun e => P e.1)).map (fun e => (s.op e.2.1).num) |>.Perm
      ((List.range s.nextOp).flatMap (fun j => if Q (s.op j).attrs then List.replicate ((c.leavesOf (s.op j).obs).count l) (s.op j).num else [])) := by
  have h1 := applied_ids_on hm l hall P Q hPQ
  have h2 := h1.map (fun i => (s.op i).num)
  rw [List.map_map, idsOn_map] at h2
  exact h2

/-- With nothing left in memory, the points of a delta view under keys with property `P` contain the updates under these keys. -/
theorem reported_on (hm : More c s) {l : Nat} (hd : c.delta l = true) (hleft : inAccsAll s l = [] ∧ inSeriesAll s l = []) (P : KS → Bool) :
    ((keyedApplied s l).filter (fun e => P e.1)).map (·.2) |>.Perm ((s.emits.filter (fun e => e.leaf == l && P e.key)).flatMap (fun e => e.ops)) := by
  let R : List (KS × Nat × Nat) := (s.emits.filter (fun e => e.leaf == l)).flatMap (fun e => e.ops.map (fun o => (e.key, o)))
  have hp : (keyedApplied s l).Perm R := by
    rw [List.perm_iff_count]
    rintro ⟨k, x⟩
    have h := (cons_perm hm.full.inv hm.full.vals.p.cons hd k).count_eq x
    have hB : inAccs s l k = [] := by
      rw [List.eq_nil_iff_forall_not_mem]
      intro y hy
      have : y ∈ inAccsAll s l := by
        unfold inAccs at hy
        obtain ⟨a, h1, h2⟩ := List.mem_flatMap.1 hy
        rw [List.mem_filter, Bool.and_eq_true] at h1
        exact List.mem_flatMap.2 ⟨a, List.mem_filter.2 ⟨h1.1, h1.2.1⟩, h2⟩
      rw [hleft.1] at this
      cases this
    have hD : inSeries s l k = [] := by
      rw [List.eq_nil_iff_forall_not_mem]
      intro y hy
      have : y ∈ inSeriesAll s l := by
        unfold inSeries at hy
        obtain ⟨a, h1, h2⟩ := List.mem_flatMap.1 hy
        exact List.mem_flatMap.2 ⟨a, (List.mem_filter.1 h1).1, h2⟩
      rw [hleft.2] at this
      cases this
    rw [hB, hD, List.append_nil, List.append_nil] at h
    have hA : (keyedApplied s l).count (k, x) = (appliedTo s l k).count x := by
      have := count_appliedView s l k x
      unfold appliedView at this
      unfold keyedApplied
      rw [this]; rfl
    have hR : R.count (k, x) = (reported s l k).count x := by
      have := count_reportedKV s.emits l k x
      unfold reportedKV at this
      rw [this]; rfl
    rw [hA, hR]
    exact h
  have h2 := (hp.filter (fun e => P e.1)).map (·.2)
  have e1 : (R.filter (fun e => P e.1)).map (·.2) = (s.emits.filter (fun e => e.leaf == l && P e.key)).flatMap (fun e => e.ops) := by
    show (List.filter _ (List.flatMap _ _)).map _ = _
    rw [List.filter_flatMap, List.map_flatMap]
    have e2 : s.emits.filter (fun e => e.leaf == l && P e.key) = (s.emits.filter (fun e => e.leaf == l)).filter (fun e => P e.key) := by
      rw [List.filter_filter]
      apply List.filter_congr
      intro e _
      exact Bool.and_comm _ _
    rw [e2, Pipeline.flatMap_filter_if (fun e : Emit KS S => P e.key)]
    congr 1
    funext e
    rw [List.filter_map, List.map_map]
    by_cases hP : P e.key = true
    · rw [if_pos hP, List.filter_eq_self.2 (by intro x _; exact hP)]
      show e.ops.map id = _
      exact List.map_id _
    · rw [if_neg hP, List.filter_eq_nil_iff.2 (by intro x _; exact hP)]
      rfl
  rw [e1] at h2
  exact h2

end Verif.Sync

namespace Verif.Pipeline
open Verif Verif.Attr Verif.Number Verif.Aggr Verif.Export
variable {H : Type} {farm : Str → UInt64} {u : Front.Setup (Cell Bits H)} {R : Reader H}

/-! ### Exported attributes -/

theorem pointwise_inj {α β : Type} {Q : α → β → Prop} (hQ : ∀ a b b', Q a b → Q a b' → b = b') {l : List α} {m m' : List β} (h : Pointwise Q l m)
    (h' : Pointwise Q l m') : m = m' := by
  refine List.ext_getElem? ?_
  intro i
  by_cases hi : i < l.length
  · have h1 : i < m.length := h.1 ▸ hi
    have h2 : i < m'.length := h'.1 ▸ hi
    rw [List.getElem?_eq_getElem h1, List.getElem?_eq_getElem h2]
    congr 1
    exact hQ _ _ _ (h.2 i _ _ (List.getElem?_eq_getElem hi) (List.getElem?_eq_getElem h1))
      (h'.2 i _ _ (List.getElem?_eq_getElem hi) (List.getElem?_eq_getElem h2))
  · rw [List.getElem?_eq_none (by have := h.1; omega), List.getElem?_eq_none (by have := h'.1; omega)]

theorem valueOf_fun {v : Val} {p p' : PVal} (h : ValueOf v p) (h' : ValueOf v p') : p = p' := by
  have hpw : ∀ {α : Type} {f : α → PScalar} {l : List α} {m m' : List PScalar}, Pointwise (fun b p => p = f b) l m → Pointwise (fun b p => p = f b) l m' → m = m' :=
    fun h h' => pointwise_inj (fun a b b' e e' => e.trans e'.symm) h h'
  unfold ValueOf at h h'
  split at h <;> split at h' <;> simp_all
  all_goals exact hpw h h'

theorem attrsOf_fun {k : List KV} {m m' : PMap} (h : AttrsOf k m) (h' : AttrsOf k m') : m = m' :=
  pointwise_inj (fun _ _ _ e e' => Prod.ext (e.1.trans e'.1.symm) (valueOf_fun e.2 e'.2)) h h'

theorem pointwise_mem_left {α β : Type} {Q : α → β → Prop} {l : List α} {m : List β} (h : Pointwise Q l m) {a : α} (ha : a ∈ l) : ∃ b ∈ m, Q a b := by
  obtain ⟨i, hi⟩ := List.getElem?_of_mem ha
  have hlt : i < m.length := h.1 ▸ (List.getElem?_eq_some_iff.1 hi).1
  exact ⟨m[i], List.getElem_mem hlt, h.2 i a _ hi (List.getElem?_eq_getElem hlt)⟩

theorem pointwise_mem_right {α β : Type} {Q : α → β → Prop} {l : List α} {m : List β} (h : Pointwise Q l m) {b : β} (hb : b ∈ m) : ∃ a ∈ l, Q a b := by
  obtain ⟨i, hi⟩ := List.getElem?_of_mem hb
  have hlt : i < l.length := h.1 ▸ (List.getElem?_eq_some_iff.1 hi).1
  exact ⟨l[i], List.getElem_mem hlt, h.2 i _ b (List.getElem?_eq_getElem hlt) hi⟩

theorem sorted_unique {β : Type} : ∀ {m m' : List (Str × β)}, m.Pairwise (fun x y => x.1 < y.1) → m'.Pairwise (fun x y => x.1 < y.1) →
    (∀ e, e ∈ m ↔ e ∈ m') → m = m' := by
  intro m
  induction m with
  | nil =>
    intro m' _ _ h
    cases m' with
    | nil => rfl
    | cons e t => exact absurd ((h e).2 List.mem_cons_self) (by simp)
  | cons e t ih =>
    intro m' h1 h2 h
    cases m' with
    | nil => exact absurd ((h e).1 List.mem_cons_self) (by simp)
    | cons e' t' =>
      rw [List.pairwise_cons] at h1 h2
      have hee : e = e' := by
        rcases List.mem_cons.1 ((h e).1 List.mem_cons_self) with h3 | h3
        · exact h3
        · rcases List.mem_cons.1 ((h e').2 List.mem_cons_self) with h4 | h4
          · exact h4.symm
          · exact absurd (str_trans (h1.1 e' h4) (h2.1 e h3)) (str_irrefl _)
      subst hee
      congr 1
      refine ih h1.2 h2.2 ?_
      intro x
      constructor
      · intro hx
        rcases List.mem_cons.1 ((h x).1 (List.mem_cons_of_mem _ hx)) with h3 | h3
        · subst h3; exact absurd (h1.1 x hx) (str_irrefl _)
        · exact h3
      · intro hx
        rcases List.mem_cons.1 ((h x).2 (List.mem_cons_of_mem _ hx)) with h3 | h3
        · subst h3; exact absurd (h2.1 x hx) (str_irrefl _)
        · exact h3

theorem attrsOf_describes {f : Option (List Str)} {as : List KV} {m : PMap} (h : AttrsOf (applyKeysFilter f (newSet as)) m) : Describes f as m := by
  have hs := applyKeysFilter_sorted (f := f) (newSet_sorted as)
  have hg : ∀ k, Attr.get k (applyKeysFilter f (newSet as)) =
      if k ≠ [] ∧ (∀ ks, f = some ks → k ∈ ks) then (lastValue k as).map canonVal else none := by
    intro k; rw [get_applyKeysFilter, get_newSet]
  constructor
  · have hp := Props.sorted_pairwise hs
    rw [List.pairwise_iff_getElem] at hp ⊢
    intro i j hi hj hij
    have hi' : i < (applyKeysFilter f (newSet as)).length := h.1 ▸ hi
    have hj' : j < (applyKeysFilter f (newSet as)).length := h.1 ▸ hj
    rw [(h.2 i _ _ (List.getElem?_eq_getElem hi') (List.getElem?_eq_getElem hi)).1,
      (h.2 j _ _ (List.getElem?_eq_getElem hj') (List.getElem?_eq_getElem hj)).1]
    exact hp i j hi' hj' hij
  · intro k v
    constructor
    · intro hm
      obtain ⟨kv, h1, h2, h3⟩ := pointwise_mem_right h hm
      dsimp only at h2 h3
      have h4 := get_of_mem hs h1
      rw [hg, ← h2] at h4
      split at h4
      · rename_i hc
        cases hl : lastValue k as with
        | none => rw [hl] at h4; cases h4
        | some w =>
          rw [hl] at h4
          simp only [Option.map_some, Option.some.injEq] at h4
          exact ⟨hc.1, hc.2, w, rfl, by rw [h4]; exact h3⟩
      · cases h4
    · rintro ⟨h1, h2, w, h3, h4⟩
      have h5 := hg k
      rw [if_pos ⟨h1, h2⟩, h3] at h5
      obtain ⟨e, he, h6, h7⟩ := pointwise_mem_left h (mem_of_get h5)
      have : e = (k, v) := Prod.ext h6 (valueOf_fun h7 h4)
      rw [← this]
      exact he

/-- The set made by the code and the description. -/
theorem describes_iff {f : Option (List Str)} {as : List KV} (ht : TypedList as) (m : PMap) :
    AttrsOf (applyKeysFilter f (newSet as)) m ↔ Describes f as m := by
  refine ⟨attrsOf_describes, ?_⟩
  intro h
  obtain ⟨m', _, h2⟩ := copyAttributes_ok (l := applyKeysFilter f (newSet as))
    ⟨filter_typed (newSet_typed ht), sorted_pairwise (applyKeysFilter_sorted (newSet_sorted _))⟩
  have h3 := attrsOf_describes h2
  have : m = m' := sorted_unique h.1 h3.1 (by rintro ⟨k, v⟩; rw [h.2, h3.2])
  rw [this]
  exact h2

/-! ### The end of a run -/

/-- The state of the machine when the last collection starts, `y`, and at the end, `z`, with the payloads sent. -/
structure Ended (farm : Str → UInt64) (u : Front.Setup (Cell Bits H)) (R : Reader H) (lib : Library) (name : Str) (o : Out) {D : Type}
    (get : PData → List D) (Rel : Point → D → Prop) (acts : List Act) (y z : Sync.State (List KV) (List KV) Bits (Cell Bits H)) (sent : List Payload) :
    Prop where
  reachY : Sync.Reachable (Front.realCfg farm u) 0 y
  reach : Sync.Reachable (Front.realCfg farm u) 0 z
  calls : Sync.CallsAre z (started acts)
  keys : Sync.KeysFrom (Front.realCfg farm u) TypedList z
  done : ∀ i, i < z.nextOp → (z.op i).pc = .done
  sent : Pointwise (EmitRel R o Rel) (z.emits.reverse.filter (fun e => e.leaf == o.leaf && e.kept)) (sentPoints get lib name sent)
  gone : ∀ i, i < z.nextOp → o.leaf ∈ u.leavesOf (z.op i).obs → Sync.Gone y i ∧ Sync.Finished y i (z.op i).obs ∧ Sync.Gone z i
  fin : ∃ pfin, Sync.run (Front.realCfg farm u) y (.collect o.leaf :: pfin) = some z
  task : z.task y.nextTask = .done
  same : y.nextOp = z.nextOp
  doneY : ∀ i, i < y.nextOp → (y.op i).pc = .done

theorem started_length (as : List Act) : (started as).length ≤ (Pipeline.calls as).length := by
  induction as with
  | nil => exact Nat.le_refl _
  | cons a as ih =>
    unfold started Pipeline.calls at ih ⊢
    rw [List.filterMap_cons, List.filterMap_cons]
    cases a with
    | call i as n =>
      dsimp only
      cases Front.rangeTest i.num n i.kind
      · exact Nat.le_succ_of_le ih
      · exact Nat.succ_le_succ ih
    | sched b => exact ih
    | «export» q => exact ih

theorem ended {D : Type} {get : PData → List D} {Rel : Point → D → Prop} {kinds : DataKind → Prop} {lib : Library} {name : Str} {o : Out}
    {acts coll : List Act} {x x' : Sys H} (hres : Exportable R.resource) (ho : Follow R lib name o get Rel kinds)
    (ht : Typed acts) (hfew : (Pipeline.calls acts).length < 2 ^ 32)
    (hr : run (Front.realCfg farm u) R (initial (Front.realCfg farm u)) acts = some x)
    (hall : ∀ i, i < x.s.nextOp → (x.s.op i).pc = .done)
    (hc : Collected (Front.realCfg farm u) R o.leaf x coll x') (hnone : Pipeline.calls coll = []) :
    ∃ y, Ended farm u R lib name o get Rel acts y x'.s x'.sent := by
  obtain ⟨out, hout, _⟩ := copyAttributes_ok hres
  obtain ⟨mid, fin, y, z, q, hsplit, h1, h2, h3, htask, hsnap⟩ := hc.split
  have ix : Inv farm u R lib name o get Rel out acts x :=
    Inv.initial (farm := farm) (u := u) (R := R) (lib := lib) (name := name) (o := o) (out := out) |>.run ho hout ht hr
  have nocall : ∀ as bs : List Act, Pipeline.calls (as ++ bs) = [] → Pipeline.calls as = [] ∧ Pipeline.calls bs = [] := by
    intro as bs h
    unfold Pipeline.calls at h ⊢
    rw [List.filterMap_append] at h
    exact List.append_eq_nil_iff.1 h
  have hst : ∀ as : List Act, Pipeline.calls as = [] → started as = [] := by
    intro as h
    have := started_length as
    rw [h] at this
    exact List.eq_nil_of_length_eq_zero (Nat.le_zero.1 this)
  have htyped : ∀ as : List Act, Pipeline.calls as = [] → Typed (acts ++ as) := by
    intro as h e he
    refine ht e ?_
    unfold Pipeline.calls at h he ⊢
    rw [List.filterMap_append, h, List.append_nil] at he
    exact he
  have hsame : ∀ as : List Act, Pipeline.calls as = [] → started (acts ++ as) = started acts := by
    intro as h
    have := hst as h
    unfold started at this ⊢
    rw [List.filterMap_append, this, List.append_nil]
  rw [hsplit] at hnone
  have hmf := nocall _ _ hnone
  have hmid := nocall _ _ hmf.1
  have iy := ix.run ho hout (htyped mid hmid.1) h1
  have iz := iy.run ho hout (by rw [List.append_assoc]; exact htyped _ hmf.1) h2
  have ix' := iz.step ho hout (a := .export q) (by rw [List.append_assoc, List.append_assoc, ← List.append_assoc mid]; exact htyped _ hnone) h3
  have hcy := iy.calls
  rw [hsame mid hmid.1] at hcy
  have hcz := iz.calls
  rw [List.append_assoc, hsame _ hmf.1] at hcz
  have hnx : z.s.nextOp = x.s.nextOp := by rw [hcz.1, ix.calls.1]
  have hW : z.s.nextOp < (Front.realCfg farm u).W := by
    rw [hcz.1]
    exact Nat.lt_of_le_of_lt (started_length acts) hfew
  have mx := Sync.reachable_more ix.reach
  have my := Sync.reachable_more iy.reach
  have mz := Sync.reachable_more iz.reach
  have pmid := run_proj h1
  have pfin := run_proj h2
  have hfin : ∀ i, i < z.s.nextOp → Sync.Finished z.s i (x.s.op i).obs ∧ Sync.Finished y.s i (x.s.op i).obs := by
    intro i hi
    have f0 : Sync.Finished x.s i (x.s.op i).obs := ⟨hall i (hnx ▸ hi), rfl⟩
    have f1 := f0.run mx.full pmid
    exact ⟨f1.run my.full pfin, f1⟩
  have hyz := Sync.nextOp_run my pfin
  have hx's : x'.s = z.s ∧ x'.seen = z.s.emits.length := by
    simp only [Pipeline.step, Option.some.injEq] at h3
    subst h3
    exact ⟨rfl, rfl⟩
  refine ⟨y.s, iy.reach, ?_, ?_, ?_, ?_, ?_, ?_, ?_, ?_, ?_, ?_⟩
  · rw [hx's.1]; exact iz.reach
  · rw [hx's.1]; exact hcz
  · rw [hx's.1]; exact iz.keys
  · rw [hx's.1]; exact fun i hi => (hfin i hi).1.1
  · have hsent := ix'.sent
    rw [hx's.2, hx's.1] at hsent
    have hl : z.s.emits.length = z.s.emits.reverse.length := by rw [List.length_reverse]
    rw [hl, List.take_length] at hsent
    rw [hx's.1]
    exact hsent
  · rw [hx's.1]
    intro i hi hl
    rw [(hfin i hi).1.2] at hl ⊢
    obtain ⟨m1, m2, w, hm, hw1, hw2⟩ := hsnap _ hl
    rw [hm] at h1 hmid
    obtain ⟨w', hw1', hw3⟩ := run_append h1
    rw [hw1] at hw1'
    cases hw1'
    have iw := ix.run ho hout (htyped m1 (nocall _ _ hmid.1).1) hw1
    have mw := Sync.reachable_more iw.reach
    have f0 : Sync.Finished x.s i (x.s.op i).obs := ⟨hall i (hnx ▸ hi), rfl⟩
    have fw := f0.run mx.full (run_proj hw1)
    have pw := run_proj hw3
    have hst1 : ∃ s1, Sync.step (Front.realCfg farm u) w.s (.snapshot (x.s.op i).obs) = some s1 ∧
        Sync.run (Front.realCfg farm u) s1 (proj m2) = some y.s := by
      have e : proj (Act.sched (.snapshot (x.s.op i).obs) :: m2) = .snapshot (x.s.op i).obs :: proj m2 := rfl
      rw [e, Sync.run] at pw
      exact ⟨_, rfl, pw⟩
    obtain ⟨s1, hs1, hs2⟩ := hst1
    have m1' := mw.step hs1
    have few1 := iw.few.preserved mw.full.inv.wf (mw.full.inv.step_sound hs1)
    have hgone := Sync.gone_of_snapshot (i := i) (s1 := s1) (acts := proj m2) mw fw.1 (by rw [fw.2]; exact hs1)
      (few1.along m1' hs2 (Nat.lt_of_le_of_lt hyz hW)) hs2 hw2
    exact ⟨hgone.1, (hfin i hi).2, Sync.Gone.run my.full (hfin i hi).2 hgone.1 pfin⟩
  · rw [hx's.1]
    exact ⟨proj fin, pfin⟩
  · rw [hx's.1]; exact htask
  · rw [hx's.1, hcz.1, hcy.1]
  · exact fun i hi => (hfin i (by rw [hcz.1, ← hcy.1]; exact hi)).2.1

/-- Nothing of a delta metric is left in memory. -/
theorem Ended.left {D : Type} {get : PData → List D} {Rel : Point → D → Prop} {lib : Library} {name : Str} {o : Out} {acts : List Act}
    {y z : Sync.State (List KV) (List KV) Bits (Cell Bits H)} {sent : List Payload} (h : Ended farm u R lib name o get Rel acts y z sent)
    (hd : u.delta o.leaf = true) : Sync.inAccsAll z o.leaf = [] ∧ Sync.inSeriesAll z o.leaf = [] := by
  have mz := Sync.reachable_more h.reach
  have my := Sync.reachable_more h.reachY
  refine Sync.nothing_left mz hd h.done ?_
  intro i hi hl
  obtain ⟨g1, g2, g3⟩ := h.gone i hi hl
  refine ⟨g3, ?_⟩
  obtain ⟨pfin, hp⟩ := h.fin
  rw [Sync.run] at hp
  have hs1' : Sync.step (Front.realCfg farm u) y (.collect o.leaf) = some _ := rfl
  rw [hs1'] at hp
  exact Sync.drained_of_collect my hd g2 g1 hs1' hp h.task

end Verif.Pipeline
