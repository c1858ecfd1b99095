import Verif.Proof.PipelineMore

/-!
Helper file: a collection while calls go on. Which calls are contained in the points.
-/

namespace Verif.Busy
open Verif

/-- Fewer of everything. -/
theorem perm_of_counts {α : Type} [BEq α] [LawfulBEq α] : ∀ {A B : List α}, (∀ x, A.count x ≤ B.count x) → ∃ r, B.Perm (A ++ r) := by
  intro A
  induction A with
  | nil => intro B _; exact ⟨B, List.Perm.refl _⟩
  | cons a A ih =>
    intro B h
    have ha : a ∈ B := by
      have := h a
      rw [List.count_cons_self] at this
      exact List.count_pos_iff.1 (by omega)
    have hp := List.perm_cons_erase ha
    obtain ⟨r, hr⟩ := ih (B := B.erase a) (by
      intro x
      have h1 := h x
      rw [hp.count_eq, List.count_cons, List.count_cons] at h1
      omega)
    exact ⟨r, hp.trans (hr.cons a)⟩

/-- A list with its remainder. -/
theorem perm_rest {α : Type} [BEq α] [LawfulBEq α] {A B : List α} (h : ∀ x, A.count x ≤ B.count x) (bad : α → Prop)
    (hb : ∀ x, bad x → B.count x ≤ A.count x) : ∃ r, B.Perm (A ++ r) ∧ ∀ x ∈ r, ¬ bad x := by
  obtain ⟨r, hr⟩ := perm_of_counts h
  refine ⟨r, hr, ?_⟩
  intro x hx hbad
  have h1 := hb x hbad
  rw [hr.count_eq, List.count_append] at h1
  have := List.count_pos_iff.2 hx
  omega

end Verif.Busy

namespace Verif.Sync
open Verif
variable {AL KS N S : Type} [DecidableEq KS] {c : Cfg AL KS N S} {s s' : State AL KS N S}

omit [DecidableEq KS] in
theorem progOf_count_le (x : Op AL N) (l : Nat) : (progOf c x).count l ≤ (c.leavesOf x.obs).count l := by
  unfold progOf
  split
  all_goals first
   | exact Nat.zero_le _
   | exact (List.take_sublist _ _).count_le _
   | exact Nat.le_refl _

/-- The updates applied so far are those of the calls, up to calls which have not returned. -/
theorem applied_some (hm : More c s) (l : Nat) (P : KS → Bool) (Q : AL → Bool) (hPQ : ∀ k i sq, (l, k, i, sq) ∈ s.applied → P k = Q (s.op i).attrs) :
    ∃ r, (idsOn c s l Q).Perm (((keyedApplied s l).filter (fun e => P e.1)).map (·.2.1) ++ r) ∧ ∀ i ∈ r, (s.op i).pc ≠ .done := by
  unfold idsOn
  have e1 : ((keyedApplied s l).filter (fun e => P e.1)).map (·.2.1) = ((keyedApplied s l).map (·.2.1)).filter (fun j => Q (s.op j).attrs) := by
    rw [List.filter_map]
    congr 1
    apply List.filter_congr
    intro e he
    unfold keyedApplied at he
    obtain ⟨⟨l', k, i, sq⟩, h1, h2⟩ := List.mem_map.1 he
    rw [List.mem_filter] at h1
    have hl : l' = l := by simpa using h1.2
    subst hl
    dsimp only at h2
    rw [← h2]
    exact hPQ k i sq h1.1
  rw [e1]
  have hc : ∀ i, ((keyedApplied s l).map (·.2.1)).count i = (progOf c (s.op i)).count l := by
    intro i
    rw [← hm.full.vals.p.prog i l]
    unfold keyedApplied
    rw [List.count, List.countP_map, List.countP_map, List.countP_filter]
    apply List.countP_congr
    intro e _
    simp [and_comm]
  have hidle : ∀ i, ¬ i < s.nextOp → (progOf c (s.op i)).count l = 0 := by
    intro i hi
    have := hm.full.inv.wf.opIdle i (by omega)
    simp [progOf, this]
  obtain ⟨r, h1, h2⟩ := Busy.perm_rest (A := (keyedApplied s l).map (·.2.1))
    (B := (List.range s.nextOp).flatMap (fun j => List.replicate ((c.leavesOf (s.op j).obs).count l) j)) (by
      intro i
      rw [hc, count_range_replicate]
      by_cases hi : i < s.nextOp
      · rw [if_pos hi]
        exact progOf_count_le _ _
      · rw [if_neg hi, hidle i hi]
        exact Nat.le_refl _) (fun i => (s.op i).pc = .done) (by
      intro i hd
      rw [hc, count_range_replicate]
      by_cases hi : i < s.nextOp
      · rw [if_pos hi, done_prog hd]
        exact Nat.le_refl _
      · rw [if_neg hi]
        exact Nat.zero_le _)
  refine ⟨r.filter (fun j => Q (s.op j).attrs), ?_, ?_⟩
  · rw [← List.filter_append]
    exact h1.filter _
  · intro i hi
    exact h2 i (List.mem_filter.1 hi).1

/-- The points of a delta view contain the updates under the keys with property `P`, up to updates of calls still in memory. -/
theorem reported_some (hm : More c s) {l : Nat} (hd : c.delta l = true) (P : KS → Bool) (ret : Nat → Prop)
    (hg : ∀ i, ret i → l ∈ c.leavesOf (s.op i).obs → Gone s i)
    (hs : ∀ i, ret i → l ∈ c.leavesOf (s.op i).obs → ∀ h sq, h < s.nextHold → (s.hold h).leaf = l → ¬ (i, sq) ∈ (s.hold h).store.ops) :
    ∃ r, (((keyedApplied s l).filter (fun e => P e.1)).map (·.2)).Perm
      ((s.emits.filter (fun e => e.leaf == l && P e.key)).flatMap (fun e => e.ops) ++ r) ∧ ∀ e ∈ r, ¬ ret e.1 := by
  let R : List (KS × Nat × Nat) := (s.emits.filter (fun e => e.leaf == l)).flatMap (fun e => e.ops.map (fun o => (e.key, o)))
  have hcount : ∀ k x, (keyedApplied s l).count (k, x) = R.count (k, x) + (inAccs s l k).count x + (inSeries s l k).count x := by
    intro k x
    have h := (cons_perm hm.full.inv hm.full.vals.p.cons hd k).count_eq x
    rw [List.count_append, List.count_append] at h
    have hA : (keyedApplied s l).count (k, x) = (appliedTo s l k).count x := by
      have := count_appliedView s l k x
      unfold appliedView at this
      unfold keyedApplied
      rw [this]; rfl
    have hR : R.count (k, x) = (reported s l k).count x := by
      have := count_reportedKV s.emits l k x
      unfold reportedKV at this
      rw [this]; rfl
    rw [hA, hR]
    exact h
  have hp : ∃ r, (keyedApplied s l).Perm (R ++ r) ∧ ∀ e ∈ r, ¬ ret e.2.1 := by
    refine Busy.perm_rest (fun x => ?_) (fun e : KS × Nat × Nat => ret e.2.1) ?_
    · obtain ⟨k, x⟩ := x
      rw [hcount]
      omega
    · rintro ⟨k, i, sq⟩ hr
      by_cases hmem : (k, i, sq) ∈ keyedApplied s l
      case neg =>
        rw [List.count_eq_zero.2 hmem]
        exact Nat.zero_le _
      have hl : l ∈ c.leavesOf (s.op i).obs := by
        unfold keyedApplied at hmem
        obtain ⟨⟨l', k', i', sq'⟩, h1, h2⟩ := List.mem_map.1 hmem
        rw [List.mem_filter] at h1
        have hl : l' = l := by simpa using h1.2
        cases h2
        subst hl
        exact applied_feeds hm.full.vals.p.prog h1.1
      rw [hcount]
      have h1 : (inAccs s l k).count (i, sq) = 0 := by
        rw [List.count_eq_zero]
        intro hx
        unfold inAccs at hx
        obtain ⟨a, h3, h4⟩ := List.mem_flatMap.1 hx
        have ha : a < s.nextAcc := by simpa using (List.mem_filter.1 h3).1
        have := hg i hr hl a sq ha
        rcases List.mem_append.1 h4 with h | h
        · exact this.1 h
        · exact this.2 h
      have h2 : (inSeries s l k).count (i, sq) = 0 := by
        rw [List.count_eq_zero]
        intro hx
        unfold inSeries at hx
        obtain ⟨e, h3, h4⟩ := List.mem_flatMap.1 hx
        have hok := hm.full.inv.wf.dataOk l e.1 e.2 (List.mem_filter.1 h3).1
        exact hs i hr hl e.2 sq hok.1 hok.2.1 h4
      rw [h1, h2]
      exact Nat.le_refl _
  obtain ⟨r, hp, hr⟩ := hp
  have h2 := (hp.filter (fun e => P e.1)).map (·.2)
  rw [List.filter_append, List.map_append] at h2
  have e1 : (R.filter (fun e => P e.1)).map (·.2) = (s.emits.filter (fun e => e.leaf == l && P e.key)).flatMap (fun e => e.ops) := by
    show (List.filter _ (List.flatMap _ _)).map _ = _
    rw [List.filter_flatMap, List.map_flatMap]
    have e2 : s.emits.filter (fun e => e.leaf == l && P e.key) = (s.emits.filter (fun e => e.leaf == l)).filter (fun e => P e.key) := by
      rw [List.filter_filter]
      apply List.filter_congr
      intro e _
      exact Bool.and_comm _ _
    rw [e2, Pipeline.flatMap_filter_if (fun e : Emit KS S => P e.key)]
    congr 1
    funext e
    rw [List.filter_map, List.map_map]
    by_cases hP : P e.key = true
    · rw [if_pos hP, List.filter_eq_self.2 (by intro x _; exact hP)]
      show e.ops.map id = _
      exact List.map_id _
    · rw [if_neg hP, List.filter_eq_nil_iff.2 (by intro x _; exact hP)]
      rfl
  rw [e1] at h2
  refine ⟨_, h2, ?_⟩
  intro e he
  obtain ⟨e', h3, rfl⟩ := List.mem_map.1 he
  exact hr e' (List.mem_filter.1 h3).1

end Verif.Sync

namespace Verif.Pipeline
open Verif Verif.Attr Verif.Number Verif.Aggr Verif.Export Verif.Spec
variable {H : Type} {farm : Str → UInt64} {u : Front.Setup (Cell Bits H)} {R : Reader H}
variable {D : Type} {get : PData → List D} {Rel : Point → D → Prop} {lib : Library} {name : Str} {o : Out} {acts coll : List Act}
  {y z : Sync.State (List KV) (List KV) Bits (Cell Bits H)} {sent : List Payload} {ret : Nat → Prop}

/-- A program with one reader and its push exporter: any calls and collections and exports happen (`acts`); then the reader collects output metric `o` once more and
exports it, while calls go on (`coll`). -/
structure Busy (farm : Str → UInt64) (u : Front.Setup (Cell Bits H)) (R : Reader H) (lib : Library) (name : Str) (o : Out)
    (shapes : List Shape) (acts coll : List Act) (x x' : Sys H) : Prop where
  resource : Exportable R.resource
  only : Only R lib name o
  shape : o.shape ∈ shapes
  typed : Typed (acts ++ coll)
  few : (Pipeline.calls (acts ++ coll)).length < 2 ^ 32
  before : run (Front.realCfg farm u) R (initial (Front.realCfg farm u)) acts = some x
  collected : Collected (Front.realCfg farm u) R o.leaf x coll x'

/-- The state of the machine when the last collection starts, `y`, and at the end, `z`, with the payloads sent. The calls `ret` had returned before. -/
structure Caught (farm : Str → UInt64) (u : Front.Setup (Cell Bits H)) (R : Reader H) (lib : Library) (name : Str) (o : Out) {D : Type}
    (get : PData → List D) (Rel : Point → D → Prop) (acts : List Act) (ret : Nat → Prop) (y z : Sync.State (List KV) (List KV) Bits (Cell Bits H))
    (sent : List Payload) : Prop where
  reachY : Sync.Reachable (Front.realCfg farm u) 0 y
  reach : Sync.Reachable (Front.realCfg farm u) 0 z
  calls : Sync.CallsAre z (started acts)
  sent : Pointwise (EmitRel R o Rel) (z.emits.reverse.filter (fun e => e.leaf == o.leaf && e.kept)) (sentPoints get lib name sent)
  gone : ∀ i, ret i → i < y.nextOp ∧ (y.op i).pc = .done ∧ (o.leaf ∈ u.leavesOf (y.op i).obs → Sync.Gone y i)
  fin : ∃ pfin, Sync.run (Front.realCfg farm u) y (.collect o.leaf :: pfin) = some z
  task : z.task y.nextTask = .done

theorem caught {kinds : DataKind → Prop} {x x' : Sys H} (hres : Exportable R.resource) (ho : Follow R lib name o get Rel kinds)
    (ht : Typed (acts ++ coll)) (hfew : (Pipeline.calls (acts ++ coll)).length < 2 ^ 32)
    (hr : run (Front.realCfg farm u) R (initial (Front.realCfg farm u)) acts = some x)
    (hret : ∀ i, ret i → i < x.s.nextOp ∧ (x.s.op i).pc = .done)
    (hc : Collected (Front.realCfg farm u) R o.leaf x coll x') :
    ∃ y, Caught farm u R lib name o get Rel (acts ++ coll) ret y x'.s x'.sent ∧ ∃ as, Sync.run (Front.realCfg farm u) x.s as = some y := by
  obtain ⟨out, hout, _⟩ := copyAttributes_ok hres
  obtain ⟨mid, fin, y, z, q, hsplit, h1, h2, h3, htask, hsnap⟩ := hc.split
  have sub : ∀ as bs : List Act, Typed (as ++ bs) → Typed as := by
    intro as bs h e he
    refine h e ?_
    unfold Pipeline.calls at he ⊢
    rw [List.filterMap_append]
    exact List.mem_append_left _ he
  rw [hsplit] at ht hfew ⊢
  have ht3 : Typed (((acts ++ mid) ++ .sched (.collect o.leaf) :: fin) ++ [.export q]) := by
    have e : ((acts ++ mid) ++ .sched (.collect o.leaf) :: fin) ++ [.export q] = acts ++ (mid ++ .sched (.collect o.leaf) :: fin ++ [.export q]) := by
      simp [List.append_assoc]
    rw [e]; exact ht
  have ht2 := sub _ _ ht3
  have ht1 := sub _ _ ht2
  have ix : Inv farm u R lib name o get Rel out acts x :=
    Inv.initial (farm := farm) (u := u) (R := R) (lib := lib) (name := name) (o := o) (out := out) |>.run ho hout (sub _ _ ht1) hr
  have iy := ix.run ho hout ht1 h1
  have iz := iy.run ho hout ht2 h2
  have ix' := iz.step ho hout (a := .export q) ht3 h3
  have hx's : x'.s = z.s ∧ x'.seen = z.s.emits.length := by
    simp only [Pipeline.step, Option.some.injEq] at h3
    subst h3
    exact ⟨rfl, rfl⟩
  have hcalls := ix'.calls
  have e3 : ((acts ++ mid) ++ .sched (.collect o.leaf) :: fin) ++ [.export q] = acts ++ (mid ++ .sched (.collect o.leaf) :: fin ++ [.export q]) := by
    simp [List.append_assoc]
  rw [e3] at hcalls
  have hW : z.s.nextOp < (Front.realCfg farm u).W := by
    rw [← hx's.1, hcalls.1]
    exact Nat.lt_of_le_of_lt (started_length _) hfew
  have mx := Sync.reachable_more ix.reach
  have my := Sync.reachable_more iy.reach
  have pmid := run_proj h1
  have pfin := run_proj h2
  have hyz := Sync.nextOp_run my pfin
  refine ⟨y.s, ⟨iy.reach, ?_, hcalls, ?_, ?_, ?_, ?_⟩, proj mid, pmid⟩
  · rw [hx's.1]; exact iz.reach
  · have hsent := ix'.sent
    rw [hx's.2, hx's.1] at hsent
    have hl : z.s.emits.length = z.s.emits.reverse.length := by rw [List.length_reverse]
    rw [hl, List.take_length] at hsent
    rw [hx's.1]
    exact hsent
  · intro i hi
    obtain ⟨hix, hdone⟩ := hret i hi
    have f0 : Sync.Finished x.s i (x.s.op i).obs := ⟨hdone, rfl⟩
    have f1 := f0.run mx.full pmid
    refine ⟨Nat.lt_of_lt_of_le hix (Sync.nextOp_run mx pmid), f1.1, ?_⟩
    intro hl
    rw [f1.2] at hl
    obtain ⟨m1, m2, w, hm, hw1, hw2⟩ := hsnap _ hl
    rw [hm] at h1 ht1
    obtain ⟨w', hw1', hw3⟩ := run_append h1
    rw [hw1] at hw1'
    cases hw1'
    have iw := ix.run ho hout (by rw [← List.append_assoc] at ht1; exact sub _ _ ht1) hw1
    have mw := Sync.reachable_more iw.reach
    have fw := f0.run mx.full (run_proj hw1)
    have pw := run_proj hw3
    have hst1 : ∃ s1, Sync.step (Front.realCfg farm u) w.s (.snapshot (x.s.op i).obs) = some s1 ∧
        Sync.run (Front.realCfg farm u) s1 (proj m2) = some y.s := by
      have e : proj (Act.sched (.snapshot (x.s.op i).obs) :: m2) = .snapshot (x.s.op i).obs :: proj m2 := rfl
      rw [e, Sync.run] at pw
      exact ⟨_, rfl, pw⟩
    obtain ⟨s1, hs1, hs2⟩ := hst1
    have m1' := mw.step hs1
    have few1 := iw.few.preserved mw.full.inv.wf (mw.full.inv.step_sound hs1)
    exact (Sync.gone_of_snapshot (i := i) (s1 := s1) (acts := proj m2) mw fw.1 (by rw [fw.2]; exact hs1)
      (few1.along m1' hs2 (Nat.lt_of_le_of_lt hyz hW)) hs2 hw2).1
  · rw [hx's.1]
    exact ⟨proj fin, pfin⟩
  · rw [hx's.1]; exact htask

theorem Busy.caught {kinds : DataKind → Prop} {shapes : List Shape} {x x' : Sys H}
    (h : Busy farm u R lib name o shapes acts coll x x') (hx : Extracts get Rel kinds) (hk : ∀ s ∈ shapes, kinds s.kind)
    (hret : ∀ i, ret i → i < x.s.nextOp ∧ (x.s.op i).pc = .done) :
    ∃ y, Caught farm u R lib name o get Rel (acts ++ coll) ret y x'.s x'.sent :=
  (Pipeline.caught h.resource ⟨h.only, hx, hk _ h.shape⟩ h.typed h.few h.before hret h.collected).imp fun _ h => h.1

/-- The points sent whose attributes satisfy a condition, with the points collected. -/
theorem Caught.selected (h : Caught farm u R lib name o get Rel acts ret y z sent) (p : D → Bool) (P : List KV → Bool)
    (hp : ∀ e d, EmitRel R o Rel e d → P e.key = p d) :
    Pointwise (EmitRel R o Rel) ((z.emits.filter (fun e => e.leaf == o.leaf && P e.key)).filter (·.kept)).reverse ((sentPoints get lib name sent).filter p) := by
  have h1 := pointwise_filter (fun e => P e.key) p h.sent hp
  rw [List.filter_reverse, List.filter_reverse] at h1
  have e1 : (z.emits.filter (fun e => e.leaf == o.leaf && e.kept)).filter (fun e => P e.key) =
      (z.emits.filter (fun e => e.leaf == o.leaf && P e.key)).filter (·.kept) := by
    rw [List.filter_filter, List.filter_filter]
    apply List.filter_congr
    intro e _
    cases e.leaf == o.leaf <;> cases P e.key <;> cases e.kept <;> rfl
  rw [e1] at h1
  exact h1

/-- With room, the points with attributes `m` are about the calls described by `m`. -/
theorem Caught.described (h : Caught farm u R lib name o get Rel acts ret y z sent) (hic : u.ignoreColl = false) (hf : Fits u o.leaf acts) (ht : Typed acts) (m : PMap) :
    ∀ k i sq, (o.leaf, k, i, sq) ∈ z.applied →
      (@decide (AttrsOf k m) (Classical.propDecidable _) = true ↔ Describes (u.keys o.leaf) (z.op i).attrs m) := by
  intro k i sq hk
  rw [@decide_eq_true_eq _ (Classical.propDecidable _)]
  exact (key_describes hic hf ht h.reach h.calls m k i sq hk).2

/-- The calls contained in the points of a delta metric. -/
theorem Caught.delta_ids (h : Caught farm u R lib name o get Rel acts ret y z sent) (hd : u.delta o.leaf = true) (P : List KV → Bool) (Q : List KV → Prop)
    (hPQ : ∀ k i sq, (o.leaf, k, i, sq) ∈ z.applied → (P k = true ↔ Q (z.op i).attrs)) :
    ∃ r, (Sync.idsOn (Front.realCfg farm u) z o.leaf (fun a => @decide (Q a) (Classical.propDecidable _))).Perm
      (((z.emits.filter (fun e => e.leaf == o.leaf && P e.key)).flatMap (fun e => e.ops)).map (·.1) ++ r) ∧ ∀ i ∈ r, ¬ ret i := by
  have hm := Sync.reachable_more h.reach
  have my := Sync.reachable_more h.reachY
  obtain ⟨pfin, hp⟩ := h.fin
  have hfin : ∀ i, ret i → Sync.Finished z i (y.op i).obs := by
    intro i hi
    have f0 : Sync.Finished y i (y.op i).obs := ⟨(h.gone i hi).2.1, rfl⟩
    exact f0.run my.full hp
  have hp' := hp
  rw [Sync.run] at hp'
  have hs1' : Sync.step (Front.realCfg farm u) y (.collect o.leaf) = some _ := rfl
  rw [hs1'] at hp'
  obtain ⟨r1, h1, h1r⟩ := Sync.reported_some hm hd P ret
    (by
      intro i hi hl
      have hl' : o.leaf ∈ u.leavesOf (y.op i).obs := by rw [← (hfin i hi).2]; exact hl
      exact Sync.Gone.run my.full ⟨(h.gone i hi).2.1, rfl⟩ ((h.gone i hi).2.2 hl') hp)
    (by
      intro i hi hl
      have hl' : o.leaf ∈ u.leavesOf (y.op i).obs := by rw [← (hfin i hi).2]; exact hl
      exact Sync.drained_of_collect my hd ⟨(h.gone i hi).2.1, rfl⟩ ((h.gone i hi).2.2 hl') hs1' hp' h.task)
  obtain ⟨r2, h2, h2r⟩ := Sync.applied_some hm o.leaf P (fun a => @decide (Q a) (Classical.propDecidable _)) (by
    intro k i sq hk
    have := hPQ k i sq hk
    cases hp : P k with
    | true => exact (@decide_eq_true _ (Classical.propDecidable _) (this.1 hp)).symm
    | false => exact (@decide_eq_false _ (Classical.propDecidable _) (fun hq => by rw [this.2 hq] at hp; cases hp)).symm)
  refine ⟨r1.map (·.1) ++ r2, ?_, ?_⟩
  · refine h2.trans ?_
    rw [← List.append_assoc]
    refine List.Perm.append_right _ ?_
    have := h1.map (·.1)
    rw [List.map_map, List.map_append] at this
    exact this
  · intro i hi
    rcases List.mem_append.1 hi with h3 | h3
    · obtain ⟨e, he, rfl⟩ := List.mem_map.1 h3
      exact h1r e he
    · exact fun hr => h2r i h3 (hfin i hr).1

/-- The last point sent for a series of a cumulative metric contains every call of the series which had returned. -/
theorem Caught.last_ids (h : Caught farm u R lib name o get Rel acts ret y z sent) (hd : u.delta o.leaf = false) (hic : u.ignoreColl = false)
    (hf : Fits u o.leaf acts) (ht : Typed acts) (hne : ∀ e ∈ Pipeline.calls acts, NoEmptyList (e.1.attrs e.2.1)) {m : PMap} (p : D → Bool)
    (hp : ∀ e d, EmitRel R o Rel e d → @decide (AttrsOf e.key m) (Classical.propDecidable _) = p d)
    (hrec : ∃ i, ret i ∧ o.leaf ∈ u.leavesOf (y.op i).obs ∧ Describes (u.keys o.leaf) (y.op i).attrs m) :
    ∃ e d, ((sentPoints get lib name sent).filter p).getLast? = some d ∧ EmitRel R o Rel e d ∧ e ∈ z.emits ∧ e.leaf = o.leaf ∧
      (∃ pre, z.emits = pre ++ y.emits ∧ e ∈ pre) ∧
      ∃ r, (Sync.idsOn (Front.realCfg farm u) z o.leaf (fun a => @decide (Describes (u.keys o.leaf) a m) (Classical.propDecidable _))).Perm
        (e.ops.map (·.1) ++ r) ∧ ∀ i ∈ r, ¬ ret i := by
  have my := Sync.reachable_more h.reachY
  have mz := Sync.reachable_more h.reach
  obtain ⟨pfin, hpf⟩ := h.fin
  have hne' : ∀ e ∈ started acts, NoEmptyList e.2.1 := by
    intro e he
    obtain ⟨i, as, n, h1, h2⟩ := mem_calls_of_started he
    rw [h2]
    exact hne _ h1
  obtain ⟨A, B, hroom, huse⟩ := fits_room (farm := farm) hf
  have huz := huse z h.calls
  -- the machine between the two states
  have between : ∀ as bs w, Sync.run (Front.realCfg farm u) y as = some w → Sync.run (Front.realCfg farm u) w bs = some z →
      w.nextOp ≤ z.nextOp ∧
      (∀ i, i < w.nextOp → (z.op i).obs = (w.op i).obs ∧ (z.op i).attrs = (w.op i).attrs ∧ (z.op i).num = (w.op i).num) ∧
      (∀ i, ret i → i < w.nextOp ∧ Sync.Finished w i (y.op i).obs ∧ (o.leaf ∈ u.leavesOf (y.op i).obs → Sync.Gone w i)) := by
    intro as bs w h1 h2
    have mw : Sync.More (Front.realCfg farm u) w := my.run h1
    have e1 := Sync.nextOp_run my h1
    have e2 := Sync.nextOp_run mw h2
    refine ⟨e2, Sync.op_static_run mw h2, ?_⟩
    intro i hi
    have f0 : Sync.Finished y i (y.op i).obs := ⟨(h.gone i hi).2.1, rfl⟩
    exact ⟨Nat.lt_of_lt_of_le (h.gone i hi).1 e1, f0.run my.full h1, fun hl => Sync.Gone.run my.full f0 ((h.gone i hi).2.2 hl) h1⟩
  have keyW : ∀ w : Sync.State (List KV) (List KV) Bits (Cell Bits H), Sync.Reachable (Front.realCfg farm u) 0 w → w.nextOp ≤ z.nextOp →
      (∀ i, i < w.nextOp → (z.op i).obs = (w.op i).obs ∧ (z.op i).attrs = (w.op i).attrs ∧ (z.op i).num = (w.op i).num) →
      ∀ k i sq, (o.leaf, k, i, sq) ∈ w.applied → k = applyKeysFilter (u.keys o.leaf) (newSet (w.op i).attrs) ∧
        (AttrsOf k m ↔ Describes (u.keys o.leaf) (w.op i).attrs m) := by
    intro w hr hn hw k i sq hk
    have huw : Sync.UsesOnly (Front.realCfg farm u) o.leaf A w := by
      intro i hi hl
      have h1 := huz i (Nat.lt_of_lt_of_le hi hn) (by rw [(hw i hi).1]; exact hl)
      rw [(hw i hi).1, (hw i hi).2.1] at h1
      exact h1
    have h1 := Sync.room_key hroom hr huw hic (fun a b => Props.C17_equal_same_set a b) hk
    refine ⟨h1, ?_⟩
    have hm := Sync.reachable_more hr
    have hlt := Sync.applied_lt hm.full.vals.p.prog hm.full.inv.wf hk
    rw [h1]
    have hty := callsAre_all h.calls (typed_started ht) i (Nat.lt_of_lt_of_le hlt hn)
    rw [(hw i hlt).2.1] at hty
    exact describes_iff hty m
  -- a call of the series
  obtain ⟨hny, hy, gy⟩ := between [] _ y rfl hpf
  obtain ⟨i0, hret0, hl0, hdesc0⟩ := hrec
  have hexists : ∃ k sq, (o.leaf, k, i0, sq) ∈ y.applied := by
    have hc := my.full.vals.p.prog i0 o.leaf
    rw [Sync.done_prog (h.gone i0 hret0).2.1] at hc
    have hpos : 0 < y.applied.countP (fun e => e.1 == o.leaf && e.2.2.1 == i0) := by rw [hc]; exact List.count_pos_iff.2 hl0
    rw [List.countP_pos_iff] at hpos
    obtain ⟨⟨l', k, i', sq⟩, h4, h5⟩ := hpos
    simp only [Bool.and_eq_true, beq_iff_eq] at h5
    obtain ⟨rfl, rfl⟩ := h5
    exact ⟨k, sq, h4⟩
  obtain ⟨K, sq0, happ0⟩ := hexists
  have hi0 := (h.gone i0 hret0).1
  have hK := keyW y h.reachY hny hy K i0 sq0 happ0
  have hKm : AttrsOf K m := hK.2.2 hdesc0
  have hKne : NoEmptyList K := by
    rw [hK.1]
    have := callsAre_all h.calls hne' i0 (Nat.lt_of_lt_of_le hi0 hny)
    rw [(hy i0 hi0).2.1] at this
    exact filter_all (p := fun v => v ≠ .bools [] ∧ v ≠ .ints [] ∧ v ≠ .floats [] ∧ v ≠ .strs []) (newSet_all canon_nonempty this)
  -- nothing returned is in the accumulators
  have noAcc : ∀ w : Sync.State (List KV) (List KV) Bits (Cell Bits H), Sync.Reachable (Front.realCfg farm u) 0 w →
      (∀ i, ret i → i < w.nextOp ∧ Sync.Finished w i (y.op i).obs ∧ (o.leaf ∈ u.leavesOf (y.op i).obs → Sync.Gone w i)) →
      ∀ e ∈ Sync.inAccs w o.leaf K, ¬ ret e.1 := by
    intro w hr hw e he hret
    have mw := Sync.reachable_more hr
    have happ : e ∈ Sync.appliedTo w o.leaf K := (Sync.cons_perm_cum mw.full.inv mw.full.vals.p.cons hd K).mem_iff.2 (List.mem_append_left _ he)
    unfold Sync.appliedTo at happ
    obtain ⟨⟨l', k', x'⟩, h1, h2⟩ := List.mem_map.1 happ
    rw [List.mem_filter, Bool.and_eq_true, beq_iff_eq] at h1
    have hl : l' = o.leaf := h1.2.1
    dsimp only at h2
    subst hl h2
    have hf := Sync.applied_feeds mw.full.vals.p.prog (i := x'.1) (sq := x'.2) h1.1
    rw [(hw _ hret).2.1.2] at hf
    unfold Sync.inAccs at he
    obtain ⟨a, h3, h4⟩ := List.mem_flatMap.1 he
    have ha : a < w.nextAcc := by simpa using (List.mem_filter.1 h3).1
    have := (hw _ hret).2.2 hf a x'.2 ha
    rcases List.mem_append.1 h4 with h | h
    · exact this.1 h
    · exact this.2 h
  -- it is in the store, so it is reported
  have hser : ∃ hh, (K, hh) ∈ y.data o.leaf := by
    have hp1 := Sync.cons_perm_cum my.full.inv my.full.vals.p.cons hd K
    have : (i0, sq0) ∈ Sync.appliedTo y o.leaf K := by
      unfold Sync.appliedTo
      exact List.mem_map.2 ⟨_, List.mem_filter.2 ⟨happ0, by simp⟩, rfl⟩
    rcases List.mem_append.1 (hp1.mem_iff.1 this) with h1 | this
    · exact absurd hret0 (noAcc y h.reachY gy _ h1)
    unfold Sync.inSeries at this
    obtain ⟨e, h1, _⟩ := List.mem_flatMap.1 this
    rw [List.mem_filter] at h1
    have h2 : e.1 = K := by simpa using h1.2
    exact ⟨e.2, by rw [← h2]; exact h1.1⟩
  obtain ⟨hh, hser⟩ := hser
  have hpf' := hpf
  rw [Sync.run] at hpf'
  have hs1 : Sync.step (Front.realCfg farm u) y (.collect o.leaf) = some _ := rfl
  rw [hs1] at hpf'
  obtain ⟨pre, hpre, e1, he1, he1l, he1k, _⟩ := Props.C07_every_series_reported h.reachY o.leaf hd hs1 hpf' h.task K hh hser
  -- the newest point of the series
  have hkept : ∀ e ∈ z.emits, e.leaf = o.leaf → e.kept = true := by
    intro e he hl
    have := Sync.reachable_kept h.reach e he
    rw [hl] at this
    have hd' : (Front.realCfg farm u).delta o.leaf = false := hd
    rw [hd'] at this
    simpa using this
  have hsel := h.selected p (fun k => @decide (AttrsOf k m) (Classical.propDecidable _)) hp
  have hkept2 : (z.emits.filter (fun e => e.leaf == o.leaf && @decide (AttrsOf e.key m) (Classical.propDecidable _))).filter (·.kept) =
      z.emits.filter (fun e => e.leaf == o.leaf && @decide (AttrsOf e.key m) (Classical.propDecidable _)) := by
    rw [List.filter_eq_self]
    intro e he
    rw [List.mem_filter, Bool.and_eq_true, beq_iff_eq] at he
    exact hkept e he.1 he.2.1
  rw [hkept2, hpre, List.filter_append] at hsel
  cases hL : pre.filter (fun e => e.leaf == o.leaf && @decide (AttrsOf e.key m) (Classical.propDecidable _)) with
  | nil =>
    rw [List.filter_eq_nil_iff] at hL
    refine absurd ?_ (hL e1 he1)
    rw [Bool.and_eq_true, beq_iff_eq]
    refine ⟨he1l, ?_⟩
    rw [he1k]
    simpa using hKm
  | cons e es =>
    rw [hL] at hsel
    have he : e ∈ pre ∧ e.leaf = o.leaf ∧ AttrsOf e.key m := by
      have : e ∈ pre.filter (fun e => e.leaf == o.leaf && @decide (AttrsOf e.key m) (Classical.propDecidable _)) := by rw [hL]; exact List.mem_cons_self
      rw [List.mem_filter, Bool.and_eq_true, beq_iff_eq] at this
      exact ⟨this.1, this.2.1, by simpa using this.2.2⟩
    obtain ⟨hem, hel, heattr⟩ := he
    have hez : e ∈ z.emits := by rw [hpre]; exact List.mem_append_left _ hem
    have hek : e.key = K := (attrsOf_inj hKne hKm heattr).symm
    -- the last point sent
    have hlast : ∃ d, ((sentPoints get lib name sent).filter p).getLast? = some d ∧ EmitRel R o Rel e d := by
      rw [List.cons_append, List.reverse_cons] at hsel
      generalize (es ++ y.emits.filter _).reverse = front at hsel
      have hl2 := hsel.1
      rw [List.length_append, List.length_singleton] at hl2
      cases hdl : ((sentPoints get lib name sent).filter p).getLast? with
      | none =>
        rw [List.getLast?_eq_none_iff] at hdl
        rw [hdl] at hl2
        cases hl2
      | some d =>
        refine ⟨d, rfl, ?_⟩
        rw [List.getLast?_eq_getElem?, ← hl2] at hdl
        refine hsel.2 front.length e d ?_ (by simpa using hdl)
        rw [List.getElem?_append_right (Nat.le_refl _)]
        simp
    obtain ⟨d, hd1, hd2⟩ := hlast
    refine ⟨e, d, hd1, hd2, hez, hel, ⟨pre, hpre, hem⟩, ?_⟩
    -- when it was made
    have hm1 := my.step hs1
    obtain ⟨as, a, bs, t, t', hsp, r1, r2, r3, hmade⟩ := Sync.emit_made hm1 hpf' hpre hem
    have mt := hm1.run r1
    have ry : Sync.run (Front.realCfg farm u) y (.collect o.leaf :: as) = some t := by rw [Sync.run, hs1]; exact r1
    have rz : Sync.run (Front.realCfg farm u) t (a :: bs) = some z := by rw [Sync.run, r2]; exact r3
    obtain ⟨hnt, htt, gt⟩ := between _ _ t ry rz
    have hrt : Sync.Reachable (Front.realCfg farm u) 0 t := by
      obtain ⟨as0, h0⟩ := h.reachY
      refine ⟨as0 ++ (.collect o.leaf :: as), ?_⟩
      rw [Sync.run_append, h0]
      exact ry
    have hperm := Props.C07_reports_all_drained hrt r2 e hmade (by rw [hel]; exact hd)
    rw [hel, hek] at hperm
    have hkd := keyW t hrt hnt htt
    obtain ⟨r3', h3, h3r⟩ := Sync.applied_some mt o.leaf (fun k => k == K)
      (fun a => @decide (Describes (u.keys o.leaf) a m) (Classical.propDecidable _)) (by
        intro k i sq hk
        have h6 := hkd k i sq hk
        have : k = K ↔ Describes (u.keys o.leaf) (t.op i).attrs m := by
          rw [← h6.2]
          constructor
          · intro e; rw [e]; exact hKm
          · intro h7; exact (attrsOf_inj hKne hKm h7).symm
        by_cases hkk : k = K
        · have h8 := this.1 hkk
          simp [hkk, h8]
        · have h8 : ¬ Describes (u.keys o.leaf) (t.op i).attrs m := fun h9 => hkk (this.2 h9)
          simp [hkk, h8])
    have hids : ∃ more, Sync.idsOn (Front.realCfg farm u) z o.leaf (fun a => @decide (Describes (u.keys o.leaf) a m) (Classical.propDecidable _)) =
        Sync.idsOn (Front.realCfg farm u) t o.leaf (fun a => @decide (Describes (u.keys o.leaf) a m) (Classical.propDecidable _)) ++ more ∧
        ∀ i ∈ more, t.nextOp ≤ i := by
      have gen : ∀ (w : Sync.State (List KV) (List KV) Bits (Cell Bits H)) (l : Nat) (Q : List KV → Bool), Sync.idsOn (Front.realCfg farm u) w l Q =
          (List.range w.nextOp).flatMap (fun j => if Q (w.op j).attrs then List.replicate ((u.leavesOf (w.op j).obs).count l) j else []) := by
        intro w l Q
        have := Sync.idsOn_map (c := Front.realCfg farm u) (s := w) l Q id
        rw [List.map_id] at this
        exact this
      obtain ⟨n, hn⟩ := Nat.exists_eq_add_of_le hnt
      rw [gen, gen, hn, List.range_add, List.flatMap_append]
      refine ⟨_, congrArg (· ++ _) ?_, ?_⟩
      · rw [List.flatMap_def, List.flatMap_def]
        refine congrArg List.flatten (List.map_congr_left ?_)
        intro j hj
        obtain ⟨b1, b2, _⟩ := htt j (by simpa using hj)
        rw [b1, b2]
      · intro i hi
        obtain ⟨j, hj, h6⟩ := List.mem_flatMap.1 hi
        obtain ⟨j', _, rfl⟩ := List.mem_map.1 hj
        split at h6
        · rw [List.mem_replicate] at h6
          omega
        · cases h6
    obtain ⟨more, hids, hmore⟩ := hids
    have e5 : (Sync.keyedApplied t o.leaf |>.filter (fun e => e.1 == K)).map (·.2.1) = (Sync.appliedTo t o.leaf K).map (·.1) := by
      unfold Sync.keyedApplied Sync.appliedTo
      rw [List.filter_map, List.map_map, List.map_map, List.filter_filter]
      refine congrArg (List.map (fun e : Nat × List KV × Nat × Nat => e.2.2.1)) (List.filter_congr ?_)
      intro e _
      rw [Bool.and_comm]
      rw [Bool.eq_iff_iff]
      simp only [Function.comp, Bool.and_eq_true, beq_iff_eq]
    rw [e5] at h3
    have hperm' := hperm.map (·.1)
    rw [List.map_append] at hperm'
    refine ⟨(Sync.inAccs t o.leaf K).map (·.1) ++ (r3' ++ more), ?_, ?_⟩
    · rw [hids]
      refine (h3.append_right more).trans ?_
      rw [List.append_assoc, ← List.append_assoc (List.map _ e.ops)]
      refine List.Perm.append_right _ ?_
      exact hperm'.trans List.perm_append_comm
    · intro i hi
      rcases List.mem_append.1 hi with h6 | h6
      · obtain ⟨e', he', rfl⟩ := List.mem_map.1 h6
        exact noAcc t hrt gt e' he'
      · rcases List.mem_append.1 h6 with h6 | h6
        · exact fun hr => h3r i h6 (gt i hr).2.1.1
        · exact fun hr => absurd (gt i hr).1 (Nat.not_lt.2 (hmore i h6))

end Verif.Pipeline
