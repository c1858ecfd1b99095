import Verif.Proof.PipelineSums

/-!
Helper file: gauges, extremes and float sums of the points sent.
-/

namespace Verif.Pipeline
open Verif Verif.Attr Verif.Number Verif.Aggr Verif.Export Verif.Spec
variable {H : Type} {farm : Str → UInt64} {u : Front.Setup (Cell Bits H)} {R : Reader H} {lib : Library} {name : Str} {o : Out}
  {acts coll : List Act} {y z : Sync.State (List KV) (List KV) Bits (Cell Bits H)} {sent : List Payload} {x x' : Sys H} {hh : HistOps Bits H}
  {m : PMap} {c : Sync.Cfg (List KV) (List KV) Bits (Cell Bits H)}

/-! ### Calls that do not overlap -/

theorem seq_quiet {G : Nat → Prop} (hs : Sync.SeqReachable c G 0 x.s) (hr : run c R x acts = some x') (hq : Pipeline.calls acts = []) :
    Sync.SeqReachable c G 0 x'.s := by
  induction acts generalizing x with
  | nil => cases hr; exact hs
  | cons a acts ih =>
    rw [run] at hr
    cases ha : step c R x a with
    | none => rw [ha] at hr; cases hr
    | some w =>
      rw [ha] at hr
      have hq' : Pipeline.calls acts = [] := by
        cases a with
        | call i kvs n => simp [Pipeline.calls] at hq
        | sched b => exact hq
        | «export» q => exact hq
      refine ih ?_ hr hq'
      cases a with
      | call i kvs n => simp [Pipeline.calls] at hq
      | «export» q =>
        simp only [step, Option.some.injEq] at ha
        rw [← ha]
        exact hs
      | sched b =>
        simp only [step] at ha
        split at ha
        · cases ha
        · rename_i hb
          cases hst : Sync.step c x.s b with
          | none => rw [hst] at ha; cases ha
          | some s' =>
            rw [hst] at ha
            cases ha
            refine .step b hs hst ?_
            intro o' a' n' e
            rw [e] at hb
            exact absurd rfl hb

theorem Sequential.reachable {l : Nat} (h : Sequential c R l acts) (hr : run c R (initial c) acts = some x) :
    Sync.SeqReachable c (fun o => l ∈ c.leavesOf o) 0 x.s := by
  have key : ∀ (n : Nat) (acts : List Act), acts.length = n → ∀ x, Sequential c R l acts → run c R (initial c) acts = some x →
      Sync.SeqReachable c (fun o => l ∈ c.leavesOf o) 0 x.s := by
    intro n
    induction n with
    | zero =>
      intro acts hl x _ hr
      rw [List.eq_nil_of_length_eq_zero hl] at hr
      cases hr
      exact .init
    | succ n ih =>
      intro acts hl x h hr
      have hne : acts ≠ [] := fun e => by rw [e] at hl; cases hl
      have hsp := List.dropLast_concat_getLast hne
      generalize hb : acts.dropLast = before at hsp
      generalize acts.getLast hne = a at hsp
      have hbl : before.length = n := by rw [← hb, List.length_dropLast, hl]; rfl
      rw [← hsp] at hr h
      obtain ⟨w, h1, h2⟩ := run_append hr
      have hw := ih before hbl w (by
        intro as i kvs n' bs v e1 e2 e3
        exact h as i kvs n' (bs ++ [a]) v (by rw [e1, List.append_assoc]; rfl) e2 e3) h1
      rw [run] at h2
      cases ha : step c R w a with
      | none => rw [ha] at h2; cases h2
      | some v =>
        rw [ha] at h2
        simp only [Option.bind_some, run, Option.some.injEq] at h2
        subst h2
        cases a with
        | «export» q =>
          simp only [step, Option.some.injEq] at ha
          rw [← ha]
          exact hw
        | sched b => exact seq_quiet (acts := [.sched b]) hw (by rw [run, ha]; rfl) rfl
        | call i kvs n' =>
          simp only [step, Option.some.injEq] at ha
          rw [← ha]
          simp only [Front.observe]
          split
          · refine .step (.observe i.id (i.attrs kvs) n') hw rfl ?_
            intro o' a' m' e hG
            simp only [Sync.Action.observe.injEq] at e
            rw [← e.1] at hG
            exact h before i kvs n' [] w rfl h1 hG
          · exact hw
  exact key _ acts rfl x h hr

theorem Collected.quiet_seq {G : Nat → Prop} {l : Nat} (hs : Sync.SeqReachable c G 0 x.s) (hc : Collected c R l x coll x') (hq : Pipeline.calls coll = []) :
    Sync.SeqReachable c G 0 x'.s := by
  obtain ⟨mid, fin, y, z, q, hsplit, h1, h2, h3, _, _⟩ := hc.split
  have nocall : ∀ as bs : List Act, Pipeline.calls (as ++ bs) = [] → Pipeline.calls as = [] ∧ Pipeline.calls bs = [] := by
    intro as bs h
    unfold Pipeline.calls at h ⊢
    rw [List.filterMap_append] at h
    exact List.append_eq_nil_iff.1 h
  rw [hsplit] at hq
  have hmf := nocall _ _ hq
  have hmid := nocall _ _ hmf.1
  have s1 := seq_quiet hs h1 hmid.1
  have s2 := seq_quiet s1 h2 hmid.2
  exact seq_quiet (acts := [.export q]) (R := R) s2 (by rw [run, h3]; rfl) rfl

/-! ### The latest call -/

theorem idsOn_sorted {s : Sync.State (List KV) (List KV) Bits (Cell Bits H)} (l : Nat) (Q : List KV → Bool) :
    (Sync.idsOn c s l Q).Pairwise (· ≤ ·) := by
  unfold Sync.idsOn
  refine List.Pairwise.filter _ ?_
  have : ∀ n, ((List.range n).flatMap (fun j => List.replicate ((c.leavesOf (s.op j).obs).count l) j)).Pairwise (· ≤ ·) ∧
      ∀ a ∈ (List.range n).flatMap (fun j => List.replicate ((c.leavesOf (s.op j).obs).count l) j), a < n := by
    intro n
    induction n with
    | zero => exact ⟨.nil, fun a h => by cases h⟩
    | succ n ih =>
      rw [List.range_succ, List.flatMap_append]
      refine ⟨List.pairwise_append.2 ⟨ih.1, ?_, ?_⟩, ?_⟩
      · rw [List.flatMap_singleton, List.pairwise_replicate]
        exact .inr (Nat.le_refl _)
      · intro a ha b hb
        rw [List.flatMap_singleton] at hb
        rw [(List.mem_replicate.1 hb).2]
        exact Nat.le_of_lt (ih.2 a ha)
      · intro a ha
        rcases List.mem_append.1 ha with h | h
        · exact Nat.lt_succ_of_lt (ih.2 a h)
        · rw [List.flatMap_singleton] at h
          rw [(List.mem_replicate.1 h).2]
          exact Nat.lt_succ_self _
  exact (this s.nextOp).1

/-- The last of a sorted list is the largest. -/
theorem sorted_last {L : List Nat} (h : L.Pairwise (· ≤ ·)) {i : Nat} (hi : i ∈ L) (hmax : ∀ j ∈ L, j ≤ i) : L.getLast? = some i := by
  have hne : L ≠ [] := fun e => by rw [e] at hi; cases hi
  rw [List.getLast?_eq_some_getLast hne]
  congr 1
  refine Nat.le_antisymm (hmax _ (List.getLast_mem hne)) ?_
  have hsp := List.dropLast_concat_getLast hne
  rw [← hsp, List.pairwise_append] at h
  rw [← hsp, List.mem_append, List.mem_singleton] at hi
  rcases hi with hi | hi
  · exact h.2.2 i hi _ (List.mem_singleton.2 rfl)
  · exact Nat.le_of_eq hi

/-- A sorted part of a sorted list. -/
theorem sorted_sublist {g L : List Nat} (hg : g.Pairwise (· ≤ ·)) (hL : L.Pairwise (· ≤ ·)) (hc : ∀ a, g.count a ≤ L.count a) : g.Sublist L := by
  induction L generalizing g with
  | nil =>
    have : g = [] := by
      rw [List.eq_nil_iff_forall_not_mem]
      intro a ha
      have := hc a
      rw [List.count_nil] at this
      have := List.count_pos_iff.2 ha
      omega
    rw [this]
    exact List.Sublist.refl _
  | cons b L ih =>
    rw [List.pairwise_cons] at hL
    cases g with
    | nil => exact List.nil_sublist _
    | cons a g =>
      rw [List.pairwise_cons] at hg
      by_cases hab : a = b
      · subst hab
        refine List.Sublist.cons_cons _ (ih hg.2 hL.2 ?_)
        intro c'
        have := hc c'
        rw [List.count_cons, List.count_cons] at this
        omega
      · refine List.Sublist.cons _ (ih (List.pairwise_cons.2 hg) hL.2 ?_)
        intro c'
        have := hc c'
        rw [List.count_cons (l := L)] at this
        by_cases hbc : b = c'
        · subst hbc
          have hnb : b ∉ a :: g := by
            intro hb
            have ha : a ∈ b :: L := by
              rw [← List.count_pos_iff]
              have := hc a
              rw [List.count_cons_self] at this
              omega
            rw [List.mem_cons] at ha
            rcases ha with ha | ha
            · exact hab ha
            · have h1 := hL.1 a ha
              rw [List.mem_cons] at hb
              rcases hb with hb | hb
              · exact hab hb.symm
              · have := hg.1 b hb
                exact hab (Nat.le_antisymm this h1)
          rw [List.count_eq_zero.2 hnb]
          exact Nat.zero_le _
        · rw [if_neg (by simpa using hbc)] at this
          exact this

/-- An exported number is that of the point. -/
theorem number_of {e : Sync.Emit (List KV) (Cell Bits H)} {d : PNumber} (hs : o.shape ∈ [Shape.monotonic, .nonMonotonic, .gauge])
    (h : EmitRel R o NumberRel e d) : NumOf o.num e.val.value d.value := by
  obtain ⟨delta, q, _, h2⟩ := h
  refine h2 o.num e.val.value ?_
  unfold pointOf aggOf
  simp only [List.mem_cons, List.not_mem_nil, or_false] at hs
  rcases hs with hs | hs | hs <;> rw [hs]
  · exact .inl rfl
  · exact .inr (.inl rfl)
  · exact .inr (.inr rfl)

/-! ### Groups -/

/-- The calls of a delta metric are divided into the points made, sent or not. -/
theorem Ended.delta_groups {D : Type} {get : PData → List D} {Rel : Point → D → Prop} (h : Ended farm u R lib name o get Rel acts y z sent)
    (hd : u.delta o.leaf = true) (p : D → Bool) (P : List KV → Bool) (Q : List KV → Prop) (hp : ∀ e d, EmitRel R o Rel e d → P e.key = p d)
    (hPQ : ∀ k i sq, (o.leaf, k, i, sq) ∈ z.applied → (P k = true ↔ Q (z.op i).attrs)) :
    ∃ es qs : List (Sync.Emit (List KV) (Cell Bits H)), (∀ e ∈ es, e ∈ z.emits ∧ e.leaf = o.leaf ∧ e.kept = true) ∧
      (∀ e ∈ qs, e ∈ z.emits ∧ e.leaf = o.leaf ∧ e.kept = false) ∧
      Pointwise (EmitRel R o Rel) es ((sentPoints get lib name sent).filter p) ∧
      (((es ++ qs).flatMap (fun e => e.ops)).map (·.1)).Perm
        (Sync.idsOn (Front.realCfg farm u) z o.leaf (fun a => @decide (Q a) (Classical.propDecidable _))) := by
  have hmem : ∀ e, e ∈ z.emits.filter (fun e => e.leaf == o.leaf && P e.key) → e ∈ z.emits ∧ e.leaf = o.leaf := by
    intro e he
    rw [List.mem_filter, Bool.and_eq_true, beq_iff_eq] at he
    exact ⟨he.1, he.2.1⟩
  refine ⟨((z.emits.filter (fun e => e.leaf == o.leaf && P e.key)).filter (·.kept)).reverse,
    (z.emits.filter (fun e => e.leaf == o.leaf && P e.key)).filter (fun e => !e.kept), ?_, ?_, h.selected p P hp, ?_⟩
  · intro e he
    rw [List.mem_reverse, List.mem_filter] at he
    exact ⟨(hmem e he.1).1, (hmem e he.1).2, he.2⟩
  · intro e he
    rw [List.mem_filter] at he
    exact ⟨(hmem e he.1).1, (hmem e he.1).2, by simpa using he.2⟩
  · refine List.Perm.trans (List.Perm.map _ ?_) (h.delta_ids hd P Q hPQ)
    refine List.Perm.flatMap_right _ ?_
    exact (List.Perm.append_right _ (List.reverse_perm _)).trans (List.filter_append_perm _ _)

theorem pointwise_mapped {α β γ : Type} {Q : α → γ → Prop} {Q' : β → γ → Prop} (f : α → β) {l : List α} {ds : List γ} (h : Pointwise Q l ds)
    (hq : ∀ a ∈ l, ∀ d, Q a d → Q' (f a) d) : Pointwise Q' (l.map f) ds := by
  refine ⟨by rw [List.length_map]; exact h.1, ?_⟩
  intro i b d hb hd
  rw [List.getElem?_map, Option.map_eq_some_iff] at hb
  obtain ⟨a, ha, rfl⟩ := hb
  exact hq a (List.mem_of_getElem? ha) d (h.2 i a d ha hd)

/-- If points without measurements only are left out, the points sent show the values in groups. -/
theorem Ended.delta_grouped {D : Type} {get : PData → List D} {Rel : Point → D → Prop} (h : Ended farm u R lib name o get Rel acts y z sent)
    (hd : u.delta o.leaf = true) (p : D → Bool) (P : List KV → Bool) (Q : List KV → Prop) (hp : ∀ e d, EmitRel R o Rel e d → P e.key = p d)
    (hPQ : ∀ k i sq, (o.leaf, k, i, sq) ∈ z.applied → (P k = true ↔ Q (z.op i).attrs)) {Shows : List Bits → D → Prop}
    (hsilent : ∀ e ∈ z.emits, e.leaf = o.leaf → e.kept = false → e.ops = [])
    (hshow : ∀ e d, e ∈ z.emits → e.leaf = o.leaf → e.kept = true → (∀ v ∈ Sync.values z e.ops, v ∈ recordedOn u.leavesOf o.leaf Q acts) →
      EmitRel R o Rel e d → Shows (Sync.values z e.ops) d) :
    Grouped Shows (recordedOn u.leavesOf o.leaf Q acts) ((sentPoints get lib name sent).filter p) := by
  obtain ⟨es, qs, h1, h2, h3, h4⟩ := h.delta_groups hd p P Q hp hPQ
  have hqs : qs.flatMap (fun e => e.ops) = [] := by
    rw [List.flatMap_eq_nil_iff]
    exact fun e he => hsilent e (h2 e he).1 (h2 e he).2.1 (h2 e he).2.2
  rw [List.flatMap_append, hqs, List.append_nil] at h4
  have h5 := h4.map (fun i => (z.op i).num)
  rw [List.map_map, recordedOn_ids h.calls] at h5
  have h6 : (es.map (fun e => Sync.values z e.ops)).flatten = (es.flatMap (fun e => e.ops)).map ((fun i => (z.op i).num) ∘ fun x => x.fst) := by
    rw [← List.flatMap_def, List.map_flatMap]
    rfl
  refine ⟨es.map (fun e => Sync.values z e.ops), ?_, ?_⟩
  · rw [h6]; exact h5
  · refine pointwise_mapped _ h3 ?_
    intro e he d hr
    refine hshow e d (h1 e he).1 (h1 e he).2.1 (h1 e he).2.2 ?_ hr
    intro v hv
    refine h5.mem_iff.1 ?_
    rw [← h6, List.mem_flatten]
    exact ⟨_, List.mem_map.2 ⟨e, he, rfl⟩, hv⟩

/-- Every value recorded on a float metric is finite. -/
theorem recorded_finite {l : Nat} {Q : List KV → Prop} (hk : ∀ e ∈ Pipeline.calls acts, l ∈ u.leavesOf e.1.id → e.1.num = .float64) :
    ∀ v ∈ recordedOn u.leavesOf l Q acts, Finite v := by
  intro v hv
  unfold recordedOn at hv
  obtain ⟨e, he, hv⟩ := List.mem_flatMap.1 hv
  split at hv
  · rename_i hq
    obtain ⟨h1, h2⟩ := List.mem_replicate.1 hv
    have := hk e he (List.count_pos_iff.1 (Nat.pos_of_ne_zero h1))
    rw [h2]
    refine Classical.byContradiction fun hn => hq.1 ?_
    unfold Props.Rejected
    exact .inl ⟨this, hn⟩
  · cases hv

/-- The sums and extremes of a min/max/sum/count point. -/
theorem mmsc_of {e : Sync.Emit (List KV) (Cell Bits H)} {d : PHist} (hs : o.shape = .mmsc) (h : EmitRel R o HistPointOf e d) :
    d.count = e.val.count ∧ StatOf o.num e.val.sum d.sum ∧
      (o.num = .float64 → ExtremeOf o.num e.val.count e.val.min d.min ∧ ExtremeOf o.num e.val.count e.val.max d.max) := by
  obtain ⟨delta, q, _, _, _, _, h⟩ := h
  have := h o.num { sum := e.val.sum, count := e.val.count, min := e.val.min, max := e.val.max } (by unfold pointOf aggOf; rw [hs])
  exact ⟨this.1, this.2.1, this.2.2.1⟩

theorem exp_of {e : Sync.Emit (List KV) (Cell Bits H)} {d : PExp} (hs : o.shape = .hist) (h : EmitRel R o ExpPointOf e d) :
    ExpIs o.num (R.toHist e.val.hist) d := by
  obtain ⟨delta, q, _, _, _, h⟩ := h
  exact h o.num (R.toHist e.val.hist) (by unfold pointOf aggOf; rw [hs])

end Verif.Pipeline
