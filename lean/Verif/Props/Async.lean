import Verif.Proof.Async
import Verif.Model.Front

/-!
# Asynchronous instruments: C20, C21, C22, C23, C24
-/

set_option linter.unusedSectionVars false

namespace Verif.Props
open Verif Verif.Async Verif.Number

section
variable {K N S : Type} [DecidableEq K] [DecidableEq N] {c : Async.Cfg K N S} {k0 : K} {s : Async.State K N S}

/-! ## C21 callbacks observe only their own instruments, only while running -/

/-- The observation is one the SDK must ignore: its callback had returned when it began, or the instrument is not
among those declared for the callback. -/
def Illegal (s : Async.State K N S) (i : Nat) : Prop :=
  (s.op i).startedLive = false ∨ ¬ (s.op i).obs ∈ (s.cb (s.op i).cb).insts

/-- Illegal, or outside the range of the instrument. -/
def Ignored (c : Async.Cfg K N S) (s : Async.State K N S) (i : Nat) : Prop :=
  Illegal s i ∨ c.inRange (s.op i).obs (s.op i).val = false

structure IllegalInv (c : Async.Cfg K N S) (s : Async.State K N S) : Prop where
  opCb : ∀ i, i < s.nextOp → (s.op i).cb < s.nextCb
  dead : ∀ i, i < s.nextOp → (s.op i).startedLive = false → (s.cb (s.op i).cb).live = false
  pc : ∀ i, i < s.nextOp → Ignored c s i → (s.op i).pc = .check ∨ (s.op i).pc = .rejected
  log : ∀ v ∈ s.log, v.op < s.nextOp ∧ (s.op v.op).pc = .done

theorem getOrCreate_frame (c : Async.Cfg K N S) (s : Async.State K N S) (n o : Nat) (k : K) :
    (Async.getOrCreate c s n o k).op = s.op ∧ (Async.getOrCreate c s n o k).cb = s.cb ∧
    (Async.getOrCreate c s n o k).log = s.log ∧ (Async.getOrCreate c s n o k).nextOp = s.nextOp ∧
    (Async.getOrCreate c s n o k).nextCb = s.nextCb := by
  unfold Async.getOrCreate
  split <;> simp

theorem illegal_step {s' : Async.State K N S} (h : IllegalInv c s) {a : Async.Action K N} (hs : Async.step c s a = some s') :
    IllegalInv c s' := by
  obtain ⟨h1, h2, h3, h4⟩ := h
  unfold Ignored Illegal at *
  cases a with
  | startCb insts =>
    simp only [Async.step, Option.some.injEq] at hs
    subst hs
    have : ∀ i, i < s.nextOp → (s.op i).cb ≠ s.nextCb := fun i hi => by have := h1 i hi; omega
    refine ⟨fun i hi => Nat.lt_succ_of_lt (h1 i hi), ?_, ?_, h4⟩
    · intro i hi; simp only [upd_ne _ _ (this i hi)]; exact h2 i hi
    · intro i hi; unfold Ignored Illegal; simp only [upd_ne _ _ (this i hi)]; exact h3 i hi
  | endCb id =>
    simp only [Async.step] at hs
    split at hs
    · cases hs
      refine ⟨h1, ?_, ?_, h4⟩
      · intro i hi hl; simp only [upd_apply]; split
        · rfl
        · exact h2 i hi hl
      · intro i hi; unfold Ignored Illegal; simp only [upd_apply]; split
        · rename_i e; have := h3 i hi; rw [e] at this; exact this
        · exact h3 i hi
    · cases hs
  | observe cb obs set val =>
    simp only [Async.step] at hs
    split at hs
    · rename_i hcb
      cases hs
      refine ⟨?_, ?_, ?_, ?_⟩
      · intro i hi; simp only [upd_apply]; split
        · exact hcb
        · exact h1 i (by dsimp only at hi; omega)
      · intro i hi; simp only [upd_apply]; split
        · intro h; exact h
        · exact h2 i (by dsimp only at hi; omega)
      · intro i hi; unfold Ignored Illegal; simp only [upd_apply]; split
        · intro _; exact Or.inl rfl
        · exact h3 i (by dsimp only at hi; omega)
      · intro v hv
        obtain ⟨a, b⟩ := h4 v hv
        refine ⟨by dsimp only; omega, ?_⟩
        exact (congrArg Async.Op.pc (upd_ne _ _ (Nat.ne_of_lt a))).trans b
    · cases hs
  | op i =>
    simp only [Async.step] at hs
    split at hs
    · cases hs
    · rename_i hi
      have hi : i < s.nextOp := by omega
      have key : ∀ pc : Async.Pc, ((s.op i).pc = .check ∨ (s.op i).pc = .create) →
          (((s.op i).startedLive = false ∨ ¬ (s.op i).obs ∈ (s.cb (s.op i).cb).insts) ∨ c.inRange (s.op i).obs (s.op i).val = false → pc = .check ∨ pc = .rejected) →
          IllegalInv c { s with op := upd s.op i { s.op i with pc := pc } } := by
        intro pc hck hpc
        refine ⟨?_, ?_, ?_, ?_⟩
        · intro j hj; simp only [upd_apply]; split
          · rename_i e; subst e; exact h1 j hj
          · exact h1 j hj
        · intro j hj; simp only [upd_apply]; split
          · rename_i e; subst e; exact h2 j hj
          · exact h2 j hj
        · intro j hj; unfold Ignored Illegal; simp only [upd_apply]; split
          · rename_i e; subst e; exact hpc
          · exact h3 j hj
        · intro v hv
          obtain ⟨a, b⟩ := h4 v hv
          refine ⟨a, ?_⟩
          have : v.op ≠ i := fun e => by rw [e] at b; rcases hck with h | h <;> rw [h] at b <;> cases b
          exact (congrArg Async.Op.pc (upd_ne _ _ this)).trans b
      split at hs
      · rename_i hck
        split at hs
        · rename_i hl
          simp only [Bool.and_eq_true, List.contains_iff_mem] at hl
          split at hs
          · cases hs; exact key _ (Or.inl hck) (fun _ => Or.inr rfl)
          · cases hs
            refine key _ (Or.inl hck) ?_
            rintro ((h | h) | h)
            · rw [h2 i hi h] at hl; exact absurd hl.1.1 (by simp)
            · exact absurd hl.1.2 h
            · rw [h] at hl; exact absurd hl.2 (by simp)
        · cases hs; exact key _ (Or.inl hck) (fun _ => Or.inr rfl)
      · rename_i hp
        simp only [Option.some.injEq] at hs
        obtain ⟨e1, e2, e3, e4, e5⟩ := getOrCreate_frame c s (s.cb (s.op i).cb).coll (s.op i).obs (c.canon (s.op i).obs (s.op i).set)
        have k := key .update (Or.inr hp) (fun h => by rcases h3 i hi h with h | h <;> rw [hp] at h <;> cases h)
        obtain ⟨k1, k2, k3, k4⟩ := k
        subst hs
        refine ⟨?_, ?_, ?_, ?_⟩
        · simp only [e1, e4, e5]; exact k1
        · simp only [e1, e2, e4]; exact k2
        · unfold Ignored Illegal at *; simp only [e1, e2, e4]; exact k3
        · simp only [e1, e3, e4]; exact k4
      · rename_i hp
        cases hs
        refine ⟨?_, ?_, ?_, ?_⟩
        · intro j hj; simp only [upd_apply]; split
          · rename_i e; subst e; exact h1 j hj
          · exact h1 j hj
        · intro j hj; simp only [upd_apply]; split
          · rename_i e; subst e; exact h2 j hj
          · exact h2 j hj
        · intro j hj; unfold Ignored Illegal; simp only [upd_apply]; split
          · rename_i e; subst e
            intro h; rcases h3 j hj h with h | h <;> rw [hp] at h <;> cases h
          · exact h3 j hj
        · intro v hv
          rcases List.mem_append.1 hv with hv | hv
          · obtain ⟨a, b⟩ := h4 v hv
            refine ⟨a, ?_⟩
            simp only [upd_apply]; split
            · rfl
            · exact b
          · rw [List.mem_singleton] at hv; subst hv
            exact ⟨hi, by simp⟩
      · cases hs
  | finish order =>
    simp only [Async.step] at hs
    split at hs
    · cases hs; exact ⟨h1, h2, h3, h4⟩
    · cases hs

theorem illegal_run {acts : List (Async.Action K N)} {s' : Async.State K N S} (h : IllegalInv c s) (hs : Async.run c s acts = some s') :
    IllegalInv c s' := by
  induction acts generalizing s with
  | nil => simp only [Async.run, Option.some.injEq] at hs; exact hs ▸ h
  | cons a as ih =>
    simp only [Async.run, Option.bind_eq_some_iff] at hs
    obtain ⟨s1, h1, h2⟩ := hs
    exact ih (illegal_step h h1) h2

theorem illegal_reachable (hr : Async.Reachable c k0 s) : IllegalInv c s := by
  obtain ⟨acts, ha⟩ := hr
  exact illegal_run ⟨by simp [initial], by simp [initial], by simp [initial], by simp [initial]⟩ ha

/-- C21. In every reachable state an observation that began after its callback returned, or for an undeclared
instrument, has not been applied to anything. -/
theorem C21_never_applied (hr : Async.Reachable c k0 s) (i : Nat) (hi : i < s.nextOp) (hill : Illegal s i) :
    (∀ v ∈ s.log, v.op ≠ i) ∧ ((s.op i).pc = .check ∨ (s.op i).pc = .rejected) := by
  have h := illegal_reachable hr
  refine ⟨?_, h.pc i hi (Or.inl hill)⟩
  intro v hv e
  have := (h.log v hv).2
  rw [e] at this
  rcases h.pc i hi (Or.inl hill) with h | h <;> rw [h] at this <;> cases this

/-- C20 (range). An observation outside the range of its instrument is never applied either. -/
theorem C20_out_of_range_ignored (hr : Async.Reachable c k0 s) (i : Nat) (hi : i < s.nextOp)
    (hout : c.inRange (s.op i).obs (s.op i).val = false) : ∀ v ∈ s.log, v.op ≠ i := by
  have h := illegal_reachable hr
  intro v hv e
  have := (h.log v hv).2
  rw [e] at this
  rcases h.pc i hi (Or.inr hout) with h | h <;> rw [h] at this <;> cases this

/-- C21 (no effect). Every step of such an observation leaves all views, stores and reports unchanged. -/
theorem C21_no_effect (hr : Async.Reachable c k0 s) {s' : Async.State K N S} (i : Nat) (hi : i < s.nextOp) (hill : Illegal s i)
    (hs : Async.step c s (.op i) = some s') :
    s'.view = s.view ∧ s'.store = s.store ∧ s'.out = s.out ∧ s'.log = s.log ∧ s'.coll = s.coll := by
  have h := (illegal_reachable hr).pc i hi (Or.inl hill)
  simp only [Async.step] at hs
  split at hs
  · cases hs
  · split at hs
    · split at hs
      · split at hs <;> cases hs <;> exact ⟨rfl, rfl, rfl, rfl, rfl⟩
      · cases hs; exact ⟨rfl, rfl, rfl, rfl, rfl⟩
    · rename_i hp; rcases h with h | h <;> rw [hp] at h <;> cases h
    · rename_i hp; rcases h with h | h <;> rw [hp] at h <;> cases h
    · cases hs

/-- C21 (legal ones count). An in-range observation of a declared, enabled instrument made while the callback runs, run
without interruption, is recorded for the collection the callback belongs to. -/
theorem C21_legal_applied (i : Nat) (hi : i < s.nextOp) (hp : (s.op i).pc = .check) (hl : (s.cb (s.op i).cb).live = true)
    (hd : (s.op i).obs ∈ (s.cb (s.op i).cb).insts) (hrg : c.inRange (s.op i).obs (s.op i).val = true)
    (hen : c.leavesOf (s.op i).obs ≠ []) :
    ∃ s', Async.run c s [.op i, .op i, .op i] = some s' ∧
      lastObs s'.log (s.cb (s.op i).cb).coll (s.op i).obs (c.canon (s.op i).obs (s.op i).set) = some (s.op i).val := by
  have hni : ¬ s.nextOp ≤ i := by omega
  have hle : (c.leavesOf (s.op i).obs).isEmpty = false := by
    cases h : c.leavesOf (s.op i).obs with
    | nil => exact absurd h hen
    | cons _ _ => rfl
  obtain ⟨e1, e2, e3, e4, e5⟩ := getOrCreate_frame c
    { s with op := upd s.op i { s.op i with pc := .create } } (s.cb (s.op i).cb).coll (s.op i).obs (c.canon (s.op i).obs (s.op i).set)
  simp only [Async.run, Async.step, hni, if_false, hp, hl, hrg, hle, List.contains_iff_mem.2 hd, Bool.and_self, if_true,
    Option.bind_some, upd_same, e1, e2, e3, e4, Bool.false_eq_true]
  refine ⟨_, rfl, ?_⟩
  simp [lastObs_append]

/-! ## C20, C24: what a collection reports -/

/-- Under which series the observations of an attribute set count in view `l` of collection `n`: its own filtered set, or
the overflow series if there is no series of its own. -/
def GoesTo (c : Async.Cfg K N S) (s : Async.State K N S) (n l : Nat) (set k : K) : Prop :=
  c.filt l set = k ∨ (k = c.ovf ∧ cumulative s n l (c.filt l set) = none)

theorem filter_eq_once {α : Type} [DecidableEq α] [BEq α] [LawfulBEq α] {l : List α} (x : α) (hn : l.count x ≤ 1) :
    l.filter (fun p => decide (p = x)) = if x ∈ l then [x] else [] := by
  induction l with
  | nil => simp
  | cons a l ih =>
    rw [List.count_cons] at hn
    rw [List.filter_cons, ih (by omega)]
    by_cases h : a = x
    · subst h
      have : a ∉ l := by
        rw [← List.count_eq_zero]
        simp only [BEq.rfl, if_true] at hn
        omega
      simp [this]
    · have h' : ¬ x = a := fun e => h e.symm
      simp [h, h']

theorem keys_mem (hi : Async.Inv c s) {n l : Nat} (hlim : 1 ≤ c.lim l) (hn : n < s.coll) {k : K} {v : S}
    (hc : cumulative s n l k = some v) {e : Async.Entry K N} (he : e ∈ s.store n) :
    (l, k) ∈ e.keys ↔ l ∈ c.leavesOf e.obs ∧ GoesTo c s n l e.set k := by
  have ht := hi.past n l hn
  have hlv := (hi.storeOk n).leaves e he
  have hk : Storage.has (s.seen n l) k = true := by rw [has_eq]; unfold cumulative at hc; rw [hc]; rfl
  have none_iff : ∀ k', cumulative s n l k' = none ↔ Storage.has (s.seen n l) k' = false := by
    intro k'; rw [has_eq]; unfold cumulative; cases Storage.find (s.seen n l) k' <;> simp
  constructor
  · intro hm
    refine ⟨by rw [← hlv]; exact List.mem_map_of_mem (f := (·.1)) hm, ?_⟩
    by_cases hf : k = c.filt l e.set
    · exact Or.inl hf.symm
    · right
      refine ⟨((ht.own e he k hm).resolve_left hf).1, ?_⟩
      rw [none_iff]
      exact (ht.routed hlim e he k hm hf).2
  · rintro ⟨hl, hg⟩
    rw [← hlv] at hl
    obtain ⟨⟨l', k'⟩, hm, e1⟩ := List.mem_map.1 hl
    have e1 : l' = l := e1
    subst e1
    by_cases hf : k' = c.filt l' e.set
    · rcases hg with hg | ⟨hg, hg2⟩
      · rw [← hg, ← hf]; exact hm
      · rw [none_iff, ← hf, ht.hasKey e he k' hm] at hg2; cases hg2
    · have h1 := (ht.own e he k' hm).resolve_left hf
      have h2 := (ht.routed hlim e he k' hm hf).2
      rcases hg with hg | ⟨hg, _⟩
      · rw [hg, hk] at h2; cases h2
      · rw [hg, ← h1.1]; exact hm

theorem hits_eq (hi : Async.Inv c s) {n l : Nat} (hnd : ∀ o, (c.leavesOf o).count l ≤ 1) (hlim : 1 ≤ c.lim l) (hn : n < s.coll)
    {k : K} {v : S} (hc : cumulative s n l k = some v) (es : List (Async.Entry K N)) (hes : ∀ e ∈ es, e ∈ s.store n) :
    ∃ p : Async.Entry K N → Bool, (∀ e ∈ es, p e = true ↔ l ∈ c.leavesOf e.obs ∧ GoesTo c s n l e.set k) ∧
      hits l k es = (es.filter p).map (·.cur) := by
  refine ⟨fun e => decide ((l, k) ∈ e.keys), ?_, ?_⟩
  · intro e he
    rw [decide_eq_true_eq]
    exact keys_mem hi hlim hn hc (hes e he)
  · unfold hits
    induction es with
    | nil => rfl
    | cons e es ih =>
      have hkn : e.keys.count (l, k) ≤ 1 := by
        have h1 := (hi.storeOk n).leaves e (hes e List.mem_cons_self)
        have h2 := hnd e.obs
        rw [← h1] at h2
        exact Nat.le_trans (List.count_le_count_map (f := (·.1))) h2
      rw [List.flatMap_cons, ih (fun e' he' => hes e' (List.mem_cons_of_mem _ he')), filter_eq_once _ hkn, List.filter_cons]
      by_cases hm : (l, k) ∈ e.keys <;> simp [hm]

/-- The pairs (instrument, attribute set) observed in collection `n` that count under series `k` of view `l`, each once,
with the last value observed. -/
def Counted (c : Async.Cfg K N S) (s : Async.State K N S) (n l : Nat) (k : K) (ps : List (Nat × K × N)) : Prop :=
  (ps.map (fun p => (p.1, p.2.1))).Nodup ∧
  ∀ o set x, (o, set, x) ∈ ps ↔ l ∈ c.leavesOf o ∧ GoesTo c s n l set k ∧ lastObs s.log n o set = some x

theorem lastObs_some {log : List (Async.Ev K N)} {n o : Nat} {set : K} {x : N} (h : lastObs log n o set = some x) :
    ∃ v ∈ log, v.coll = n ∧ v.obs = o ∧ v.set = set := by
  unfold lastObs at h
  rw [Option.map_eq_some_iff] at h
  obtain ⟨v, hv, _⟩ := h
  have h1 := List.mem_of_find?_eq_some hv
  have h2 := List.find?_some hv
  simp only [Bool.and_eq_true, beq_iff_eq] at h2
  exact ⟨v, List.mem_reverse.1 h1, h2.1.1, h2.1.2, h2.2⟩

theorem values (hi : Async.Inv c s) {n l : Nat} (hnd : ∀ o, (c.leavesOf o).count l ≤ 1) (hlim : 1 ≤ c.lim l) (hn : n < s.coll)
    {k : K} {v : S} (hc : cumulative s n l k = some v) :
    ∃ ps, Counted c s n l k ps ∧ v = (ps.map (·.2.2)).foldl (c.agg l).upd (startVal c s n l k) := by
  obtain ⟨order, hperm, hv⟩ := hi.pastVal n l k v hn hc
  have hmem : ∀ e, e ∈ order ↔ e ∈ s.store n := fun e => hperm.mem_iff
  obtain ⟨p, hp, hh⟩ := hits_eq hi hnd hlim hn hc order (fun e he => (hmem e).1 he)
  have hcur : ∀ e ∈ s.store n, lastObs s.log n e.obs e.set = some e.cur := by
    intro e he
    have h1 := (hi.storeOk n).cur e he
    rcases hi.fresh n e he with h2 | ⟨h2, _⟩
    · cases h : lastObs s.log n e.obs e.set with
      | none => exact absurd h h2
      | some x => rw [h] at h1; rw [h1]; rfl
    · omega
  refine ⟨(order.filter p).map (fun e => (e.obs, e.set, e.cur)), ⟨?_, ?_⟩, ?_⟩
  · rw [List.map_map]
    have hd : (order.map (fun e => (e.obs, e.set))).Nodup := by
      refine (hperm.map _).nodup_iff.2 ?_
      refine List.pairwise_map.2 ((hi.storeOk n).distinct.imp ?_)
      intro a b hab e
      apply hab
      cases a; cases b; simp only [Prod.mk.injEq] at e
      exact ⟨e.1.symm, e.2.symm⟩
    exact List.Sublist.nodup (List.Sublist.map _ List.filter_sublist) hd
  · intro o set x
    rw [List.mem_map]
    constructor
    · rintro ⟨e, he, heq⟩
      rw [List.mem_filter] at he
      cases heq
      obtain ⟨h1, h2⟩ := (hp e he.1).1 he.2
      exact ⟨h1, h2, hcur e ((hmem e).1 he.1)⟩
    · rintro ⟨h1, h2, h3⟩
      obtain ⟨ev, hev, e1, e2, e3⟩ := lastObs_some h3
      obtain ⟨e, he, hm⟩ := (hi.storeOk n).logged ev hev e1
      have ho : e.obs = o := hm.1.trans e2
      have hs : e.set = set := hm.2.trans e3
      refine ⟨e, ?_, ?_⟩
      · rw [List.mem_filter]
        refine ⟨(hmem e).2 he, (hp e ((hmem e).2 he)).2 ?_⟩
        rw [ho, hs]; exact ⟨h1, h2⟩
      · have := hcur e he
        rw [ho, hs, h3] at this
        cases this
        rw [ho, hs]
  · rw [hv, hh]
    simp [List.map_map, Function.comp_def]

theorem startVal_ne {n l : Nat} {k : K} (h : c.delta l = true → k ≠ c.ovf) : startVal c s n l k = (c.agg l).init := by
  unfold startVal baseAt
  split
  · rename_i hd
    have hk := h hd
    unfold carry
    split
    · rfl
    · rw [find_cons, if_neg (fun e => hk e.symm)]; rfl
  · rfl

/-- C20. In every finished collection the cumulative value of a series is obtained by applying, for every instrument and
attribute set observed in this collection and counting under this series, exactly the last observed value, each once,
in some order. (For delta views the overflow series is excepted, see C23.) -/
theorem C20_last_values (hq : Quiet c k0 s) (n l : Nat) (hnd : ∀ o, (c.leavesOf o).count l ≤ 1) (hlim : 1 ≤ c.lim l)
    (hn : n < s.coll) (k : K) (hk : c.delta l = true → k ≠ c.ovf) (v : S) (hc : cumulative s n l k = some v) :
    ∃ ps, Counted c s n l k ps ∧ v = (ps.map (·.2.2)).foldl (c.agg l).upd (c.agg l).init := by
  obtain ⟨ps, h1, h2⟩ := values (quiet_inv hq) hnd hlim hn hc
  exact ⟨ps, h1, by rw [h2, startVal_ne hk]⟩

/-- C20 (every observation counts). A pair observed in a finished collection counts under its own filtered set, or
under overflow if the view is full. -/
theorem C20_all_counted (hq : Quiet c k0 s) (n l : Nat) (hlim : 1 ≤ c.lim l) (hn : n < s.coll) (o : Nat) (set : K) (x : N)
    (hl : l ∈ c.leavesOf o) (hx : lastObs s.log n o set = some x) :
    (cumulative s n l (c.filt l set)).isSome = true ∨
    ((cumulative s n l c.ovf).isSome = true ∧ (s.seen n l).length = c.lim l) := by
  have hi := quiet_inv hq
  obtain ⟨ev, hev, e1, e2, e3⟩ := lastObs_some hx
  obtain ⟨e, he, hm⟩ := (hi.storeOk n).logged ev hev e1
  have ho : e.obs = o := hm.1.trans e2
  have hs : e.set = set := hm.2.trans e3
  have hlv := (hi.storeOk n).leaves e he
  have ht := hi.past n l hn
  rw [← ho, ← hlv] at hl
  obtain ⟨⟨l', k'⟩, hm, e1⟩ := List.mem_map.1 hl
  have e1 : l' = l := e1
  subst e1
  have hh := ht.hasKey e he k' hm
  rw [has_eq] at hh
  by_cases hf : k' = c.filt l' e.set
  · left; unfold cumulative; rw [← hs, ← hf]; exact hh
  · right
    have h1 := (ht.own e he k' hm).resolve_left hf
    refine ⟨by unfold cumulative; rw [← h1.1]; exact hh, (ht.routed hlim e he k' hm hf).1⟩

/-- C24. A cumulative view reports exactly the series observed in this very collection, with exactly the value given by
the last observations of this collection. -/
theorem C24_exactly_observed (hq : Quiet c k0 s) (n l : Nat) (hnd : ∀ o, (c.leavesOf o).count l ≤ 1) (hlim : 1 ≤ c.lim l)
    (hn : n < s.coll) (hcum : c.delta l = false) (k : K) (v : S) (hr : reported s n l k = some v) :
    ∃ ps, ps ≠ [] ∧ Counted c s n l k ps ∧ v = (ps.map (·.2.2)).foldl (c.agg l).upd (c.agg l).init := by
  have hi := quiet_inv hq
  have hout := hi.out n l hn
  rw [hcum] at hout
  have hc : cumulative s n l k = some v := by
    unfold cumulative; unfold reported at hr; rw [hout] at hr; exact hr
  obtain ⟨ps, h1, h2⟩ := C20_last_values hq n l hnd hlim hn k (by simp [hcum]) v hc
  refine ⟨ps, ?_, h1, h2⟩
  have ht := hi.past n l hn
  have hh : Storage.has (s.seen n l) k = true := by rw [has_eq]; unfold cumulative at hc; rw [hc]; rfl
  rcases ht.from_ k hh with hb | ⟨e, he, hm⟩
  · unfold baseAt at hb; rw [hcum] at hb; cases hb
  · have hg := (keys_mem hi hlim hn hc he).1 hm
    have hx : ∃ x, lastObs s.log n e.obs e.set = some x := by
      rcases hi.fresh n e he with h2 | ⟨h2, _⟩
      · cases h : lastObs s.log n e.obs e.set with
        | none => exact absurd h h2
        | some x => exact ⟨x, rfl⟩
      · omega
    obtain ⟨x, hx⟩ := hx
    intro hnil
    have := (h1.2 e.obs e.set x).2 ⟨hg.1, hg.2, hx⟩
    rw [hnil] at this; cases this

/-- C24 (nothing missing). Everything observed in a collection is in its report: under its own series, or under
overflow when the view has reached its limit. -/
theorem C24_all_reported (hq : Quiet c k0 s) (n l : Nat) (hlim : 1 ≤ c.lim l) (hn : n < s.coll) (hcum : c.delta l = false)
    (o : Nat) (set : K) (x : N) (hl : l ∈ c.leavesOf o) (hx : lastObs s.log n o set = some x) :
    (reported s n l (c.filt l set)).isSome = true ∨
    ((reported s n l c.ovf).isSome = true ∧ (s.out n l).length = c.lim l) := by
  have hout := (quiet_inv hq).out n l hn
  rw [hcum] at hout
  have := C20_all_counted hq n l hlim hn o set x hl hx
  unfold cumulative at this
  unfold reported
  rw [hout]
  exact this

end

/-! ## Integer sums: C20, C22, C23 -/

/-- `sum.Methods` on int64 (sum.go:106-145). -/
def intSum : Async.AAgg Bits Bits where
  init := 0
  upd := fun x n => x + n
  sub := fun operand argument => argument - operand
  hasChange := fun x => x != 0

theorem foldl_add (xs : List Bits) (a : Bits) : xs.foldl (fun x n => x + n) a = a + BitVec.ofInt 64 (xs.map (·.toInt)).sum := by
  induction xs generalizing a with
  | nil => simp
  | cons x xs ih =>
    rw [List.foldl_cons, ih, List.map_cons, List.sum_cons, BitVec.ofInt_add, BitVec.ofInt_toInt, BitVec.add_assoc]

section
variable {K : Type} [DecidableEq K] {c : Async.Cfg K Bits Bits} {k0 : K} {s : Async.State K Bits Bits}

/-- C20 (sums). For int64 sums the cumulative value is the sum of the last values of all observed attribute sets that
the view maps to this series (as a 64-bit integer). -/
theorem C20_int_sum (hq : Quiet c k0 s) (n l : Nat) (hnd : ∀ o, (c.leavesOf o).count l ≤ 1) (hlim : 1 ≤ c.lim l)
    (hsum : c.agg l = intSum) (hn : n < s.coll) (k : K) (hk : c.delta l = true → k ≠ c.ovf) (v : Bits)
    (hc : cumulative s n l k = some v) :
    ∃ ps, Counted c s n l k ps ∧ v = BitVec.ofInt 64 (ps.map (fun p => p.2.2.toInt)).sum := by
  obtain ⟨ps, h1, h2⟩ := C20_last_values hq n l hnd hlim hn k hk v hc
  refine ⟨ps, h1, ?_⟩
  rw [h2, hsum]
  simp only [intSum]
  rw [foldl_add]
  simp [List.map_map, Function.comp_def]

/-- What a delta view reports for a series in a collection; nothing reported counts as zero. -/
def deltaOf (s : Async.State K Bits Bits) (l : Nat) (k : K) (n : Nat) : Bits := (reported s n l k).getD 0

/-- The cumulative value in the collection before. -/
def before (s : Async.State K Bits Bits) (l : Nat) (k : K) : Nat → Option Bits
  | 0 => none
  | n + 1 => cumulative s n l k

/-- `f 0 + ... + f (m-1)` -/
def totalTo : Nat → (Nat → Bits) → Bits
  | 0, _ => 0
  | m + 1, f => totalTo m f + f m

theorem find_filterMap {t : Storage.Table K Bits} (g : K × Bits → Option Bits) (hn : (t.map (·.1)).Nodup) (k : K) :
    Storage.find (t.filterMap (fun e => (g e).map (fun v => (e.1, v)))) k = (Storage.find t k).bind (fun v => g (k, v)) := by
  induction t with
  | nil => rfl
  | cons e t ih =>
    rw [List.map_cons, List.nodup_cons] at hn
    rw [find_cons, List.filterMap_cons]
    by_cases h : e.1 = k
    · have hnone : Storage.find t k = none := by
        cases hf : Storage.find t k with
        | none => rfl
        | some v => exact absurd (List.mem_map_of_mem (f := (·.1)) (mem_of_find hf)) (by rw [← h]; exact hn.1)
      subst h
      cases hg : g e with
      | none => simp only [Option.map_none, if_true, Option.bind_some]; rw [ih hn.2, hnone]; simp [hg]
      | some v => simp only [Option.map_some, if_true, Option.bind_some]; rw [find_cons]; simp [hg]
    · cases hg : g e with
      | none => simp only [Option.map_none, h, if_false]; exact ih hn.2
      | some v => simp only [Option.map_some, h, if_false]; rw [find_cons, if_neg h]; exact ih hn.2

theorem find_delta {t prior : Storage.Table K Bits} (hn : (t.map (·.1)).Nodup) (k : K) :
    Storage.find (deltaPoints intSum prior t) k =
      (Storage.find t k).bind (fun v => match Storage.find prior k with
        | none => some v
        | some p => if v - p ≠ 0 then some (v - p) else none) := by
  have : deltaPoints intSum prior t = t.filterMap (fun e => ((match Storage.find prior e.1 with
        | none => some e.2
        | some p => if e.2 - p ≠ 0 then some (e.2 - p) else none) : Option Bits).map (fun v => (e.1, v))) := by
    unfold deltaPoints
    congr 1
    funext e
    cases hp : Storage.find prior e.1 with
    | none => simp
    | some p =>
      simp only [intSum, bne_iff_ne]
      split <;> simp_all
  rw [this, find_filterMap (fun e => match Storage.find prior e.1 with
        | none => some e.2
        | some p => if e.2 - p ≠ 0 then some (e.2 - p) else none) hn]

/-- C22 (each delta). The delta reported for a series is its cumulative value minus that of the collection right before;
nothing is reported for an unchanged series; a series not observed in the collection right before is reported in full. -/
theorem C22_delta (hq : Quiet c k0 s) (n l : Nat) (hd : c.delta l = true) (hsum : c.agg l = intSum) (hn : n < s.coll) (k : K) :
    deltaOf s l k n = match cumulative s n l k, before s l k n with
      | none, _ => 0
      | some v, none => v
      | some v, some p => v - p := by
  have hi := quiet_inv hq
  have hout := hi.out n l hn
  rw [hd, hsum] at hout
  simp only [if_true] at hout
  unfold deltaOf reported
  rw [hout, find_delta (hi.past n l hn).nodup]
  have hb : Storage.find (prevTable s n l) k = before s l k n := by
    unfold prevTable before cumulative; cases n <;> rfl
  rw [hb]
  unfold cumulative
  cases Storage.find (s.seen n l) k with
  | none => rfl
  | some v =>
    cases before s l k n with
    | none => rfl
    | some p =>
      simp only [Option.bind_some]
      by_cases h : v - p = 0
      · rw [if_neg (fun hn => hn h), h]; rfl
      · rw [if_pos h]; rfl

/-- C22 (all histories). The reported deltas of a series always sum to the sum, over the maximal runs of consecutive
collections in which it was observed, of the last cumulative value of each run. -/
theorem C22_runs (hq : Quiet c k0 s) (l : Nat) (hd : c.delta l = true) (hsum : c.agg l = intSum) (k : K) (m : Nat) (hm : m ≤ s.coll) :
    totalTo m (deltaOf s l k) =
      totalTo m (fun n => match cumulative s n l k with
        | none => 0
        | some v => if n + 1 = m ∨ cumulative s (n + 1) l k = none then v else 0) := by
  -- telescoping: the part of the right side that ends before the last collection
  have key : ∀ m, m ≤ s.coll → totalTo m (deltaOf s l k) =
      totalTo m (fun n => match cumulative s n l k with
        | none => 0
        | some v => if cumulative s (n + 1) l k = none then v else 0) +
      (match m with
       | 0 => 0
       | m + 1 => match cumulative s m l k with
         | none => 0
         | some v => if cumulative s (m + 1) l k = none then 0 else v) := by
    intro m
    induction m with
    | zero => intro _; simp [totalTo]
    | succ m ih =>
      intro hm
      simp only [totalTo]
      rw [ih (by omega), C22_delta hq m l hd hsum (by omega)]
      cases m with
      | zero =>
        simp only [totalTo, before]
        cases cumulative s 0 l k with
        | none => simp
        | some v => by_cases h1 : cumulative s 1 l k = none <;> simp [h1]
      | succ m =>
        simp only [totalTo, before]
        generalize (totalTo m _) = X
        cases h0 : cumulative s m l k with
        | none =>
          cases h1 : cumulative s (m + 1) l k with
          | none => simp
          | some v => by_cases h2 : cumulative s (m + 1 + 1) l k = none <;> simp [h2]
        | some p =>
          cases h1 : cumulative s (m + 1) l k with
          | none => simp
          | some v =>
            by_cases h2 : cumulative s (m + 1 + 1) l k = none
            · simp [h2]; rw [BitVec.add_assoc, BitVec.add_comm p, BitVec.sub_add_cancel]
            · simp [h2]; rw [BitVec.add_assoc, BitVec.add_comm p, BitVec.sub_add_cancel]
  cases m with
  | zero => rfl
  | succ m =>
    rw [key (m + 1) hm]
    simp only [totalTo]
    have : ∀ j, j ≤ m → totalTo j (fun n => match cumulative s n l k with
        | none => 0
        | some v => if n + 1 = m + 1 ∨ cumulative s (n + 1) l k = none then v else 0) =
        totalTo j (fun n => match cumulative s n l k with
        | none => 0
        | some v => if cumulative s (n + 1) l k = none then v else 0) := by
      intro j hj
      induction j with
      | zero => rfl
      | succ j ih =>
        simp only [totalTo]
        rw [ih (by omega)]
        have hne : j ≠ m := by omega
        simp [hne]
    rw [this m (Nat.le_refl m), BitVec.add_assoc]
    congr 1
    cases cumulative s m l k with
    | none => simp
    | some v => by_cases h2 : cumulative s (m + 1) l k = none <;> simp [h2]

/-- C22 (part: no gaps). If a series has been observed in every collection since its first one, its deltas sum to its last
cumulative value. Missing: histories in which the series misses a collection, where the claim is false. -/
theorem C22_telescopes_partial (hq : Quiet c k0 s) (l : Nat) (hd : c.delta l = true) (hsum : c.agg l = intSum) (k : K) (a m : Nat)
    (ham : a ≤ m) (hm : m < s.coll) (hno : ∀ n, n < a → cumulative s n l k = none)
    (hobs : ∀ n, a ≤ n → n ≤ m → cumulative s n l k ≠ none) :
    ∃ v, cumulative s m l k = some v ∧ totalTo (m + 1) (deltaOf s l k) = v := by
  obtain ⟨v, hv⟩ : ∃ v, cumulative s m l k = some v := by
    cases h : cumulative s m l k with
    | none => exact absurd h (hobs m ham (Nat.le_refl m))
    | some v => exact ⟨v, rfl⟩
  refine ⟨v, hv, ?_⟩
  rw [C22_runs hq l hd hsum k (m + 1) hm]
  simp only [totalTo, hv]
  have : ∀ j, j ≤ m → totalTo j (fun n => match cumulative s n l k with
      | none => 0
      | some v => if n + 1 = m + 1 ∨ cumulative s (n + 1) l k = none then v else 0) = 0 := by
    intro j hj
    induction j with
    | zero => rfl
    | succ j ih =>
      simp only [totalTo]
      rw [ih (by omega)]
      by_cases hja : j < a
      · simp [hno j hja]
      · have h1 := hobs (j + 1) (by omega) (by omega)
        have hne : j ≠ m := by omega
        cases cumulative s j l k <;> simp [h1, hne]
  rw [this m (Nat.le_refl m)]
  simp

/-- The amount folded into the overflow series in one collection: the last values of the pairs counting under it. -/
def Folded (c : Async.Cfg K Bits Bits) (s : Async.State K Bits Bits) (n l : Nat) (x : Bits) : Prop :=
  ∃ ps, Counted c s n l c.ovf ps ∧ x = BitVec.ofInt 64 (ps.map (fun p => p.2.2.toInt)).sum

theorem no_ovf_empty (hq : Quiet c k0 s) {n l : Nat} (hlim : 1 ≤ c.lim l) (hn : n < s.coll) (hno : cumulative s n l c.ovf = none) :
    Counted c s n l c.ovf [] := by
  refine ⟨List.nodup_nil, ?_⟩
  intro o set x
  constructor
  · intro h; cases h
  · rintro ⟨h1, h2, h3⟩
    have := C20_all_counted hq n l hlim hn o set x h1 h3
    rw [hno] at this
    rcases h2 with h2 | ⟨_, h2⟩
    · rw [h2, hno] at this; simp at this
    · rw [h2] at this; simp at this

/-- C23 (what is reported instead). The delta of the overflow series in every collection is the sum of the full
cumulative values folded into it in that collection, not their change since the collection before. Missing: the claim that
the deltas sum to the cumulative value, which is false. -/
theorem C23_each_delta_partial (hq : Quiet c k0 s) (l : Nat) (hnd : ∀ o, (c.leavesOf o).count l ≤ 1) (hlim : 1 ≤ c.lim l)
    (hd : c.delta l = true) (hsum : c.agg l = intSum) (n : Nat) (hn : n < s.coll) : Folded c s n l (deltaOf s l c.ovf n) := by
  have hi := quiet_inv hq
  · rw [C22_delta hq n l hd hsum hn]
    cases hc : cumulative s n l c.ovf with
    | none => exact ⟨[], no_ovf_empty hq hlim hn hc, by simp⟩
    | some v =>
      obtain ⟨ps, h1, h2⟩ := values hi hnd hlim hn hc
      refine ⟨ps, h1, ?_⟩
      rw [hsum] at h2
      simp only [intSum] at h2
      rw [foldl_add, List.map_map] at h2
      have hst : startVal c s n l c.ovf = (before s l c.ovf n).getD 0 := by
        unfold startVal baseAt
        rw [if_pos hd, hsum]
        unfold prevTable before cumulative carry
        cases n with
        | zero => rfl
        | succ n =>
          simp only
          cases hf : Storage.find (s.seen n l) c.ovf with
          | none => rfl
          | some w => simp [find_cons, intSum]
      rw [hst] at h2
      have e : (ps.map ((fun x : Bits => x.toInt) ∘ fun p => p.2.2)) = ps.map (fun p => p.2.2.toInt) := rfl
      rw [e] at h2
      cases hb : before s l c.ovf n with
      | none => simp only; rw [h2, hb]; simp
      | some p =>
        simp only
        rw [h2, hb]
        simp only [Option.getD_some]
        rw [BitVec.add_comm, BitVec.add_sub_cancel]

end

/-! ## Concrete cases -/

namespace AsyncEx
/-- One instrument 0 with view 0 (delta sum, limit 2... set by `lim`) and view 1 (cumulative sum, all sets mapped to 0). -/
def cfg (lim : Nat) : Async.Cfg Nat Bits Bits where
  leavesOf := fun o => if o = 0 then [0, 1] else []
  filt := fun l k => if l = 1 then 0 else k
  lim := fun _ => lim
  ovf := 99
  agg := fun _ => intSum
  delta := fun l => l == 0
  inRange := fun _ _ => true
  canon := fun _ k => k
  zero := 0

abbrev Act := Async.Action Nat Bits

/-- A callback observing the given (set, value) pairs one after the other; `b` is the number of the callback, `i` of the
first observation. -/
def cbRun (b i : Nat) (obs : List (Nat × Bits)) : List Act :=
  .startCb [0] :: ((List.range obs.length).zip obs).flatMap (fun p => [.observe b 0 p.2.1 p.2.2, .op (i + p.1), .op (i + p.1), .op (i + p.1)]) ++ [.endCb b]

/-- Build a run together with its end state. -/
def quietB (c : Async.Cfg Nat Bits Bits) : Async.State Nat Bits Bits → List Act → Bool
  | _, [] => true
  | s, a :: as =>
    (match a with
     | .finish _ => (List.range s.nextOp).all (fun i => (s.op i).pc != .create && (s.op i).pc != .update)
     | _ => true) &&
    (match Async.step c s a with | none => false | some s' => quietB c s' as)

theorem quiet_of (c : Async.Cfg Nat Bits Bits) {s s' : Async.State Nat Bits Bits} (hq : Quiet c 0 s) (acts : List Act)
    (h : quietB c s acts = true) (hr : Async.run c s acts = some s') : Quiet c 0 s' := by
  induction acts generalizing s with
  | nil => simp only [Async.run, Option.some.injEq] at hr; exact hr ▸ hq
  | cons a as ih =>
    simp only [Async.run, Option.bind_eq_some_iff] at hr
    obtain ⟨s1, h1, h2⟩ := hr
    simp only [quietB, h1, Bool.and_eq_true] at h
    refine ih (.step hq h1 ?_) h.2 h2
    rintro order rfl ⟨i, hi, hp⟩
    have h3 := h.1
    simp only [List.all_eq_true] at h3
    have h4 := h3 i (List.mem_range.2 hi)
    simp only [Bool.and_eq_true, bne_iff_ne] at h4
    rcases hp with hp | hp
    · exact h4.1 hp
    · exact h4.2 hp

/-- Store entries as the machine builds them, for use as iteration order. -/
def ent (set k0 k1 : Nat) (v : Bits) : Async.Entry Nat Bits := { obs := 0, set := set, keys := [(0, k0), (1, k1)], cur := v }

theorem exists_of_eval {α : Type} {x : Option α} {P : α → Prop} [DecidablePred P]
    (h : x.map (fun s => decide (P s)) = some true) : ∃ s, x = some s ∧ P s := by
  cases x with
  | none => cases h
  | some s => exact ⟨s, rfl, by simpa using h⟩

theorem quiet_eval {c : Async.Cfg Nat Bits Bits} {acts : List Act} {P : Async.State Nat Bits Bits → Prop} [DecidablePred P]
    (hb : quietB c (initial c 0) acts = true) (h : (Async.run c (initial c 0) acts).map (fun s => decide (P s)) = some true) :
    ∃ s, Quiet c 0 s ∧ P s := by
  obtain ⟨s, h1, h2⟩ := exists_of_eval h
  exact ⟨s, quiet_of c .init acts hb h1, h2⟩

/-- Two collections: sets 5 and 6 observed (5 twice), then only 5. -/
def acts1 : List Act :=
  cbRun 0 0 [(5, 1), (6, 10), (5, 4)] ++ [.finish [ent 6 6 0 10, ent 5 5 0 4]] ++
  cbRun 1 3 [(5, 7)] ++ [.finish [ent 5 5 0 7]]

/-- C20, C22, C24: deltas 4 then 3 for set 5; the filtered cumulative view reports 4 + 10, then 7. -/
example : ∃ s, Quiet (cfg 10) 0 s ∧ s.coll = 2 ∧ reported s 0 0 5 = some 4 ∧ reported s 1 0 5 = some 3 ∧ reported s 1 0 6 = none ∧
    reported s 0 1 0 = some 14 ∧ reported s 1 1 0 = some 7 ∧ cumulative s 1 0 5 = some 7 :=
  quiet_eval (acts := acts1) (by decide +kernel) (by decide +kernel)

end AsyncEx

/-- C22 (fails with a gap). A series observed with cumulative value 5, then missing for one collection, then observed with
5 again: the deltas sum to 10. -/
theorem C22_gap_fails : ∃ s, Quiet (AsyncEx.cfg 10) 0 s ∧ s.coll = 3 ∧ cumulative s 2 0 5 = some 5 ∧
    totalTo 3 (deltaOf s 0 5) = 10 :=
  AsyncEx.quiet_eval
    (acts := AsyncEx.cbRun 0 0 [(5, 5)] ++ [.finish [AsyncEx.ent 5 5 0 5], .finish []] ++
      AsyncEx.cbRun 1 1 [(5, 5)] ++ [.finish [AsyncEx.ent 5 5 0 5]])
    (by decide +kernel) (by decide +kernel)

/-- C23 (fails). Limit 2; sets 1, 2, 3 observed with constant cumulative values 1, 10, 100 in two collections. Sets 2 and 3
overflow, their cumulative total is 110 all the time, yet the deltas of the overflow series sum to 220. -/
theorem C23_overflow_fails : ∃ s, Quiet (AsyncEx.cfg 2) 0 s ∧ s.coll = 2 ∧
    (∀ n, n < 2 → lastObs s.log n 0 2 = some 10 ∧ lastObs s.log n 0 3 = some 100 ∧
      cumulative s n 0 2 = none ∧ cumulative s n 0 3 = none) ∧
    totalTo 2 (deltaOf s 0 99) = 220 :=
  AsyncEx.quiet_eval
    (acts := AsyncEx.cbRun 0 0 [(1, 1), (2, 10), (3, 100)] ++
      [.finish [AsyncEx.ent 1 1 0 1, AsyncEx.ent 2 99 0 10, AsyncEx.ent 3 99 0 100]] ++
      AsyncEx.cbRun 1 3 [(1, 1), (2, 10), (3, 100)] ++
      [.finish [AsyncEx.ent 1 1 0 1, AsyncEx.ent 2 99 0 10, AsyncEx.ent 3 99 0 100]])
    (by decide +kernel) (by decide +kernel)

/-- C24 (fails for leaked goroutines). A goroutine leaked by the callback has passed the liveness check when the callback
returns, and goes on after the collection: the next collection reports a zero for a series nobody observed in it. -/
theorem C24_leaked_observation_fails : ∃ s, Async.Reachable (AsyncEx.cfg 10) 0 s ∧ s.coll = 2 ∧
    (∀ v ∈ s.log, v.coll ≠ 1) ∧ reported s 1 1 0 = some 0 := by
  have : ∃ s, Async.run (AsyncEx.cfg 10) (initial (AsyncEx.cfg 10) 0)
      [.startCb [0], .observe 0 0 5 7, .op 0, .endCb 0, .finish [], .op 0, .op 0, .finish []] = some s ∧
      (s.coll = 2 ∧ (s.log.all (fun v => v.coll != 1)) = true ∧ reported s 1 1 0 = some 0) :=
    AsyncEx.exists_of_eval (by decide +kernel)
  obtain ⟨s, h1, h2, h3, h4⟩ := this
  refine ⟨s, ⟨_, h1⟩, h2, ?_, h4⟩
  intro v hv
  have := List.all_eq_true.1 h3 v hv
  simpa using this

/-- C21: an observation begun after the callback returned, and one for an undeclared instrument. -/
example : ∃ s, Async.run (AsyncEx.cfg 10) (initial (AsyncEx.cfg 10) 0)
      [.startCb [3], .observe 0 0 5 7, .endCb 0, .observe 0 3 5 7, .op 0, .op 1] = some s ∧
      (s.nextOp = 2 ∧ (s.op 0).pc = .rejected ∧ (s.op 1).pc = .rejected ∧ (s.op 1).startedLive = false) :=
  AsyncEx.exists_of_eval (by decide +kernel)

end Verif.Props
