import Verif.Proof.SyncIdle
import Verif.Examples.SyncCfg

/-!
# Memory limits of the synchronous pipeline (C05, C10, C11)
-/

namespace Verif.Props
open Verif Verif.Sync
variable {AL KS N S : Type} [DecidableEq KS] {c : Cfg AL KS N S} {n0 : N} {s s1 s2 : State AL KS N S}

/-! ## C05 idle records -/

/-- C05 (survives). After the idle count of a record restarted, in whatever way the calls and collections are
interleaved, the record is still in the table of its instrument as long as fewer than `InactiveCollectionPeriods`
collections have visited it. -/
theorem C05_survives (hr : Reachable c n0 s) {a : Action AL N} (hs : step c s a = some s1) {r n : Nat}
    (hstart : Restarts s s1 r) (hrun : RunV c r (fun _ => True) s1 n s2) (hn : n < c.periods) :
    r ∈ s2.table (s2.recs r).obs := by
  have hi := (reachable_prog hr).1
  have hr1 := reachable_step hr hs
  exact (survive_run hr1 (restarts_fresh hstart hi.wf (reachable_prog hr1).1.wf (hi.step_sound hs)) hrun hn).2.2.1

/-- C05 (removed). If the record stays idle (not in use, no update) it is visited at most `InactiveCollectionPeriods`
times, and once it has been visited that often and the last collection has finished, it is out of the table and has
nothing left to report. -/
theorem C05_removed (hP : 0 < c.periods) (hr : Reachable c n0 s) {a : Action AL N} (hs : step c s a = some s1) {r n : Nat}
    (hstart : Restarts s s1 r) (hrun : RunV c r (fun s => Idle s r) s1 n s2) :
    n ≤ c.periods ∧
    (n = c.periods → s2.lock (s2.recs r).obs = none →
      ¬ r ∈ s2.table (s2.recs r).obs ∧ ∀ a, a ∈ (s2.recs r).accs → (s2.acc a).cur.ops = [] ∧ (s2.acc a).snap.ops = []) := by
  have hi := (reachable_prog hr).1
  have hr1 := reachable_step hr hs
  have ⟨hr2, hc⟩ := count_run hP hr1 (restarts_fresh hstart hi.wf (reachable_prog hr1).1.wf (hi.step_sound hs)) hrun
  have hi2 := (reachable_more hr2).full.inv
  obtain ⟨hlt, h | h | h⟩ := hc
  · exact ⟨by omega, fun h1 => by omega⟩
  · refine ⟨by omega, fun _ hl => ?_⟩
    obtain ⟨t, ht⟩ := h.2.2
    have := cur_tbl hi2.wf (rem_cur ht).1
    rw [hl] at this
    cases this.2
  · refine ⟨by omega, fun _ hl => ⟨h.2, ?_⟩⟩
    intro a ha
    have ha' := (hi2.wf.accsMem r a hlt ha)
    refine ⟨hi2.relEmpty a ha'.1 ((hi2.relDead r hlt h.2).2 a ha), ?_⟩
    apply hi2.snapIdle a ha'.1
    cases hsl : (s2.acc a).slock with
    | none => rfl
    | some t =>
      exfalso
      obtain ⟨k, hk, _⟩ := hi2.wf.sLock a t ha'.1 hsl
      rw [ha'.2] at hk
      have : (s2.task t).curR = some r := by
        cases hp : s2.task t <;> simp_all [TPc.busy, TPc.curR]
      exact h.2 (cur_tbl hi2.wf this).1

/-- C05 (in use, kept). A record that some call is using is in the table, however often it has been visited. -/
theorem C05_in_use_kept (hr : Reachable c n0 s) {i r : Nat} (hu : Uses s i r) : r ∈ s.table (s.recs r).obs := by
  have hi := (reachable_prog hr).1
  exact (pinned_live hi.wf hi.ref (uses_holds hu)).1

/-- C05 (in use at the attempt). If a call is using the record at the moment its removal is attempted, the collection
decides to keep it. -/
theorem C05_in_use_keeps (hr : Reachable c n0 s) {t o r i : Nat} {td : List Nat} (ht : s.task t = .unmap o td r)
    (hu : Uses s i r) {a : Action AL N} (hs : step c s a = some s1) (hmove : s1.task t ≠ s.task t) : Keeps s1 t r := by
  have hi := (reachable_prog hr).1
  refine unmap_keeps ht ?_ hmove (hi.wf.taskIdle _ (Nat.le_refl _)) (hi.step_sound hs)
  have hp := pinned_live hi.wf hi.ref (uses_holds hu)
  rw [hi.ref.1 _ r hp.1 hp.2]
  have hlt := op_lt hi.wf.opIdle (i := i) (by intro hc; have := uses_holds hu; simp [hc, OPc.holds] at this)
  have : 0 < pins s r := sumTo_pos_of (a := i) hlt (by simp [uses_holds hu])
  omega

/-- C05 (updated). If a visited record was updated since its last snapshot, the collection decides to keep it. -/
theorem C05_updated_keeps (hr : Reachable c n0 s) {r : Nat} {a : Action AL N} (hs : step c s a = some s1)
    (hv : Visits s s1 r) (hu : (s.recs r).updateCount ≠ (s.recs r).collectedCount) : ∃ t, Keeps s1 t r := by
  have hi := (reachable_prog hr).1
  exact visit_keeps hi.wf hv hu (hi.step_sound hs)

/-- C05 (kept means restarted). A collection that decided to keep the record does so, and its idle count restarts. -/
theorem C05_keeps_restarts (hr : Reachable c n0 s) {t r : Nat} (hk : Keeps s t r) {a : Action AL N}
    (hs : step c s a = some s1) : Keeps s1 t r ∨ Restarts s s1 r := by
  have hi := (reachable_prog hr).1
  exact keeps_step hk hi.wf (hi.step_sound hs)

section Examples
open Verif.Examples

/-- Boolean version of `Idle` for evaluation. -/
def idleB (r : Nat) (s : St) : Bool :=
  (List.range s.nextOp).all (fun i => !(s.op i).pc.holds r) && decide ((s.recs r).updateCount = (s.recs r).collectedCount)

theorem idleB_sound {n0 : Number.Bits} {r : Nat} (s : St) (hr : Reachable cfg n0 s) (h : idleB r s = true) : Idle s r := by
  simp only [idleB, Bool.and_eq_true, List.all_eq_true, List.mem_range, Bool.not_eq_true', decide_eq_true_eq] at h
  refine ⟨?_, h.2⟩
  intro i hu
  have hh := uses_holds hu
  have hlt := op_lt (reachable_prog hr).1.wf.opIdle (i := i) (by intro hc; simp [hc, OPc.holds] at hh)
  rw [h.1 i hlt] at hh
  cases hh

/-- A call on the counter, then a snapshot that finds its update; the snapshot is about to finish with record 0. -/
def schedIdle0 : List Act := [.observe 0 1 5] ++ call 0 12 ++ [.snapshot 0] ++ steps 0 9
/-- The snapshot finishes with the record (restart), and then two more snapshots find it idle. -/
def schedIdle1 : List Act := steps 0 1 ++ [.snapshot 0] ++ steps 1 3 ++ [.snapshot 0] ++ steps 2 13

/-- The hypotheses of `C05_survives` and `C05_removed` are met: after the restart, the record is visited once and
survives, and visited a second time (the configured period is 2) and is removed. -/
example : ∃ s s1 s2, Reachable cfg 0 s ∧ step cfg s (.task 0 0) = some s1 ∧ Restarts s s1 0 ∧
    RunV cfg 0 (fun s => Idle s 0) s1 2 s2 ∧ cfg.periods = 2 ∧ s2.lock 0 = none ∧ s2.table 0 = [] := by
  obtain ⟨s, h1, h2⟩ := exists_of_eval (x := run cfg init0 schedIdle0)
    (P := fun s => ((step cfg s (.task 0 0)).map (fun s1 =>
        decide ((s.task 0).curR = some 0 ∧ (s1.task 0).curR ≠ some 0 ∧ 0 ∈ s1.table (s1.recs 0).obs) &&
        match runV cfg (idleB 0) 0 s1 schedIdle1 with
        | some (n, s2) => decide (n = 2 ∧ s2.lock 0 = none ∧ s2.table 0 = [])
        | none => false)) = some true) (by decide +kernel)
  have hr : Reachable cfg 0 s := ⟨_, h1⟩
  rw [Option.map_eq_some_iff] at h2
  obtain ⟨s1, h3, h4⟩ := h2
  rw [Bool.and_eq_true, decide_eq_true_eq] at h4
  obtain ⟨⟨h5, h6, h7⟩, h8⟩ := h4
  cases hx : runV cfg (idleB 0) 0 s1 schedIdle1 with
  | none => rw [hx] at h8; cases h8
  | some x =>
    obtain ⟨n, s2⟩ := x
    rw [hx] at h8
    simp only [decide_eq_true_eq] at h8
    obtain ⟨rfl, h9, h10⟩ := h8
    exact ⟨s, s1, s2, hr, h3, Or.inr ⟨⟨0, h5, h6⟩, h7⟩, runV_sound idleB_sound (reachable_step hr h3) hx, rfl, h9, h10⟩

end Examples

/-! ## C10 instrument cardinality limit -/

/-- C10 (part). When the calls on an instrument do not overlap and no two different attribute lists have the same
fingerprint (or collisions are ignored), the instrument never holds more records than its limit. Missing from the full
claim: overlapping calls and colliding lists, see the two counterexamples below. -/
theorem C10_limit_partial {o : Nat} (hl : 1 ≤ c.limit)
    (hcoll : c.ignoreColl = true ∨ ∀ a b, c.fp a = c.fp b → c.eqv a b = true)
    (hr : SeqReachable c (fun x => x = o) n0 s) : (s.table o).length ≤ c.limit := by
  rw [(reachable_fpNodup hcoll hr.reachable).len]
  exact (seq_fpBound hr).len hl

/-- C10 (fingerprints). With colliding lists it is the number of fingerprints that is bounded. -/
theorem C10_fingerprints_partial {o : Nat} (hl : 1 ≤ c.limit) (hr : SeqReachable c (fun x => x = o) n0 s) :
    ((s.table o).map (fun r => c.fp (s.recs r).attrs)).eraseDups.length ≤ c.limit :=
  (seq_fpBound hr).len hl

/-- C10 (full). A call with an attribute list that has no record, when the table is full, continues with the record of
the overflow attributes, or goes on to find or create that record; it is not dropped. -/
theorem C10_full_to_overflow (hr : Reachable c n0 s) {i : Nat} {a : AL} (hpc : (s.op i).pc = .rd a)
    (hnew : ∀ r, r ∈ s.table (s.op i).obs → ¬ matchRead c s a r)
    (hfull : c.limit ≤ ((s.table (s.op i).obs).map (fun r => c.fp (s.recs r).attrs)).eraseDups.length + 1)
    (hs : step c s (.op i) = some s1) :
    (∃ r, r ∈ s.table (s.op i).obs ∧ matchRead c s c.overflowAL r ∧ (s1.op i).pc = .ini r) ∨
    (s1.op i).pc = .wr c.overflowAL := by
  have hev := (reachable_prog hr).1.even
  simp only [step, stepOp, hpc] at hs
  split at hs
  · cases hs
  · rename_i hl
    have hl : s.lock (s.op i).obs = none := by simpa using hl
    have hf : findRead c s (s.op i).obs a = none := by
      cases hf : findRead c s (s.op i).obs a with
      | none => rfl
      | some r => exact absurd (findRead_spec hf).2 (hnew r (findRead_spec hf).1)
    have hlen : c.limit - 1 ≤ tableLen c s (s.op i).obs := by unfold tableLen; omega
    simp only [acquireRead, readPass, hf, hlen, if_true] at hs
    cases ho : findRead c s (s.op i).obs c.overflowAL with
    | none =>
      right
      simp only [ho, Option.some.injEq] at hs
      rw [← hs]; simp [setOpPc]
    | some r =>
      left
      have hsp := findRead_spec ho
      have hw := hev _ r hl hsp.1
      have h2 : (tryRef s r).2 = true := by simp only [tryRef, refWord, beq_iff_eq]; omega
      simp only [ho, h2, if_true, Option.some.injEq] at hs
      exact ⟨r, hsp.1, hsp.2, by rw [← hs]; simp [setOpPc]⟩

/-- C10 (existing lists). A call whose attribute list has a record uses a record of that list, full or not. -/
theorem C10_existing_kept (hr : Reachable c n0 s) {i : Nat} {a : AL} (hpc : (s.op i).pc = .rd a)
    (hold : ∃ r, r ∈ s.table (s.op i).obs ∧ matchRead c s a r) (hs : step c s (.op i) = some s1) :
    ∃ r, r ∈ s.table (s.op i).obs ∧ matchRead c s a r ∧ (s1.op i).pc = .ini r := by
  have hev := (reachable_prog hr).1.even
  simp only [step, stepOp, hpc] at hs
  split at hs
  · cases hs
  · rename_i hl
    have hl : s.lock (s.op i).obs = none := by simpa using hl
    cases hf : findRead c s (s.op i).obs a with
    | none =>
      obtain ⟨r, h1, h2⟩ := hold
      exact absurd h2 (findRead_none hf r h1)
    | some r =>
      have hsp := findRead_spec hf
      have hw := hev _ r hl hsp.1
      have h2 : (tryRef s r).2 = true := by simp only [tryRef, refWord, beq_iff_eq]; omega
      simp only [acquireRead, readPass, hf, h2, if_true, Option.some.injEq] at hs
      exact ⟨r, hsp.1, hsp.2, by rw [← hs]; simp [setOpPc]⟩

/-- C10 (write path). The second lookup continues with a record of the attribute list it was given. -/
theorem C10_write_path (hr : Reachable c n0 s) {i : Nat} {a : AL} (hpc : (s.op i).pc = .wr a)
    (hs : step c s (.op i) = some s1) :
    ∃ r, r ∈ s1.table (s.op i).obs ∧ (s1.op i).pc = .ini r ∧
      ((s1.recs r).attrs = a ∨ (c.fp (s1.recs r).attrs = c.fp a ∧ (c.ignoreColl = true ∨ c.eqv (s1.recs r).attrs a = true))) := by
  have hev := (reachable_prog hr).1.even
  simp only [step, stepOp, hpc] at hs
  split at hs
  · cases hs
  · rename_i hl
    have hl : s.lock (s.op i).obs = none := by simpa using hl
    cases hf : findWrite c s (s.op i).obs a with
    | some r =>
      have hsp := findWrite_spec hf
      have hw := hev _ r hl hsp.1
      have h2 : (tryRef s r).2 = true := by simp only [tryRef, refWord, beq_iff_eq]; omega
      simp only [acquireWrite, hf, h2, if_true, Option.some.injEq] at hs
      refine ⟨r, ?_, ?_, ?_⟩
      · rw [← hs]; simpa [setOpPc, tryRef, setRec] using hsp.1
      · rw [← hs]; simp [setOpPc]
      · right; rw [← hs]; simpa [setOpPc, tryRef, setRec, matchWrite] using hsp.2
    | none =>
      simp only [acquireWrite, hf, Option.some.injEq] at hs
      exact ⟨s.nextRec, by rw [← hs]; simp [setOpPc], by rw [← hs]; simp [setOpPc],
        by left; rw [← hs]; simp [setOpPc, newRec]⟩

section Examples
open Verif.Examples

/-- A configuration with limit 2 and no collisions. -/
def cfgLim2 : C := { cfg with fp := fun a => UInt64.ofNat a, limit := 2 }
/-- A configuration with limit 3 in which all lists collide. -/
def cfgColl : C := { cfg with fp := fun _ => 0, limit := 3 }

/-- Non-overlapping calls with three lists: the second and third are counted in the overflow record. -/
def schedLim : List Act := [.observe 0 1 5] ++ call 0 12 ++ [.observe 0 2 5] ++ call 1 12 ++ [.observe 0 3 5] ++ call 2 9

example : ∃ s, run cfgLim2 (initial cfgLim2 0) schedLim = some s ∧ SeqReachable cfgLim2 (fun x => x = 0) 0 s ∧
    (s.table 0).length = 2 ∧ ((s.table 0).map (fun r => (s.recs r).attrs)) = [99, 1] ∧ (s.op 2).pc = .done := by
  obtain ⟨s, h1, h2⟩ := exists_of_eval (x := run cfgLim2 (initial cfgLim2 0) schedLim)
    (P := fun s => seqB cfgLim2 (fun x => x == 0) (initial cfgLim2 0) schedLim = true ∧ (s.table 0).length = 2 ∧
      ((s.table 0).map (fun r => (s.recs r).attrs)) = [99, 1] ∧ (s.op 2).pc = .done) (by decide +kernel)
  refine ⟨s, h1, ?_, h2.2⟩
  have := seq_of_eval (c := cfgLim2) (G := fun x => x == 0) .init h2.1 h1
  simpa using this

/-- C10 (fails for overlapping calls). Three calls that look up their list before any of them creates its record: the
instrument with limit 2 ends up with three records (and three fingerprints). -/
theorem C10_limit_fails_overlapping : ∃ s, Reachable cfgLim2 0 s ∧ cfgLim2.limit = 2 ∧ (s.table 0).length = 3 ∧
    tableLen cfgLim2 s 0 = 3 := by
  obtain ⟨s, h1, h2⟩ := exists_of_eval (x := run cfgLim2 (initial cfgLim2 0)
      ([.observe 0 1 5, .observe 0 2 5, .observe 0 3 5] ++ [.op 0, .op 1, .op 2] ++ [.op 0, .op 1, .op 2]))
    (P := fun s => (s.table 0).length = 3 ∧ tableLen cfgLim2 s 0 = 3) (by decide +kernel)
  exact ⟨s, ⟨_, h1⟩, rfl, h2⟩

/-- C10 (fails for colliding lists). Non-overlapping calls with four lists that share a fingerprint: the instrument with
limit 3 ends up with four records, because the limit is compared with the number of fingerprints. -/
theorem C10_limit_fails_colliding : ∃ s, SeqReachable cfgColl (fun x => x = 0) 0 s ∧ cfgColl.limit = 3 ∧
    (s.table 0).length = 4 := by
  obtain ⟨s, h1, h2⟩ := exists_of_eval (x := run cfgColl (initial cfgColl 0)
      ([.observe 0 1 5] ++ call 0 12 ++ [.observe 0 2 5] ++ call 1 12 ++ [.observe 0 3 5] ++ call 2 12 ++ [.observe 0 4 5] ++ call 3 12))
    (P := fun s => seqB cfgColl (fun x => x == 0) (initial cfgColl 0) ([.observe 0 1 5] ++ call 0 12 ++ [.observe 0 2 5] ++ call 1 12 ++ [.observe 0 3 5] ++ call 2 12 ++ [.observe 0 4 5] ++ call 3 12) = true ∧
      (s.table 0).length = 4) (by decide +kernel)
  have := seq_of_eval (c := cfgColl) (G := fun x => x == 0) .init h2.1 h1
  exact ⟨s, by simpa using this, rfl, h2.2⟩

end Examples

/-! ## C11 aggregator cardinality limit -/

/-- C11 (limit). A view never lists more series than its limit, under any interleaving. -/
theorem C11_limit (hr : Reachable c n0 s) (l : Nat) (hl : 1 ≤ c.lim l) : (s.data l).length ≤ c.lim l :=
  ((reachable_more hr).dataLen l hl).1

/-- C11 (overflow series). A view that is full lists the overflow series. -/
theorem C11_full_has_overflow (hr : Reachable c n0 s) (l : Nat) (hl : 1 ≤ c.lim l) (hfull : (s.data l).length = c.lim l) :
    ∃ h, (c.overflowKS, h) ∈ s.data l :=
  has_iff.1 (((reachable_more hr).dataLen l hl).2 hfull)

/-- C11 (existing series). The lookup for an attribute set that has a series gives that series and leaves the table
alone, full or not. -/
theorem C11_existing_found {V : Type} (lim : Nat) (ovf k : KS) (t : Storage.Table KS V) (fresh v : V)
    (hnd : (t.map (·.1)).Nodup) (hk : (k, v) ∈ t) : Storage.getOrCreate lim ovf t k fresh = (k, v, t) := by
  have hh : Storage.has t k = true := has_iff.2 ⟨v, hk⟩
  have hf : Storage.find t k = some v := find_of_mem hnd hk
  simp [Storage.getOrCreate, Storage.resolveKey, hh, hf]

/-- C11 (new series). The lookup for a new attribute set creates a series for it when at least two places are free, or
one place besides the overflow series; otherwise it gives the overflow series (created in the last place if needed).
It always gives a series. -/
theorem C11_new {V : Type} (lim : Nat) (ovf k : KS) (t : Storage.Table KS V) (fresh : V)
    (hovf : t.length = lim → Storage.has t ovf = true) (hk : ∀ v, ¬ (k, v) ∈ t) :
    (t.length + 1 < lim ∨ (t.length + 1 = lim ∧ (k = ovf ∨ ∃ v, (ovf, v) ∈ t)) →
      Storage.getOrCreate lim ovf t k fresh = (k, fresh, (k, fresh) :: t)) ∧
    (t.length = lim → ∃ v, (ovf, v) ∈ t ∧ Storage.getOrCreate lim ovf t k fresh = (ovf, v, t)) ∧
    (t.length + 1 = lim → k ≠ ovf → (∀ v, ¬ (ovf, v) ∈ t) →
      Storage.getOrCreate lim ovf t k fresh = (ovf, fresh, (ovf, fresh) :: t)) := by
  have hk' : Storage.has t k = false := by
    cases h : Storage.has t k with
    | false => rfl
    | true => obtain ⟨v, hv⟩ := has_iff.1 h; exact absurd hv (hk v)
  have hfk := find_none_has.2 hk'
  refine ⟨?_, ?_, ?_⟩
  · rintro (h | ⟨h, h'⟩)
    · have : Storage.resolveKey lim ovf t k = k := by
        unfold Storage.resolveKey
        simp only [hk', Bool.false_eq_true, if_false]
        rw [if_neg (by omega), if_neg (by omega)]
      simp [Storage.getOrCreate, this, hfk]
    · have h2 : ¬ (k ≠ ovf ∧ Storage.has t ovf = false) := by
        rintro ⟨h3, h4⟩
        rcases h' with h' | ⟨v, hv⟩
        · exact h3 h'
        · rw [has_iff.2 ⟨v, hv⟩] at h4; cases h4
      have : Storage.resolveKey lim ovf t k = k := by
        unfold Storage.resolveKey
        simp only [hk', Bool.false_eq_true, if_false]
        rw [if_neg (by omega), if_pos h, if_neg h2]
      simp [Storage.getOrCreate, this, hfk]
  · intro h
    have ho := hovf h
    have : Storage.resolveKey lim ovf t k = ovf := by
      unfold Storage.resolveKey
      simp only [hk', Bool.false_eq_true, if_false]
      rw [if_pos h, if_pos ho]
    cases hf : Storage.find t ovf with
    | none => rw [find_none_has.1 hf] at ho; cases ho
    | some v => exact ⟨v, find_mem hf, by simp [Storage.getOrCreate, this, hf]⟩
  · intro h h1 h2
    have ho : Storage.has t ovf = false := by
      cases h3 : Storage.has t ovf with
      | false => rfl
      | true => obtain ⟨v, hv⟩ := has_iff.1 h3; exact absurd hv (h2 v)
    have : Storage.resolveKey lim ovf t k = ovf := by
      unfold Storage.resolveKey
      simp only [hk', Bool.false_eq_true, if_false]
      rw [if_neg (by omega), if_pos h, if_pos ⟨h1, ho⟩]
    simp [Storage.getOrCreate, this, find_none_has.2 ho]

/-- C11 (identity). No step gives a listed attribute set another series, and a listed series keeps its attribute set. -/
theorem C11_identity (hr : Reachable c n0 s) {a : Action AL N} (hs : step c s a = some s1) {l : Nat} {k : KS} {h h' : Nat}
    (hin : (k, h) ∈ s.data l) (hin' : (k, h') ∈ s1.data l) : h' = h ∧ (s1.hold h).key = k := by
  have hr1 := reachable_step hr hs
  have hi := (reachable_prog hr).1
  have hi1 := (reachable_prog hr1).1
  have hstep := hi.step_sound hs
  have hnd := hi.wf.dataKeys l
  have : (k, h') ∈ s.data l ∨ ∀ x, ¬ (k, x) ∈ s.data l := by
    clear hi hi1 hr hr1 hnd
    revert hin'
    cases hstep
    all_goals first
     | (intro hin'; exact Or.inl hin')
     | (ssimp; grind [Storage.delete, find_none])
  have he : h' = h := by
    rcases this with h1 | h1
    · exact (keys_unique hnd h1 hin)
    · exact absurd hin (h1 h)
  subst he
  exact ⟨rfl, (hi1.wf.dataOk l k h' hin').2.2⟩

section Examples
open Verif.Examples

/-- Views limited to two series. -/
def cfgAgg2 : C := { cfg with fp := fun a => UInt64.ofNat a, limit := 10, lim := fun _ => 2 }

/-- Three lists, a snapshot and a collection of view 0: the second and the third list share the overflow series (9 = 4 + 5),
the first keeps its own. -/
example : ∃ s, Reachable cfgAgg2 0 s ∧ (s.data 0).map (·.1) = [99, 1] ∧ (s.data 0).length = cfgAgg2.lim 0 ∧
    s.emits.map (fun e => (e.leaf, e.key, e.ops.map (·.1))) = [(0, 1, [0]), (0, 99, [1, 2])] := by
  obtain ⟨s, h1, h2⟩ := exists_of_eval (x := run cfgAgg2 (initial cfgAgg2 0)
      ([.observe 0 1 3] ++ call 0 12 ++ [.observe 0 2 4] ++ call 1 12 ++ [.observe 0 3 5] ++ call 2 12 ++
       [.snapshot 0] ++ steps 0 29 ++ [.collect 0] ++ steps 1 6))
    (P := fun s => (s.data 0).map (·.1) = [99, 1] ∧ (s.data 0).length = cfgAgg2.lim 0 ∧
      s.emits.map (fun e => (e.leaf, e.key, e.ops.map (·.1))) = [(0, 1, [0]), (0, 99, [1, 2])]) (by decide +kernel)
  exact ⟨s, ⟨_, h1⟩, h2⟩

end Examples

end Verif.Props
