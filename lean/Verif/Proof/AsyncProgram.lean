import Verif.Proof.AsyncPipeline

/-!
Programs whose callbacks observe one after the other: they run, are orderly, and the observations which count are those made.
-/

namespace Verif.AsyncPipeline
open Verif Verif.Attr Verif.Number Verif.Async
open Verif.Pipeline (Reader)
variable {H : Type} {u : Setup} {R : Reader H}

theorem run_append (as bs : List Act) (x : Sys) : run u R x (as ++ bs) = (run u R x as).bind (fun y => run u R y bs) := by
  induction as generalizing x with
  | nil => rfl
  | cons a as ih =>
    simp only [List.cons_append, run]
    cases step u R x a with
    | none => rfl
    | some y => exact ih y

theorem orderly_append {as bs : List Act} {x : Sys} (h : Orderly u R x as) (h' : ∀ y, run u R x as = some y → Orderly u R y bs) :
    Orderly u R x (as ++ bs) := by
  induction as generalizing x with
  | nil => exact h' x rfl
  | cons a as ih =>
    refine ⟨h.1, fun x' hx' => ih (h.2 x' hx') (fun y hy => h' y ?_)⟩
    show (step u R x a).bind _ = _
    rw [hx']; exact hy

theorem orderly_cbs {as : List Act} {x : Sys} (h : ∀ a ∈ as, ∃ b, a = .cb b) : Orderly u R x as := by
  induction as generalizing x with
  | nil => trivial
  | cons a as ih =>
    refine ⟨fun order q e => ?_, fun x' _ => ih (fun a ha => h a (List.mem_cons_of_mem _ ha))⟩
    obtain ⟨b, hb⟩ := h a List.mem_cons_self
    rw [hb] at e; cases e

/-- What is known of the observations which count. -/
def logged (x : Sys) : List (Nat × Nat × List KV × Bits) := x.s.log.map (fun v => (v.coll, v.obs, v.set, v.val))

/-- Nothing goes on: `cb` callbacks have run, `i` observations were made, `n` collections are over. -/
structure Rest (x : Sys) (cb i n : Nat) : Prop where
  cbs : x.s.nextCb = cb
  ops : x.s.nextOp = i
  coll : x.s.coll = n
  ended : ∀ j, j < i → (x.s.op j).pc = .done ∨ (x.s.op j).pc = .rejected
  dead : ∀ j, j < cb → (x.s.cb j).live = false

/-- Only callback `cb` runs, between two observations. -/
structure In (x : Sys) (cb i n : Nat) (insts : List Nat) : Prop where
  cbs : x.s.nextCb = cb + 1
  ops : x.s.nextOp = i
  coll : x.s.coll = n
  ended : ∀ j, j < i → (x.s.op j).pc = .done ∨ (x.s.op j).pc = .rejected
  dead : ∀ j, j < cb → (x.s.cb j).live = false
  mine : x.s.cb cb = { coll := n, insts := insts, live := true }

theorem step_cb {x : Sys} {a : Async.Action (List KV) Bits} {s : Async.State (List KV) Bits Bits} (hf : isFinish a = false)
    (h : Async.step (cfg u) x.s a = some s) : step u R x (.cb a) = some { x with s := s } := by
  show (if isFinish a then none else (Async.step (cfg u) x.s a).map _) = _
  rw [hf, h]; rfl

theorem run_cb {x : Sys} {a : Async.Action (List KV) Bits} {s : Async.State (List KV) Bits Bits} {as : List Act} (hf : isFinish a = false)
    (h : Async.step (cfg u) x.s a = some s) : run u R x (.cb a :: as) = run u R { x with s := s } as := by
  show (step u R x (.cb a)).bind _ = _
  rw [step_cb hf h]; rfl

theorem getOrCreate_rest {c : Async.Cfg (List KV) Bits Bits} {s : Async.State (List KV) Bits Bits} {n o : Nat} {k : List KV} :
    (Async.getOrCreate c s n o k).cb = s.cb ∧ (Async.getOrCreate c s n o k).nextCb = s.nextCb ∧ (Async.getOrCreate c s n o k).op = s.op ∧
      (Async.getOrCreate c s n o k).nextOp = s.nextOp ∧ (Async.getOrCreate c s n o k).coll = s.coll ∧ (Async.getOrCreate c s n o k).log = s.log := by
  unfold Async.getOrCreate
  split
  · exact ⟨rfl, rfl, rfl, rfl, rfl, rfl⟩
  · exact ⟨rfl, rfl, rfl, rfl, rfl, rfl⟩

/-- An operation's next step. -/
theorem op_check {s : Async.State (List KV) Bits Bits} {i : Nat} (hi : i < s.nextOp) (h : (s.op i).pc = .check) (hl : (s.cb (s.op i).cb).live = true) :
    Async.step (cfg u) s (.op i) = some { s with op := Verif.upd s.op i { s.op i with pc := if Legal u (s.cb (s.op i).cb).insts ((s.op i).obs, (s.op i).set, (s.op i).val) then .create else .rejected } } := by
  have hn : ¬ s.nextOp ≤ i := by omega
  have hr : (cfg u).inRange (s.op i).obs (s.op i).val = Front.rangeTest (u.inst (s.op i).obs).num (s.op i).val (u.inst (s.op i).obs).kind := rfl
  have hv : (cfg u).leavesOf (s.op i).obs = u.leavesOf (s.op i).obs := rfl
  simp only [Async.step, if_neg hn, h, hl, Legal, hr, hv, Bool.true_and]
  by_cases h1 : (s.cb (s.op i).cb).insts.contains (s.op i).obs = true <;>
    by_cases h2 : Front.rangeTest (u.inst (s.op i).obs).num (s.op i).val (u.inst (s.op i).obs).kind = true <;>
    by_cases h3 : (u.leavesOf (s.op i).obs).isEmpty = true <;> simp only [h1, h2, h3] <;> rfl

theorem obs_illegal {x : Sys} {cb i : Nat} {insts : List Nat} {o : Nat × List KV × Bits} {s1 s2 : Async.State (List KV) Bits Bits}
    (hL : Legal u insts o = false) (h1 : Async.step (cfg u) x.s (.observe cb o.1 o.2.1 o.2.2) = some s1) (h2 : Async.step (cfg u) s1 (.op i) = some s2) :
    run u R x (obsActs u cb i insts o) = some { x with s := s2 } := by
  unfold obsActs
  rw [hL, run_cb rfl h1]
  show run u R _ [.cb (.op i)] = _
  rw [run_cb rfl h2]
  rfl

theorem obs_legal {x : Sys} {cb i : Nat} {insts : List Nat} {o : Nat × List KV × Bits} {s1 s2 s3 s4 : Async.State (List KV) Bits Bits}
    (hL : Legal u insts o = true) (h1 : Async.step (cfg u) x.s (.observe cb o.1 o.2.1 o.2.2) = some s1) (h2 : Async.step (cfg u) s1 (.op i) = some s2)
    (h3 : Async.step (cfg u) s2 (.op i) = some s3) (h4 : Async.step (cfg u) s3 (.op i) = some s4) :
    run u R x (obsActs u cb i insts o) = some { x with s := s4 } := by
  unfold obsActs
  rw [hL, run_cb rfl h1]
  show run u R _ [.cb (.op i), .cb (.op i), .cb (.op i)] = _
  rw [run_cb rfl h2, run_cb rfl h3, run_cb rfl h4]
  rfl

theorem ended_upd {op : Nat → Op (List KV) Bits} {i : Nat} {o : Op (List KV) Bits} (h : ∀ j, j < i → (op j).pc = .done ∨ (op j).pc = .rejected)
    (ho : o.pc = .done ∨ o.pc = .rejected) (j : Nat) (hj : j < i + 1) : (Verif.upd op i o j).pc = .done ∨ (Verif.upd op i o j).pc = .rejected := by
  rw [upd_apply]
  by_cases e : j = i
  · rw [if_pos e]; exact ho
  · rw [if_neg e]; exact h j (by omega)

/-- One observation. -/
theorem run_obs {x : Sys} {cb i n : Nat} {insts : List Nat} (h : In x cb i n insts) (o : Nat × List KV × Bits) :
    ∃ x', run u R x (obsActs u cb i insts o) = some x' ∧ In x' cb (i + 1) n insts ∧
      logged x' = logged x ++ (if Legal u insts o then [(n, o.1, u.set o.1 o.2.1, o.2.2)] else []) := by
  obtain ⟨obs, as, val⟩ := o
  have h0 : Async.step (cfg u) x.s (.observe cb obs as val) = some { x.s with op := Verif.upd x.s.op x.s.nextOp { cb := cb, obs := obs, set := as, val := val, pc := .check, startedLive := (x.s.cb cb).live }, nextOp := x.s.nextOp + 1 } := by
    simp only [Async.step]
    rw [if_pos (by rw [h.cbs]; omega)]
  have e1 := h.ops
  subst e1
  generalize hs1 : ({ x.s with op := Verif.upd x.s.op x.s.nextOp { cb := cb, obs := obs, set := as, val := val, pc := .check, startedLive := (x.s.cb cb).live }, nextOp := x.s.nextOp + 1 } : Async.State (List KV) Bits Bits) = s1 at h0
  have a1 : s1.op x.s.nextOp = { cb := cb, obs := obs, set := as, val := val, pc := .check, startedLive := (x.s.cb cb).live } := by
    rw [← hs1]; simp
  have a2 : s1.nextOp = x.s.nextOp + 1 := by rw [← hs1]
  have a3 : s1.cb = x.s.cb := by rw [← hs1]
  have a4 : s1.nextCb = x.s.nextCb := by rw [← hs1]
  have a5 : s1.coll = x.s.coll := by rw [← hs1]
  have a6 : s1.log = x.s.log := by rw [← hs1]
  have a7 : ∀ j, j ≠ x.s.nextOp → s1.op j = x.s.op j := by
    intro j hj; rw [← hs1]; simp [hj]
  have c0 := op_check (u := u) (s := s1) (i := x.s.nextOp) (by omega) (by rw [a1]) (by rw [a1, a3]; show (x.s.cb cb).live = true; rw [h.mine])
  have em : s1.cb (s1.op x.s.nextOp).cb = { coll := n, insts := insts, live := true } := by rw [a1, a3]; exact h.mine
  have eo : ((s1.op x.s.nextOp).obs, (s1.op x.s.nextOp).set, (s1.op x.s.nextOp).val) = (obs, as, val) := by rw [a1]
  rw [em, eo] at c0
  cases hL : Legal u insts (obs, as, val) with
  | false =>
    rw [hL] at c0
    have hrun := obs_illegal (R := R) (o := (obs, as, val)) hL h0 c0
    refine ⟨_, hrun, ⟨?_, ?_, ?_, ?_, ?_, ?_⟩, ?_⟩
    · show s1.nextCb = _; rw [a4, h.cbs]
    · show s1.nextOp = _; rw [a2]
    · show s1.coll = _; rw [a5, h.coll]
    · exact ended_upd (fun j hj => by rw [a7 j (by omega)]; exact h.ended j hj) (.inr rfl)
    · intro j hj; show (s1.cb j).live = false; rw [a3]; exact h.dead j hj
    · show s1.cb cb = _; rw [a3, h.mine]
    · show s1.log.map _ = _; rw [a6]; simp [logged]
  | true =>
    rw [hL] at c0
    generalize hs2 : ({ s1 with op := Verif.upd s1.op x.s.nextOp { s1.op x.s.nextOp with pc := if true = true then Pc.create else Pc.rejected } } : Async.State (List KV) Bits Bits) = s2 at c0
    have b1 : s2.op x.s.nextOp = { cb := cb, obs := obs, set := as, val := val, pc := .create, startedLive := (x.s.cb cb).live } := by
      rw [← hs2, a1]; simp
    have b2 : s2.nextOp = x.s.nextOp + 1 := by rw [← hs2]; exact a2
    have b3 : s2.cb = x.s.cb := by rw [← hs2]; exact a3
    have b4 : s2.nextCb = x.s.nextCb := by rw [← hs2]; exact a4
    have b5 : s2.coll = x.s.coll := by rw [← hs2]; exact a5
    have b6 : s2.log = x.s.log := by rw [← hs2]; exact a6
    have b7 : ∀ j, j ≠ x.s.nextOp → s2.op j = x.s.op j := by
      intro j hj; rw [← hs2, ← a7 j hj]; simp [hj]
    have c1 : Async.step (cfg u) s2 (.op x.s.nextOp) = some { (Async.getOrCreate (cfg u) s2 n obs (u.set obs as)) with
        op := Verif.upd (Async.getOrCreate (cfg u) s2 n obs (u.set obs as)).op x.s.nextOp { s2.op x.s.nextOp with pc := .update } } := by
      have hn : ¬ s2.nextOp ≤ x.s.nextOp := by omega
      have hp : (s2.op x.s.nextOp).pc = .create := by rw [b1]
      have hm : s2.cb (s2.op x.s.nextOp).cb = { coll := n, insts := insts, live := true } := by rw [b1, b3]; exact h.mine
      simp only [Async.step, if_neg hn, hp, hm]
      rw [b1]; rfl
    obtain ⟨g1, g2, g3, g4, g5, g6⟩ := getOrCreate_rest (c := cfg u) (s := s2) (n := n) (o := obs) (k := u.set obs as)
    generalize hs3 : ({ (Async.getOrCreate (cfg u) s2 n obs (u.set obs as)) with
        op := Verif.upd (Async.getOrCreate (cfg u) s2 n obs (u.set obs as)).op x.s.nextOp { s2.op x.s.nextOp with pc := .update } } :
          Async.State (List KV) Bits Bits) = s3 at c1
    have d1 : s3.op x.s.nextOp = { cb := cb, obs := obs, set := as, val := val, pc := .update, startedLive := (x.s.cb cb).live } := by
      rw [← hs3, b1]; simp
    have d2 : s3.nextOp = x.s.nextOp + 1 := by rw [← hs3]; exact g4.trans b2
    have d3 : s3.cb = x.s.cb := by rw [← hs3]; exact g1.trans b3
    have d4 : s3.nextCb = x.s.nextCb := by rw [← hs3]; exact g2.trans b4
    have d5 : s3.coll = x.s.coll := by rw [← hs3]; exact g5.trans b5
    have d6 : s3.log = x.s.log := by rw [← hs3]; exact g6.trans b6
    have d7 : ∀ j, j ≠ x.s.nextOp → s3.op j = x.s.op j := by
      intro j hj; rw [← hs3]
      show Verif.upd _ _ _ j = _
      rw [upd_ne _ _ hj, g3, b7 j hj]
    have c2 : Async.step (cfg u) s3 (.op x.s.nextOp) = some { s3 with
        store := Verif.upd s3.store n (setCur (s3.store n) obs (u.set obs as) val)
        op := Verif.upd s3.op x.s.nextOp { s3.op x.s.nextOp with pc := .done }
        log := s3.log ++ [{ coll := n, op := x.s.nextOp, obs := obs, set := u.set obs as, val := val }] } := by
      have hn : ¬ s3.nextOp ≤ x.s.nextOp := by omega
      have hp : (s3.op x.s.nextOp).pc = .update := by rw [d1]
      have hm : s3.cb (s3.op x.s.nextOp).cb = { coll := n, insts := insts, live := true } := by rw [d1, d3]; exact h.mine
      simp only [Async.step, if_neg hn, hp, hm]
      rw [d1]; rfl
    have hrun := obs_legal (R := R) (o := (obs, as, val)) hL h0 c0 c1 c2
    refine ⟨_, hrun, ⟨?_, ?_, ?_, ?_, ?_, ?_⟩, ?_⟩
    · show s3.nextCb = _; rw [d4, h.cbs]
    · show s3.nextOp = _; rw [d2]
    · show s3.coll = _; rw [d5, h.coll]
    · exact ended_upd (fun j hj => by rw [d7 j (by omega)]; exact h.ended j hj) (.inl rfl)
    · intro j hj; show (s3.cb j).live = false; rw [d3]; exact h.dead j hj
    · show s3.cb cb = _; rw [d3, h.mine]
    · show (s3.log ++ _).map _ = _; rw [d6]; simp [logged]

theorem run_obsList {cb n : Nat} {insts : List Nat} (os : List (Nat × List KV × Bits)) {x : Sys} {i : Nat} (h : In x cb i n insts) :
    ∃ x', run u R x (obsListActs u cb insts i os) = some x' ∧ In x' cb (i + os.length) n insts ∧
      logged x' = logged x ++ (os.filter (Legal u insts)).map (fun o => (n, o.1, u.set o.1 o.2.1, o.2.2)) := by
  induction os generalizing x i with
  | nil => exact ⟨x, rfl, h, by simp⟩
  | cons o os ih =>
    obtain ⟨y, h1, h2, h3⟩ := run_obs (R := R) (u := u) h o
    obtain ⟨z, h4, h5, h6⟩ := ih h2
    refine ⟨z, ?_, ?_, ?_⟩
    · show run u R x (obsActs u cb i insts o ++ _) = _
      rw [run_append, h1]; exact h4
    · have : i + (o :: os).length = i + 1 + os.length := by simp; omega
      rw [this]; exact h5
    · rw [h6, h3]
      cases hL : Legal u insts o <;> simp [hL]

/-- One run of a callback. -/
theorem run_cbRun {x : Sys} {cb i n : Nat} (h : Rest x cb i n) (r : CbRun) :
    ∃ x', run u R x (.cb (.startCb r.insts) :: obsListActs u cb r.insts i r.obs ++ [.cb (.endCb cb)]) = some x' ∧
      Rest x' (cb + 1) (i + r.obs.length) n ∧
      logged x' = logged x ++ (r.obs.filter (Legal u r.insts)).map (fun o => (n, o.1, u.set o.1 o.2.1, o.2.2)) := by
  have h0 : Async.step (cfg u) x.s (.startCb r.insts) = some { x.s with cb := Verif.upd x.s.cb x.s.nextCb { coll := x.s.coll, insts := r.insts, live := true }, nextCb := x.s.nextCb + 1 } := rfl
  have hin : In { x with s := { x.s with cb := Verif.upd x.s.cb x.s.nextCb { coll := x.s.coll, insts := r.insts, live := true }, nextCb := x.s.nextCb + 1 } } cb i n r.insts := by
    refine ⟨?_, h.ops, h.coll, h.ended, ?_, ?_⟩
    · show x.s.nextCb + 1 = _; rw [h.cbs]
    · intro j hj
      show (Verif.upd x.s.cb x.s.nextCb _ j).live = false
      rw [upd_ne _ _ (by rw [h.cbs]; omega)]
      exact h.dead j hj
    · show Verif.upd x.s.cb x.s.nextCb _ cb = _
      rw [h.cbs, upd_same, h.coll]
  obtain ⟨y, h1, h2, h3⟩ := run_obsList (R := R) (u := u) r.obs hin
  have h4 : Async.step (cfg u) y.s (.endCb cb) = some { y.s with cb := Verif.upd y.s.cb cb { y.s.cb cb with live := false } } := by
    simp only [Async.step]
    rw [if_pos (by rw [h2.cbs]; omega)]
  refine ⟨{ y with s := { y.s with cb := Verif.upd y.s.cb cb { y.s.cb cb with live := false } } }, ?_, ⟨h2.cbs, h2.ops, h2.coll, h2.ended, ?_⟩, h3⟩
  · rw [List.cons_append, run_cb rfl h0, run_append, h1]
    show run u R y [.cb (.endCb cb)] = _
    rw [run_cb rfl h4]; rfl
  · intro j hj
    show (Verif.upd y.s.cb cb _ j).live = false
    rw [upd_apply]
    by_cases e : j = cb
    · rw [if_pos e]
    · rw [if_neg e]; exact h2.dead j (by omega)

theorem run_cbActs {n : Nat} (rs : List CbRun) {x : Sys} {cb i : Nat} (h : Rest x cb i n) :
    ∃ x', run u R x (cbActs u cb i rs) = some x' ∧ Rest x' (cb + rs.length) (i + (rs.map (·.obs.length)).sum) n ∧
      logged x' = logged x ++ rs.flatMap (fun r => (r.obs.filter (Legal u r.insts)).map (fun o => (n, o.1, u.set o.1 o.2.1, o.2.2))) := by
  induction rs generalizing x cb i with
  | nil => exact ⟨x, rfl, h, by simp⟩
  | cons r rs ih =>
    obtain ⟨y, h1, h2, h3⟩ := run_cbRun (R := R) (u := u) h r
    obtain ⟨z, h4, h5, h6⟩ := ih h2
    refine ⟨z, ?_, ?_, ?_⟩
    · have : cbActs u cb i (r :: rs) = (.cb (.startCb r.insts) :: obsListActs u cb r.insts i r.obs ++ [.cb (.endCb cb)]) ++
          cbActs u (cb + 1) (i + r.obs.length) rs := by simp [cbActs]
      rw [this, run_append, h1]; exact h4
    · have e1 : cb + (r :: rs).length = cb + 1 + rs.length := by simp; omega
      have e2 : i + ((r :: rs).map (·.obs.length)).sum = i + r.obs.length + (rs.map (·.obs.length)).sum := by simp; omega
      rw [e1, e2]; exact h5
    · rw [h6, h3]; simp

theorem obsListActs_cb {cb : Nat} {insts : List Nat} {os : List (Nat × List KV × Bits)} {i : Nat} : ∀ a ∈ obsListActs u cb insts i os, ∃ b, a = .cb b := by
  induction os generalizing i with
  | nil => intro a ha; cases ha
  | cons o os ih =>
    intro a ha
    simp only [obsListActs, obsActs, List.mem_append, List.mem_cons, List.mem_replicate] at ha
    rcases ha with (h | h) | h
    · exact ⟨_, h⟩
    · exact ⟨_, h.2⟩
    · exact ih a h

theorem cbActs_cb {rs : List CbRun} {cb i : Nat} : ∀ a ∈ cbActs u cb i rs, ∃ b, a = .cb b := by
  induction rs generalizing cb i with
  | nil => intro a ha; cases ha
  | cons r rs ih =>
    intro a ha
    simp only [cbActs, List.cons_append, List.mem_append, List.mem_cons] at ha
    rcases ha with h | h | h | h
    · exact ⟨_, h⟩
    · exact obsListActs_cb a h
    · exact ⟨_, h⟩
    · exact ih a h

theorem Rest.quiet {x : Sys} {cb i n : Nat} (h : Rest x cb i n) : ¬ InFlight x.s := by
  rintro ⟨j, hj, hp⟩
  rw [h.ops] at hj
  rcases h.ended j hj with e | e <;> rcases hp with hp | hp <;> rw [e] at hp <;> cases hp

theorem Rest.noneLive {x : Sys} {cb i n : Nat} (h : Rest x cb i n) : Async.noneLive x.s = true := by
  unfold Async.noneLive
  rw [List.all_eq_true]
  intro j hj
  rw [List.mem_range, h.cbs] at hj
  rw [h.dead j hj]; rfl

/-- A collection. -/
theorem step_collect {x x' : Sys} {cb i n : Nat} (h : Rest x cb i n) {order : List (Async.Entry (List KV) Bits)} {q : Times.Seq}
    (hs : step u R x (.collect order q) = some x') : Rest x' cb i (n + 1) ∧ logged x' = logged x := by
  simp only [step, Async.step, Option.map_eq_some_iff] at hs
  obtain ⟨s, h1, h2⟩ := hs
  split at h1
  · cases h1
    rw [← h2]
    refine ⟨⟨h.cbs, h.ops, ?_, h.ended, h.dead⟩, rfl⟩
    show x.s.coll + 1 = _
    rw [h.coll]
  · cases h1

/-- Every program which runs is orderly, and its observations are those made. -/
theorem run_prog (prog : Program) {x x' : Sys} {cb i n : Nat} (h : Rest x cb i n) (hr : run u R x (progActs u cb i prog) = some x') :
    Orderly u R x (progActs u cb i prog) ∧ logged x' = logged x ++ made u n prog := by
  induction prog generalizing x cb i n with
  | nil => cases hr; exact ⟨trivial, by simp [made]⟩
  | cons c cs ih =>
    obtain ⟨rs, order, q⟩ := c
    obtain ⟨y, h1, h2, h3⟩ := run_cbActs (R := R) (u := u) rs h
    have e : progActs u cb i ((rs, order, q) :: cs) = cbActs u cb i rs ++ .collect order q ::
        progActs u (cb + rs.length) (i + (rs.map (·.obs.length)).sum) cs := rfl
    rw [e] at hr ⊢
    rw [run_append, h1] at hr
    have hr : (step u R y (.collect order q)).bind (fun z => run u R z _) = some x' := hr
    cases hs : step u R y (.collect order q) with
    | none => rw [hs] at hr; cases hr
    | some z =>
      rw [hs] at hr
      obtain ⟨h4, h5⟩ := step_collect h2 hs
      obtain ⟨h6, h7⟩ := ih h4 hr
      refine ⟨orderly_append (orderly_cbs cbActs_cb) ?_, ?_⟩
      · intro y' hy'
        rw [h1] at hy'
        cases hy'
        refine ⟨fun _ _ _ => h2.quiet, fun z' hz' => ?_⟩
        rw [hs] at hz'
        cases hz'
        exact h6
      · rw [h7, h5, h3]
        simp [made]

theorem collections_prog (prog : Program) (cb i : Nat) : collections (progActs u cb i prog) = prog.map (fun c => c.2.2) := by
  induction prog generalizing cb i with
  | nil => rfl
  | cons c cs ih =>
    have h0 : collections (cbActs u cb i c.1) = [] := by
      unfold collections
      rw [List.filterMap_eq_nil_iff]
      intro a ha
      obtain ⟨b, rfl⟩ := cbActs_cb a ha
      rfl
    unfold collections at h0 ih ⊢
    show List.filterMap _ (cbActs u cb i c.1 ++ .collect c.2.1 c.2.2 :: _) = _
    rw [List.filterMap_append, h0, List.nil_append, List.filterMap_cons]
    exact congrArg _ (ih _ _)

/-- Callbacks and clock readings may be given freely: there is an order for each collection with which the program runs. -/
theorem prog_runs (todo : List (List CbRun × Times.Seq)) {x : Sys} {cb i n : Nat} (h : Rest x cb i n) :
    ∃ prog : Program, prog.map (fun c => (c.1, c.2.2)) = todo ∧ (run u R x (progActs u cb i prog)).isSome := by
  induction todo generalizing x cb i n with
  | nil => exact ⟨[], rfl, rfl⟩
  | cons t ts ih =>
    obtain ⟨rs, q⟩ := t
    obtain ⟨y, h1, h2, _⟩ := run_cbActs (R := R) (u := u) rs h
    have hs : ∃ z, step u R y (.collect (y.s.store y.s.coll) q) = some z := by
      simp only [step, Async.step]
      rw [if_pos ⟨h2.noneLive, List.isPerm_iff.2 (List.Perm.refl _)⟩]
      exact ⟨_, rfl⟩
    obtain ⟨z, hz⟩ := hs
    obtain ⟨prog, h3, h4⟩ := ih (step_collect h2 hz).1
    refine ⟨(rs, y.s.store y.s.coll, q) :: prog, by simp [h3], ?_⟩
    show (run u R x (cbActs u cb i rs ++ .collect (y.s.store y.s.coll) q :: progActs u (cb + rs.length) (i + (rs.map (·.obs.length)).sum) prog)).isSome
    rw [run_append, h1]
    show ((step u R y (.collect (y.s.store y.s.coll) q)).bind (fun z => run u R z _)).isSome
    rw [hz]
    exact h4

theorem Rest.initial : Rest (AsyncPipeline.initial u) 0 0 0 :=
  ⟨rfl, rfl, rfl, fun j hj => by omega, fun j hj => by omega⟩

end Verif.AsyncPipeline
