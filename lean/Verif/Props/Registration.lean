import Verif.Spec.Registration

/-!
C79: which callbacks are accepted, and what the accepted ones observe.
-/

namespace Verif.Props
open Verif.Registration

variable {V : Type}

theorem unwrap_instrOf (o : Obs) (i : Nat) : o.unwrap = .ours i ↔ instrOf o = some i := by
  cases o with
  | foreign => simp [Obs.unwrap, instrOf]
  | ours j => simp [Obs.unwrap, instrOf]
  | wrapped o => cases o <;> simp [Obs.unwrap, instrOf]

theorem addInsts_ok (owner : Nat → Nat) (m : Nat) (acc : List Nat) (insts : List Obs) (h : ∀ o ∈ insts, ∃ i, instrOf o = some i ∧ owner i = m) :
    ∃ l, addInsts owner m acc insts = .ok l ∧ ∀ i, i ∈ l ↔ i ∈ acc ∨ Named insts i := by
  induction insts generalizing acc with
  | nil => exact ⟨acc, rfl, fun i => ⟨Or.inl, fun h => h.elim id (fun ⟨o, ho, _⟩ => by cases ho)⟩⟩
  | cons o os ih =>
    obtain ⟨i, hi, hm⟩ := h o List.mem_cons_self
    obtain ⟨l, hl, hmem⟩ := ih (if i ∈ acc then acc else acc ++ [i]) (fun o ho => h o (List.mem_cons_of_mem _ ho))
    refine ⟨l, ?_, ?_⟩
    · unfold addInsts
      rw [(unwrap_instrOf o i).2 hi]
      simp only [hm, ne_eq, not_true_eq_false, if_false]
      exact hl
    · intro j
      rw [hmem]
      have h1 : (j ∈ (if i ∈ acc then acc else acc ++ [i])) ↔ j ∈ acc ∨ j = i := by
        split
        · rename_i hia
          exact ⟨Or.inl, fun h => h.elim id (fun e => e ▸ hia)⟩
        · simp
      have h2 : Named (o :: os) j ↔ j = i ∨ Named os j := by
        unfold Named
        constructor
        · rintro ⟨o', ho', hj⟩
          rcases List.mem_cons.1 ho' with rfl | ho'
          · rw [hi] at hj; cases hj; exact Or.inl rfl
          · exact Or.inr ⟨o', ho', hj⟩
        · rintro (rfl | ⟨o', ho', hj⟩)
          · exact ⟨o, List.mem_cons_self, hi⟩
          · exact ⟨o', List.mem_cons_of_mem _ ho', hj⟩
      rw [h1, h2]
      constructor
      · rintro ((h | h) | h)
        · exact Or.inl h
        · exact Or.inr (Or.inl h)
        · exact Or.inr (Or.inr h)
      · rintro (h | h | h)
        · exact Or.inl (Or.inl h)
        · exact Or.inl (Or.inr h)
        · exact Or.inr h

theorem addInsts_valid (owner : Nat → Nat) (m : Nat) (acc : List Nat) (insts : List Obs) (l : List Nat) (h : addInsts owner m acc insts = .ok l) :
    ∀ o ∈ insts, ∃ i, instrOf o = some i ∧ owner i = m := by
  induction insts generalizing acc with
  | nil => intro o ho; cases ho
  | cons o os ih =>
    unfold addInsts at h
    split at h
    · rename_i i hi
      split at h
      · cases h
      · rename_i hm
        intro o' ho'
        rcases List.mem_cons.1 ho' with rfl | ho'
        · exact ⟨i, (unwrap_instrOf _ i).1 hi, Decidable.not_not.1 hm⟩
        · exact ih _ h o' ho'
    · cases h

/-- C79. `RegisterCallback` returns no error exactly when the registration is valid. Then the callback is registered, last, with its
function, for the instruments named and no others; otherwise nothing is registered. -/
theorem C79_accepted_iff (owner : Nat → Nat) (m : Nat) (cbs : List Callback) (fn : Option Fn) (insts : List Obs) :
    ((register owner m cbs fn insts).2 = none ↔ Valid owner m fn insts) ∧
    (Valid owner m fn insts → ∃ f cb, fn = some f ∧ (register owner m cbs fn insts).1 = cbs ++ [cb] ∧ cb.fn = f ∧ ∀ i, i ∈ cb.insts ↔ Named insts i) ∧
    (¬ Valid owner m fn insts → (register owner m cbs fn insts).1 = cbs) := by
  by_cases hv : Valid owner m fn insts
  · obtain ⟨l, hl, hmem⟩ := addInsts_ok owner m [] insts hv.mine
    cases fn with
    | none => exact absurd rfl hv.function
    | some f =>
      have hlen : insts.length ≠ 0 := fun h => hv.some (List.length_eq_zero_iff.1 h)
      have : register owner m cbs (some f) insts = (cbs ++ [{ fn := f, insts := l }], none) := by
        unfold register newCallback
        simp only [hlen, if_false, hl]
      rw [this]
      refine ⟨⟨fun _ => hv, fun _ => rfl⟩, fun _ => ⟨f, _, rfl, rfl, rfl, fun i => ?_⟩, fun h => absurd hv h⟩
      rw [hmem]; simp
  · have : ∃ e, register owner m cbs fn insts = (cbs, some e) := by
      unfold register newCallback
      by_cases hlen : insts.length = 0
      · exact ⟨.noInstruments, by simp only [hlen, if_true]⟩
      · simp only [hlen, if_false]
        cases fn with
        | none => exact ⟨_, rfl⟩
        | some f =>
          dsimp only
          cases ha : addInsts owner m [] insts with
          | error e => exact ⟨e, rfl⟩
          | ok l => exact absurd ⟨by simp, fun h => hlen (by rw [h]; rfl), addInsts_valid owner m [] insts l ha⟩ hv
    obtain ⟨e, he⟩ := this
    rw [he]
    exact ⟨⟨(fun h => nomatch h), fun h => absurd h hv⟩, fun h => absurd h hv, fun _ => rfl⟩

/-- C79. A constructor registers each of the callbacks among its options, in order, for the instrument it returns and no other. -/
theorem C79_constructor (owner : Nat → Nat) (m : Nat) (cbs : List Callback) (inst : Nat) (hm : owner inst = m) (fns : List (Option Nat)) :
    step owner m cbs (.construct inst fns) = cbs ++ fns.map (fun f => { fn := .bound f inst, insts := [inst] }) := by
  show registerAll owner m inst cbs fns = _
  induction fns generalizing cbs with
  | nil => simp [registerAll]
  | cons f fns ih =>
    unfold registerAll
    have : register owner m cbs (some (.bound f inst)) [.ours inst] = (cbs ++ [{ fn := .bound f inst, insts := [inst] }], none) := by
      simp [register, newCallback, addInsts, Obs.unwrap, hm]
    rw [this, ih]
    simp

theorem collect_append (u : User V) (a b : List Callback) (ra rb : List (Nat × V) × Nat) (ha : collect u a = some ra) (hb : collect u b = some rb) :
    collect u (a ++ b) = some (ra.1 ++ rb.1, ra.2 + rb.2) := by
  induction a generalizing ra with
  | nil => cases ha; simpa using hb
  | cons cb a ih =>
    simp only [List.cons_append, collect] at ha ⊢
    cases hr : cb.run u with
    | none => rw [hr] at ha; cases ha
    | some r =>
      rw [hr] at ha
      dsimp only at ha ⊢
      cases hc : collect u a with
      | none => rw [hc] at ha; cases ha
      | some r' =>
        rw [hc] at ha
        cases ha
        rw [ih r' hc]
        simp [Nat.add_assoc]

theorem filterMap_congr' {α β : Type} {f g : α → Option β} {l : List α} (h : ∀ a ∈ l, f a = g a) : l.filterMap f = l.filterMap g := by
  induction l with
  | nil => rfl
  | cons a l ih => rw [List.filterMap_cons, List.filterMap_cons, h a List.mem_cons_self, ih (fun b hb => h b (List.mem_cons_of_mem _ hb))]

theorem filterMap_count {α β : Type} (f : α → Option β) (l : List α) : (l.filterMap f).length + (l.filter (fun a => (f a).isNone)).length = l.length := by
  induction l with
  | nil => rfl
  | cons a l ih =>
    cases h : f a with
    | none => simp [List.filterMap_cons, h]; omega
    | some b => simp [List.filterMap_cons, h]; omega

theorem run_count (u : User V) (cb : Callback) (l : List (Obs × V)) (h : cb.observes u = some l) (r : List (Nat × V) × Nat) (hr : cb.run u = some r) :
    r.1.length + r.2 = l.length := by
  unfold Callback.run at hr
  rw [h] at hr
  cases hr
  have := filterMap_count (fun e : Obs × V => (accept cb e.1).map (fun i => (i, e.2))) l
  simpa using this

theorem accept_named (cb : Callback) (insts : List Obs) (h : ∀ i, i ∈ cb.insts ↔ Named insts i) (o : Obs) :
    open Classical in accept cb o = (instrOf o).bind (fun i => if Named insts i then some i else none) := by
  unfold accept
  cases hi : instrOf o with
  | some i =>
    rw [(unwrap_instrOf o i).2 hi]
    dsimp only [Option.bind]
    by_cases hn : Named insts i
    · simp [hn, (h i).2 hn]
    · have : i ∉ cb.insts := fun hm => hn ((h i).1 hm)
      simp [hn, this]
  | none =>
    have : ∀ i, o.unwrap ≠ .ours i := fun i hu => by rw [(unwrap_instrOf o i).1 hu] at hi; cases hi
    split
    · rename_i i hu; exact absurd hu (this i)
    · rfl

/-- C79 (partial): no constructor is given a nil function. After any history of registrations (valid and not) and constructors, a collection does not
panic; it takes exactly the observations of the validly registered callbacks on the instruments named in their registrations,
and all those of the callbacks given to constructors, in the order of registration; an error is reported for every other observation attempted.
Missing: nil functions given to constructors (`C79_nil_fails`). -/
theorem C79_observed_partial (owner : Nat → Nat) (m : Nat) (u : User V) (cs : List Call)
    (hown : ∀ inst fns, Call.construct inst fns ∈ cs → owner inst = m ∧ none ∉ fns) :
    ∃ errors, collect u (run owner m cs) = some (cs.flatMap (taken owner m u), errors) ∧
      (cs.flatMap (taken owner m u)).length + errors = (cs.map (attempted owner m u)).sum := by
  suffices h : ∀ (cs : List Call) (cbs : List Callback) (r : List (Nat × V) × Nat), (∀ inst fns, Call.construct inst fns ∈ cs → owner inst = m ∧ none ∉ fns) →
      collect u cbs = some r → ∃ errors, collect u (cs.foldl (step owner m) cbs) = some (r.1 ++ cs.flatMap (taken owner m u), r.2 + errors) ∧
      (cs.flatMap (taken owner m u)).length + errors = (cs.map (attempted owner m u)).sum by
    obtain ⟨e, h1, h2⟩ := h cs [] ([], 0) hown rfl
    exact ⟨e, by unfold run; simpa using h1, h2⟩
  intro cs
  induction cs with
  | nil => intro cbs r _ hr; exact ⟨0, by simpa using hr, rfl⟩
  | cons c cs ih =>
    intro cbs r hown hr
    have key : ∃ n, collect u (step owner m cbs c) = some (r.1 ++ taken owner m u c, r.2 + n) ∧ (taken owner m u c).length + n = attempted owner m u c := by
      cases c with
      | register fn insts =>
        obtain ⟨-, h2, h3⟩ := C79_accepted_iff owner m cbs (fn.map .direct) insts
        have hvv : Valid owner m (fn.map Fn.direct) insts ↔ Valid owner m fn insts := by
          constructor
          · rintro ⟨a, b, d⟩; exact ⟨by simpa using a, b, d⟩
          · rintro ⟨a, b, d⟩; exact ⟨by simpa using a, b, d⟩
        by_cases hv : Valid owner m fn insts
        · obtain ⟨f, cb, hf, h4, h5, h6⟩ := h2 (hvv.2 hv)
          cases fn with
          | none => cases hf
          | some f0 =>
            cases hf
            have hrun1 : cb.run u = some (taken owner m u (.register (some f0) insts), ((u.direct f0).filter (fun e => (accept cb e.1).isNone)).length) := by
              simp only [Callback.run, Callback.observes, h5, taken, hv, if_true]
              congr 2
              apply filterMap_congr'
              intro e _
              rw [accept_named cb insts h6]
              cases instrOf e.1 with
              | none => rfl
              | some i =>
                dsimp only [Option.bind]
                split <;> rfl
            have hrun : collect u [cb] = some (taken owner m u (.register (some f0) insts), ((u.direct f0).filter (fun e => (accept cb e.1).isNone)).length) := by
              simp only [collect, hrun1, Nat.add_zero, List.append_nil]
            refine ⟨((u.direct f0).filter (fun e => (accept cb e.1).isNone)).length, ?_, ?_⟩
            · show collect u (register owner m cbs ((some f0).map .direct) insts).1 = _
              rw [h4]
              exact collect_append u cbs [cb] r _ hr hrun
            · have := run_count u cb (u.direct f0) (by simp only [Callback.observes, h5]) _ hrun1
              simpa only [attempted, hv, if_true] using this
        · refine ⟨0, ?_, ?_⟩
          · have ht : taken owner m u (.register fn insts) = [] := by
              cases fn with
              | none => rfl
              | some f => simp only [taken, hv, if_false]
            rw [ht]
            show collect u (register owner m cbs (fn.map .direct) insts).1 = _
            rw [h3 (fun h => hv (hvv.1 h))]
            simpa using hr
          · cases fn with
            | none => rfl
            | some f => simp only [taken, attempted, hv, if_false]; rfl
      | construct inst fns =>
        obtain ⟨hm, hnn⟩ := hown inst fns List.mem_cons_self
        rw [C79_constructor owner m cbs inst hm fns]
        have hrun : ∀ fns : List (Option Nat), none ∉ fns →
            collect u (fns.map (fun f => ({ fn := .bound f inst, insts := [inst] } : Callback))) = some (taken owner m u (.construct inst fns), 0) ∧
            (taken owner m u (.construct inst fns)).length = attempted owner m u (.construct inst fns) := by
          intro fns
          induction fns with
          | nil => intro _; exact ⟨rfl, rfl⟩
          | cons f fns ihf =>
            intro hn
            cases f with
            | none => exact absurd List.mem_cons_self hn
            | some f =>
              obtain ⟨ih1, ih2⟩ := ihf (fun h => hn (List.mem_cons_of_mem _ h))
              refine ⟨?_, ?_⟩
              · simp only [List.map_cons, collect, ih1, Callback.run, Callback.observes]
                have h1 : ((u.bound f).map (fun v => (Obs.ours inst, v))).filterMap (fun e => (accept { fn := .bound (some f) inst, insts := [inst] } e.1).map (fun i => (i, e.2))) =
                    (u.bound f).map (fun v => (inst, v)) := by
                  rw [List.filterMap_map, ← List.filterMap_eq_map]
                  apply filterMap_congr'
                  intro v _
                  simp [accept, Obs.unwrap]
                have h2 : (((u.bound f).map (fun v => (Obs.ours inst, v))).filter (fun e => (accept { fn := .bound (some f) inst, insts := [inst] } e.1).isNone)) = [] := by
                  rw [List.filter_eq_nil_iff]
                  intro e he
                  obtain ⟨v, _, rfl⟩ := List.mem_map.1 he
                  simp [accept, Obs.unwrap]
                rw [h1, h2]
                simp [taken]
              · simp only [taken, attempted, List.flatMap_cons, List.length_append, List.map_cons, List.sum_cons, List.length_map] at ih2 ⊢
                rw [ih2]
        obtain ⟨h1, h2⟩ := hrun fns hnn
        exact ⟨0, collect_append u cbs _ r _ hr h1, h2⟩
    obtain ⟨n, hn, hcount⟩ := key
    obtain ⟨e, he, he2⟩ := ih _ _ (fun inst fns h => hown inst fns (List.mem_cons_of_mem _ h)) hn
    refine ⟨n + e, ?_, ?_⟩
    · rw [List.foldl_cons, he]
      simp [Nat.add_assoc]
    · rw [List.flatMap_cons, List.length_append, List.map_cons, List.sum_cons]
      omega

/-- C79 (fails): `RegisterCallback` refuses a nil function. A constructor given one takes it, and every collection panics from then on. -/
theorem C79_nil_fails :
    (register (fun _ => 0) 0 [] none [.ours 5]).2 = some .nilFunction ∧
    ∀ (u : User V) (more : List Call), collect u (run (fun _ => 0) 0 (.construct 5 [none] :: more)) = none := by
  refine ⟨rfl, fun u more => ?_⟩
  have pre : ∀ (cs : List Call) (cbs : List Callback), ∃ t, cs.foldl (step (fun _ => 0) 0) cbs = cbs ++ t := by
    intro cs
    induction cs with
    | nil => intro cbs; exact ⟨[], by simp⟩
    | cons c cs ih =>
      intro cbs
      have : ∃ t, step (fun _ => 0) 0 cbs c = cbs ++ t := by
        cases c with
        | register fn insts =>
          obtain ⟨-, h2, h3⟩ := C79_accepted_iff (fun _ => 0) 0 cbs (fn.map .direct) insts
          by_cases hv : Valid (fun _ => 0) 0 (fn.map Fn.direct) insts
          · obtain ⟨f, cb, -, h4, -⟩ := h2 hv; exact ⟨[cb], h4⟩
          · exact ⟨[], by rw [List.append_nil]; exact h3 hv⟩
        | construct inst fns => exact ⟨_, C79_constructor (fun _ => 0) 0 cbs inst rfl fns⟩
      obtain ⟨t, ht⟩ := this
      obtain ⟨t', ht'⟩ := ih (step (fun _ => 0) 0 cbs c)
      exact ⟨t ++ t', by rw [List.foldl_cons, ht', ht, List.append_assoc]⟩
  unfold run
  rw [List.foldl_cons, C79_constructor (fun _ => 0) 0 [] 5 rfl]
  obtain ⟨t, ht⟩ := pre more ([] ++ [none].map (fun f => { fn := .bound f 5, insts := [5] }))
  rw [ht]
  rfl

/-- C79: meter 0 made instruments 1 and 2, meter 1 made 3. Function 9 observes instruments 1 (through a wrapper), 2, 3 and something foreign. Registered for instrument
1 and the wrapped 2 it is accepted and observes those two; registered also for 3 it is refused. -/
example :
    let owner := fun i => if i = 3 then 1 else 0
    let u : User Nat := { direct := fun _ => [(.wrapped (.ours 1), 10), (.ours 2, 20), (.ours 3, 30), (.foreign, 40)], bound := fun f => [f] }
    let cs := [Call.register (some 9) [.ours 1, .wrapped (.ours 2)], .register (some 9) [.ours 1, .ours 3], .construct 2 [some 7, some 8], .register none [.ours 1]]
    collect u (run owner 0 cs) = some ([(1, 10), (2, 20), (2, 7), (2, 8)], 2) := by
  decide

end Verif.Props
