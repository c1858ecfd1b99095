import Verif.Proof.MultiFair
import Verif.Proof.DeliveryExists

/-!
Helper file: there are fair executions of programs with several readers.
-/

namespace Verif.Multi
open Verif.Attr Verif.Number Verif.Assembly
open Verif.Delivery (Often)
variable {C G ν : Type} [DecidableEq C] {farm : Str → UInt64} {w : World C G} {fsub : Bits → Bits → Bits} {x : Views.Ext C}
  {views : List (Views.Views C)} {start : Int} {p : Provider.Provider C ν} {f : Nat → Sys C G ν} {a : Nat → Act ν} {y y' : Sys C G ν}

/-! ### The way to the return of everything -/

/-- What is known of reachable states, if no instrument is nil. -/
structure Sound (farm : Str → UInt64) (w : World C G) (fsub : Bits → Bits → Bits) (x : Views.Ext C) (y : Sys C G ν) : Prop where
  good : ∀ i, i < y.p.views.length → Delivery.Good farm w fsub x i (view y i)
  noNil : Provider.NoNil y.p
  waiting : Waiting y
  pos : ∀ r, 0 < (y.readers r).r.threads.length

theorem Sound.step {b : Act ν} (h : Sound farm w fsub x y) (hs : step farm w fsub x y b = some y') (hp : y'.p = y.p) : Sound farm w fsub x y' where
  good i hi := ((h.good i (by rw [← hp]; exact hi)).next (fun _ e => seenBy_not_make e) (proj_step hs hp i)).1
  noNil := by rw [hp]; exact h.noNil
  waiting := h.waiting.step h.pos hs
  pos r := Nat.lt_of_lt_of_le (h.pos r) (step_grown hs r).length

theorem ongoing_same {b : Act ν} (hb : ongoing b = true) (hs : step farm w fsub x y b = some y') : y'.p = y.p := by
  have h1 := run_prov (step_run hs)
  have h2 : makes [b] = [] := by cases b <;> first | rfl | cases hb
  rw [h2] at h1
  exact h1

theorem Sound.run {bs : List (Act ν)} (h : Sound farm w fsub x y) (hb : ∀ b ∈ bs, ongoing b = true) (hs : Multi.run farm w fsub x y bs = some y') : Sound farm w fsub x y' ∧ y'.p = y.p := by
  induction bs generalizing y with
  | nil => cases hs; exact ⟨h, rfl⟩
  | cons b bs ih =>
    simp only [Multi.run] at hs
    obtain ⟨z, h1, h2⟩ := Option.bind_eq_some_iff.1 hs
    have h3 := ongoing_same (hb b (List.mem_cons_self ..)) h1
    obtain ⟨h4, h5⟩ := ih (h.step h1 h3) (fun b hm => hb b (List.mem_cons_of_mem _ hm)) h2
    exact ⟨h4, h5.trans h3⟩

/-- What goes on at one reader leaves what belongs to the others and the calls on the provider. -/
theorem lift_rest {i : Nat} {b : Delivery.Act ν} {c : Act ν} (hc : lift i b = some c) (h : step farm w fsub x y c = some y') :
    y'.calls = y.calls ∧ ∀ j, j ≠ i → y'.readers j = y.readers j := by
  have hsh : ∀ d, shared farm w fsub x y d = some y' → y'.calls = y.calls ∧ ∀ j, j ≠ i → y'.readers j = y.readers j := by
    intro d h
    unfold shared at h
    obtain ⟨s, -, rfl⟩ := Option.map_eq_some_iff.1 h
    exact ⟨rfl, fun _ _ => rfl⟩
  have hat : ∀ d, at' farm w fsub x y i d = some y' → y'.calls = y.calls ∧ ∀ j, j ≠ i → y'.readers j = y.readers j := by
    intro d h
    obtain ⟨-, s, -, rfl⟩ := at_put h
    exact ⟨rfl, fun j hj => by simp [put, hj]⟩
  cases b with
  | make d => cases hc
  | call o as n => cases hc
  | other d => cases hc
  | op o => cases hc; exact hsh _ h
  | task t ch => cases hc; exact hsh _ h
  | cb d => cases hc; exact hat _ h
  | produce now => cases hc; exact hat _ h
  | reader d order => cases hc; exact hat _ h

theorem lift_ongoing {i : Nat} {b : Delivery.Act ν} (hb : Delivery.ongoing b = true) : ∃ c, lift i b = some c ∧ ongoing c = true := by
  cases b with
  | make d => cases hb
  | call o as n => cases hb
  | other d => cases hb
  | op o => exact ⟨_, rfl, rfl⟩
  | task t ch => exact ⟨_, rfl, rfl⟩
  | cb d => cases d <;> first | exact ⟨_, rfl, rfl⟩ | cases hb
  | produce now => exact ⟨_, rfl, rfl⟩
  | reader d order => cases d <;> first | exact ⟨_, rfl, rfl⟩ | cases hb

theorem lift_run {i : Nat} {bs : List (Delivery.Act ν)} {s : Delivery.Sys C G ν} (hi : i < y.p.views.length) (hb : ∀ b ∈ bs, Delivery.ongoing b = true)
    (h : Delivery.run farm w fsub x i (view y i) bs = some s) :
    ∃ cs y', (∀ c ∈ cs, ongoing c = true) ∧ Multi.run farm w fsub x y cs = some y' ∧ view y' i = s ∧ y'.calls = y.calls ∧ ∀ j, j ≠ i → y'.readers j = y.readers j := by
  induction bs generalizing y with
  | nil => cases h; exact ⟨[], y, (fun _ hh => by cases hh), rfl, rfl, rfl, fun _ _ => rfl⟩
  | cons b bs ih =>
    simp only [Delivery.run] at h
    obtain ⟨s1, h1, h2⟩ := Option.bind_eq_some_iff.1 h
    obtain ⟨c, hc, ho⟩ := lift_ongoing (i := i) (hb b (List.mem_cons_self ..))
    obtain ⟨y1, h3, h4⟩ := lift_step hi hc h1
    obtain ⟨h5, h6⟩ := lift_rest hc h3
    rw [← h4] at h2
    obtain ⟨cs, y', g1, g2, g3, g4, g5⟩ := ih (by rw [step_views h3]; exact hi) (fun b hm => hb b (List.mem_cons_of_mem _ hm)) h2
    refine ⟨c :: cs, y', fun d hd => ?_, by simp only [Multi.run, h3, Option.bind_some]; exact g2, g3, g4.trans h5, fun j hj => (g5 j hj).trans (h6 j hj)⟩
    rcases List.mem_cons.1 hd with rfl | hd
    · exact ho
    · exact g1 d hd

theorem Sound.readers (h : Sound farm w fsub x y) (n : Nat) (hn : n ≤ y.p.views.length) :
    ∃ cs y', (∀ c ∈ cs, ongoing c = true) ∧ Multi.run farm w fsub x y cs = some y' ∧ y'.calls = y.calls ∧ ∀ i, i < n → Delivery.AllReturned (view y' i) := by
  induction n with
  | zero => exact ⟨[], y, (fun _ hh => by cases hh), rfl, rfl, fun i hi => absurd hi (Nat.not_lt_zero i)⟩
  | succ n ih =>
    obtain ⟨cs, y1, h1, h2, h3, h4⟩ := ih (by omega)
    obtain ⟨h5, h6⟩ := h.run h1 h2
    have hlt : n < y1.p.views.length := by rw [h6]; omega
    obtain ⟨more, s, g1, g2, g3⟩ := (h5.good n hlt).way h5.noNil
    obtain ⟨ds, y2, k1, k2, k3, k4, k5⟩ := lift_run hlt g1 g2
    refine ⟨cs ++ ds, y2, fun c hc => ?_, by rw [run_append, h2]; exact k2, k4.trans h3, fun i hi => ?_⟩
    · rcases List.mem_append.1 hc with hc | hc
      · exact h1 c hc
      · exact k1 c hc
    · by_cases hin : i = n
      · subst hin; rw [k3]; exact g3
      · have h7 := h4 i (by omega)
        have h8 := k5 i hin
        have h9 : Delivery.AllReturned (view y2 n) := by rw [k3]; exact g3
        refine ⟨h9.calls, h9.tasks, ?_, ?_, ?_, ?_⟩
        · show ∀ o, o < (y2.readers i).async.nextOp → ((y2.readers i).async.op o).pc = .done ∨ ((y2.readers i).async.op o).pc = .rejected
          rw [h8]; exact h7.observations
        · show ∀ o, o < (y2.readers i).async.nextCb → ((y2.readers i).async.cb o).live = false
          rw [h8]; exact h7.callbacks
        · show (y2.readers i).pos = _
          rw [h8]; exact h7.collection
        · show ∀ t th, (y2.readers i).r.threads[t]? = some th → _
          intro t th ht
          rw [h8] at ht
          have := h7.requests t th ht
          show th.pos = .done ∨ t = 0 ∧ th.pos = .idle ∧ (y2.readers i).r.chan = false ∧ (y2.readers i).r.cancelled = false
          rw [h8]
          exact this

/-- One call on the provider returns. -/
theorem Sound.call (h : Sound farm w fsub x y) {t : Nat} (ht : t < y.calls.length) :
    ∃ cs y', (∀ c ∈ cs, ongoing c = true) ∧ Multi.run farm w fsub x y cs = some y' ∧ y'.calls.length = y.calls.length ∧ Answers t y' ∧
      ∀ u, u ≠ t → y'.calls[u]? = y.calls[u]? := by
  have key : ∀ d (y : Sys C G ν) kind r wait, Sound farm w fsub x y → y.p.views.length - r ≤ d → y.calls[t]? = some (Pc.loop kind r wait) →
      ∃ cs y', (∀ c ∈ cs, ongoing c = true) ∧ Multi.run farm w fsub x y cs = some y' ∧ y'.calls.length = y.calls.length ∧ Answers t y' ∧
        ∀ u, u ≠ t → y'.calls[u]? = y.calls[u]? := by
    have go : ∀ {y z : Sys C G ν} {pc pc' : Pc}, y.calls[t]? = some pc → advance farm w fsub x y t pc = some z → z.calls = y.calls.set t pc' →
        Multi.step farm w fsub x y (.go t) = some z ∧ z.calls.length = y.calls.length ∧ z.calls[t]? = some pc' ∧ ∀ u, u ≠ t → z.calls[u]? = y.calls[u]? := by
      intro y z pc pc' h1 h2 h3
      refine ⟨by simp only [Multi.step, h1]; exact h2, by rw [h3]; simp, ?_, fun u hu => ?_⟩
      · rw [h3, List.getElem?_set, if_pos rfl, if_pos (List.getElem?_eq_some_iff.1 h1).1]
      · rw [h3, List.getElem?_set, if_neg (fun e => hu e.symm)]
    intro d
    induction d with
    | zero =>
      intro y kind r wait h hd hn
      cases wait with
      | some u => have := (h.waiting t r u kind hn).2.1; omega
      | none =>
        have hadv : advance farm w fsub x y t (.loop kind r none) = some { y with calls := y.calls.set t (.done false) } := by
          simp only [advance, if_neg (show ¬ r < y.p.views.length by omega)]
        obtain ⟨h1, h2, h3, h4⟩ := go hn hadv rfl
        exact ⟨[.go t], _, (fun c hc => by rw [List.mem_singleton.1 hc]; rfl), step_run h1, h2, ⟨false, h3⟩, h4⟩
    | succ d ih =>
      have hwait : ∀ (y : Sys C G ν) kind r u, Sound farm w fsub x y → y.p.views.length - r ≤ d + 1 → y.calls[t]? = some (Pc.loop kind r (some u)) →
          ∃ cs y', (∀ c ∈ cs, ongoing c = true) ∧ Multi.run farm w fsub x y cs = some y' ∧ y'.calls.length = y.calls.length ∧ Answers t y' ∧
            ∀ u, u ≠ t → y'.calls[u]? = y.calls[u]? := by
        intro y kind r u h hd hn
        obtain ⟨cs, y1, h1, h2, h3, h4⟩ := h.readers _ (Nat.le_refl _)
        obtain ⟨h5, h6⟩ := h.run h1 h2
        have hn1 : y1.calls[t]? = some (Pc.loop kind r (some u)) := by rw [h3]; exact hn
        obtain ⟨g1, g2, ⟨th, g3⟩⟩ := h5.waiting t r u kind hn1
        have g4 : th.pos = .done := by
          rcases (h4 r (by rw [← h6]; exact g2)).requests u th g3 with g4 | ⟨g4, -⟩
          · exact g4
          · exact absurd g4 g1
        have hadv : advance farm w fsub x y1 t (.loop kind r (some u)) = some { y1 with calls := y1.calls.set t (.loop kind (r + 1) none) } := by
          simp only [advance, g3, g4, if_true]
        obtain ⟨k1, k2, k3, k4⟩ := go hn1 hadv rfl
        obtain ⟨ds, y2, q1, q2, q3, q4, q5⟩ := ih _ kind (r + 1) none (h5.step k1 rfl) (by show y1.p.views.length - (r + 1) ≤ d; rw [h6]; omega) k3
        refine ⟨cs ++ .go t :: ds, y2, fun c hc => ?_, ?_, by rw [q3, k2, h3], q4, fun v hv => by rw [q5 v hv, k4 v hv, h3]⟩
        · rcases List.mem_append.1 hc with hc | hc
          · exact h1 c hc
          · rcases List.mem_cons.1 hc with rfl | hc
            · rfl
            · exact q1 c hc
        · rw [run_append, h2, Option.bind_some]
          simp only [Multi.run, k1, Option.bind_some]
          exact q2
      intro y kind r wait h hd hn
      cases wait with
      | some u => exact hwait y kind r u h hd hn
      | none =>
        by_cases hr : r < y.p.views.length
        · obtain ⟨z, h1, h2, -⟩ := advance_none (farm := farm) (w := w) (fsub := fsub) (x := x) (t := t) (kind := kind) hr
          obtain ⟨k1, k2, k3, k4⟩ := go hn h1 h2
          have hp := ongoing_same (b := .go t) rfl k1
          obtain ⟨ds, y2, q1, q2, q3, q4, q5⟩ := hwait z kind r _ (h.step k1 hp) (by rw [hp]; exact hd) k3
          refine ⟨.go t :: ds, y2, fun c hc => ?_, ?_, by rw [q3, k2], q4, fun v hv => by rw [q5 v hv, k4 v hv]⟩
          · rcases List.mem_cons.1 hc with rfl | hc
            · rfl
            · exact q1 c hc
          · simp only [Multi.run, k1, Option.bind_some]
            exact q2
        · exact ih y kind r none h (by omega) hn
  cases hpc : y.calls[t]? with
  | none => rw [List.getElem?_eq_none_iff] at hpc; omega
  | some pc =>
    cases pc with
    | done v => exact ⟨[], y, (fun _ hh => by cases hh), rfl, rfl, ⟨v, hpc⟩, fun _ _ => rfl⟩
    | loop kind r wait => exact key _ y kind r wait h (Nat.le_refl _) hpc

/-- From every state there is a way to the return of everything. -/
theorem Sound.way (h : Sound farm w fsub x y) : ∃ cs y', (∀ c ∈ cs, ongoing c = true) ∧ Multi.run farm w fsub x y cs = some y' ∧ AllReturned y' := by
  have hcalls : ∀ n, n ≤ y.calls.length → ∃ cs y', (∀ c ∈ cs, ongoing c = true) ∧ Multi.run farm w fsub x y cs = some y' ∧ y'.calls.length = y.calls.length ∧
      ∀ t, t < n → Answers t y' := by
    intro n
    induction n with
    | zero => exact fun _ => ⟨[], y, (fun _ hh => by cases hh), rfl, rfl, fun t ht => absurd ht (Nat.not_lt_zero t)⟩
    | succ n ih =>
      intro hn
      obtain ⟨cs, y1, h1, h2, h3, h4⟩ := ih (by omega)
      obtain ⟨h5, -⟩ := h.run h1 h2
      obtain ⟨ds, y2, g1, g2, g3, g4, g5⟩ := h5.call (t := n) (by omega)
      refine ⟨cs ++ ds, y2, fun c hc => ?_, by rw [run_append, h2]; exact g2, g3.trans h3, fun t ht => ?_⟩
      · rcases List.mem_append.1 hc with hc | hc
        · exact h1 c hc
        · exact g1 c hc
      · by_cases htn : t = n
        · subst htn; exact g4
        · obtain ⟨v, h6⟩ := h4 t (by omega)
          exact ⟨v, by rw [g5 t htn]; exact h6⟩
  obtain ⟨cs, y1, h1, h2, h3, h4⟩ := hcalls _ (Nat.le_refl _)
  obtain ⟨h5, h6⟩ := h.run h1 h2
  obtain ⟨ds, y2, g1, g2, g3, g4⟩ := h5.readers _ (Nat.le_refl _)
  obtain ⟨-, h7⟩ := h5.run g1 g2
  refine ⟨cs ++ ds, y2, fun c hc => ?_, by rw [run_append, h2]; exact g2, fun i hi => g4 i (by rw [← h7]; exact hi), fun t ht => ?_⟩
  · rcases List.mem_append.1 hc with hc | hc
    · exact h1 c hc
    · exact g1 c hc
  · obtain ⟨v, h8⟩ := h4 t (by rw [← h3, ← g3]; exact ht)
    exact ⟨v, by rw [g3]; exact h8⟩

/-! ### Executions in which everything returns again and again are fair -/

theorem fairTo_to {i : Nat} (m : Nat) {P : Delivery.Act ν → Prop} {Q : Act ν → Prop}
    (h1 : ∀ c, Q c → ongoing c = true ∧ ∃ b, lift i b = some c ∧ P b)
    (h2 : ∀ k, P (proj i (f k) (a k)) → view (f (k + 1)) i ≠ view (f k) i → Q (a k))
    (h : Delivery.FairTo farm w fsub x i (fun k => view (f (m + k)) i) (fun k => proj i (f (m + k)) (a (m + k))) P) : FairTo farm w fsub x f a Q := by
  intro ho
  have hc : Often (fun k => Delivery.Can farm w fsub x i P (view (f (m + k)) i)) := by
    intro n
    obtain ⟨k, hk, c, z, hq, hs, hne⟩ := often_shift m ho n
    obtain ⟨hon, b, hb, hp⟩ := h1 c hq
    refine ⟨k, hk, b, view z i, hp, ?_, lift_effect hb hs hne⟩
    have h3 := proj_step hs (ongoing_same hon hs) i
    rw [proj_lift hb] at h3
    exact h3
  refine often_unshift m fun n => ?_
  obtain ⟨k, hk, hp, hne⟩ := h hc n
  exact ⟨k, hk, h2 (m + k) hp hne, fun e => hne (by show view (f (m + k + 1)) i = _; rw [e])⟩

theorem go_proj {i : Nat} {y : Sys C G ν} {c : Act ν} {t : Nat} {quit : Bool} {order : List (Async.Entry (List KV) Bits)} (h : proj i y c = .reader (.go t quit) order) :
    c = .reader i (.go t quit) order ∨ proj i y c = idle i y := by
  cases c with
  | make c => exact .inr rfl
  | shutdown => exact .inr rfl
  | call o as n => cases h
  | op o => cases h
  | task t ch => cases h
  | cb j d =>
    simp only [proj, seenBy] at h ⊢
    split at h
    · cases h
    · rename_i hj; rw [if_neg hj]; exact .inr rfl
  | produce j now =>
    simp only [proj, seenBy] at h ⊢
    split at h
    · cases h
    · rename_i hj
      rw [if_neg hj]
      cases hf : foreignOf j (view y j) with
      | none => exact .inr rfl
      | some d => rw [hf] at h; cases h
  | reader j d order =>
    simp only [proj, seenBy] at h ⊢
    split at h
    · rename_i hj; subst hj; cases h; exact .inl rfl
    · rename_i hj; rw [if_neg hj]; exact .inr rfl
  | flush => exact .inr rfl
  | go u =>
    simp only [proj, seenBy] at h ⊢
    split at h
    · rename_i kind r heq
      split at h
      · cases kind <;> cases h
      · rename_i hr; exact .inr (by rw [if_neg hr]; rfl)
    · exact .inr rfl

theorem op_proj {i : Nat} {y : Sys C G ν} {c : Act ν} {b : Delivery.Act ν} (h : proj i y c = b) (hb : (∃ o, b = .op o) ∨ (∃ t ch, b = .task t ch) ∨ (∃ d, b = .cb d) ∨ ∃ now, b = .produce now) :
    lift i b = some c := by
  cases c with
  | make c => subst h; simp [proj, idle] at hb
  | shutdown => subst h; simp [proj, idle] at hb
  | call o as n => subst h; simp [proj, seenBy] at hb
  | op o => subst h; rfl
  | task t ch => subst h; rfl
  | cb j d =>
    simp only [proj, seenBy] at h
    split at h
    · rename_i hj; subst hj; subst h; rfl
    · subst h; simp [idle] at hb
  | produce j now =>
    simp only [proj, seenBy] at h
    split at h
    · rename_i hj; subst hj; subst h; rfl
    · cases hf : foreignOf j (view y j) <;> rw [hf] at h <;> subst h <;> simp [idle] at hb
  | reader j d order =>
    simp only [proj, seenBy] at h
    split at h <;> subst h <;> simp [idle] at hb
  | flush => subst h; simp [proj, seenBy, idle] at hb
  | go u =>
    simp only [proj, seenBy] at h
    split at h
    · split at h <;> subst h <;> simp [idle] at hb
    · subst h; simp [idle] at hb

theorem Endless.fair (E : Endless farm w fsub x views start p f a) (hv : 0 < views.length) (hr : Often (fun k => AllReturned (f k))) : Fair farm w fsub x views f a := by
  obtain ⟨m, -, hm⟩ := E.late 0
  have hF : ∀ i, i < views.length → Delivery.Fair farm w fsub x i (fun k => view (f (m + k)) i) (fun k => proj i (f (m + k)) (a (m + k))) := by
    intro i hi
    refine (E.of hm i).fair (E.good (hm m (Nat.le_refl _)) hi) fun n => ?_
    obtain ⟨k, hk, h1⟩ := often_shift m hr n
    exact ⟨k, hk, h1.readers i (by rw [E.same]; exact hi)⟩
  refine ⟨fun o => ?_, fun t => ?_, fun r o hi => ?_, fun r hi => ?_, fun r t hi => ?_, fun r hi ho => ?_, fun r hi => ?_, fun t ho => ?_⟩
  · refine fairTo_to m (fun c hc => by subst hc; exact ⟨rfl, .op o, rfl, rfl⟩) (fun k h1 _ => ?_) ((hF 0 hv).calls o)
    exact (Option.some.inj (op_proj h1 (.inl ⟨o, rfl⟩))).symm
  · refine fairTo_to m (fun c hc => by obtain ⟨ch, rfl⟩ := hc; exact ⟨rfl, .task t ch, rfl, ch, rfl⟩) (fun k h1 _ => ?_) ((hF 0 hv).tasks t)
    obtain ⟨ch, h1⟩ := h1
    exact ⟨ch, (Option.some.inj (op_proj h1 (.inr (.inl ⟨t, ch, rfl⟩)))).symm⟩
  · refine fairTo_to m (fun c hc => by subst hc; exact ⟨rfl, .cb (.op o), rfl, rfl⟩) (fun k h1 _ => ?_) ((hF r hi).observations o)
    exact (Option.some.inj (op_proj h1 (.inr (.inr (.inl ⟨_, rfl⟩))))).symm
  · refine fairTo_to m (fun c hc => by obtain ⟨now, rfl⟩ := hc; exact ⟨rfl, .produce now, rfl, now, rfl⟩) (fun k h1 _ => ?_) ((hF r hi).produce)
    obtain ⟨now, h1⟩ := h1
    exact ⟨now, (Option.some.inj (op_proj h1 (.inr (.inr (.inr ⟨_, rfl⟩))))).symm⟩
  · have hfair := (hF r hi).requests t
    intro ho
    have hc : Often (fun k => Delivery.Can farm w fsub x r (fun b => ∃ quit order, b = .reader (.go t quit) order) (view (f (m + k)) r)) := by
      intro n
      obtain ⟨k, hk, c, z, ⟨q, o, rfl⟩, hs, hne⟩ := often_shift m ho n
      refine ⟨k, hk, .reader (.go t q) o, view z r, ⟨q, o, rfl⟩, ?_, lift_effect (b := .reader (.go t q) o) rfl hs hne⟩
      have h3 := proj_step hs (ongoing_same rfl hs) r
      rw [proj_lift (b := .reader (.go t q) o) rfl] at h3
      exact h3
    refine often_unshift m fun n => ?_
    obtain ⟨k, hk, ⟨q, o, h1⟩, hne⟩ := hfair hc n
    refine ⟨k, hk, ?_, fun e => hne (by show view (f (m + k + 1)) r = _; rw [e])⟩
    rcases go_proj h1 with h2 | h2
    · exact ⟨q, o, h2⟩
    · exfalso
      have h3 := proj_step (E.next (m + k)) (by rw [hm _ (by omega), hm _ (by omega)]) r
      rw [h2, idle_step] at h3
      exact hne (Option.some.inj h3).symm
  · have h1 := (hF r hi).select (often_shift m ho)
    refine often_unshift m fun n => ?_
    obtain ⟨k, hk, h2, o, h3⟩ := h1 n
    refine ⟨k, hk, h2, o, ?_⟩
    rcases go_proj h3 with h4 | h4
    · exact h4
    · rw [h4] at h3; simp [idle] at h3
  · exact often_unshift m (hF r hi).callbacks
  · intro n
    obtain ⟨k, hk, b, z, rfl, hs, -⟩ := ho n
    obtain ⟨q, hq, h1⟩ := hr k
    cases hpc : (f k).calls[t]? with
    | none => simp only [step, hpc] at hs; cases hs
    | some pc =>
      have hnd : ∀ v, pc ≠ .done v := fun v e => by subst e; simp only [step, hpc, advance] at hs; cases hs
      refine Classical.byContradiction fun hno => ?_
      have hst : ∀ j, k ≤ j → (f j).calls[t]? = some pc := by
        intro j hj
        induction hj with
        | refl => exact hpc
        | step hj ih =>
          rename_i j
          by_cases hg : a j = .go t
          · by_cases he : f (j + 1) = f j
            · show (f (j + 1)).calls[t]? = _; rw [he]; exact ih
            · exact absurd ⟨j, Nat.le_trans hk hj, hg, he⟩ hno
          · exact calls_kept (E.next j) hg ih
      obtain ⟨v, h2⟩ := h1.provider t (List.getElem?_eq_some_iff.1 (hst q hq)).1
      rw [hst q hq] at h2
      exact hnd v (Option.some.inj h2)

/-! ### They exist -/

theorem can_arrive {b : Act ν} (hb : arrives w y.p b = true) : ∃ y', step farm w fsub x y b = some y' ∧ y'.p = y.p := by
  have hat : ∀ r (d : Periodic.Act) order, decide (r < y.p.views.length) = true → Delivery.returns (view y r).r d = false →
      ∃ y', at' farm w fsub x y r (.reader d order) = some y' ∧ y'.p = y.p := by
    intro r d order hr hret
    have h1 : Delivery.step farm w fsub x r (view y r) (.reader d order) = some { view y r with r := Periodic.step (view y r).r d } := by
      simp only [Delivery.step, hret, Bool.false_eq_true, if_false]
    exact ⟨_, at_some (of_decide_eq_true hr) h1, rfl⟩
  cases b with
  | call o as n =>
    have hb : Live.holds w y.p o = true := hb
    have h1 : ∃ s, Delivery.step farm w fsub x 0 (view y 0) (.call o as n) = some s ∧ s.z.p = y.p := by
      obtain ⟨s, h1⟩ := Delivery.can_arrive (farm := farm) (fsub := fsub) (x := x) (pipe := 0) (s := view y 0) (p := y.p) (b := .call o as n) hb rfl
      refine ⟨s, h1, ?_⟩
      simp only [Delivery.step, Option.map_eq_some_iff] at h1
      obtain ⟨z, h2, rfl⟩ := h1
      obtain ⟨-, y2, -, rfl⟩ := Delivery.live_run h2
      rfl
    obtain ⟨s, h1, h2⟩ := h1
    exact ⟨_, by simp only [step, shared, h1, Option.map_some]; rfl, h2⟩
  | reader r d order =>
    cases d with
    | go t q => cases hb
    | tick => exact hat r .tick order hb rfl
    | callFlush => exact hat r .callFlush order hb rfl
    | callShutdown => exact hat r .callShutdown order hb rfl
  | flush => exact ⟨_, rfl, rfl⟩
  | shutdown =>
    refine ⟨_, rfl, ?_⟩
    have hb : y.p.map.isNone = true := hb
    have : y.p.map = none := by cases hm : y.p.map <;> simp_all
    show (Provider.step x y.p .shutdown).1 = y.p
    rcases hq : y.p with ⟨v, ms, mp⟩
    rw [hq] at this
    simp only at this
    subst this
    rfl
  | _ => cases hb

/-- A state, what is to be done until everything has returned, and how many things have come. -/
structure Plan (farm : Str → UInt64) (w : World C G) (fsub : Bits → Bits → Bits) (x : Views.Ext C) (p : Provider.Provider C ν) where
  y : Sys C G ν
  todo : List (Act ν)
  i : Nat
  sound : Sound farm w fsub x y
  prov : y.p = p
  made : ∀ b ∈ todo, ongoing b = true
  ends : ∃ y', run farm w fsub x y todo = some y' ∧ AllReturned y'

/-- What happens next. -/
structure Plan.Next {p : Provider.Provider C ν} (g : Nat → Act ν) (c : Plan farm w fsub x p) (q : Plan farm w fsub x p × Act ν) : Prop where
  step : step farm w fsub x c.y q.2 = some q.1.y
  which : (c.todo = q.2 :: q.1.todo ∧ q.1.i = c.i) ∨ (c.todo = [] ∧ q.2 = g c.i ∧ q.1.i = c.i + 1)

theorem Plan.next {p : Provider.Provider C ν} {g : Nat → Act ν} (hg : ∀ n, arrives w p (g n) = true) (c : Plan farm w fsub x p) : ∃ q, c.Next g q := by
  obtain ⟨y, todo, i, hgood, hp, hmade, hends⟩ := c
  cases todo with
  | nil =>
    obtain ⟨z, hz, h2⟩ := can_arrive (farm := farm) (fsub := fsub) (x := x) (y := y) (b := g i) (by rw [hp]; exact hg i)
    have h1 := hgood.step hz h2
    obtain ⟨more, s', h3, h4, h5⟩ := h1.way
    exact ⟨(⟨z, more, i + 1, h1, h2.trans hp, h3, s', h4, h5⟩, g i), hz, .inr ⟨rfl, rfl, rfl⟩⟩
  | cons b todo =>
    obtain ⟨s', h1, h2⟩ := hends
    rw [Multi.run] at h1
    obtain ⟨z, hz, h3⟩ := Option.bind_eq_some_iff.1 h1
    have h5 := ongoing_same (hmade b (List.mem_cons_self ..)) hz
    exact ⟨(⟨z, todo, i, hgood.step hz h5, h5.trans hp, fun b hb => hmade b (List.mem_cons_of_mem _ hb), s', h3, h2⟩, b), hz, .inl ⟨rfl, rfl⟩⟩

/-- Whatever is to come, there is a way to go on in which it comes and everything returns again and again. -/
theorem Sound.goes_on (h : Sound farm w fsub x y) {g : Nat → Act ν} (hg : ∀ n, arrives w y.p (g n) = true) :
    ∃ (f : Nat → Sys C G ν) (a : Nat → Act ν), f 0 = y ∧ (∀ n, Multi.step farm w fsub x (f n) (a n) = some (f (n + 1))) ∧ (∀ n, (f n).p = y.p) ∧ Often (fun k => AllReturned (f k)) ∧ (∀ n, ∃ k, n ≤ k ∧ a k = g n) ∧
      ∀ k, ongoing (a k) = true ∨ ∃ n, a k = g n := by
  obtain ⟨F, hF⟩ := Classical.axiomOfChoice (Plan.next (farm := farm) (fsub := fsub) (x := x) hg)
  obtain ⟨more, s', h1, h2, h3⟩ := h.way
  let c0 : Plan farm w fsub x y.p := ⟨y, more, 0, h, rfl, h1, s', h2, h3⟩
  let conf : Nat → Plan farm w fsub x y.p := fun n => n.rec c0 (fun _ c => (F c).1)
  have hs : ∀ n, conf (n + 1) = (F (conf n)).1 := fun n => rfl
  let f : Nat → Sys C G ν := fun n => (conf n).y
  let a : Nat → Act ν := fun n => (F (conf n)).2
  have hnext : ∀ n, Plan.Next g (conf n) (conf (n + 1), a n) := fun n => hF (conf n)
  have hempty : ∀ l n, (conf n).todo.length = l → ∃ k, n ≤ k ∧ (conf k).todo = [] ∧ (conf k).i = (conf n).i := by
    intro l
    induction l with
    | zero => exact fun n hl => ⟨n, Nat.le_refl _, List.length_eq_zero_iff.1 hl, rfl⟩
    | succ l ih =>
      intro n hl
      rcases (hnext n).which with ⟨h4, h5⟩ | ⟨h4, -⟩
      · dsimp only at h4 h5
        rw [h4, List.length_cons] at hl
        obtain ⟨k, hk, h6, h7⟩ := ih (n + 1) (by omega)
        exact ⟨k, by omega, h6, h7.trans h5⟩
      · rw [h4] at hl; cases hl
  have hle : ∀ n, (conf n).i ≤ n := by
    intro n
    induction n with
    | zero => exact Nat.le_refl _
    | succ n ih =>
      rcases (hnext n).which with ⟨-, h4⟩ | ⟨-, -, h4⟩ <;> dsimp only at h4 <;> omega
  refine ⟨f, a, rfl, fun n => (hnext n).step, fun n => (conf n).prov, fun n => ?_, fun n => ?_, fun k => ?_⟩
  · obtain ⟨k, hk, h4, -⟩ := hempty _ n rfl
    refine ⟨k, hk, ?_⟩
    obtain ⟨z, h5, h6⟩ := (conf k).ends
    rw [h4] at h5
    cases h5
    exact h6
  · have : ∃ k, (conf k).todo = [] ∧ (conf k).i = n := by
      induction n with
      | zero =>
        obtain ⟨k, -, h4, h5⟩ := hempty _ 0 rfl
        exact ⟨k, h4, h5⟩
      | succ n ih =>
        obtain ⟨k, h4, h5⟩ := ih
        rcases (hnext k).which with ⟨h6, -⟩ | ⟨-, -, h6⟩
        · rw [h4] at h6; cases h6
        · dsimp only at h6
          obtain ⟨j, -, h7, h8⟩ := hempty _ (k + 1) rfl
          exact ⟨j, h7, by omega⟩
    obtain ⟨k, h4, h5⟩ := this
    refine ⟨k, by have := hle k; omega, ?_⟩
    rcases (hnext k).which with ⟨h6, -⟩ | ⟨-, h6, -⟩
    · rw [h4] at h6; cases h6
    · dsimp only at h6
      rw [h6, h5]
  · rcases (hnext k).which with ⟨h4, -⟩ | ⟨-, h4, -⟩
    · exact .inl ((conf k).made (a k) (by rw [h4]; exact List.mem_cons_self ..))
    · exact .inr ⟨_, h4⟩

/-- What is known of the states of programs. -/
theorem sound_run {acts : List (Act ν)} (ha : Delivery.Answered x views (makes acts)) (h : Multi.run farm w fsub x (initial farm w fsub y.p views start) acts = some y) :
    Sound farm w fsub x y := by
  have hv : y.p.views = views := by rw [run_views h]; rfl
  have hw : ∀ (acts : List (Act ν)) {z z' : Sys C G ν}, Multi.run farm w fsub x z acts = some z' → (Waiting z ∧ ∀ r, 0 < (z.readers r).r.threads.length) →
      Waiting z' ∧ ∀ r, 0 < (z'.readers r).r.threads.length := by
    intro acts
    induction acts with
    | nil => intro z z' h hz; cases h; exact hz
    | cons b bs ih =>
      intro z z' h hz
      simp only [Multi.run] at h
      obtain ⟨z1, h1, h2⟩ := Option.bind_eq_some_iff.1 h
      exact ih h2 ⟨hz.1.step hz.2 h1, fun r => Nat.lt_of_lt_of_le (hz.2 r) (step_grown h1 r).length⟩
  have h1 := hw acts h ⟨fun t r u kind h => by simp [initial] at h, fun r => Nat.zero_lt_one⟩
  refine ⟨fun i hi => ?_, ?_, h1.1, h1.2⟩
  · have h2 := run_view h i
    rw [view_initial] at h2
    exact Delivery.good_run (views := views) (start := start) (acts := seen farm w fsub x i (initial farm w fsub y.p views start) acts) (hv ▸ hi) (s := view y i) h2
  · rw [run_prov h]
    exact Provider.noNil_answered ha

theorem run_some_take {acts : List (Act ν)} {z : Sys C G ν} (h : Multi.run farm w fsub x z acts = some y) (n : Nat) : ∃ y1, Multi.run farm w fsub x z (acts.take n) = some y1 := by
  rw [← List.take_append_drop n acts, run_append] at h
  obtain ⟨y1, h1, -⟩ := Option.bind_eq_some_iff.1 h
  exact ⟨y1, h1⟩

/-- Any program goes on in a fair execution. -/
theorem exists_fair {acts : List (Act ν)} (hv : 0 < views.length) (ha : Delivery.Answered x views (makes acts))
    (h : Multi.run farm w fsub x (initial farm w fsub y.p views start) acts = some y) {g : Nat → Act ν} (hg : ∀ n, arrives w y.p (g n) = true) :
    ∃ f a, Endless farm w fsub x views start y.p f a ∧ Fair farm w fsub x views f a ∧ first a acts.length = acts ∧ f acts.length = y ∧ (∀ n, acts.length ≤ n → (f n).p = y.p) ∧
      (∀ n, ∃ k, acts.length + n ≤ k ∧ a k = g n) ∧ ∀ k, acts.length ≤ k → ongoing (a k) = true ∨ ∃ n, a k = g n := by
  obtain ⟨f, a, h0, hnext, hp, hall, hcome, honly⟩ := (sound_run ha h).goes_on hg
  let init := initial farm w fsub y.p views start
  let pre : Nat → Sys C G ν := fun n => (Multi.run farm w fsub x init (acts.take n)).getD y
  let f' : Nat → Sys C G ν := fun n => if n < acts.length then pre n else f (n - acts.length)
  let a' : Nat → Act ν := fun n => if hn : n < acts.length then acts[n] else a (n - acts.length)
  have hpre : ∀ n, Multi.run farm w fsub x init (acts.take n) = some (pre n) := by
    intro n
    obtain ⟨y1, h1⟩ := run_some_take h n
    show _ = some ((Multi.run farm w fsub x init (acts.take n)).getD y)
    rw [show Multi.run farm w fsub x init (acts.take n) = some y1 from h1]
    rfl
  have hend : pre acts.length = y := by
    have h1 := hpre acts.length
    rw [List.take_length] at h1
    exact Option.some.inj (h1.symm.trans h)
  have hlate : ∀ k, f' (acts.length + k) = f k := fun k => by
    show (if acts.length + k < acts.length then _ else _) = _
    rw [if_neg (by omega), Nat.add_sub_cancel_left]
  have halate : ∀ k, a' (acts.length + k) = a k := fun k => by
    show (if hn : acts.length + k < acts.length then _ else _) = _
    rw [dif_neg (by omega), Nat.add_sub_cancel_left]
  have hfirst : first a' acts.length = acts := by
    refine List.ext_getElem (by simp [first]) fun n h1 h2 => ?_
    simp only [first, List.getElem_map, List.getElem_range]
    show (if hn : n < acts.length then acts[n] else _) = _
    rw [dif_pos h2]
  have hat : f' acts.length = y := by have := hlate 0; rw [Nat.add_zero] at this; rw [this]; exact h0
  have E : Endless farm w fsub x views start y.p f' a' := by
    refine ⟨?_, fun n => ?_, acts.length, fun n hn => ?_⟩
    · by_cases hl : 0 < acts.length
      · show (if 0 < acts.length then _ else _) = _
        rw [if_pos hl]
        have := hpre 0
        rw [List.take_zero] at this
        exact (Option.some.inj this).symm
      · have hnil : acts = [] := List.length_eq_zero_iff.1 (by omega)
        subst hnil
        exact hat.trans (Option.some.inj h).symm
    · by_cases hn : n < acts.length
      · have h1 := hpre (n + 1)
        rw [List.take_add_one, List.getElem?_eq_getElem hn, run_append, hpre n, Option.bind_some] at h1
        simp only [Option.toList_some, Multi.run] at h1
        obtain ⟨z, h2, h3⟩ := Option.bind_eq_some_iff.1 h1
        have h4 : f' n = pre n := if_pos hn
        have h5 : a' n = acts[n] := dif_pos hn
        have h6 : f' (n + 1) = pre (n + 1) := by
          by_cases hl : n + 1 < acts.length
          · exact if_pos hl
          · have : n + 1 = acts.length := by omega
            rw [this, hat, hend]
        rw [h4, h5, h6, h2]
        exact h3
      · obtain ⟨k, rfl⟩ : ∃ k, n = acts.length + k := ⟨n - acts.length, by omega⟩
        rw [hlate, halate, Nat.add_assoc, hlate]
        exact hnext k
    · obtain ⟨k, rfl⟩ : ∃ k, n = acts.length + k := ⟨n - acts.length, by omega⟩
      rw [hlate]
      exact hp k
  refine ⟨f', a', E, E.fair hv (fun n => ?_), hfirst, hat, fun n hn => ?_, fun n => ?_, fun k hk => ?_⟩
  · obtain ⟨k, hk, h1⟩ := hall n
    exact ⟨acts.length + k, by omega, by show AllReturned (f' _); rw [hlate]; exact h1⟩
  · obtain ⟨k, rfl⟩ : ∃ k, n = acts.length + k := ⟨n - acts.length, by omega⟩
    rw [hlate]
    exact hp k
  · obtain ⟨k, hk, h1⟩ := hcome n
    exact ⟨acts.length + k, by omega, by rw [halate]; exact h1⟩
  · obtain ⟨j, rfl⟩ : ∃ j, k = acts.length + j := ⟨k - acts.length, by omega⟩
    rw [halate]
    exact honly j

/-! ### The end of a call on the provider -/

/-- A call on the provider which has begun does not answer that it was shut down already. -/
theorem step_looping {b : Act ν} {t : Nat} (h : step farm w fsub x y b = some y') (hl : (∃ kind r wait, y.calls[t]? = some (.loop kind r wait)) ∨ y.calls[t]? = some (.done false)) :
    (∃ kind r wait, y'.calls[t]? = some (.loop kind r wait)) ∨ y'.calls[t]? = some (.done false) := by
  by_cases hb : b = .go t
  · subst hb
    rcases hl with ⟨kind, r, wait, hl⟩ | hl
    · have hlt := (List.getElem?_eq_some_iff.1 hl).1
      simp only [step, hl] at h
      cases wait with
      | none =>
        by_cases hr : r < y.p.views.length
        · obtain ⟨z, h1, h2, -⟩ := advance_none (farm := farm) (w := w) (fsub := fsub) (x := x) (t := t) (kind := kind) hr
          rw [h1] at h
          cases h
          exact .inl ⟨kind, r, _, by rw [h2, List.getElem?_set, if_pos rfl, if_pos hlt]⟩
        · simp only [advance, if_neg hr] at h
          cases h
          exact .inr (by show (y.calls.set t _)[t]? = _; rw [List.getElem?_set, if_pos rfl, if_pos hlt])
      | some u =>
        simp only [advance] at h
        split at h
        · cases h
        · split at h
          · cases h
            exact .inl ⟨kind, r + 1, none, by show (y.calls.set t _)[t]? = _; rw [List.getElem?_set, if_pos rfl, if_pos hlt]⟩
          · cases h
    · simp only [step, hl, advance] at h
      cases h
  · rcases hl with ⟨kind, r, wait, hl⟩ | hl
    · exact .inl ⟨kind, r, wait, calls_kept h hb hl⟩
    · exact .inr (calls_kept h hb hl)

theorem least {P : Nat → Prop} {m k : Nat} (hk : m ≤ k) (h : P k) : ∃ j, m ≤ j ∧ P j ∧ ∀ i, m ≤ i → i < j → ¬ P i := by
  induction k using Nat.strongRecOn with
  | _ k ih =>
    by_cases hex : ∃ i, m ≤ i ∧ i < k ∧ P i
    · obtain ⟨i, h1, h2, h3⟩ := hex
      exact ih i h2 h1 h3
    · exact ⟨k, hk, h, fun i h1 h2 h3 => hex ⟨i, h1, h2, h3⟩⟩

/-- What is between the `m`th step and the `k`th. -/
theorem first_split (a : Nat → Act ν) {m k : Nat} (h : m ≤ k) : first a k = first a m ++ (List.range (k - m)).map (fun j => a (m + j)) := by
  obtain ⟨d, rfl⟩ := Nat.exists_eq_add_of_le h
  rw [Nat.add_sub_cancel_left]
  simp only [first, List.range_add, List.map_append, List.map_map]
  rfl

theorem mem_first {a : Nat → Act ν} {n : Nat} {b : Act ν} (h : b ∈ first a n) : ∃ k, k < n ∧ a k = b := by
  simpa [first] using h

/-- A program whose endless execution behaves is, at any time when the provider has settled, as for C102. -/
theorem Endless.running (E : Endless farm w fsub x views start p f a) (B : Behaved w f a) {n : Nat} (hp : (f n).p = p) : Running farm w fsub x views start (first a n) (f n) := by
  refine ⟨B.resource, fun e he => ?_, fun i cb o as v hm => ?_, ?_, by rw [hp]; exact E.run n⟩
  · obtain ⟨c, hc, he⟩ := List.mem_filterMap.1 he
    obtain ⟨b, hb, hc'⟩ := List.mem_filterMap.1 hc
    obtain ⟨k, -, rfl⟩ := mem_first hb
    split at hc'
    · rename_i i as m hk
      cases hc'
      cases he
      exact B.typed k i as m hk
    · cases hc'
  · obtain ⟨k, -, h⟩ := mem_first hm
    exact B.observed k i cb o as v h
  · rw [hp]
    intro before i b order after y he hr hret
    have hlen : before.length < n := by
      have := congrArg List.length he
      simp [first] at this
      omega
    have h1 : first a n = first a before.length ++ (List.range (n - before.length)).map (fun j => a (before.length + j)) := first_split a (Nat.le_of_lt hlen)
    have h2 : before = first a before.length ∧ .reader i b order :: after = (List.range (n - before.length)).map (fun j => a (before.length + j)) :=
      List.append_inj (he.symm.trans h1) (by simp [first])
    have h3 : a before.length = .reader i b order := by
      have := congrArg List.head? h2.2
      rw [show n - before.length = (n - before.length - 1) + 1 by omega, List.range_succ_eq_map] at this
      simpa using this.symm
    have h4 := E.run before.length
    rw [← h2.1, hr] at h4
    cases h4
    exact B.orderly _ i b order h3 hret

/-- When a call on the provider has begun, and what was recorded before has been, the program comes to an end as for C102. -/
theorem Endless.closing (E : Endless farm w fsub x views start p f a) (F : Fair farm w fsub x views f a) (ha : Answered x views a) (B : Behaved w f a) {m t : Nat} {kind : Periodic.Kind}
    (hp : ∀ k, m ≤ k → (f k).p = p) (hfew : (measured (first a m)).length < 2 ^ 32) (hret : ∀ i, i < (f m).sync.nextOp → ((f m).sync.op i).pc = .done)
    (hcall : (f m).calls[t]? = some (.loop kind 0 none)) (hq : ∀ k, m ≤ k → ¬ Answers t (f k) → Silent (a k)) :
    ∃ k after, m ≤ k ∧ first a k = first a m ++ after ∧ Closing farm w fsub x views start (first a m) after (f m) (f k) := by
  obtain ⟨k0, hk0, h0⟩ := E.provider_done F ha (List.getElem?_eq_some_iff.1 hcall).1
  obtain ⟨k, hk, h1, hmin⟩ := least (P := fun k => Answers t (f k)) hk0 h0
  have h2 : ∀ j, m ≤ j → (∃ kind r wait, (f j).calls[t]? = some (.loop kind r wait)) ∨ (f j).calls[t]? = some (.done false) := by
    intro j hj
    induction hj with
    | refl => exact .inl ⟨_, _, _, hcall⟩
    | step _ ih => exact step_looping (E.next _) ih
  have h3 : (f k).calls[t]? = some (.done false) := by
    rcases h2 k hk with ⟨kind, r, wait, h⟩ | h
    · obtain ⟨v, h1⟩ := h1
      rw [h] at h1
      cases h1
    · exact h
  have hsil : ∀ b ∈ (List.range (k - m)).map (fun j => a (m + j)), Silent b := by
    intro b hb
    obtain ⟨j, hj, rfl⟩ := List.mem_map.1 hb
    have := List.mem_range.1 hj
    exact hq _ (by omega) (hmin _ (by omega) (by omega))
  have hs := first_split a hk
  refine ⟨k, _, hk, hs, ⟨?_, hfew, ?_, hret, ⟨?_, ?_⟩, t, .inr ⟨kind, hcall⟩, h3⟩⟩
  · rw [← hs]; exact E.running B (hp k hk)
  · rw [hp k hk]; exact E.run m
  · refine List.filterMap_eq_nil_iff.2 fun b hb => ?_
    have := hsil b hb
    cases b <;> first | rfl | exact absurd rfl (this.1 _) | exact absurd rfl this.2.1
  · refine List.filterMap_eq_nil_iff.2 fun b hb => ?_
    have := hsil b hb
    cases b <;> first | rfl | exact absurd rfl (this.2.2 _ _ _)

/-! ### Without observations -/

theorem _root_.Verif.Delivery.step_unobserved {pipe : Nat} {s s' : Delivery.Sys C G ν} {b : Delivery.Act ν} (h : Delivery.step farm w fsub x pipe s b = some s')
    (hb : ∀ cb o as v, b ≠ .cb (.observe cb o as v)) (h0 : s.z.s.async.nextOp = 0) : s'.z.s.async.nextOp = 0 := by
  have hasync : ∀ {c} {σ}
      {d : Async.Action (List KV) Bits}, Async.step c s.z.s.async d = some σ → (∀ cb o as v, d ≠ .observe cb o as v) → σ.nextOp = 0 := by
    intro c σ d h hd
    cases d with
    | startCb insts => cases h; exact h0
    | endCb id => simp only [Async.step] at h; split at h <;> cases h; exact h0
    | observe cb obs set val => exact absurd rfl (hd cb obs set val)
    | op i => simp only [Async.step, h0, Nat.zero_le, if_true] at h; cases h
    | finish order => simp only [Async.step] at h; split at h <;> cases h; exact h0
  have hlive : ∀ {c : Whole.Act} {z : Live.Sys C G ν}, Live.step farm w fsub x pipe s.z (.run c) = some z → (∀ cb o as v, c ≠ .cb (.observe cb o as v)) → z.s.async.nextOp = 0 := by
    intro c z h hc
    obtain ⟨-, y, hy, rfl⟩ := Delivery.live_run h
    cases c with
    | call i as n => cases hy; exact h0
    | sched d =>
      simp only [Whole.step] at hy
      split at hy
      · cases hy
      · obtain ⟨q, -, rfl⟩ := Option.map_eq_some_iff.1 hy
        exact h0
    | cb d =>
      simp only [Whole.step] at hy
      split at hy
      · cases hy
      · obtain ⟨q, h1, rfl⟩ := Option.map_eq_some_iff.1 hy
        exact hasync h1 (fun cb o as v e => hc cb o as v (by rw [e]))
    | collect order q =>
      simp only [Whole.step] at hy
      obtain ⟨q, h1, rfl⟩ := Option.map_eq_some_iff.1 hy
      exact hasync h1 (fun cb o as v e => by cases e)
  have h1 := Delivery.step_live h
  cases hl : Delivery.liveOf pipe s b with
  | none => rw [hl] at h1; injection h1 with h1; rw [← h1]; exact h0
  | some d =>
    rw [hl, Option.toList_some, Live.run] at h1
    obtain ⟨z, h3, h4⟩ := Option.bind_eq_some_iff.1 h1
    have h4 : z = s'.z := Option.some.inj h4
    rw [← h4]
    cases d with
    | make c => cases h3; exact h0
    | run c =>
      refine hlive h3 fun cb o as v e => ?_
      subst e
      cases b with
      | cb d => injection hl with hl; injection hl with hl; injection hl with hl; exact hb cb o as v (by rw [hl])
      | produce now => rcases Delivery.produceLive_cases pipe s with h5 | ⟨_, h5⟩ | ⟨_, h5⟩ <;> (simp only [Delivery.liveOf, h5] at hl; cases hl)
      | reader d order =>
        simp only [Delivery.liveOf, Delivery.readerLive] at hl
        split at hl
        · split at hl <;> cases hl
        · cases hl
      | make c => cases hl
      | call i as n => cases hl
      | op i => cases hl
      | task t ch => cases hl
      | other a => cases hl

theorem step_unobserved {b : Act ν} (h : step farm w fsub x y b = some y') (hb : ∀ i cb o as v, b ≠ .cb i (.observe cb o as v)) (h0 : ∀ i, (y.readers i).async.nextOp = 0) (i : Nat) :
    (y'.readers i).async.nextOp = 0 := by
  have hsh : ∀ {d} {z : Sys C G ν}, shared farm w fsub x y d = some z → (z.readers i).async.nextOp = 0 := by
    intro d z h
    unfold shared at h
    obtain ⟨s, -, rfl⟩ := Option.map_eq_some_iff.1 h
    exact h0 i
  have hat : ∀ {j} {d : Delivery.Act ν} {z : Sys C G ν}, at' farm w fsub x y j d = some z → (∀ cb o as v, d ≠ .cb (.observe cb o as v)) → (z.readers i).async.nextOp = 0 := by
    intro j d z h hd
    obtain ⟨-, s, h1, rfl⟩ := at_put h
    by_cases hij : i = j
    · subst hij
      have := Delivery.step_unobserved h1 hd (h0 i)
      show ((put y i s).readers i).async.nextOp = 0
      simp only [put, if_true]
      exact this
    · simpa [put, hij] using h0 i
  cases b with
  | make c => exact hsh h
  | call o as n => exact hsh h
  | op o => exact hsh h
  | task t ch => exact hsh h
  | cb j d => exact hat h (fun cb o as v e => hb j cb o as v (by injection e with e; rw [e]))
  | produce j now => exact hat h (fun cb o as v e => by cases e)
  | reader j d order => exact hat h (fun cb o as v e => by cases e)
  | flush => cases h; exact h0 i
  | shutdown =>
    simp only [step] at h
    obtain ⟨z, h1, rfl⟩ := Option.map_eq_some_iff.1 h
    have := hsh h1
    exact this
  | go t =>
    simp only [step] at h
    split at h
    · cases h
    · rename_i pc hpc
      unfold advance at h
      split at h
      · split at h
        · obtain ⟨z, h1, rfl⟩ := Option.map_eq_some_iff.1 h
          have := hat h1 (fun cb o as v => by simp)
          exact this
        · cases h; exact h0 i
      · split at h
        · cases h
        · split at h <;> cases h
          exact h0 i
      · cases h

end Verif.Multi
