import Verif.Proof.DeliveryEnd

/-!
A call of the reader's `ForceFlush` or `Shutdown` which returns has collected everything.
-/

namespace Verif.Delivery
open Verif.Attr Verif.Number Verif.Assembly
open Verif.Periodic (Past)
variable {C G ν : Type} [DecidableEq C]
variable {farm : Str → UInt64} {w : World C G} {fsub : Bits → Bits → Bits} {e : Views.Ext C} {pipe : Nat} {p : Provider.Provider C ν} {s s' : Sys C G ν}

/-- The step does nothing to the provider. -/
theorem whole_run {a : Act ν} {b : List Whole.Act} (hp : s.z.p = p) (hb : (liveOf pipe s a).toList = b.map .run) (h : step farm w fsub e pipe s a = some s') :
    s'.z.p = p ∧ Whole.run (Whole.parts farm w fsub p pipe) (reader w p pipe) s.z.s b = some s'.z.s := by
  have h1 := step_live h
  rw [hb] at h1
  obtain ⟨h2, h3⟩ := Live.fixed_run h1
  rw [hp] at h2 h3
  exact ⟨h2, h3⟩

/-- The reader's collections happen under its lock. -/
structure Locked (s : Sys C G ν) : Prop where
  per : Periodic.Inv s.r
  out : s.pos ≠ .out → producing s.r = true

theorem produce_keeps {now : Int} (h : produce farm w fsub e pipe now s = some s') : s'.r = s.r ∧ (s.pos ≠ .out ∨ producing s.r = true) := by
  unfold produce at h
  split at h
  · split at h
    · cases h
      exact ⟨rfl, Or.inr (by assumption)⟩
    · cases h
  · cases h
  · rename_i hpos
    split at h
    · cases h
    · cases h; exact ⟨rfl, Or.inl (by rw [hpos]; simp)⟩
  · rename_i hpos
    split at h
    · cases h; exact ⟨rfl, Or.inl (by rw [hpos]; simp)⟩
    · cases h
  · rename_i hpos
    split at h
    · cases h; exact ⟨rfl, Or.inl (by rw [hpos]; simp)⟩
    · cases h
  · rename_i hpos
    obtain ⟨z, -, rfl⟩ := Option.map_eq_some_iff.1 h
    exact ⟨rfl, Or.inl (by rw [hpos]; simp)⟩
  · cases h
  · rename_i hpos
    split at h
    · cases h
    · cases h; exact ⟨rfl, Or.inl (by rw [hpos]; simp)⟩
  · rename_i hpos
    split at h
    · cases h; exact ⟨rfl, Or.inl (by rw [hpos]; simp)⟩
    · cases h
  · rename_i hpos
    split at h
    · obtain ⟨z, -, rfl⟩ := Option.map_eq_some_iff.1 h
      exact ⟨rfl, Or.inl (by rw [hpos]; simp)⟩
    · cases h; exact ⟨rfl, Or.inl (by rw [hpos]; simp)⟩
  · rename_i hpos
    cases h; exact ⟨rfl, Or.inl (by rw [hpos]; simp)⟩

/-- Steps which are neither of `Produce` nor of the reader. -/
def outside : Act ν → Bool
  | .produce _ => false
  | .reader _ _ => false
  | _ => true

theorem outside_keeps {a : Act ν} (ha : outside a = true) (h : step farm w fsub e pipe s a = some s') : s'.r = s.r ∧ s'.pos = s.pos := by
  have one : ∀ {o : Option (Live.Sys C G ν)}, o.map (fun z => { s with z := z }) = some s' → s'.r = s.r ∧ s'.pos = s.pos := by
    intro o ho
    obtain ⟨z, -, rfl⟩ := Option.map_eq_some_iff.1 ho
    exact ⟨rfl, rfl⟩
  cases a with
  | make c => exact one (o := Live.step farm w fsub e pipe s.z (.make c)) h
  | call i as n => exact one h
  | op i => exact one h
  | task t ch => exact one h
  | cb a =>
    simp only [step] at h
    split at h
    · exact one h
    · cases h
  | other a =>
    simp only [step] at h
    split at h
    · exact one h
    · cases h
  | produce now => cases ha
  | reader a order => cases ha

theorem Locked.step {a : Act ν} (h : Locked s) (hs : step farm w fsub e pipe s a = some s') : Locked s' := by
  by_cases ha : outside a = true
  · obtain ⟨h1, h2⟩ := outside_keeps ha hs
    exact ⟨by rw [h1]; exact h.per, by rw [h1, h2]; exact h.out⟩
  · cases a with
    | produce now =>
      obtain ⟨h1, h2⟩ := produce_keeps hs
      exact ⟨by rw [h1]; exact h.per, fun _ => by rw [h1]; exact h2.elim h.out id⟩
    | reader a order =>
      simp only [Delivery.step] at hs
      split at hs
      · split at hs
        · obtain ⟨z, -, rfl⟩ := Option.map_eq_some_iff.1 hs
          exact ⟨Periodic.step_inv h.per a, fun hh => absurd rfl hh⟩
        · cases hs
      · rename_i hr
        cases hs
        exact ⟨Periodic.step_inv h.per a, fun hh => Periodic.other_producing h.per (Bool.eq_false_iff.2 hr) (h.out hh)⟩
    | _ => exact absurd rfl ha

theorem Locked.run {acts : List (Act ν)} (h : Locked s) (hs : run farm w fsub e pipe s acts = some s') : Locked s' := by
  induction acts generalizing s with
  | nil => cases hs; exact h
  | cons a acts ih =>
    rw [Delivery.run] at hs
    obtain ⟨y, h1, h2⟩ := Option.bind_eq_some_iff.1 hs
    exact ih (h.step h1) h2

omit [DecidableEq C] in
theorem locked_initial (fill : Provider.Provider C ν) (views : List (Views.Views C)) (start : Int) : Locked (initial farm w fsub fill views pipe start) :=
  ⟨Periodic.inv_new, fun h => absurd rfl h⟩

/-! ### A collection which began later -/

/-- The action is not the end of a collection. -/
def quietly : Whole.Act → Bool
  | .collect _ _ => false
  | _ => true

/-- One collection ends, with the last action. -/
def Once (mid : List Whole.Act) : Prop := ∃ front order q, mid = front ++ [.collect order q] ∧ ∀ b ∈ front, quietly b = true

/-- The collection in progress began after `s0`. -/
def Fresh (p : Provider.Provider C ν) (pipe : Nat) (P : Whole.Parts G) (R : Pipeline.Reader G) (s0 : Whole.Sys G) (W : List Whole.Act) (s : Sys C G ν) : Prop :=
  ∃ ls mid x, W = ls ++ mid ∧ Whole.run P R s0 ls = some x ∧ Whole.run P R x mid = some s.z.s ∧ At p pipe P R x mid s.z.s s.pos ∧
    ∀ b ∈ mid, quietly b = true

/-- A collection which began after `s0` has ended, and none has since. -/
def Done (p : Provider.Provider C ν) (pipe : Nat) (P : Whole.Parts G) (R : Pipeline.Reader G) (s0 : Whole.Sys G) (W : List Whole.Act) (y : Whole.Sys G) : Prop :=
  ∃ ls mid tail x x', W = ls ++ mid ++ tail ∧ Whole.run P R s0 ls = some x ∧ Whole.run P R x mid = some x' ∧ Whole.run P R x' tail = some y ∧ y.sent = x'.sent ∧
    (∀ k m c j, p.ordered[k]? = some m → m.comps[pipe]? = some c → j < c.collectors.length → syncLeaf p (leafAddr k pipe j) = true →
      Whole.Collected P R (leafAddr k pipe j) x mid x') ∧ Once mid

/-- A thread from `n0` on has the lock and is in `Produce`. -/
def Inside (n0 : Nat) (s : Sys C G ν) : Prop := ∃ (t : Nat) (th : Periodic.Thread), n0 ≤ t ∧ s.r.threads[t]? = some th ∧ th.pos = .crit .locked

/-- What holds after the actions `W` of the program. -/
structure Ahead (p : Provider.Provider C ν) (pipe : Nat) (P : Whole.Parts G) (R : Pipeline.Reader G) (s0 : Whole.Sys G) (n0 : Nat) (W : List Whole.Act) (s : Sys C G ν) :
    Prop where
  prov : s.z.p = p
  runs : Whole.run P R s0 W = some s.z.s
  locked : Locked s
  phase : (Done p pipe P R s0 W s.z.s ∧ (s.pos = .out ∨ Fresh p pipe P R s0 W s)) ∨
    ((∀ (t : Nat) (th : Periodic.Thread), n0 ≤ t → s.r.threads[t]? = some th → ¬ Past th.pos) ∧ (Inside n0 s → s.pos = .out ∨ Fresh p pipe P R s0 W s))

variable {P : Whole.Parts G} {R : Pipeline.Reader G} {s0 : Whole.Sys G} {n0 : Nat} {W : List Whole.Act}

theorem run_snoc {x y y' : Whole.Sys G} {W : List Whole.Act} {b : Whole.Act} (h : Whole.run P R x W = some y) (hs : Whole.step P R y b = some y') :
    Whole.run P R x (W ++ [b]) = some y' := by
  rw [Whole.run_append, h, Option.bind_some, Whole.run, hs]
  rfl

theorem step_of_run {x y : Whole.Sys G} {b : Whole.Act} (h : Whole.run P R x [b] = some y) : Whole.step P R x b = some y := by
  rw [Whole.run] at h
  obtain ⟨z, h1, h2⟩ := Option.bind_eq_some_iff.1 h
  cases h2
  exact h1

theorem step_sent {x y : Whole.Sys G} {b : Whole.Act} (hb : quietly b = true) (h : Whole.step P R x b = some y) : y.sent = x.sent := by
  cases b with
  | call i as n => cases h; rfl
  | sched a =>
    simp only [Whole.step] at h
    split at h
    · cases h
    · obtain ⟨z, -, rfl⟩ := Option.map_eq_some_iff.1 h
      rfl
  | cb a =>
    simp only [Whole.step] at h
    split at h
    · cases h
    · obtain ⟨z, -, rfl⟩ := Option.map_eq_some_iff.1 h
      rfl
  | collect order q => cases hb

omit [DecidableEq C] in
theorem Fresh.more {b : Whole.Act} (h : Fresh p pipe P R s0 W s) (hb : quietly b = true) (hs : Whole.step P R s.z.s b = some s'.z.s) (hp : s'.pos = s.pos) : Fresh p pipe P R s0 (W ++ [b]) s' := by
  obtain ⟨ls, mid, x, h1, h2, h3, h4, h5⟩ := h
  refine ⟨ls, mid ++ [b], x, by rw [h1, List.append_assoc], h2, run_snoc h3 hs, ?_, ?_⟩
  · rw [hp]
    exact h4.more hs
  · intro c hc
    rcases List.mem_append.1 hc with h | h
    · exact h5 c h
    · rw [List.mem_singleton.1 h]; exact hb

omit [DecidableEq C] in
theorem Done.more {b : Whole.Act} {y y' : Whole.Sys G} (h : Done p pipe P R s0 W y) (hb : quietly b = true) (hs : Whole.step P R y b = some y') :
    Done p pipe P R s0 (W ++ [b]) y' := by
  obtain ⟨ls, mid, tail, x, x', h1, h2, h3, h4, h5, h6⟩ := h
  exact ⟨ls, mid, tail ++ [b], x, x', by rw [h1, List.append_assoc], h2, h3, run_snoc h4 hs, (step_sent hb hs).trans h5, h6⟩

omit [DecidableEq C] in
/-- The collection in progress ends. -/
theorem Fresh.ends {q : Times.Seq} {order : List (Async.Entry (List KV) Bits)} {y' : Whole.Sys G} (h : Fresh p pipe P R s0 W s) (hpos : s.pos = .meters q [])
    (hs : Whole.step P R s.z.s (.collect order q) = some y') : Done p pipe P R s0 (W ++ [.collect order q]) y' := by
  obtain ⟨ls, mid, x, h1, h2, h3, h4, h6⟩ := h
  refine ⟨ls, mid ++ [.collect order q], [], x, y', by rw [h1, List.append_nil, List.append_assoc], h2, run_snoc h3 hs, rfl, rfl, fun k m c j g1 g2 g3 g4 => ?_, mid, order, q, rfl, h6⟩
  rw [hpos] at h4
  rcases h4 k (List.getElem?_eq_some_iff.1 g1).1 with h5 | h5
  · cases h5
  · exact (h5 m c j g1 g2 g3 g4).collected h3 hs

theorem Ahead.step {a : Act ν} (hl : ∀ m ∈ p.ordered, Provider.Listed m) (hn : 1 ≤ n0)
    (h : Ahead p pipe (Whole.parts farm w fsub p pipe) (reader w p pipe) s0 n0 W s) (hm : makes [a] = []) (hs : step farm w fsub e pipe s a = some s') :
    Ahead p pipe (Whole.parts farm w fsub p pipe) (reader w p pipe) s0 n0 (W ++ Live.rest (liveOf pipe s a).toList) s' := by
  have hlk := h.locked.step hs
  have user : ∀ b, quietly b = true → outside a = true → (liveOf pipe s a).toList = [b].map .run →
      Ahead p pipe (Whole.parts farm w fsub p pipe) (reader w p pipe) s0 n0 (W ++ Live.rest (liveOf pipe s a).toList) s' := by
    intro b hb ha hb'
    obtain ⟨h1, h2⟩ := whole_run h.prov hb' hs
    have h2 := step_of_run h2
    obtain ⟨h3, h4⟩ := outside_keeps ha hs
    rw [hb', Live.rest_run]
    refine ⟨h1, run_snoc h.runs h2, hlk, ?_⟩
    rw [h4]
    rcases h.phase with ⟨h5, h6⟩ | ⟨h5, h6⟩
    · exact Or.inl ⟨h5.more hb h2, h6.imp id (·.more hb h2 h4)⟩
    · refine Or.inr ⟨by rw [h3]; exact h5, fun hi => ?_⟩
      refine (h6 ?_).imp id (·.more hb h2 h4)
      unfold Inside at hi ⊢
      rw [h3] at hi
      exact hi
  cases a with
  | make c => cases hm
  | call i as n => exact user _ rfl rfl rfl
  | op i => exact user (.sched (.op i)) rfl rfl rfl
  | task t ch => exact user (.sched (.task t ch)) rfl rfl rfl
  | cb a => exact user (.cb a) rfl rfl rfl
  | other a => exact user (.sched a) rfl rfl rfl
  | produce now =>
    have hpr : produce farm w fsub e pipe now s = some s' := hs
    show Ahead _ _ _ _ _ _ (W ++ Live.rest (produceLive pipe s).toList) _
    by_cases hout : s.pos = .out
    · obtain ⟨h1, h2, h3, h4, h5⟩ := At.begins h.prov hpr hout
      have h0 : produceLive pipe s = none := by unfold produceLive; rw [hout]
      rw [h0]
      show Ahead _ _ _ _ _ _ (W ++ []) _
      rw [List.append_nil]
      have hf : Fresh p pipe (Whole.parts farm w fsub p pipe) (reader w p pipe) s0 W s' :=
        ⟨W, [], s'.z.s, (List.append_nil _).symm, by rw [h1]; exact h.runs, rfl, h5, by simp⟩
      refine ⟨by rw [h1]; exact h.prov, by rw [h1]; exact h.runs, hlk, ?_⟩
      rcases h.phase with ⟨h6, -⟩ | ⟨h6, -⟩
      · exact Or.inl ⟨by rw [h1]; exact h6, Or.inr hf⟩
      · exact Or.inr ⟨by rw [h2]; exact h6, fun _ => Or.inr hf⟩
    · have hb : ∃ b : List Whole.Act, (liveOf pipe s (.produce now)).toList = b.map .run ∧ ∀ c ∈ b, quietly c = true := by
        rcases produceLive_cases pipe s with e | ⟨o, e⟩ | ⟨o, e⟩
        · exact ⟨[], by rw [liveOf, e]; rfl, by simp⟩
        · exact ⟨[.sched (.snapshot o)], by rw [liveOf, e]; rfl, by simp [quietly]⟩
        · exact ⟨[.sched (.collect o)], by rw [liveOf, e]; rfl, by simp [quietly]⟩
      obtain ⟨b, hb, hq⟩ := hb
      obtain ⟨h1, h2⟩ := whole_run h.prov hb hs
      have hbr : Live.rest (produceLive pipe s).toList = b := by
        rw [show produceLive pipe s = liveOf pipe s (.produce now) from rfl, hb, Live.rest_run]
      have hW : Whole.run (Whole.parts farm w fsub p pipe) (reader w p pipe) s0 (W ++ b) = some s'.z.s := by
        rw [Whole.run_append, h.runs]; exact h2
      have hfr : Fresh p pipe (Whole.parts farm w fsub p pipe) (reader w p pipe) s0 W s → Fresh p pipe (Whole.parts farm w fsub p pipe) (reader w p pipe) s0 (W ++ b) s' := by
        rintro ⟨ls, mid, x, g1, g2, g3, g4, g6⟩
        obtain ⟨-, -, g5⟩ := At.goes h.prov hl g3 g4 hpr hout
        rw [hbr] at g5
        exact ⟨ls, mid ++ b, x, by rw [g1, List.append_assoc], g2, by rw [Whole.run_append, g3]; exact h2, g5,
          fun c hc => (List.mem_append.1 hc).elim (g6 c) (hq c)⟩
      have hr := (produce_keeps hpr).1
      rw [hbr]
      refine ⟨h1, hW, hlk, ?_⟩
      rcases h.phase with ⟨h5, h6⟩ | ⟨h5, h6⟩
      · refine Or.inl ⟨?_, Or.inr (hfr (h6.resolve_left hout))⟩
        cases b with
        | nil => rw [List.append_nil, ← Option.some.inj h2]; exact h5
        | cons c b =>
          cases b with
          | nil => exact h5.more (hq c (List.mem_singleton.2 rfl)) (step_of_run h2)
          | cons c' b =>
            exfalso
            have := congrArg List.length hb
            have h7 : (liveOf pipe s (.produce now)).toList.length ≤ 1 := by
              cases liveOf pipe s (.produce now : Act ν) <;> simp
            simp at this
            omega
      · refine Or.inr ⟨by rw [hr]; exact h5, fun hi => Or.inr (hfr ((h6 ?_).resolve_left hout))⟩
        unfold Inside at hi ⊢
        rw [hr] at hi
        exact hi
  | reader a order =>
    have hs' := hs
    simp only [Delivery.step] at hs
    split at hs
    · rename_i hret
      split at hs
      · rename_i q hpos
        obtain ⟨z, hz, rfl⟩ := Option.map_eq_some_iff.1 hs
        obtain ⟨h1, h2⟩ := whole_step h.prov hz
        have h0 : (liveOf pipe s (.reader a order)).toList = [Live.Act.run (.collect order q)] := by
          show (readerLive s a order).toList = _
          unfold readerLive
          rw [if_pos hret, hpos]
          rfl
        rw [h0]
        show Ahead _ _ _ _ _ _ (W ++ [.collect order q]) _
        refine ⟨h1, run_snoc h.runs h2, hlk, ?_⟩
        obtain ⟨⟨v, thv, g1, g2, g3⟩, g4⟩ := Periodic.return_step h.locked.per hret
        have hnot : s.pos ≠ .out := by rw [hpos]; simp
        by_cases hin : Inside n0 s
        · have hf : Fresh p pipe (Whole.parts farm w fsub p pipe) (reader w p pipe) s0 W s := by
            rcases h.phase with ⟨-, h6⟩ | ⟨-, h6⟩
            · exact h6.resolve_left hnot
            · exact (h6 hin).resolve_left hnot
          exact Or.inl ⟨hf.ends hpos h2, Or.inl rfl⟩
        · rcases h.phase with ⟨-, h6⟩ | ⟨h5, -⟩
          · exact Or.inl ⟨(h6.resolve_left hnot).ends hpos h2, Or.inl rfl⟩
          · refine Or.inr ⟨fun t th ht hth hpast => ?_, fun _ => Or.inl rfl⟩
            by_cases e : t = v
            · exact hin ⟨v, thv, by omega, g1, g2⟩
            · refine h5 t th ht ?_ hpast
              dsimp only at hth
              cases a with
              | go u quit =>
                unfold returns at hret
                dsimp only at hret
                split at hret
                · cases hret
                · rename_i x hu
                  have hx := of_decide_eq_true hret
                  have huv := Periodic.same_holder h.locked.per hu hx g1 g2
                  subst huv
                  simp only [Periodic.step] at hth
                  rw [hu] at hth
                  dsimp only at hth
                  unfold Periodic.advance at hth
                  rw [hx] at hth
                  have hth : (s.r.threads.set u _)[t]? = some th := hth
                  rw [Periodic.get_set hu, if_neg e] at hth
                  exact hth
              | _ => cases hret
      · cases hs
    · rename_i hret
      have hret : returns s.r a = false := Bool.eq_false_iff.2 hret
      cases hs
      have h0 : (liveOf pipe s (.reader a order)).toList = ([] : List (Live.Act ν)) := by
        show (readerLive s a order).toList = _
        unfold readerLive
        rw [hret]
        rfl
      rw [h0]
      show Ahead _ _ _ _ _ _ (W ++ []) _
      rw [List.append_nil]
      refine ⟨h.prov, h.runs, hlk, ?_⟩
      rcases h.phase with h5 | ⟨h5, h6⟩
      · exact Or.inl h5
      · refine Or.inr ⟨fun t th ht hth hpast => ?_, fun ⟨t, th, ht, hth, hpos⟩ => ?_⟩
        · obtain ⟨th', g1, g2⟩ := (Periodic.unrelated_step h.locked.per hret hth).2 (by omega) hpast
          exact h5 t th' ht g1 g2
        · rcases (Periodic.unrelated_step h.locked.per hret hth).1 hpos with g1 | g1
          · exact h6 ⟨t, th, ht, g1, hpos⟩
          · refine Or.inl ?_
            by_cases hout : s.pos = .out
            · exact hout
            · have := h.locked.out hout
              unfold producing at this
              rw [g1] at this
              cases this

theorem Ahead.run {acts : List (Act ν)} (hl : ∀ m ∈ p.ordered, Provider.Listed m) (hn : 1 ≤ n0)
    (h : Ahead p pipe (Whole.parts farm w fsub p pipe) (reader w p pipe) s0 n0 W s) (hm : makes acts = []) (hs : run farm w fsub e pipe s acts = some s') :
    Ahead p pipe (Whole.parts farm w fsub p pipe) (reader w p pipe) s0 n0 (W ++ Live.rest (lives farm w fsub e pipe s acts)) s' := by
  induction acts generalizing s W with
  | nil =>
    cases hs
    show Ahead _ _ _ _ _ _ (W ++ []) _
    rw [List.append_nil]
    exact h
  | cons a acts ih =>
    rw [Delivery.run] at hs
    obtain ⟨y, h1, h2⟩ := Option.bind_eq_some_iff.1 hs
    rw [show a :: acts = [a] ++ acts from rfl, makes, List.filterMap_append, List.append_eq_nil_iff] at hm
    have := ih (h.step hl hn hm.1 h1) hm.2 h2
    rw [List.append_assoc] at this
    rw [lives, h1, Live.rest_append]
    exact this

end Verif.Delivery
