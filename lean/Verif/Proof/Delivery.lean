import Verif.Spec.Delivery
import Verif.Proof.Launched
import Verif.Props.Periodic

/-!
A collection of the periodic reader goes through everything.
-/

namespace Verif.Provider
open Verif.Views
variable {H ν : Type} [DecidableEq H]

/-- Every synchronous instrument is in the list of those to be collected. -/
def Listed (m : Meter H ν) : Prop := ∀ i o, m.insts[i]? = some o → o.desc.kind.synchronous = true → some i ∈ m.sync

theorem Listed.configure {x : Ext H} {views : List (Views H)} {m : Meter H ν} (h : Listed m) (d : Desc) : Listed (configure x views m d).1 := by
  unfold Provider.configure
  dsimp only
  split
  · exact h
  · split
    · split
      · intro i o hi hs
        exact List.mem_append_left _ (h i o hi hs)
      · intro i o hi hs
        dsimp only at hi ⊢
        rw [List.getElem?_append] at hi
        by_cases hlt : i < m.insts.length
        · rw [if_pos hlt] at hi
          exact List.mem_append_left _ (h i o hi hs)
        · rw [if_neg hlt] at hi
          have : i - m.insts.length < 1 := (List.getElem?_eq_some_iff.1 hi).1
          rw [show i = m.insts.length by omega]
          exact List.mem_append_right _ (List.mem_singleton.2 rfl)
    · rename_i hns
      intro i o hi hs
      dsimp only at hi ⊢
      rw [List.getElem?_append] at hi
      by_cases hlt : i < m.insts.length
      · rw [if_pos hlt] at hi
        exact h i o hi hs
      · rw [if_neg hlt] at hi
        have : i - m.insts.length < 1 := (List.getElem?_eq_some_iff.1 hi).1
        rw [show i - m.insts.length = 0 by omega] at hi
        cases hi
        exact absurd hs hns

theorem listed_step {x : Ext H} {p : Provider H ν} (h : ∀ m ∈ p.ordered, Listed m) (c : Call ν) : ∀ m ∈ (step x p c).1.ordered, Listed m := by
  intro m hm
  cases c with
  | meter sc =>
    simp only [step, meter] at hm
    split at hm
    · exact h m hm
    · split at hm
      · exact h m hm
      · rcases List.mem_append.1 hm with hm | hm
        · exact h m hm
        · rw [List.mem_singleton.1 hm]
          intro i o hi
          cases hi
  | instrument k d =>
    simp only [step] at hm
    split at hm
    · exact h m hm
    · rename_i m0 hm0
      rcases List.mem_or_eq_of_mem_set hm with hm | hm
      · exact h m hm
      · rw [hm]
        exact (h m0 (List.mem_of_getElem? hm0)).configure d
  | record k inst v =>
    simp only [step] at hm
    split at hm
    · exact h m hm
    · rename_i m0 hm0
      rcases List.mem_or_eq_of_mem_set hm with hm | hm
      · exact h m hm
      · rw [hm]
        have h0 := h m0 (List.mem_of_getElem? hm0)
        unfold record
        split
        · exact h0
        · split
          · exact h0
          · exact h0
  | shutdown => exact h m hm

theorem listed_run {x : Ext H} {p : Provider H ν} (h : ∀ m ∈ p.ordered, Listed m) (cs : List (Call ν)) : ∀ m ∈ (run x p cs).ordered, Listed m := by
  induction cs generalizing p with
  | nil => exact h
  | cons c cs ih => exact ih (listed_step h c)

end Verif.Provider

namespace Verif.Delivery
open Verif.Attr Verif.Number Verif.Assembly
variable {C G ν : Type} [DecidableEq C]
variable {farm : Str → UInt64} {w : World C G} {fsub : Bits → Bits → Bits} {x : Views.Ext C} {pipe : Nat}

theorem run_append {s : Sys C G ν} (as bs : List (Act ν)) : run farm w fsub x pipe s (as ++ bs) = (run farm w fsub x pipe s as).bind (fun y => run farm w fsub x pipe y bs) := by
  induction as generalizing s with
  | nil => rfl
  | cons a as ih =>
    simp only [List.cons_append, run]
    cases step farm w fsub x pipe s a with
    | none => rfl
    | some y => exact ih

/-! ### The actions of the program -/

/-- What a step within `Produce` does to the program. -/
def produceLive (pipe : Nat) (s : Sys C G ν) : Option (Live.Act ν) :=
  match s.pos with
  | .insts _ k todo none _ => match todo with
    | some i :: _ => some (.run (.sched (.snapshot (instAddr k i))))
    | _ => none
  | .outputs _ k todo none _ => match todo with
    | j :: _ => if syncLeaf s.z.p (leafAddr k pipe j) then some (.run (.sched (.collect (leafAddr k pipe j)))) else none
    | _ => none
  | _ => none

/-- What a step of the reader does to the program. -/
def readerLive (s : Sys C G ν) (a : Periodic.Act) (order : List (Async.Entry (List KV) Bits)) : Option (Live.Act ν) :=
  if returns s.r a then match s.pos with
    | .meters q [] => some (.run (.collect order q))
    | _ => none
  else none

/-- What a step does to the program. -/
def liveOf (pipe : Nat) (s : Sys C G ν) : Act ν → Option (Live.Act ν)
  | .make c => some (.make c)
  | .call i as n => some (.run (.call i as n))
  | .op i => some (.run (.sched (.op i)))
  | .task t ch => some (.run (.sched (.task t ch)))
  | .cb a => some (.run (.cb a))
  | .other a => some (.run (.sched a))
  | .produce _ => produceLive pipe s
  | .reader a order => readerLive s a order

omit [DecidableEq C] in
theorem produceLive_cases (pipe : Nat) (s : Sys C G ν) :
    produceLive pipe s = none ∨ (∃ o, produceLive pipe s = some (.run (.sched (.snapshot o)))) ∨ ∃ l, produceLive pipe s = some (.run (.sched (.collect l))) := by
  unfold produceLive
  split
  · split
    · exact Or.inr (Or.inl ⟨_, rfl⟩)
    · exact Or.inl rfl
  · split
    · split
      · exact Or.inr (Or.inr ⟨_, rfl⟩)
      · exact Or.inl rfl
    · exact Or.inl rfl
  · exact Or.inl rfl

omit [DecidableEq C] in
theorem readerLive_cases (s : Sys C G ν) (a : Periodic.Act) (order : List (Async.Entry (List KV) Bits)) :
    readerLive s a order = none ∨ ∃ q, readerLive s a order = some (.run (.collect order q)) ∧ returns s.r a = true ∧ s.pos = .meters q [] := by
  unfold readerLive
  split
  · split
    · exact Or.inr ⟨_, rfl, by assumption, by assumption⟩
    · exact Or.inl rfl
  · exact Or.inl rfl

theorem run_one {z z' : Live.Sys C G ν} {a : Live.Act ν} (h : Live.step farm w fsub x pipe z a = some z') : Live.run farm w fsub x pipe z [a] = some z' := by
  simp only [Live.run, h, Option.bind_some]

theorem step_live {s s' : Sys C G ν} {a : Act ν} (h : step farm w fsub x pipe s a = some s') : Live.run farm w fsub x pipe s.z (liveOf pipe s a).toList = some s'.z := by
  have one : ∀ {b : Live.Act ν} {f : Live.Sys C G ν → Sys C G ν}, (∀ z, (f z).z = z) → (Live.step farm w fsub x pipe s.z b).map f = some s' →
      Live.run farm w fsub x pipe s.z (some b).toList = some s'.z := by
    intro b f hf hb
    obtain ⟨z, h1, rfl⟩ := Option.map_eq_some_iff.1 hb
    rw [hf]
    exact run_one h1
  cases a with
  | make c => exact one (b := .make c) (f := fun z => { s with z := z }) (fun _ => rfl) h
  | call i as n => exact one (fun _ => rfl) h
  | op i => exact one (fun _ => rfl) h
  | task t ch => exact one (fun _ => rfl) h
  | cb a =>
    simp only [step] at h
    split at h
    · exact one (fun _ => rfl) h
    · cases h
  | other a =>
    simp only [step] at h
    split at h
    · exact one (fun _ => rfl) h
    · cases h
  | produce now =>
    simp only [step, produce] at h
    show Live.run farm w fsub x pipe s.z (produceLive pipe s).toList = _
    unfold produceLive
    split at h
    · rename_i hp
      rw [hp]
      split at h
      · cases h; rfl
      · cases h
    · cases h
    · rename_i hp
      rw [hp]
      split at h
      · cases h
      · cases h; rfl
    · rename_i hp
      rw [hp]
      split at h
      · cases h; rfl
      · cases h
    · rename_i hp
      rw [hp]
      split at h
      · cases h; rfl
      · cases h
    · rename_i hp
      rw [hp]
      exact one (fun _ => rfl) h
    · cases h
    · rename_i hp
      rw [hp]
      split at h
      · cases h
      · cases h; rfl
    · rename_i hp
      rw [hp]
      split at h
      · cases h; rfl
      · cases h
    · rename_i hp
      rw [hp]
      dsimp only
      split at h
      · rename_i hs
        rw [if_pos hs]
        exact one (fun _ => rfl) h
      · rename_i hs
        rw [if_neg hs]
        cases h; rfl
    · rename_i hp
      rw [hp]
      cases h; rfl
  | reader a order =>
    simp only [step] at h
    show Live.run farm w fsub x pipe s.z (readerLive s a order).toList = _
    unfold readerLive
    split at h
    · rename_i hr
      rw [if_pos hr]
      split at h
      · rename_i hp
        rw [hp]
        exact one (fun _ => rfl) h
      · cases h
    · rename_i hr
      rw [if_neg hr]
      cases h; rfl

/-- What an execution does to the program. -/
def lives (farm : Str → UInt64) (w : World C G) (fsub : Bits → Bits → Bits) (x : Views.Ext C) (pipe : Nat) : Sys C G ν → List (Act ν) → List (Live.Act ν)
  | _, [] => []
  | s, a :: as => (liveOf pipe s a).toList ++ match step farm w fsub x pipe s a with
    | none => []
    | some s' => lives farm w fsub x pipe s' as

theorem run_lives {s s' : Sys C G ν} {acts : List (Act ν)} (h : run farm w fsub x pipe s acts = some s') :
    Live.run farm w fsub x pipe s.z (lives farm w fsub x pipe s acts) = some s'.z := by
  induction acts generalizing s with
  | nil => cases h; rfl
  | cons a acts ih =>
    rw [run] at h
    obtain ⟨y, h1, h2⟩ := Option.bind_eq_some_iff.1 h
    rw [lives, h1, Live.run_append, step_live h1]
    exact ih h2

theorem lives_append {s y : Sys C G ν} {as : List (Act ν)} (h : run farm w fsub x pipe s as = some y) (bs : List (Act ν)) :
    lives farm w fsub x pipe s (as ++ bs) = lives farm w fsub x pipe s as ++ lives farm w fsub x pipe y bs := by
  induction as generalizing s with
  | nil => cases h; rfl
  | cons a as ih =>
    rw [run] at h
    obtain ⟨v, h1, h2⟩ := Option.bind_eq_some_iff.1 h
    rw [List.cons_append, lives, lives, h1]
    dsimp only
    rw [ih h2, List.append_assoc]

theorem lives_makes {s s' : Sys C G ν} {acts : List (Act ν)} (h : run farm w fsub x pipe s acts = some s') : Live.makes (lives farm w fsub x pipe s acts) = makes acts := by
  induction acts generalizing s with
  | nil => rfl
  | cons a acts ih =>
    rw [run] at h
    obtain ⟨y, h1, h2⟩ := Option.bind_eq_some_iff.1 h
    rw [lives, h1, Live.makes_append]
    dsimp only
    rw [ih h2]
    have : Live.makes (liveOf pipe s a).toList = makes [a] := by
      cases a with
      | make c => rfl
      | call i as n => rfl
      | op i => rfl
      | task t ch => rfl
      | cb a => rfl
      | other a => rfl
      | produce now =>
        rcases produceLive_cases pipe s with e | ⟨_, e⟩ | ⟨_, e⟩ <;> rw [liveOf, e] <;> rfl
      | reader a order =>
        rcases readerLive_cases s a order with e | ⟨_, e, -⟩ <;> rw [liveOf, e] <;> rfl
    rw [this]
    exact (List.filterMap_append ..).symm

theorem lives_calls {s s' : Sys C G ν} {acts : List (Act ν)} (h : run farm w fsub x pipe s acts = some s') :
    Whole.calls (Live.rest (lives farm w fsub x pipe s acts)) = Pipeline.calls (measured acts) := by
  induction acts generalizing s with
  | nil => rfl
  | cons a acts ih =>
    rw [run] at h
    obtain ⟨y, h1, h2⟩ := Option.bind_eq_some_iff.1 h
    rw [lives, h1, Live.rest_append]
    dsimp only
    have : Whole.calls (Live.rest (liveOf pipe s a).toList) = Pipeline.calls (measured [a]) := by
      cases a with
      | make c => rfl
      | call i as n => rfl
      | op i => rfl
      | task t ch => rfl
      | cb a => rfl
      | other a =>  rfl
      | produce now =>
        rcases produceLive_cases pipe s with e | ⟨_, e⟩ | ⟨_, e⟩ <;> rw [liveOf, e] <;> rfl
      | reader a order =>
        rcases readerLive_cases s a order with e | ⟨_, e, -⟩ <;> rw [liveOf, e] <;> rfl
    rw [show a :: acts = [a] ++ acts from rfl, measured, List.filterMap_append, Pipeline.calls, List.filterMap_append, Whole.calls, List.filterMap_append]
    exact congr (congrArg (· ++ ·) this) (ih h2)

theorem lives_observed {s : Sys C G ν} {acts : List (Act ν)} {cb o : Nat} {as : List KV} {v : Bits}
    (h : .run (.cb (.observe cb o as v)) ∈ lives farm w fsub x pipe s acts) : .cb (.observe cb o as v) ∈ acts := by
  induction acts generalizing s with
  | nil => cases h
  | cons a acts ih =>
    rw [lives] at h
    rcases List.mem_append.1 h with h | h
    · rw [Option.mem_toList] at h
      refine List.mem_cons.2 (Or.inl ?_)
      cases a with
      | cb b => simp only [liveOf, Option.some.injEq, Live.Act.run.injEq, Whole.Act.cb.injEq] at h; rw [h]
      | produce now =>
        rcases produceLive_cases pipe s with e | ⟨_, e⟩ | ⟨_, e⟩ <;> rw [liveOf, e] at h <;> simp at h
      | reader b order =>
        rcases readerLive_cases s b order with e | ⟨_, e, -⟩ <;> rw [liveOf, e] at h <;> simp at h
      | _ => simp [liveOf] at h
    · split at h
      · cases h
      · exact List.mem_cons_of_mem _ (ih h)

/-- Collections are made where `Produce` returns. -/
theorem lives_collect {s : Sys C G ν} {acts : List (Act ν)} {b : List (Live.Act ν)} {order : List (Async.Entry (List KV) Bits)} {q : Times.Seq} {c : List (Live.Act ν)}
    {z : Live.Sys C G ν} (h : lives farm w fsub x pipe s acts = b ++ .run (.collect order q) :: c) (hb : Live.run farm w fsub x pipe s.z b = some z) :
    ∃ before a after y, acts = before ++ .reader a order :: after ∧ run farm w fsub x pipe s before = some y ∧ returns y.r a = true ∧ y.z = z := by
  induction acts generalizing s b with
  | nil => rw [lives] at h; simp at h
  | cons a acts ih =>
    rw [lives] at h
    cases hl : liveOf pipe s a with
    | none =>
      rw [hl, Option.toList_none, List.nil_append] at h
      split at h
      · simp at h
      · rename_i y hy
        have hz := step_live hy
        rw [hl] at hz
        have hz : s.z = y.z := Option.some.inj hz
        obtain ⟨before, a', after, v, h1, h2, h3, h4⟩ := ih h (by rw [← hz]; exact hb)
        exact ⟨a :: before, a', after, v, by rw [h1]; rfl, by rw [run, hy]; exact h2, h3, h4⟩
    | some la =>
      rw [hl, Option.toList_some, List.singleton_append] at h
      cases b with
      | nil =>
        obtain ⟨rfl, -⟩ := List.cons.inj h
        cases hb
        cases a with
        | reader a' order' =>
          rcases readerLive_cases s a' order' with e | ⟨_, e, hr, -⟩ <;> rw [liveOf, e] at hl <;> cases hl
          exact ⟨[], a', acts, s, rfl, rfl, hr, rfl⟩
        | produce now =>
          rcases produceLive_cases pipe s with e | ⟨_, e⟩ | ⟨_, e⟩ <;> rw [liveOf, e] at hl <;> cases hl
        | _ => simp [liveOf] at hl
      | cons lb b =>
        obtain ⟨rfl, h'⟩ := List.cons.inj h
        clear h
        split at h'
        · simp at h'
        · rename_i y hy
          have hz := step_live hy
          rw [hl] at hz
          rw [Live.run] at hb
          obtain ⟨z1, h5, h6⟩ := Option.bind_eq_some_iff.1 hb
          rw [Option.toList_some, run_one h5] at hz
          cases hz
          obtain ⟨before, a', after, v, h1, h2, h3, h4⟩ := ih h' h6
          exact ⟨a :: before, a', after, v, by rw [h1]; rfl, by rw [run, hy]; exact h2, h3, h4⟩

/-- The program itself is one of `Live.Running`. -/
theorem Running.live {views : List (Views.Views C)} {start : Int} {acts : List (Act ν)} {s : Sys C G ν} (h : Running farm w fsub x views pipe start acts s) :
    Live.Running farm w fsub x views pipe (lives farm w fsub x pipe (initial farm w fsub s.z.p views pipe start) acts) s.z := by
  refine ⟨h.resource, ?_, fun cb o as v hm => h.observed cb o as v (lives_observed hm), ?_, run_lives h.runs⟩
  · rw [lives_calls h.runs]
    exact h.typed
  · intro b order q c z h1 h2
    obtain ⟨before, a, after, y, e1, e2, e3, rfl⟩ := lives_collect h1 h2
    exact h.orderly before a order after y e1 e2 e3

end Verif.Delivery
