import Verif.Proof.Hinted
import Verif.Spec.Counted

/-!
The observations which counted are those which were made.
-/

namespace Verif.Whole
open Verif.Attr Verif.Number Verif.Aggr
open Verif.AsyncPipeline (cfg)
open Verif.Assembly (Seen)

/-! ### Lists -/

theorem starts_append (t : Nat) (as bs : List Act) : starts t (as ++ bs) = starts t as ++ starts (t + (collections as).length) bs := by
  induction as generalizing t with
  | nil => rfl
  | cons a as ih =>
    cases a with
    | cb a =>
      cases a with
      | startCb insts =>
        show (t, insts) :: starts t (as ++ bs) = (t, insts) :: starts t as ++ starts (t + (collections as).length) bs
        rw [ih]
        rfl
      | _ => exact ih t
    | collect order q =>
      show starts (t + 1) (as ++ bs) = starts (t + 1) as ++ starts (t + (q :: collections as).length) bs
      rw [ih, List.length_cons, Nat.add_assoc t 1, Nat.add_comm 1]
    | _ => exact ih t

theorem observationsFrom_append (before as bs : List Act) :
    observationsFrom before (as ++ bs) = observationsFrom before as ++ observationsFrom (before ++ as) bs := by
  induction as generalizing before with
  | nil => rw [List.append_nil]; rfl
  | cons a as ih =>
    show (counted before a).toList ++ observationsFrom (before ++ [a]) (as ++ bs) = (counted before a).toList ++ observationsFrom (before ++ [a]) as ++ _
    rw [ih, List.append_assoc, List.append_assoc]
    rfl

theorem observations_snoc (as : List Act) (a : Act) : observations (as ++ [a]) = observations as ++ (counted as a).toList := by
  unfold observations
  rw [observationsFrom_append]
  show _ ++ ((counted ([] ++ as) a).toList ++ []) = _
  rw [List.nil_append, List.append_nil]

theorem ended_snoc (cb : Nat) (as : List Act) (a : Act) : ended cb (as ++ [a]) = (ended cb as || ends cb a) := by
  unfold ended
  rw [List.any_append]
  simp

theorem collections_snoc (as : List Act) (a : Act) : collections (as ++ [a]) = collections as ++ collections [a] := List.filterMap_append ..

/-! ### The state -/

variable (u : AsyncPipeline.Setup)

abbrev AState := Async.State (List KV) Bits Bits

/-- The value would count. -/
def okay (o : Nat) (v : Bits) : Bool := Front.rangeTest (u.inst o).num v (u.inst o).kind && !(u.leavesOf o).isEmpty

/-- The observation is going to count. -/
def will (s : AState) (i : Nat) : Bool :=
  match (s.op i).pc with
  | .check => (s.cb (s.op i).cb).live && (s.cb (s.op i).cb).insts.contains (s.op i).obs && okay u (s.op i).obs (s.op i).val
  | .create | .update => true
  | _ => false

def seenOf (s : AState) (i : Nat) : Seen := ((s.cb (s.op i).cb).coll, (s.op i).obs, u.set (s.op i).obs (s.op i).set, (s.op i).val)

variable (F : Nat → Bool)

def contrib (s : AState) (i : Nat) : Option Seen := if F (s.op i).obs && will u s i then some (seenOf u s i) else none

def pend (s : AState) : List Seen := (List.range s.nextOp).filterMap (contrib u F s)

def logged (s : AState) : List Seen := (s.log.filter (fun v => F v.obs)).map (fun v => (v.coll, v.obs, v.set, v.val))

/-- What is expected to be seen of the observations. -/
def expect (obs : List (Nat × Nat × List KV × Bits)) : List Seen :=
  obs.filterMap (fun e => if F e.2.1 && okay u e.2.1 e.2.2.2 then some (e.1, e.2.1, u.set e.2.1 e.2.2.1, e.2.2.2) else none)

structure Follows (acts : List Act) (s : AState) : Prop where
  coll : s.coll = (collections acts).length
  ncb : s.nextCb = (starts 0 acts).length
  cbs : ∀ i, i < s.nextCb → (starts 0 acts)[i]? = some ((s.cb i).coll, (s.cb i).insts) ∧ (s.cb i).live = !ended i acts
  past : ∀ i, ended i acts = true → i < s.nextCb
  ops : ∀ i, i < s.nextOp → (s.op i).cb < s.nextCb

theorem filterMap_same {α β : Type} {f g : α → Option β} {l : List α} (h : ∀ a ∈ l, f a = g a) : l.filterMap f = l.filterMap g := by
  induction l with
  | nil => rfl
  | cons a l ih => rw [List.filterMap_cons, List.filterMap_cons, h a List.mem_cons_self, ih fun b hb => h b (List.mem_cons_of_mem _ hb)]

theorem filterMap_take {α : Type} (f : Nat → Option α) (l : List Nat) (hl : l.Nodup) {i : Nat} (hi : i ∈ l) :
    (l.filterMap f).Perm ((f i).toList ++ l.filterMap (fun j => if j = i then none else f j)) := by
  induction l with
  | nil => cases hi
  | cons a l ih =>
    rw [List.nodup_cons] at hl
    by_cases e : a = i
    · subst e
      have h : l.filterMap (fun j => if j = a then none else f j) = l.filterMap f := by
        refine filterMap_same fun j hj => ?_
        exact if_neg (fun (e : j = a) => hl.1 (e ▸ hj))
      rw [List.filterMap_cons (f := fun j => if j = a then none else f j)]
      simp only [if_true]
      rw [h, List.filterMap_cons]
      cases f a with
      | none => exact List.Perm.refl _
      | some y => exact List.Perm.refl _
    · have hi' : i ∈ l := by
        rcases List.mem_cons.1 hi with h | h
        · exact absurd h.symm e
        · exact h
      have h := ih hl.2 hi'
      rw [List.filterMap_cons, List.filterMap_cons (f := fun j => if j = i then none else f j)]
      simp only [if_neg e]
      cases f a with
      | none => exact h
      | some y => exact (List.Perm.cons y h).trans List.perm_middle.symm

variable {u F}

/-- What a step does to what is seen and what is pending. -/
inductive Moves (s s' : AState) (new : List Seen) : Prop
  | stays (hl : logged F s' = logged F s) (hp : pend u F s' = pend u F s ++ new)
  | moves (i : Nat) (hi : i < s.nextOp) (hb : (s.op i).pc = .update) (hn : new = []) (hl : logged F s' = logged F s ++ (contrib u F s i).toList)
      (hp : pend u F s' = (List.range s.nextOp).filterMap (fun j => if j = i then none else contrib u F s j))

/-- Is the observation going on? -/
def busy (s : AState) (i : Nat) : Prop := ¬ Live.Returned (s.op i)

theorem will_busy {s : AState} {i : Nat} (h : will u s i = true) : busy s i := by
  unfold will at h
  unfold busy Live.Returned
  cases hp : (s.op i).pc <;> rw [hp] at h <;> simp at h ⊢

theorem Follows.step {acts : List Act} {s s' : AState} (h : Follows acts s) {a : Async.Action (List KV) Bits} {act : Act}
    (hact : (act = .cb a ∧ AsyncPipeline.isFinish a = false) ∨ ∃ order q, a = .finish order ∧ act = .collect order q)
    (hs : Async.step (cfg u) s a = some s') (hw : ∀ cb, a = .endCb cb → ∀ i, i < s.nextOp → (s.op i).cb = cb → Live.Returned (s.op i)) :
    Follows (acts ++ [act]) s' ∧ Moves (u := u) (F := F) s s' (expect u F (counted acts act).toList) := by
  cases a with
  | startCb insts =>
    rcases hact with ⟨rfl, -⟩ | ⟨_, _, e, -⟩
    · simp only [Async.step, Option.some.injEq] at hs
      subst hs
      have hst : starts 0 (acts ++ [.cb (.startCb insts)]) = starts 0 acts ++ [((collections acts).length, insts)] := by
        rw [starts_append, Nat.zero_add]; rfl
      refine ⟨⟨?_, ?_, ?_, ?_, ?_⟩, .stays rfl ?_⟩
      · rw [collections_snoc]
        show s.coll = (collections acts ++ []).length
        rw [List.append_nil, h.coll]
      · rw [hst, List.length_append, ← h.ncb]; rfl
      · intro i hi
        have hi : i < s.nextCb + 1 := hi
        rw [hst, ended_snoc]
        show _ = some ((upd s.cb s.nextCb _ i).coll, (upd s.cb s.nextCb _ i).insts) ∧ (upd s.cb s.nextCb _ i).live = _
        rw [upd_apply]
        by_cases e : i = s.nextCb
        · subst e
          rw [if_pos rfl, List.getElem?_append_right (by rw [← h.ncb]; exact Nat.le_refl _), ← h.ncb, Nat.sub_self]
          have hno : ended s.nextCb acts = false := by
            cases he : ended s.nextCb acts with
            | false => rfl
            | true => exact absurd (h.past _ he) (Nat.lt_irrefl _)
          rw [hno, h.coll]
          exact ⟨rfl, rfl⟩
        · rw [if_neg e, List.getElem?_append_left (by rw [← h.ncb]; omega)]
          have := h.cbs i (by omega)
          rw [this.2]
          exact ⟨this.1, congrArg _ (Bool.or_false _).symm⟩
      · intro i hi
        rw [ended_snoc] at hi
        have : ended i acts = true := by simpa [ends] using hi
        exact Nat.lt_succ_of_lt (h.past i this)
      · intro i hi
        exact Nat.lt_succ_of_lt (h.ops i hi)
      · show pend u F _ = pend u F s ++ []
        rw [List.append_nil]
        refine filterMap_same fun i hi => ?_
        have hlt : (s.op i).cb ≠ s.nextCb := Nat.ne_of_lt (h.ops i (List.mem_range.1 hi))
        unfold contrib will seenOf
        simp only [upd_apply, if_neg hlt]
    · cases e
  | endCb id =>
    rcases hact with ⟨rfl, -⟩ | ⟨_, _, e, -⟩
    · simp only [Async.step] at hs
      split at hs
      · rename_i hid
        simp only [Option.some.injEq] at hs
        subst hs
        have hst : starts 0 (acts ++ [.cb (.endCb id)]) = starts 0 acts := by
          rw [starts_append]; exact List.append_nil _
        refine ⟨⟨?_, ?_, ?_, ?_, h.ops⟩, .stays rfl ?_⟩
        · rw [collections_snoc]
          show s.coll = (collections acts ++ []).length
          rw [List.append_nil, h.coll]
        · rw [hst]; exact h.ncb
        · intro i hi
          rw [hst, ended_snoc]
          show _ = some ((upd s.cb id _ i).coll, (upd s.cb id _ i).insts) ∧ (upd s.cb id _ i).live = _
          rw [upd_apply]
          have := h.cbs i hi
          by_cases e : i = id
          · subst e
            rw [if_pos rfl]
            exact ⟨this.1, by simp [ends]⟩
          · rw [if_neg e, this.2]
            refine ⟨this.1, ?_⟩
            have : ends i (.cb (.endCb id)) = false := by simp [ends]; exact fun e' => e e'.symm
            rw [this, Bool.or_false]
        · intro i hi
          rw [ended_snoc, Bool.or_eq_true] at hi
          rcases hi with hi | hi
          · exact h.past i hi
          · have : id = i := by simpa [ends] using hi
            exact this ▸ hid
        · show pend u F _ = pend u F s ++ []
          rw [List.append_nil]
          refine filterMap_same fun i hi => ?_
          by_cases e : (s.op i).cb = id
          · have hr := hw id rfl i (List.mem_range.1 hi) e
            have h1 : will u s i = false := by
              cases hw : will u s i with
              | false => rfl
              | true => exact absurd hr (will_busy hw)
            have h2 : ∀ s2 : AState, s2.op = s.op → will u s2 i = false := by
              intro s2 e2
              cases hw : will u s2 i with
              | false => rfl
              | true =>
                have := will_busy hw
                unfold busy at this
                rw [e2] at this
                exact absurd hr this
            unfold contrib
            rw [h1, h2 { s with cb := upd s.cb id { s.cb id with live := false } } rfl]
            simp
          · unfold contrib will seenOf
            simp only [upd_apply, if_neg e]
      · cases hs
    · cases e
  | observe cb o as v =>
    rcases hact with ⟨rfl, -⟩ | ⟨_, _, e, -⟩
    · simp only [Async.step] at hs
      split at hs
      · rename_i hcb
        simp only [Option.some.injEq] at hs
        have hst : starts 0 (acts ++ [.cb (.observe cb o as v)]) = starts 0 acts := by
          rw [starts_append]; exact List.append_nil _
        have hcoll : collections (acts ++ [.cb (.observe cb o as v)]) = collections acts := by
          rw [collections_snoc]; exact List.append_nil _
        have hen : ∀ i, ended i (acts ++ [.cb (.observe cb o as v)]) = ended i acts := fun i => by rw [ended_snoc]; exact Bool.or_false _
        obtain ⟨hc1, hc2⟩ := h.cbs cb hcb
        subst hs
        refine ⟨⟨?_, ?_, ?_, ?_, ?_⟩, .stays rfl ?_⟩
        · rw [hcoll]; exact h.coll
        · rw [hst]; exact h.ncb
        · intro i hi
          rw [hst, hen]
          exact h.cbs i hi
        · intro i hi
          rw [hen] at hi
          exact h.past i hi
        · intro i hi
          have hi : i < s.nextOp + 1 := hi
          show (upd s.op s.nextOp _ i).cb < s.nextCb
          rw [upd_apply]
          by_cases e : i = s.nextOp
          · rw [if_pos e]; exact hcb
          · rw [if_neg e]; exact h.ops i (by omega)
        · show (List.range (s.nextOp + 1)).filterMap _ = (List.range s.nextOp).filterMap _ ++ _
          rw [List.range_succ, List.filterMap_append]
          congr 1
          · refine filterMap_same fun i hi => ?_
            have hne : i ≠ s.nextOp := Nat.ne_of_lt (List.mem_range.1 hi)
            unfold contrib will seenOf
            simp only [upd_apply, if_neg hne]
          · unfold contrib will seenOf counted
            simp only [upd_apply, if_true, List.filterMap_cons, List.filterMap_nil, hc1, hc2]
            cases ended cb acts with
            | true => simp [expect]
            | false =>
              by_cases ho : o ∈ (s.cb cb).insts
              · by_cases hF : F o = true
                · cases hk : okay u o v <;> simp [expect, ho, hF, hk]
                · simp [expect, ho, hF]
              · simp [expect, ho]
      · cases hs
    · cases e
  | op i =>
    rcases hact with ⟨rfl, -⟩ | ⟨_, _, e, -⟩
    · have hst : starts 0 (acts ++ [.cb (.op i)]) = starts 0 acts := by
        rw [starts_append]; exact List.append_nil _
      have hcoll : collections (acts ++ [.cb (.op i)]) = collections acts := by
        rw [collections_snoc]; exact List.append_nil _
      have hen : ∀ j, ended j (acts ++ [.cb (.op i)]) = ended j acts := fun j => by rw [ended_snoc]; exact Bool.or_false _
      have keep : ∀ s2 : AState, s2.coll = s.coll → s2.nextCb = s.nextCb → s2.cb = s.cb → s2.nextOp = s.nextOp → (∀ j, (s2.op j).cb = (s.op j).cb) →
          Follows (acts ++ [.cb (.op i)]) s2 := by
        intro s2 e1 e2 e3 e4 e5
        refine ⟨by rw [hcoll, e1]; exact h.coll, by rw [hst, e2]; exact h.ncb, fun j hj => ?_, fun j hj => ?_, fun j hj => ?_⟩
        · rw [hst, hen, e3]; exact h.cbs j (e2 ▸ hj)
        · rw [hen] at hj; rw [e2]; exact h.past j hj
        · rw [e5, e2]; exact h.ops j (e4 ▸ hj)
      simp only [Async.step] at hs
      split at hs
      · cases hs
      · rename_i hi
        have hi : i < s.nextOp := by omega
        have opcb : ∀ (o' : Async.Op (List KV) Bits), o'.cb = (s.op i).cb → ∀ j, (upd s.op i o' j).cb = (s.op j).cb := by
          intro o' e j
          rw [upd_apply]
          by_cases e' : j = i
          · rw [if_pos e', e, e']
          · rw [if_neg e']
        have stay : ∀ (s2 : AState) (pc : Async.Pc), s2.cb = s.cb → s2.nextOp = s.nextOp → s2.op = upd s.op i { s.op i with pc := pc } → s2.log = s.log →
            will u s2 i = will u s i → Moves (u := u) (F := F) s s2 [] := by
          intro s2 pc e1 e2 e3 e4 e5
          refine .stays (by unfold logged; rw [e4]) ?_
          rw [List.append_nil]
          unfold pend
          rw [e2]
          refine filterMap_same fun j _ => ?_
          by_cases e : j = i
          · subst e
            unfold contrib
            rw [e5]
            unfold seenOf
            rw [e1, e3]
            simp only [upd_apply, if_true]
          · unfold contrib will seenOf
            rw [e1, e3]
            simp only [upd_apply, if_neg e]
        cases hpc : (s.op i).pc with
        | check =>
          rw [hpc] at hs
          dsimp only at hs
          split at hs
          · rename_i hc
            have hc' : ((s.cb (s.op i).cb).live && (s.cb (s.op i).cb).insts.contains (s.op i).obs &&
              Front.rangeTest (u.inst (s.op i).obs).num (s.op i).val (u.inst (s.op i).obs).kind) = true := hc
            split at hs <;> simp only [Option.some.injEq] at hs <;> subst hs
            · rename_i he
              have he : (u.leavesOf (s.op i).obs).isEmpty = true := he
              refine ⟨keep _ rfl rfl rfl rfl (opcb _ rfl), stay _ .rejected rfl rfl rfl rfl ?_⟩
              unfold will okay
              simp only [upd_apply, if_true, hpc, he]
              simp
            · rename_i he
              have he : ¬ (u.leavesOf (s.op i).obs).isEmpty = true := he
              refine ⟨keep _ rfl rfl rfl rfl (opcb _ rfl), stay _ .create rfl rfl rfl rfl ?_⟩
              unfold will okay
              simp only [upd_apply, if_true, hpc]
              rw [Bool.and_eq_true, Bool.and_eq_true] at hc'
              rw [hc'.1.1, hc'.1.2, hc'.2]
              simp only [Bool.not_eq_true] at he
              rw [he]
              rfl
          · rename_i hc
            simp only [Option.some.injEq] at hs
            subst hs
            have hc' : ¬ ((s.cb (s.op i).cb).live && (s.cb (s.op i).cb).insts.contains (s.op i).obs &&
              Front.rangeTest (u.inst (s.op i).obs).num (s.op i).val (u.inst (s.op i).obs).kind) = true := hc
            refine ⟨keep _ rfl rfl rfl rfl (opcb _ rfl), stay _ .rejected rfl rfl rfl rfl ?_⟩
            unfold will okay
            simp only [upd_apply, if_true, hpc]
            rw [← Bool.and_assoc]
            simp only [Bool.not_eq_true] at hc'
            rw [hc']
            rfl
        | create =>
          rw [hpc] at hs
          simp only [Option.some.injEq] at hs
          obtain ⟨g1, g2, g3, g4, g5, g6⟩ := AsyncPipeline.getOrCreate_rest (c := cfg u) (s := s) (n := (s.cb (s.op i).cb).coll) (o := (s.op i).obs) (k := (cfg u).canon (s.op i).obs (s.op i).set)
          subst hs
          refine ⟨keep _ g5 g2 g1 g4 (by intro j; dsimp only; rw [g3]; exact opcb { s.op i with pc := .update } rfl j), stay _ .update g1 g4 (by dsimp only; rw [g3]) g6 ?_⟩
          unfold will
          simp only [upd_apply, if_true, hpc]
        | update =>
          rw [hpc] at hs
          simp only [Option.some.injEq] at hs
          subst hs
          refine ⟨keep _ rfl rfl rfl rfl (opcb _ rfl), .moves i hi hpc rfl ?_ ?_⟩
          · unfold logged contrib will
            rw [hpc, List.filter_append, List.map_append]
            congr 1
            by_cases hF : F (s.op i).obs = true
            · simp [hF, seenOf]; rfl
            · simp [hF]
          · refine filterMap_same fun j _ => ?_
            by_cases e : j = i
            · subst e
              unfold contrib will
              simp only [upd_apply, if_true]
              simp
            · unfold contrib will seenOf
              simp only [upd_apply, if_neg e]
        | done => rw [hpc] at hs; cases hs
        | rejected => rw [hpc] at hs; cases hs
    · cases e
  | finish order =>
    rcases hact with ⟨rfl, e⟩ | ⟨order', q, e, rfl⟩
    · cases e
    · cases e
      simp only [Async.step] at hs
      split at hs
      · simp only [Option.some.injEq] at hs
        subst hs
        have hst : starts 0 (acts ++ [.collect order q]) = starts 0 acts := by
          rw [starts_append]; exact List.append_nil _
        have hen : ∀ i, ended i (acts ++ [.collect order q]) = ended i acts := fun i => by rw [ended_snoc]; exact Bool.or_false _
        refine ⟨⟨?_, ?_, ?_, ?_, h.ops⟩, .stays rfl ?_⟩
        · rw [collections_snoc, List.length_append, ← h.coll]; rfl
        · rw [hst]; exact h.ncb
        · intro i hi
          rw [hst, hen]
          exact h.cbs i hi
        · intro i hi
          rw [hen] at hi
          exact h.past i hi
        · show pend u F _ = pend u F s ++ []
          rw [List.append_nil]
          rfl
      · cases hs

theorem Follows.other {acts : List Act} {s : AState} (h : Follows acts s) {act : Act} (ha : (∃ i as n, act = .call i as n) ∨ ∃ a, act = .sched a) :
    Follows (acts ++ [act]) s ∧ counted acts act = none := by
  have hst : starts 0 (acts ++ [act]) = starts 0 acts := by
    rw [starts_append]; rcases ha with ⟨i, as, n, rfl⟩ | ⟨a, rfl⟩ <;> exact List.append_nil _
  have hcoll : collections (acts ++ [act]) = collections acts := by
    rw [collections_snoc]; rcases ha with ⟨i, as, n, rfl⟩ | ⟨a, rfl⟩ <;> exact List.append_nil _
  have hen : ∀ j, ended j (acts ++ [act]) = ended j acts := fun j => by
    rw [ended_snoc]; rcases ha with ⟨i, as, n, rfl⟩ | ⟨a, rfl⟩ <;> exact Bool.or_false _
  refine ⟨⟨by rw [hcoll]; exact h.coll, by rw [hst]; exact h.ncb, fun j hj => ?_, fun j hj => ?_, h.ops⟩, ?_⟩
  · rw [hst, hen]; exact h.cbs j hj
  · rw [hen] at hj; exact h.past j hj
  · rcases ha with ⟨i, as, n, rfl⟩ | ⟨a, rfl⟩ <;> rfl

theorem expect_append (as bs : List (Nat × Nat × List KV × Bits)) : expect u F (as ++ bs) = expect u F as ++ expect u F bs := List.filterMap_append ..

variable {H : Type} {P : Parts H} {R : Pipeline.Reader H}

/-- Callbacks return after the observations they started. -/
def Waits (P : Parts H) (R : Pipeline.Reader H) (acts : List Act) : Prop :=
  ∀ before cb after y, acts = before ++ .cb (.endCb cb) :: after → run P R (initial P) before = some y →
    ∀ i, i < y.async.nextOp → (y.async.op i).cb = cb → Live.Returned (y.async.op i)

/-- Observations of these instruments are made one after the other. -/
def InTurn (P : Parts H) (R : Pipeline.Reader H) (F : Nat → Prop) (acts : List Act) : Prop :=
  ∀ before cb o as v after y, acts = before ++ .cb (.observe cb o as v) :: after → run P R (initial P) before = some y → F o →
    ∀ i, i < y.async.nextOp → F (y.async.op i).obs → Live.Returned (y.async.op i)

/-- What one action does. -/
theorem follows_step {acts : List Act} {act : Act} {x x' : Sys H} (h : Follows acts x.async) (hr : run P R (initial P) acts = some x) (hs : step P R x act = some x')
    (hw : Waits P R (acts ++ [act])) :
    Follows (acts ++ [act]) x'.async ∧ Moves (u := P.u) (F := F) x.async x'.async (expect P.u F (counted acts act).toList) := by
  cases act with
  | call i as n =>
    simp only [step, Option.some.injEq] at hs
    obtain ⟨h1, h2⟩ := h.other (act := .call i as n) (.inl ⟨i, as, n, rfl⟩)
    have e : x'.async = x.async := by rw [← hs]
    rw [e, h2]
    exact ⟨h1, .stays rfl (List.append_nil _).symm⟩
  | sched a =>
    simp only [step] at hs
    split at hs
    · cases hs
    · obtain ⟨s, -, hs⟩ := Option.map_eq_some_iff.1 hs
      obtain ⟨h1, h2⟩ := h.other (act := .sched a) (.inr ⟨a, rfl⟩)
      have e : x'.async = x.async := by rw [← hs]
      rw [e, h2]
      exact ⟨h1, .stays rfl (List.append_nil _).symm⟩
  | cb a =>
    simp only [step] at hs
    split at hs
    · cases hs
    · rename_i hf
      obtain ⟨s, h1, hs⟩ := Option.map_eq_some_iff.1 hs
      have e : x'.async = s := by rw [← hs]
      rw [e]
      refine h.step (.inl ⟨rfl, by simpa using hf⟩) h1 fun cb ha i hi hc => ?_
      subst ha
      exact hw acts cb [] x rfl hr i hi hc
  | collect order q =>
    simp only [step] at hs
    obtain ⟨s, h1, hs⟩ := Option.map_eq_some_iff.1 hs
    have e : x'.async = s := by rw [← hs]
    rw [e]
    exact h.step (.inr ⟨order, q, rfl, rfl⟩) h1 fun cb ha => by cases ha

theorem follows_initial (P : Parts H) : Follows [] (initial P).async := by
  refine ⟨rfl, rfl, fun i hi => ?_, fun i hi => ?_, fun i hi => ?_⟩
  · exact absurd hi (Nat.not_lt_zero i)
  · cases hi
  · exact absurd hi (Nat.not_lt_zero i)

theorem Waits.before {acts more : List Act} (h : Waits P R (acts ++ more)) : Waits P R acts := by
  intro before cb after y e
  exact h before cb (after ++ more) y (by rw [e, List.append_assoc]; rfl)

theorem InTurn.before {F : Nat → Prop} {acts more : List Act} (h : InTurn P R F (acts ++ more)) : InTurn P R F acts := by
  intro before cb o as v after y e
  exact h before cb o as v (after ++ more) y (by rw [e, List.append_assoc]; rfl)

theorem run_snoc {acts : List Act} {a : Act} {x : Sys H} (h : run P R (initial P) (acts ++ [a]) = some x) :
    ∃ y, run P R (initial P) acts = some y ∧ step P R y a = some x := by
  rw [run_append] at h
  obtain ⟨y, h1, h2⟩ := Option.bind_eq_some_iff.1 h
  refine ⟨y, h1, ?_⟩
  rw [run] at h2
  obtain ⟨z, h3, h4⟩ := Option.bind_eq_some_iff.1 h2
  cases h4
  exact h3

theorem snoc_induction {α : Type} {motive : List α → Prop} (nil : motive []) (snoc : ∀ l a, motive l → motive (l ++ [a])) (l : List α) : motive l := by
  have : ∀ l : List α, motive l.reverse := by
    intro l
    induction l with
    | nil => exact nil
    | cons a l ih => rw [List.reverse_cons]; exact snoc _ _ ih
  have := this l.reverse
  rwa [List.reverse_reverse] at this

/-- What is seen or pending is what was observed. -/
theorem follows_run (acts : List Act) : ∀ {x : Sys H}, run P R (initial P) acts = some x → Waits P R acts →
    Follows acts x.async ∧ (logged F x.async ++ pend P.u F x.async).Perm (expect P.u F (observations acts)) := by
  induction acts using snoc_induction with
  | nil =>
    intro x hr _
    cases hr
    exact ⟨follows_initial P, List.Perm.refl _⟩
  | snoc acts a ih =>
    intro x hr hw
    obtain ⟨y, h1, h2⟩ := run_snoc hr
    obtain ⟨h3, h4⟩ := ih h1 hw.before
    obtain ⟨h5, h6⟩ := follows_step (F := F) h3 h1 h2 hw
    refine ⟨h5, ?_⟩
    rw [observations_snoc, expect_append]
    cases h6 with
    | stays hl hp =>
      rw [hl, hp, ← List.append_assoc]
      exact h4.append_right _
    | moves i hi hb hn hl hp =>
      rw [hn, hl, hp, List.append_nil, List.append_assoc]
      exact ((filterMap_take _ _ List.nodup_range (List.mem_range.2 hi)).symm.append_left _).trans h4

/-- At most one observation of these instruments is going on. -/
def Single (F : Nat → Bool) (s : AState) : Prop :=
  ∀ i j, i < s.nextOp → j < s.nextOp → F (s.op i).obs = true → F (s.op j).obs = true → busy s i → busy s j → i = j

theorem busy_step {s s' : AState} {a : Async.Action (List KV) Bits} (hs : Async.step (cfg u) s a = some s') (j : Nat) (hj : j < s'.nextOp) (hb : busy s' j) :
    (j < s.nextOp ∧ busy s j ∧ (s'.op j).obs = (s.op j).obs) ∨ (j = s.nextOp ∧ ∃ cb o as v, a = .observe cb o as v ∧ (s'.op j).obs = o) := by
  cases a with
  | startCb insts =>
    simp only [Async.step, Option.some.injEq] at hs
    subst hs
    exact .inl ⟨hj, hb, rfl⟩
  | endCb id =>
    simp only [Async.step] at hs
    split at hs
    · simp only [Option.some.injEq] at hs
      subst hs
      exact .inl ⟨hj, hb, rfl⟩
    · cases hs
  | observe cb o as v =>
    simp only [Async.step] at hs
    split at hs
    · simp only [Option.some.injEq] at hs
      subst hs
      have hj : j < s.nextOp + 1 := hj
      by_cases e : j = s.nextOp
      · refine .inr ⟨e, cb, o, as, v, rfl, ?_⟩
        show (upd s.op s.nextOp _ j).obs = o
        rw [upd_apply, if_pos e]
      · have e' : upd s.op s.nextOp { cb := cb, obs := o, set := as, val := v, pc := .check, startedLive := (s.cb cb).live } j = s.op j := by
          rw [upd_apply, if_neg e]
        refine .inl ⟨by omega, ?_, ?_⟩
        · unfold busy at hb ⊢
          dsimp only at hb
          rwa [e'] at hb
        · dsimp only
          rw [e']
    · cases hs
  | op i =>
    have key : ∀ o' : Async.Op (List KV) Bits, s'.op = upd s.op i o' → s'.nextOp = s.nextOp → o'.obs = (s.op i).obs → busy s i →
        (j < s.nextOp ∧ busy s j ∧ (s'.op j).obs = (s.op j).obs) := by
      intro o' e1 e2 e3 e4
      refine ⟨e2 ▸ hj, ?_, ?_⟩
      · by_cases e : j = i
        · rw [e]; exact e4
        · unfold busy at hb ⊢
          rwa [e1, upd_apply, if_neg e] at hb
      · rw [e1, upd_apply]
        by_cases e : j = i
        · rw [if_pos e, e3, e]
        · rw [if_neg e]
    refine .inl ?_
    simp only [Async.step] at hs
    split at hs
    · cases hs
    · cases hpc : (s.op i).pc with
      | check =>
        have hbi : busy s i := by unfold busy Live.Returned; rw [hpc]; simp
        rw [hpc] at hs
        dsimp only at hs
        split at hs
        · split at hs <;> simp only [Option.some.injEq] at hs <;> subst hs
          · exact key { s.op i with pc := .rejected } rfl rfl rfl hbi
          · exact key { s.op i with pc := .create } rfl rfl rfl hbi
        · simp only [Option.some.injEq] at hs
          subst hs
          exact key { s.op i with pc := .rejected } rfl rfl rfl hbi
      | create =>
        have hbi : busy s i := by unfold busy Live.Returned; rw [hpc]; simp
        rw [hpc] at hs
        simp only [Option.some.injEq] at hs
        obtain ⟨-, -, g3, g4, -, -⟩ := AsyncPipeline.getOrCreate_rest (c := cfg u) (s := s) (n := (s.cb (s.op i).cb).coll) (o := (s.op i).obs) (k := (cfg u).canon (s.op i).obs (s.op i).set)
        refine key { s.op i with pc := .update } (by rw [← hs]; dsimp only; rw [g3]) (by rw [← hs]; exact g4) rfl hbi
      | update =>
        have hbi : busy s i := by unfold busy Live.Returned; rw [hpc]; simp
        rw [hpc] at hs
        simp only [Option.some.injEq] at hs
        subst hs
        exact key { s.op i with pc := .done } rfl rfl rfl hbi
      | done => rw [hpc] at hs; cases hs
      | rejected => rw [hpc] at hs; cases hs
  | finish order =>
    simp only [Async.step] at hs
    split at hs
    · simp only [Option.some.injEq] at hs
      subst hs
      exact .inl ⟨hj, hb, rfl⟩
    · cases hs

theorem Single.step {s s' : AState} (h : Single F s) {a : Async.Action (List KV) Bits} (hs : Async.step (cfg u) s a = some s')
    (ht : ∀ cb o as v, a = .observe cb o as v → F o = true → ∀ i, i < s.nextOp → F (s.op i).obs = true → Live.Returned (s.op i)) : Single F s' := by
  intro i j hi hj hFi hFj hbi hbj
  rcases busy_step hs i hi hbi with ⟨a1, a2, a3⟩ | ⟨a1, cb, o, as, v, a2, a3⟩
  · rw [a3] at hFi
    rcases busy_step hs j hj hbj with ⟨b1, b2, b3⟩ | ⟨b1, cb, o, as, v, b2, b3⟩
    · rw [b3] at hFj
      exact h i j a1 b1 hFi hFj a2 b2
    · rw [b3] at hFj
      exact absurd (ht cb o as v b2 hFj i a1 hFi) a2
  · rw [a3] at hFi
    rcases busy_step hs j hj hbj with ⟨b1, b2, b3⟩ | ⟨b1, -⟩
    · rw [b3] at hFj
      exact absurd (ht cb o as v a2 hFi j b1 hFj) b2
    · rw [a1, b1]

theorem Single.sysStep {x x' : Sys H} (h : Single F x.async) {act : Act} (hs : Whole.step P R x act = some x')
    (ht : ∀ cb o as v, act = .cb (.observe cb o as v) → F o = true → ∀ i, i < x.async.nextOp → F (x.async.op i).obs = true → Live.Returned (x.async.op i)) :
    Single F x'.async := by
  cases act with
  | call i as n =>
    simp only [Whole.step, Option.some.injEq] at hs
    rw [← hs]; exact h
  | sched a =>
    simp only [Whole.step] at hs
    split at hs
    · cases hs
    · obtain ⟨s, -, hs⟩ := Option.map_eq_some_iff.1 hs
      rw [← hs]; exact h
  | cb a =>
    simp only [Whole.step] at hs
    split at hs
    · cases hs
    · obtain ⟨s, h1, hs⟩ := Option.map_eq_some_iff.1 hs
      rw [← hs]
      exact h.step h1 fun cb o as v e => ht cb o as v (by rw [e])
  | collect order q =>
    simp only [Whole.step] at hs
    obtain ⟨s, h1, hs⟩ := Option.map_eq_some_iff.1 hs
    rw [← hs]
    exact h.step h1 fun cb o as v e => by cases e

/-- When they are made in turn, they are seen in order. -/
theorem follows_turn (acts : List Act) : ∀ {x : Sys H}, run P R (initial P) acts = some x → Waits P R acts → InTurn P R (fun o => F o = true) acts →
    Single F x.async ∧ logged F x.async ++ pend P.u F x.async = expect P.u F (observations acts) := by
  induction acts using snoc_induction with
  | nil =>
    intro x hr _ _
    cases hr
    exact ⟨fun i _ hi => absurd hi (Nat.not_lt_zero i), rfl⟩
  | snoc acts a ih =>
    intro x hr hw ht
    obtain ⟨y, h1, h2⟩ := run_snoc hr
    obtain ⟨h3, h4⟩ := ih h1 hw.before ht.before
    obtain ⟨-, h6⟩ := follows_step (F := F) (follows_run (F := F) acts h1 hw.before).1 h1 h2 hw
    refine ⟨h3.sysStep h2 fun cb o as v e hF i hi hFi => ?_, ?_⟩
    · subst e
      exact ht acts cb o as v [] y rfl h1 hF i hi hFi
    · rw [observations_snoc, expect_append]
      cases h6 with
      | stays hl hp => rw [hl, hp, ← List.append_assoc, h4]
      | moves i hi hb hn hl hp =>
        rw [hn, hl, hp, List.append_nil, ← h4, List.append_assoc]
        congr 1
        cases hc : contrib P.u F y.async i with
        | none =>
          show (List.range _).filterMap _ = (List.range _).filterMap _
          refine filterMap_same fun j _ => ?_
          by_cases e : j = i
          · rw [if_pos e, e, hc]
          · rw [if_neg e]
        | some e =>
          have hFi : F (y.async.op i).obs = true := by
            unfold contrib at hc
            split at hc
            · rename_i hh
              exact (Bool.and_eq_true _ _ ▸ hh).1
            · cases hc
          have hbi : busy y.async i := by unfold busy Live.Returned; rw [hb]; simp
          have none_else : ∀ j ∈ List.range y.async.nextOp, j ≠ i → contrib P.u F y.async j = none := by
            intro j hj hne
            unfold contrib
            split
            · rename_i hh
              rw [Bool.and_eq_true] at hh
              exact absurd (h3 j i (List.mem_range.1 hj) hi hh.1 hFi (will_busy hh.2) hbi) hne
            · rfl
          have e1 : (List.range y.async.nextOp).filterMap (fun j => if j = i then none else contrib P.u F y.async j) = [] := by
            rw [List.filterMap_eq_nil_iff]
            intro j hj
            by_cases e : j = i
            · rw [if_pos e]
            · rw [if_neg e]; exact none_else j hj e
          have hp := filterMap_take (contrib P.u F y.async) _ List.nodup_range (List.mem_range.2 hi)
          rw [e1, List.append_nil, hc] at hp
          rw [e1, List.append_nil]
          exact (List.perm_singleton.1 hp).symm

theorem pend_none {s : AState} (h : ∀ i, i < s.nextOp → F (s.op i).obs = true → Live.Returned (s.op i)) : pend u F s = [] := by
  unfold pend
  rw [List.filterMap_eq_nil_iff]
  intro i hi
  unfold contrib
  split
  · rename_i hh
    rw [Bool.and_eq_true] at hh
    exact absurd (h i (List.mem_range.1 hi) hh.1) (will_busy hh.2)
  · rfl

end Verif.Whole

namespace Verif.Live
open Verif.Attr Verif.Number Verif.Aggr Verif.Assembly
variable {C G ν : Type} [DecidableEq C] {farm : Str → UInt64} {w : World C G} {fsub : Bits → Bits → Bits} {x : Views.Ext C} {pipe : Nat}
  {views : List (Views.Views C)} {acts : List (Act ν)} {z : Sys C G ν}

theorem Waits.static (hr : run farm w fsub x pipe (initial farm w fsub z.p views pipe) acts = some z)
    (h : Waits farm w fsub x pipe (initial farm w fsub z.p views pipe) acts) : Whole.Waits (Whole.parts farm w fsub z.p pipe) (reader w z.p pipe) (rest acts) := by
  intro b cb a y hsplit hrun
  obtain ⟨before, aft, rfl, rfl, rfl⟩ := rest_split hsplit
  obtain ⟨yb, tb, k1, -, -, k4, k5⟩ := middle hr rfl
  rw [hrun] at k4
  cases k4
  have e : y.async = yb.s.async := by rw [k5.state]
  rw [e]
  exact h before cb aft yb rfl k1

theorem InTurn.static {F : Nat → Prop} (hr : run farm w fsub x pipe (initial farm w fsub z.p views pipe) acts = some z)
    (h : InTurn farm w fsub x pipe (initial farm w fsub z.p views pipe) F acts) : Whole.InTurn (Whole.parts farm w fsub z.p pipe) (reader w z.p pipe) F (rest acts) := by
  intro b cb o as v a y hsplit hrun
  obtain ⟨before, aft, rfl, rfl, rfl⟩ := rest_split hsplit
  obtain ⟨yb, tb, k1, -, -, k4, k5⟩ := middle hr rfl
  rw [hrun] at k4
  cases k4
  have e : y.async = yb.s.async := by rw [k5.state]
  rw [e]
  exact h before cb o as v aft yb rfl k1

/-- Calls are made on instruments of the provider. -/
theorem Running.held (h : Running farm w fsub x views pipe acts z) : ∀ e ∈ Whole.calls (rest acts), holds w z.p e.1 = true := by
  intro e he
  obtain ⟨a, ha, hae⟩ := List.mem_filterMap.1 he
  cases a with
  | call i as n =>
    cases hae
    obtain ⟨b, c, hbc⟩ := List.append_of_mem ha
    obtain ⟨before, after, rfl, -, -⟩ := rest_split hbc
    obtain ⟨yb, -, -, j2, j3, -, -⟩ := middle h.runs rfl
    rw [Live.run] at j2
    obtain ⟨y1, j4, -⟩ := Option.bind_eq_some_iff.1 j2
    simp only [Live.step] at j4
    split at j4
    · rename_i hpos
      exact j3.holds hpos
    · cases j4
  | sched _ => cases hae
  | cb _ => cases hae
  | collect _ _ => cases hae

end Verif.Live

namespace Verif.Launched
open Verif.Attr Verif.Number Verif.Aggr Verif.Assembly Verif.Instruments
open Verif.Front (IKind)
open Verif.Views (Tempo)
open Verif.Provider (Provider Call Meter)
variable {C G ν : Type} [DecidableEq C]

/-- What `RangeTest` rejects is what is not accepted. -/
theorem rejected_iff (c : Ctor) (v : Bits) : Props.Rejected c.kinds.1 c.kinds.2 v ↔ ¬ Accepts c v := by
  unfold Props.Rejected Accepts
  by_cases hf : Finite v <;> cases c <;> simp [Ctor.kinds, Props.promise, hf, Int.not_le]

theorem rangeTest_iff (c : Ctor) (v : Bits) : Front.rangeTest c.kinds.1 v c.kinds.2 = true ↔ Accepts c v := by
  have h := (Props.C09_range_test c.kinds.1 c.kinds.2 v).trans (rejected_iff c v)
  cases hr : Front.rangeTest c.kinds.1 v c.kinds.2 with
  | false => rw [hr] at h; exact ⟨fun h' => (Bool.noConfusion h'), fun h' => absurd h' (h.1 rfl)⟩
  | true =>
    rw [hr] at h
    refine ⟨fun _ => Classical.byContradiction fun hn => ?_, fun _ => rfl⟩
    have := h.2 hn
    cases this

theorem instAt_addr {p : Provider C ν} {k i : Nat} {m : Meter C ν} {o : Provider.Inst} (h1 : p.ordered[k]? = some m) (h2 : m.insts[i]? = some o) :
    instAt p (instAddr k i) = some o := by
  unfold instAt instAddr
  rw [unpair_pair]
  show (p.ordered[k]?).bind _ = _
  rw [h1]
  exact h2

/-- An instrument with the name has the kinds of the constructor. -/
theorem called_made {x : Views.Ext C} {vs : List (Views.Views C)} {cs : List (Call ν)} {p : Provider C ν} {k : Nat} {c : Ctor} {n : Str} {id : Nat}
    (hm : p = Provider.run x (Provider.new vs) cs) (h : MadeBy cs k c n) (hc : Called p k n id) :
    ∃ o, instAt p id = some o ∧ o.desc.kind = c.kinds.2 ∧ o.desc.num = c.kinds.1 := by
  obtain ⟨m, i, o, h1, h2, h3, rfl⟩ := hc
  have ha : Assembled x vs cs p := by rw [hm]; exact assembled x vs cs
  obtain ⟨ds, hds, ht⟩ := ha.traced k m h1
  obtain ⟨text, unit, hd⟩ := h o.desc (hds _ (ht.insts o (List.mem_of_getElem? h2))) h3
  exact ⟨o, instAt_addr h1 h2, by rw [hd]; rfl, by rw [hd]; rfl⟩

theorem sizeLimit_eq (e : Outside C G) (pc : Launcher.PipelineConfig) : (world e pc).sizeLimit = 8192 := rfl

omit [DecidableEq C] in
theorem rejected_on {w : World C G} {p : Provider C ν} {k : Nat} {c : Ctor} {n : Str} {acts : List Whole.Act}
    (hh : ∀ e ∈ Whole.calls acts, Live.holds w p e.1 = true)
    (hc : ∀ id, Called p k n id → ∃ o, instAt p id = some o ∧ o.desc.kind = c.kinds.2 ∧ o.desc.num = c.kinds.1) :
    ∀ e ∈ Whole.calls acts, Called p k n e.1.id → (Props.Rejected e.1.num e.1.kind e.2.2 ↔ ¬ Accepts c e.2.2) := by
  intro e he hcal
  obtain ⟨o, h1, h2, h3⟩ := hc _ hcal
  have := hh e he
  unfold Live.holds at this
  rw [h1] at this
  simp only [Bool.and_eq_true, decide_eq_true_eq] at this
  obtain ⟨⟨⟨-, h4⟩, h5⟩, -⟩ := this
  rw [h4, h5, h2, h3]
  exact rejected_iff c _

omit [DecidableEq C] in
theorem attrs_used {w : World C G} (hw : w.sizeLimit = 8192) {p : Provider C ν} {acts : List Whole.Act} (hh : ∀ e ∈ Whole.calls acts, Live.holds w p e.1 = true) :
    ∀ e ∈ Whole.calls acts, e.1.attrs e.2.1 = usedAttrs e.1.proc e.2.1 := by
  intro e he
  have := hh e he
  unfold Live.holds at this
  cases h1 : instAt p e.1.id with
  | none => rw [h1] at this; cases this
  | some o =>
    rw [h1] at this
    simp only [Bool.and_eq_true, decide_eq_true_eq] at this
    unfold Front.Inst.attrs usedAttrs
    rw [this.2, hw]
    cases e.1.proc <;> rfl

omit [DecidableEq C] in
open Classical in
theorem recorded_on {w : World C G} (hw : w.sizeLimit = 8192) {p : Provider C ν} {k : Nat} {c : Ctor} {n : Str} {acts : List Whole.Act}
    (hh : ∀ e ∈ Whole.calls acts, Live.holds w p e.1 = true)
    (hc : ∀ id, Called p k n id → ∃ o, instAt p id = some o ∧ o.desc.kind = c.kinds.2 ∧ o.desc.num = c.kinds.1) (Q : List KV → Prop) :
    recordedBy p k n Q (Whole.syncActs acts) = recordedOn p k c n Q acts := by
  unfold recordedBy recordedOn
  rw [Whole.calls_sync]
  congr 1
  apply List.filter_congr
  intro e he
  rw [decide_eq_decide, attrs_used hw hh e he]
  constructor
  · rintro ⟨h1, h2, h3⟩
    exact ⟨h3, Classical.byContradiction fun h => h1 ((rejected_on hh hc e he h3).2 h), h2⟩
  · rintro ⟨h1, h2, h3⟩
    exact ⟨fun h => (rejected_on hh hc e he h1).1 h h2, h3, h1⟩

open Classical in
/-- The observations which counted, for instruments made by the constructor which are connected. -/
theorem observed_core {e : Outside C G} {pc : Launcher.PipelineConfig} {t : IKind → Tempo} {acts : List (Live.Act ν)} {z : Live.Sys C G ν} {k : Nat} {c : Ctor} {n : Str}
    (hp : Runs e pc t acts z) (hm : MadeBy (Live.makes acts) k c n) (hf : ∀ id, Called z.p k n id → asyncLeavesOf z.p 0 id ≠ [])
    (hw : Waits e pc t z.p acts) (hd : Finished z.p k n z) :
    ((Whole.seenIn z.s).filter (fun v => decide (Called z.p k n v.2.1))).Perm (observedOn z.p k c n (Live.rest acts)) ∧
      (InTurn e pc t z.p k n acts → (Whole.seenIn z.s).filter (fun v => decide (Called z.p k n v.2.1)) = observedOn z.p k c n (Live.rest acts)) := by
  obtain ⟨y, s, h1, h2, -, h4, h5⟩ := Live.middle (acts := acts) (after := []) (by rw [List.append_nil]; exact hp.runs) rfl
  cases h2
  have hasync : s.async = z.s.async := by rw [h5.state]
  have hpend : Whole.pend (Whole.parts e.farm (world e pc) e.fsub z.p 0).u (fun o => decide (Called z.p k n o)) s.async = [] := by
    apply Whole.pend_none
    rw [hasync]
    exact fun i hi hF => hd i hi (of_decide_eq_true hF)
  have hlog : Whole.logged (fun o => decide (Called z.p k n o)) s.async = (Whole.seenIn z.s).filter (fun v => decide (Called z.p k n v.2.1)) := by
    unfold Whole.logged Whole.seenIn
    rw [hasync, List.filter_map]
    rfl
  have hexp : Whole.expect (Whole.parts e.farm (world e pc) e.fsub z.p 0).u (fun o => decide (Called z.p k n o)) (Whole.observations (Live.rest acts)) =
      observedOn z.p k c n (Live.rest acts) := by
    unfold Whole.expect observedOn
    induction Whole.observations (Live.rest acts) with
    | nil => rfl
    | cons a l ih =>
      rw [List.filterMap_cons, List.filter_cons]
      by_cases hC : Called z.p k n a.2.1
      · obtain ⟨o, h6, h7, h8⟩ := called_made (Live.run_prov hp.runs) hm hC
        have hin : asyncInst (world e pc) z.p a.2.1 = { id := a.2.1, kind := c.kinds.2, num := c.kinds.1, sizeLimit := 8192, proc := none } := by
          unfold asyncInst
          rw [h6]
          dsimp only
          rw [h7, h8]
          rfl
        have hok : Whole.okay (Whole.parts e.farm (world e pc) e.fsub z.p 0).u a.2.1 a.2.2.2 = Front.rangeTest c.kinds.1 a.2.2.2 c.kinds.2 := by
          show (Front.rangeTest (asyncInst (world e pc) z.p a.2.1).num a.2.2.2 (asyncInst (world e pc) z.p a.2.1).kind && !(asyncLeavesOf z.p 0 a.2.1).isEmpty) = _
          have : (asyncLeavesOf z.p 0 a.2.1).isEmpty = false := by
            rw [← Bool.not_eq_true, List.isEmpty_iff]
            exact hf _ hC
          rw [hin, this]
          simp
        have hset : (Whole.parts e.farm (world e pc) e.fsub z.p 0).u.set a.2.1 a.2.2.1 = usedSet a.2.2.1 := by
          show newSet (truncate (asyncInst (world e pc) z.p a.2.1).sizeLimit (newSet a.2.2.1)) = _
          rw [hin]
          rfl
        rw [hok, hset]
        by_cases hA : Accepts c a.2.2.2
        · rw [if_pos (by simp [hC, (rangeTest_iff c _).2 hA]), if_pos (by simp [hC, hA]), List.map_cons, ih]
        · rw [if_neg (by simp [mt (rangeTest_iff c _).1 hA]), if_neg (by simp [hA]), ih]
      · rw [if_neg (by simp [hC]), if_neg (by simp [hC]), ih]
  constructor
  · have := (Whole.follows_run (F := fun o => decide (Called z.p k n o)) (Live.rest acts) h4 (hw.static hp.runs)).2
    rw [hpend, List.append_nil, hlog, hexp] at this
    exact this
  · intro ht
    have ht' := Live.InTurn.static hp.runs ht
    have := (Whole.follows_turn (F := fun o => decide (Called z.p k n o)) (Live.rest acts) h4 (hw.static hp.runs) (by
      intro b cb o as v a y hs hr hF i hi hFi
      exact ht' b cb o as v a y hs hr (of_decide_eq_true hF) i hi (of_decide_eq_true hFi))).2
    rw [hpend, List.append_nil, hlog, hexp] at this
    exact this

/-- Instruments shown by a view of observable instruments are connected. -/
theorem connected {e : Outside C G} {pc : Launcher.PipelineConfig} {t : IKind → Tempo} {cs : List (Call ν)} {p : Provider C ν} {k : Nat} {sc : Views.Scope} {n : Str} {L : Look C}
    (h : Viewed e.x (views e t) cs p 0 k (view e t) sc n L) (hasy : L.sync = false) (id : Nat) (hc : Called p k n id) : asyncLeavesOf p 0 id ≠ [] := by
  obtain ⟨o, hw⟩ := async_fed (world e pc) e.fsub h hasy
  have hc' : Feeds p k (view e t) sc n id := by rw [feeds_eq]; exact hc
  unfold Feeds at hc'
  rw [← hw.count id] at hc'
  have := List.count_pos_iff.1 hc'
  exact List.ne_nil_of_mem this

/-! ### What is shown depends on these observations -/

variable {F : Nat → Prop} {obs obs' : List Seen}

open Classical in
/-- The same observations of these instruments. -/
def SamePart (F : Nat → Prop) (obs obs' : List Seen) : Prop := obs.filter (fun v => decide (F v.2.1)) = obs'.filter (fun v => decide (F v.2.1))

theorem SamePart.mem (h : SamePart F obs obs') {e : Seen} (hF : F e.2.1) : e ∈ obs ↔ e ∈ obs' := by
  classical
  have : e ∈ obs.filter (fun v => decide (F v.2.1)) ↔ e ∈ obs'.filter (fun v => decide (F v.2.1)) := by unfold SamePart at h; rw [h]
  simpa [List.mem_filter, hF] using this

theorem SamePart.last (h : SamePart F obs obs') {id : Nat} (hF : F id) (t : Nat) (a : List KV) : lastSeen obs t id a = lastSeen obs' t id a := by
  classical
  unfold lastSeen
  have key : ∀ l : List Seen, l.filter (fun e => decide (e.1 = t ∧ e.2.1 = id ∧ e.2.2.1 = a)) =
      (l.filter (fun v => decide (F v.2.1))).filter (fun e => decide (e.1 = t ∧ e.2.1 = id ∧ e.2.2.1 = a)) := by
    intro l
    rw [List.filter_filter]
    apply List.filter_congr
    intro v _
    by_cases hv : v.2.1 = id
    · rw [hv]; simp [hF]
    · simp [hv]
  unfold SamePart at h
  rw [key obs, key obs', h]

theorem SamePart.shows (h : SamePart F obs obs') (keys : Option (List Str)) : Shows F keys obs = Shows F keys obs' := by
  funext t a
  unfold Shows
  exact propext ⟨fun ⟨e, h1, h2, h3, h4⟩ => ⟨e, (h.mem h3).1 h1, h2, h3, h4⟩, fun ⟨e, h1, h2, h3, h4⟩ => ⟨e, (h.mem h3).2 h1, h2, h3, h4⟩⟩

theorem SamePart.few (h : SamePart F obs obs') (keys : Option (List Str)) (lim : Nat) : FewSets F keys lim obs = FewSets F keys lim obs' := by
  funext t
  unfold FewSets
  exact propext ⟨fun ⟨B, h1, h2⟩ => ⟨B, h1, fun e he ht hF => h2 e ((h.mem hF).2 he) ht hF⟩, fun ⟨B, h1, h2⟩ => ⟨B, h1, fun e he ht hF => h2 e ((h.mem hF).1 he) ht hF⟩⟩

omit [DecidableEq C] in
theorem SamePart.amount (h : SamePart F obs obs') (w : World C G) (keys : Option (List Str)) (agg : Views.AggKind) (num : Kind) :
    Amount w F keys agg num obs = Amount w F keys agg num obs' := by
  funext t a y
  have : ∀ ps, LastValues F keys obs t a ps = LastValues F keys obs' t a ps := by
    intro ps
    unfold LastValues
    congr 1
    refine propext ⟨fun h' id set y => (h' id set y).trans ?_, fun h' id set y => (h' id set y).trans ?_⟩
    · exact ⟨fun ⟨h1, h2, h3⟩ => ⟨h1, h2, by rw [← h.last h1]; exact h3⟩, fun ⟨h1, h2, h3⟩ => ⟨h1, h2, by rw [h.last h1]; exact h3⟩⟩
    · exact ⟨fun ⟨h1, h2, h3⟩ => ⟨h1, h2, by rw [h.last h1]; exact h3⟩, fun ⟨h1, h2, h3⟩ => ⟨h1, h2, by rw [← h.last h1]; exact h3⟩⟩
  unfold Amount
  simp only [this]

omit [DecidableEq C] in
theorem SamePart.before (h : SamePart F obs obs') (w : World C G) (keys : Option (List Str)) (agg : Views.AggKind) (num : Kind) :
    AmountBefore w F keys agg num obs = AmountBefore w F keys agg num obs' := by
  funext t a y
  unfold AmountBefore
  rw [h.amount]

theorem SamePart.all (h : SamePart F obs obs') {Q : Seen → Prop} (hq : ∀ o ∈ obs', F o.2.1 → Q o) : ∀ o ∈ obs, F o.2.1 → Q o :=
  fun o ho hF => hq o ((h.mem hF).1 ho) hF

omit [DecidableEq C] in
theorem same_part {p : Provider C ν} {k : Nat} {c : Ctor} {n : Str} {acts : List Whole.Act}
    (h : open Classical in obs.filter (fun v => decide (Called p k n v.2.1)) = observedOn p k c n acts) : SamePart (Called p k n) obs (observedOn p k c n acts) := by
  unfold SamePart
  rw [h]
  symm
  rw [List.filter_eq_self]
  intro v hv
  unfold observedOn at hv
  obtain ⟨e, he, rfl⟩ := List.mem_map.1 hv
  have := (List.mem_filter.1 he).2
  simp only [decide_eq_true_eq] at this
  simp only [decide_eq_true_eq]
  exact this.1

end Verif.Launched
