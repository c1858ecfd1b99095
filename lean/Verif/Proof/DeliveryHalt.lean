import Verif.Spec.Progress
import Verif.Proof.SyncHalt
import Verif.Proof.DeliveryDone

/-!
Helper file: while nothing new begins, the system with its reader makes only finitely many steps.
-/

namespace Verif

/-- Lexicographic comparison by a list of measures. -/
def LexBy {α : Type} : List (α → Nat) → α → α → Prop
  | [], _, _ => False
  | m :: ms, a, b => m a < m b ∨ (m a = m b ∧ LexBy ms a b)

theorem lexBy_wf {α : Type} (ms : List (α → Nat)) : WellFounded (LexBy ms) := by
  induction ms with
  | nil => exact ⟨fun a => ⟨a, fun _ h => h.elim⟩⟩
  | cons m ms ih =>
    have h1 : WellFounded (Prod.Lex (· < · : Nat → Nat → Prop) (LexBy ms)) := ⟨fun a => Prod.lexAccessible (Nat.lt_wfRel.wf.apply a.1) (fun b => ih.apply b) a.2⟩
    refine Subrelation.wf (r := InvImage (Prod.Lex (· < ·) (LexBy ms)) (fun a => (m a, a))) ?_ (InvImage.wf _ h1)
    intro a b h
    rcases h with h | ⟨h, h'⟩
    · exact Prod.Lex.left _ _ h
    · show Prod.Lex _ _ (m a, a) (m b, b)
      rw [h]
      exact Prod.Lex.right _ h'

theorem lexBy_irrefl {α : Type} (ms : List (α → Nat)) (a : α) : ¬ LexBy ms a a := by
  induction ms with
  | nil => exact id
  | cons m ms ih =>
    rintro (h | ⟨-, h⟩)
    · omega
    · exact ih h

theorem sum_set {α : Type} (f : α → Nat) {l : List α} {t : Nat} {a : α} (h : l[t]? = some a) (b : α) : ((l.set t b).map f).sum + f a = (l.map f).sum + f b := by
  induction l generalizing t with
  | nil => cases h
  | cons c l ih =>
    cases t with
    | zero => cases h; simp; omega
    | succ t => have := ih (t := t) h; rw [List.set_cons_succ, List.map_cons, List.sum_cons, List.map_cons, List.sum_cons]; omega

namespace Periodic

/-- How far a thread is from its return, or from its select. -/
def Pos.rank : Pos → Nat
  | .start => 7
  | .stopped => 6
  | .wait => 5
  | .crit .locked => 4
  | .crit .produced => 3
  | .crit .exporting => 2
  | .idle => 1
  | .done => 0

def rank (s : State) : Nat := (s.threads.map (fun th => th.pos.rank)).sum + if s.chan then 10 else 0

theorem rank_move {s : State} {t : Nat} {th : Thread} (h : s.threads[t]? = some th) (p : Pos) : rank (s.move t th p) + th.pos.rank = rank s + p.rank := by
  have := sum_set (fun th : Thread => th.pos.rank) h { th with pos := p }
  unfold rank State.move
  dsimp only at this ⊢
  omega

/-- A thread which goes on comes closer to its return. -/
theorem go_rank (s : State) (t : Nat) (quit : Bool) : step s (.go t quit) = s ∨ rank (step s (.go t quit)) < rank s := by
  simp only [step]
  cases ht : s.threads[t]? with
  | none => exact .inl rfl
  | some th =>
    dsimp only
    unfold advance
    cases hp : th.pos with
    | idle =>
      dsimp only
      unfold select
      by_cases hq : quit = true
      · rw [if_pos hq]
        split
        · right
          have := rank_move ht .done
          rw [hp] at this
          simp only [Pos.rank] at this
          omega
        · exact .inl rfl
      · rw [if_neg hq]
        split
        · rename_i hc
          right
          have h1 := rank_move (s := { s with chan := false }) (t := t) (th := th) ht .wait
          have h2 : rank { s with chan := false } + 10 = rank s := by simp [rank, hc]
          rw [hp] at h1
          simp only [Pos.rank] at h1
          omega
        · exact .inl rfl
    | start =>
      right
      have h1 := rank_move (s := { s with cancelled := true }) (t := t) (th := th) ht .stopped
      have h2 : rank { s with cancelled := true } = rank s := rfl
      rw [hp] at h1
      simp only [Pos.rank] at h1
      dsimp only
      omega
    | stopped =>
      dsimp only
      split
      · right
        have h1 := rank_move ht .wait
        rw [hp] at h1
        simp only [Pos.rank] at h1
        omega
      · exact .inl rfl
    | wait =>
      dsimp only
      split
      · right
        have h1 := rank_move (s := { s with lock := some t }) (t := t) (th := th) ht (.crit .locked)
        have h2 : rank { s with lock := some t } = rank s := rfl
        rw [hp] at h1
        simp only [Pos.rank] at h1
        omega
      · exact .inl rfl
    | crit c =>
      right
      dsimp only
      unfold inside
      cases c with
      | locked =>
        have h1 := rank_move (s := { s with log := s.log ++ [(t, .collect)] }) (t := t) (th := th) ht (.crit .produced)
        have h2 : rank { s with log := s.log ++ [(t, .collect)] } = rank s := rfl
        rw [hp] at h1
        simp only [Pos.rank] at h1
        dsimp only
        omega
      | produced =>
        have h1 := rank_move (s := { s with log := s.log ++ [(t, .export th.kind)] }) (t := t) (th := th) ht (.crit .exporting)
        have h2 : rank { s with log := s.log ++ [(t, .export th.kind)] } = rank s := rfl
        rw [hp] at h1
        simp only [Pos.rank] at h1
        dsimp only
        omega
      | exporting =>
        have h1 := rank_move (s := { s with log := s.log ++ [(t, .returned)], lock := none }) (t := t) (th := th) ht (if th.kind = .tick then .idle else .done)
        have h2 : rank { s with log := s.log ++ [(t, .returned)], lock := none } = rank s := rfl
        have h3 : (if th.kind = .tick then Pos.idle else .done).rank ≤ 1 := by split <;> simp [Pos.rank]
        rw [hp] at h1
        dsimp only
        have h4 : (Pos.crit .exporting).rank = 2 := rfl
        omega
    | done => exact .inl rfl

/-- The return of `Produce` is such a step. -/
theorem returns_rank {s : State} {t : Nat} {quit : Bool} (h : Delivery.returns s (.go t quit) = true) : rank (step s (.go t quit)) < rank s := by
  simp only [Delivery.returns] at h
  cases ht : s.threads[t]? with
  | none => rw [ht] at h; cases h
  | some th =>
    rw [ht] at h
    have hp : th.pos = .crit .locked := of_decide_eq_true h
    have h1 := rank_move (s := { s with log := s.log ++ [(t, .collect)] }) (t := t) (th := th) ht (.crit .produced)
    have h2 : rank { s with log := s.log ++ [(t, .collect)] } = rank s := rfl
    rw [hp] at h1
    simp only [Pos.rank] at h1
    simp only [step, ht, advance, hp, inside]
    omega

/-- When no thread goes on and nobody is within `Produce`, all have returned but the loop at its select. -/
theorem stuck {s : State} (h : Inv s) (hs : ∀ t quit, step s (.go t quit) = s) :
    ∀ (t : Nat) (th : Thread), s.threads[t]? = some th → th.pos = .done ∨ (t = 0 ∧ th.pos = .idle ∧ s.chan = false ∧ s.cancelled = false) := by
  have hmove : ∀ (y : State) (t : Nat) (th : Thread) (p : Pos), y.move t th p = s → y.threads = s.threads → s.threads[t]? = some th → p = th.pos := by
    intro y t th p he hy ht
    have h1 : (y.move t th p).threads[t]? = some { th with pos := p } := by
      simp only [State.move, hy]
      rw [get_set ht, if_pos rfl]
    rw [he, ht] at h1
    cases th
    injection h1 with h1
    injection h1 with _ h1
    exact h1.symm
  have hcrit : ∀ (t : Nat) (th : Thread) (c : Crit), s.threads[t]? = some th → th.pos ≠ .crit c := by
    intro t th c ht hp
    have h1 := hs t false
    simp only [step, ht, advance, hp] at h1
    cases c with
    | locked => have := hmove _ t th _ h1 rfl ht; rw [hp] at this; cases this
    | produced => have := hmove _ t th _ h1 rfl ht; rw [hp] at this; cases this
    | exporting =>
      have := hmove _ t th _ h1 rfl ht
      rw [hp] at this
      split at this <;> cases this
  have hlock : s.lock = none := by
    cases hl : s.lock with
    | none => rfl
    | some t =>
      obtain ⟨th, c, h1, h2⟩ := (h.lock t).1 hl
      exact absurd h2 (hcrit t th c h1)
  have hwait : ∀ (t : Nat) (th : Thread), s.threads[t]? = some th → th.pos ≠ .wait := by
    intro t th ht hp
    have h1 := hs t false
    simp only [step, ht, advance, hp, hlock, if_true] at h1
    have := hmove _ t th _ h1 rfl ht
    rw [hp] at this
    cases this
  have hidle : ∀ (t : Nat) (th : Thread), s.threads[t]? = some th → th.pos = .idle → t = 0 ∧ s.chan = false ∧ s.cancelled = false := by
    intro t th ht hp
    refine ⟨Classical.byContradiction fun hn => (h.calls t th ht hn).2 hp, ?_, ?_⟩
    · have h1 := hs t false
      simp only [step, ht, advance, hp, select] at h1
      cases hc : s.chan with
      | false => rfl
      | true =>
        rw [hc] at h1
        have := hmove _ t th _ h1 rfl ht
        rw [hp] at this
        cases this
    · have h1 := hs t true
      simp only [step, ht, advance, hp, select] at h1
      cases hc : s.cancelled with
      | false => rfl
      | true =>
        rw [hc] at h1
        have := hmove _ t th _ h1 rfl ht
        rw [hp] at this
        cases this
  intro t th ht
  cases hp : th.pos with
  | done => exact .inl rfl
  | idle => obtain ⟨h1, h2, h3⟩ := hidle t th ht hp; exact .inr ⟨h1, rfl, h2, h3⟩
  | wait => exact absurd hp (hwait t th ht)
  | crit c => exact absurd hp (hcrit t th c ht)
  | start =>
    have h1 := hs t false
    simp only [step, ht, advance, hp] at h1
    have := hmove _ t th _ h1 rfl ht
    rw [hp] at this
    cases this
  | stopped =>
    exfalso
    have h1 := hs t false
    simp only [step, ht, advance, hp] at h1
    split at h1
    · have := hmove _ t th _ h1 rfl ht
      rw [hp] at this
      cases this
    · rename_i hl
      have hcan := h.stop t th ht (.inr hp)
      obtain ⟨p0, h2, h3, h4⟩ := h.loop
      cases p0 with
      | done => exact hl ((loopDone_iff s).2 ⟨_, h2, rfl⟩)
      | idle => have := (hidle 0 _ h2 rfl).2.2; rw [hcan] at this; cases this
      | wait => exact hwait 0 _ h2 rfl
      | crit c => exact hcrit 0 _ c h2 rfl
      | start => exact h3 rfl
      | stopped => exact h4 rfl

end Periodic

namespace Provider
open Verif.Views
variable {H ν : Type} [DecidableEq H]

/-- Synchronous instruments stay in their list. -/
theorem sync_step (x : Ext H) (p : Provider H ν) (c : Call ν) {k : Nat} {m : Meter H ν} (h : p.ordered[k]? = some m) :
    ∃ m', (step x p c).1.ordered[k]? = some m' ∧ ∀ i ∈ m.sync, i ∈ m'.sync := by
  have hset : ∀ {k' : Nat} {m0 m1 : Meter H ν}, p.ordered[k']? = some m0 → (∀ i ∈ m0.sync, i ∈ m1.sync) →
      ∃ m', (p.ordered.set k' m1)[k]? = some m' ∧ ∀ i ∈ m.sync, i ∈ m'.sync := by
    intro k' m0 m1 h0 h1
    rw [List.getElem?_set]
    by_cases e : k' = k
    · subst e
      rw [h0] at h; cases h
      rw [if_pos rfl, if_pos (List.getElem?_eq_some_iff.1 h0).1]
      exact ⟨_, rfl, h1⟩
    · rw [if_neg e]
      exact ⟨m, h, fun _ hi => hi⟩
  cases c with
  | meter sc =>
    simp only [step, meter]
    split
    · exact ⟨m, h, fun _ hi => hi⟩
    · split
      · exact ⟨m, h, fun _ hi => hi⟩
      · refine ⟨m, ?_, fun _ hi => hi⟩
        dsimp only
        rw [List.getElem?_append_left (List.getElem?_eq_some_iff.1 h).1]
        exact h
  | instrument k' d =>
    simp only [step]
    cases h0 : p.ordered[k']? with
    | none => exact ⟨m, h, fun _ hi => hi⟩
    | some m0 =>
      refine hset h0 ?_
      intro i hi
      unfold configure
      dsimp only
      split
      · exact hi
      · split
        · split
          · exact List.mem_append_left _ hi
          · exact List.mem_append_left _ hi
        · exact hi
  | record k' inst v =>
    simp only [step]
    cases h0 : p.ordered[k']? with
    | none => exact ⟨m, h, fun _ hi => hi⟩
    | some m0 =>
      refine hset h0 ?_
      intro i hi
      unfold record
      split
      · exact hi
      · split
        · exact hi
        · exact hi
  | shutdown => exact ⟨m, h, fun _ hi => hi⟩

/-- There is no nil instrument. -/
def NoNil (p : Provider H ν) : Prop := ∀ m ∈ p.ordered, none ∉ m.sync

theorem noNil_step {x : Ext H} {p : Provider H ν} (h : NoNil p) (c : Call ν) (hc : ∀ k d, c = .instrument k d → (step x p c).2 ≠ .pointer none) : NoNil (step x p c).1 := by
  intro m hm
  cases c with
  | meter sc =>
    simp only [step, meter] at hm
    split at hm
    · exact h m hm
    · split at hm
      · exact h m hm
      · rcases List.mem_append.1 hm with hm | hm
        · exact h m hm
        · rw [List.mem_singleton.1 hm]
          exact fun hh => by cases hh
  | instrument k d =>
    have hc := hc k d rfl
    simp only [step] at hm hc
    cases h0 : p.ordered[k]? with
    | none => rw [h0] at hm; exact h m hm
    | some m0 =>
      rw [h0] at hm hc
      dsimp only at hm hc
      rcases List.mem_or_eq_of_mem_set hm with hm | hm
      · exact h m hm
      · have hm0 := h m0 (List.mem_of_getElem? h0)
        rw [hm]
        unfold configure at hc ⊢
        dsimp only at hc ⊢
        split
        · exact hm0
        · rename_i hg
          rw [hg] at hc
          dsimp only at hc
          split
          · rename_i hsy
            rw [if_pos hsy] at hc
            split
            · rename_i he
              rw [if_pos he] at hc
              exact absurd rfl hc
            · intro hh
              rcases List.mem_append.1 hh with hh | hh
              · exact hm0 hh
              · cases List.mem_singleton.1 hh
          · exact hm0
  | record k inst v =>
    simp only [step] at hm
    cases h0 : p.ordered[k]? with
    | none => rw [h0] at hm; exact h m hm
    | some m0 =>
      rw [h0] at hm
      rcases List.mem_or_eq_of_mem_set hm with hm | hm
      · exact h m hm
      · rw [hm]
        have hm0 := h m0 (List.mem_of_getElem? h0)
        unfold record
        split
        · exact hm0
        · split
          · exact hm0
          · exact hm0
  | shutdown => exact h m hm

theorem noNil_run {x : Ext H} {p : Provider H ν} (h : NoNil p) {cs : List (Call ν)}
    (hc : ∀ (i k : Nat) d, cs[i]? = some (.instrument k d) → (responses x p cs)[i]? ≠ some (.pointer none)) : NoNil (run x p cs) := by
  induction cs generalizing p with
  | nil => exact h
  | cons c cs ih =>
    refine ih (noNil_step h c ?_) (fun i k d hi => hc (i + 1) k d hi)
    intro k d he hh
    exact hc 0 k d (by rw [he]; rfl) (by rw [responses]; show some _ = some _; rw [hh])

end Provider

namespace Async
variable {K N S : Type} [DecidableEq K] [DecidableEq N] {c : Cfg K N S} {s s' : State K N S}

def Pc.rank : Pc → Nat
  | .check => 3
  | .create => 2
  | .update => 1
  | .done => 0
  | .rejected => 0

def ranks (s : State K N S) : Nat := sumTo s.nextOp (fun i => (s.op i).pc.rank)
def liveCbs (s : State K N S) : Nat := sumTo s.nextCb (fun i => if (s.cb i).live then 1 else 0)

theorem ranks_op {i : Nat} (h : step c s (.op i) = some s') : ranks s' < ranks s := by
  simp only [step] at h
  split at h
  · cases h
  · rename_i hi
    have hlt : i < s.nextOp := by omega
    have key : ∀ (y : State K N S) (o : Op K N), y.nextOp = s.nextOp → y.op = upd s.op i o → o.pc.rank < (s.op i).pc.rank → ranks y < ranks s := by
      intro y o h1 h2 h3
      unfold ranks
      rw [h1, h2]
      have := sumTo_change (f := fun j => (s.op j).pc.rank) (g := fun j => ((upd s.op i o) j).pc.rank) hlt (fun j _ hne => by rw [upd_ne _ _ hne])
      simp only [upd_same] at this
      omega
    cases hp : (s.op i).pc with
    | check =>
      rw [hp] at h
      dsimp only at h
      split at h
      · split at h
        · cases h; exact key _ _ rfl rfl (by rw [hp]; simp [Pc.rank])
        · cases h; exact key _ _ rfl rfl (by rw [hp]; simp [Pc.rank])
      · cases h; exact key _ _ rfl rfl (by rw [hp]; simp [Pc.rank])
    | create =>
      rw [hp] at h
      dsimp only at h
      cases h
      have h1 : ∀ n o k, (getOrCreate c s n o k).op = s.op ∧ (getOrCreate c s n o k).nextOp = s.nextOp := by
        intro n o k
        unfold getOrCreate
        split
        · exact ⟨rfl, rfl⟩
        · exact ⟨rfl, rfl⟩
      exact key _ _ (h1 _ _ _).2 (by dsimp only; rw [(h1 _ _ _).1]) (by rw [hp]; simp [Pc.rank])
    | update => rw [hp] at h; cases h; exact key _ _ rfl rfl (by rw [hp]; simp [Pc.rank])
    | done => rw [hp] at h; cases h
    | rejected => rw [hp] at h; cases h

theorem endCb_live {i : Nat} (h : step c s (.endCb i) = some s') : s' = s ∨ (ranks s' = ranks s ∧ liveCbs s' < liveCbs s) := by
  simp only [step] at h
  split at h
  · rename_i hi
    cases h
    by_cases hl : (s.cb i).live = true
    · right
      refine ⟨rfl, ?_⟩
      unfold liveCbs
      have := sumTo_change (f := fun j => if (s.cb j).live then 1 else 0) (g := fun j => if ((upd s.cb i { s.cb i with live := false }) j).live then 1 else 0) hi
        (fun j _ hne => by rw [upd_ne _ _ hne])
      simp only [upd_same, hl] at this
      simp at this
      simp
      omega
    · left
      have : upd s.cb i { s.cb i with live := false } = s.cb := by
        funext j
        by_cases e : j = i
        · subst e
          rw [upd_same]
          cases h0 : s.cb j with
          | mk a b l => rw [h0] at hl; cases l; rfl; exact absurd rfl hl
        · rw [upd_ne _ _ e]
      rw [this]
  · cases h

theorem ops_stuck (h : ∀ i, step c s (.op i) = none) (i : Nat) (hi : i < s.nextOp) : (s.op i).pc = .done ∨ (s.op i).pc = .rejected := by
  have h1 := h i
  simp only [step, if_neg (Nat.not_le.2 hi)] at h1
  cases hp : (s.op i).pc with
  | check =>
    rw [hp] at h1
    dsimp only at h1
    split at h1
    · split at h1 <;> cases h1
    · cases h1
  | create => rw [hp] at h1; cases h1
  | update => rw [hp] at h1; cases h1
  | done => exact .inl rfl
  | rejected => exact .inr rfl

theorem cbs_stuck (h : ∀ i s', step c s (.endCb i) = some s' → s' = s) (i : Nat) (hi : i < s.nextCb) : (s.cb i).live = false := by
  have h1 := h i { s with cb := upd s.cb i { s.cb i with live := false } } (by simp only [step, if_pos hi])
  have h2 : (s.cb i).live = ((upd s.cb i { s.cb i with live := false }) i).live := by
    conv => lhs; rw [← h1]
  rw [h2, upd_same]

end Async

namespace Delivery
open Verif.Attr Verif.Number Verif.Assembly
variable {C G ν : Type} [DecidableEq C]
variable {farm : Str → UInt64} {w : World C G} {fsub : Bits → Bits → Bits} {x : Views.Ext C} {pipe : Nat} {s s' : Sys C G ν}

def Pos.m1 : Pos → Nat
  | .out => 1
  | _ => 0
/-- Meters still to come. -/
def Pos.m2 : Pos → Nat
  | .out => 0
  | .meters _ ks => ks.length
  | .callbacks _ _ _ ks => ks.length
  | .insts _ _ _ _ ks => ks.length
  | .outputs _ _ _ _ ks => ks.length
def Pos.m3 : Pos → Nat
  | .out => 0
  | .meters _ _ => 0
  | .callbacks _ _ _ _ => 3
  | .insts _ _ _ _ _ => 2
  | .outputs _ _ _ _ _ => 1
def Pos.m4 : Pos → Nat
  | .insts _ _ td _ _ => td.length
  | .outputs _ _ td _ _ => td.length
  | _ => 0
def Pos.m5 : Pos → Nat
  | .insts _ _ _ (some _) _ => 1
  | .outputs _ _ _ (some _) _ => 1
  | _ => 0

/-- The measures, the most important first. -/
def measures (farm : Str → UInt64) (w : World C G) (fsub : Bits → Bits → Bits) (pipe : Nat) : List (Sys C G ν → Nat) :=
  [fun s => Periodic.rank s.r, fun s => s.pos.m1, fun s => s.pos.m2, fun s => s.pos.m3, fun s => s.pos.m4, fun s => s.pos.m5,
   fun s => Sync.callRanks (Whole.parts farm w fsub s.z.p pipe).c s.z.s.sync, fun s => Sync.missing (Whole.parts farm w fsub s.z.p pipe).c s.z.s.sync,
   fun s => Sync.taskWaits s.z.s.sync, fun s => Sync.taskRanks (Whole.parts farm w fsub s.z.p pipe).c s.z.s.sync,
   fun s => Async.ranks s.z.s.async, fun s => Async.liveCbs s.z.s.async]

omit [DecidableEq C] in
theorem lower_sync {y : Sys C G ν} (h1 : y.r = s.r) (h2 : y.pos = s.pos) (h3 : y.z.p = s.z.p) (h : Sync.Lower (Whole.parts farm w fsub s.z.p pipe).c y.z.s.sync s.z.s.sync) :
    LexBy (measures farm w fsub pipe) y s := by
  have h' : Sync.Lower (Whole.parts farm w fsub y.z.p pipe).c y.z.s.sync s.z.s.sync := by rw [h3]; exact h
  simp only [measures, LexBy, h1, h2, true_and, Nat.lt_irrefl, false_or]
  rw [h3]
  unfold Sync.Lower at h
  omega

omit [DecidableEq C] in
theorem lower_async {y : Sys C G ν} (h1 : y.r = s.r) (h2 : y.pos = s.pos) (h3 : y.z.p = s.z.p) (h4 : y.z.s.sync = s.z.s.sync)
    (h : Async.ranks y.z.s.async < Async.ranks s.z.s.async ∨ (Async.ranks y.z.s.async = Async.ranks s.z.s.async ∧ Async.liveCbs y.z.s.async < Async.liveCbs s.z.s.async)) :
    LexBy (measures farm w fsub pipe) y s := by
  simp only [measures, LexBy, h1, h2, h3, h4, true_and, Nat.lt_irrefl, false_or]
  omega

omit [DecidableEq C] in
theorem lower_pos {y : Sys C G ν} (h1 : y.r = s.r)
    (h : y.pos.m1 < s.pos.m1 ∨ (y.pos.m1 = s.pos.m1 ∧ (y.pos.m2 < s.pos.m2 ∨ (y.pos.m2 = s.pos.m2 ∧ (y.pos.m3 < s.pos.m3 ∨ (y.pos.m3 = s.pos.m3 ∧
      (y.pos.m4 < s.pos.m4 ∨ (y.pos.m4 = s.pos.m4 ∧ y.pos.m5 < s.pos.m5)))))))) : LexBy (measures farm w fsub pipe) y s := by
  simp only [measures, LexBy, h1, true_and, Nat.lt_irrefl, false_or]
  omega

theorem live_run {z z' : Live.Sys C G ν} {a : Whole.Act} (h : Live.step farm w fsub x pipe z (.run a) = some z') :
    Live.possible w z.p a = true ∧ ∃ y, Whole.step (Whole.parts farm w fsub z.p pipe) (reader w z.p pipe) z.s a = some y ∧ z' = { z with s := y } := by
  simp only [Live.step] at h
  split at h
  · rename_i hp
    obtain ⟨y, h1, rfl⟩ := Option.map_eq_some_iff.1 h
    exact ⟨hp, y, h1, rfl⟩
  · cases h

/-- `Produce` comes closer to its return. -/
theorem produce_near {now : Int} (h : produce farm w fsub x pipe now s = some s') :
    s'.pos.m1 < s.pos.m1 ∨ (s'.pos.m1 = s.pos.m1 ∧ (s'.pos.m2 < s.pos.m2 ∨ (s'.pos.m2 = s.pos.m2 ∧ (s'.pos.m3 < s.pos.m3 ∨ (s'.pos.m3 = s.pos.m3 ∧
      (s'.pos.m4 < s.pos.m4 ∨ (s'.pos.m4 = s.pos.m4 ∧ s'.pos.m5 < s.pos.m5))))))) := by
  unfold produce at h
  split at h
  · rename_i hpos
    split at h
    · cases h; rw [hpos]; simp [Pos.m1]
    · cases h
  · cases h
  · rename_i hpos
    split at h
    · cases h
    · cases h; rw [hpos]; simp [Pos.m1, Pos.m2]
  · rename_i hpos
    split at h
    · cases h; rw [hpos]; simp [Pos.m1, Pos.m2, Pos.m3]
    · cases h
  · rename_i hpos
    split at h
    · cases h; rw [hpos]; simp [Pos.m1, Pos.m2, Pos.m3, Pos.m4, Pos.m5]
    · cases h
  · rename_i hpos
    obtain ⟨z, -, rfl⟩ := Option.map_eq_some_iff.1 h
    rw [hpos]; simp [Pos.m1, Pos.m2, Pos.m3, Pos.m4]
  · cases h
  · rename_i hpos
    split at h
    · cases h
    · cases h; rw [hpos]; simp [Pos.m1, Pos.m2, Pos.m3]
  · rename_i hpos
    split at h
    · cases h; rw [hpos]; simp [Pos.m1, Pos.m2, Pos.m3, Pos.m4, Pos.m5]
    · cases h
  · rename_i hpos
    split at h
    · obtain ⟨z, -, rfl⟩ := Option.map_eq_some_iff.1 h
      rw [hpos]; simp [Pos.m1, Pos.m2, Pos.m3, Pos.m4]
    · cases h; rw [hpos]; simp [Pos.m1, Pos.m2, Pos.m3, Pos.m4]
  · rename_i hpos
    cases h; rw [hpos]; simp [Pos.m1, Pos.m2, Pos.m3]

theorem produce_lower {now : Int} (h : produce farm w fsub x pipe now s = some s') : LexBy (measures farm w fsub pipe) s' s :=
  lower_pos (produce_keeps h).1 (produce_near h)

/-- Synchronous instruments are in a state from which everything returns. -/
def Halting (farm : Str → UInt64) (w : World C G) (fsub : Bits → Bits → Bits) (pipe : Nat) (s : Sys C G ν) : Prop :=
  Sync.Halt (Whole.parts farm w fsub s.z.p pipe).c s.z.s.sync

/-- What has begun comes closer to its end, or nothing changes. -/
theorem goes_lower (hh : Halting farm w fsub pipe s) {a : Act ν} (ha : ongoing a = true) (h : step farm w fsub x pipe s a = some s') :
    s' = s ∨ LexBy (measures farm w fsub pipe) s' s := by
  cases a with
  | make c => cases ha
  | call i as n => cases ha
  | other b => cases ha
  | op i =>
    obtain ⟨z, hz, rfl⟩ := Option.map_eq_some_iff.1 h
    obtain ⟨-, y, hy, rfl⟩ := live_run hz
    simp only [Whole.step, Pipeline.isObserve, Bool.false_eq_true, if_false] at hy
    obtain ⟨σ, hσ, rfl⟩ := Option.map_eq_some_iff.1 hy
    exact .inr (lower_sync rfl rfl rfl (hh.op_lower hσ))
  | task t ch =>
    obtain ⟨z, hz, rfl⟩ := Option.map_eq_some_iff.1 h
    obtain ⟨-, y, hy, rfl⟩ := live_run hz
    simp only [Whole.step, Pipeline.isObserve, Bool.false_eq_true, if_false] at hy
    obtain ⟨σ, hσ, rfl⟩ := Option.map_eq_some_iff.1 hy
    exact .inr (lower_sync rfl rfl rfl (hh.task_lower hσ))
  | cb b =>
    simp only [step] at h
    split at h
    · obtain ⟨z, hz, rfl⟩ := Option.map_eq_some_iff.1 h
      obtain ⟨-, y, hy, rfl⟩ := live_run hz
      cases b with
      | startCb is => cases ha
      | observe c o as v => cases ha
      | finish order => cases ha
      | op i =>
        simp only [Whole.step, AsyncPipeline.isFinish, Bool.false_eq_true, if_false] at hy
        obtain ⟨σ, hσ, rfl⟩ := Option.map_eq_some_iff.1 hy
        exact .inr (lower_async rfl rfl rfl rfl (.inl (Async.ranks_op hσ)))
      | endCb i =>
        simp only [Whole.step, AsyncPipeline.isFinish, Bool.false_eq_true, if_false] at hy
        obtain ⟨σ, hσ, rfl⟩ := Option.map_eq_some_iff.1 hy
        rcases Async.endCb_live hσ with rfl | h1
        · exact .inl rfl
        · exact .inr (lower_async rfl rfl rfl rfl (.inr h1))
    · cases h
  | produce now => exact .inr (produce_lower h)
  | reader b order =>
    cases b with
    | tick => cases ha
    | callShutdown => cases ha
    | callFlush => cases ha
    | go t quit =>
      simp only [step] at h
      split at h
      · rename_i hr
        split at h
        · obtain ⟨z, hz, rfl⟩ := Option.map_eq_some_iff.1 h
          exact .inr (.inl (Periodic.returns_rank hr))
        · cases h
      · cases h
        rcases Periodic.go_rank s.r t quit with h1 | h1
        · rw [h1]; exact .inl rfl
        · exact .inr (.inl h1)

end Delivery
end Verif
