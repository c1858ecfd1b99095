import Verif.Proof.SyncEmpty

/-!
Helper file: reference counts of series, deletion of series, and the combined invariant of the synchronous machine.
-/

namespace Verif.Sync
open Verif
variable {AL KS N S : Type} [DecidableEq KS]

/-- Number of unreleased accumulators of a series. -/
def refsOf (s : State AL KS N S) (h : Nat) : Nat :=
  sumTo s.nextAcc (fun a => one (decide ((s.acc a).holder = h) && !(s.acc a).released))

/-- The `auxiliary` count of a series is its number of unreleased accumulators. -/
def Aux (s : State AL KS N S) : Prop := ∀ h, h < s.nextHold → (s.hold h).aux = (refsOf s h : Int)

/-- While a series without references is being collected, it gets none. -/
def LmvRefs (s : State AL KS N S) : Prop :=
  ∀ t l td k h, s.task t = .lmv l td k h 0 → ∀ a, a < s.nextAcc → (s.acc a).holder = h → (s.acc a).released = true

/-- A series out of its table is empty and has no unreleased accumulator. -/
def Stranded (s : State AL KS N S) : Prop :=
  ∀ h, h < s.nextHold → ¬ ((s.hold h).key, h) ∈ s.data (s.hold h).leaf →
    (s.hold h).store.ops = [] ∧ ∀ a, a < s.nextAcc → (s.acc a).holder = h → (s.acc a).released = true

section
variable {c : Cfg AL KS N S} {s s' : State AL KS N S}
set_option maxHeartbeats 1000000

omit [DecidableEq KS] in
theorem aux_frame (h : Aux s) (hn : s'.nextAcc = s.nextAcc) (hh : s'.nextHold = s.nextHold)
    (ha : ∀ a, a < s.nextAcc → (s'.acc a).holder = (s.acc a).holder ∧ (s'.acc a).released = (s.acc a).released)
    (hx : ∀ x, (s'.hold x).aux = (s.hold x).aux) : Aux s' := by
  intro x hlt
  rw [hx, h x (hh ▸ hlt)]
  unfold refsOf
  rw [hn]
  congr 1
  apply sumTo_congr
  intro a hlt
  rw [(ha a hlt).1, (ha a hlt).2]

theorem Aux.preserved (h : Aux s) (w : Wf c s) (hp : RelPos s) (hs : Step c s s') : Aux s' := by
  cases hs
  case initOld r l k h' hw hl hll hk hf =>
    intro x hlt
    have hx := h x hlt
    have : refsOf (initOld c s r l k h') x = refsOf s x + one (decide (h' = x)) := by
      simp only [refsOf, initOld, sumTo_succ]
      rw [sumTo_congr (g := fun a => one (decide ((s.acc a).holder = x) && !(s.acc a).released))]
      · simp
      · intro a ha
        have hne : a ≠ s.nextAcc := by omega
        simp [upd_apply, hne]
    rw [this]
    simp only [initOld, upd_apply, one]
    grind
  case initNew r l k hw hl hll hk hf =>
    intro x hlt
    have hsum : refsOf (initNew c s r l k) x = refsOf s x + one (decide (s.nextHold = x)) := by
      simp only [refsOf, initNew, sumTo_succ]
      rw [sumTo_congr (g := fun a => one (decide ((s.acc a).holder = x) && !(s.acc a).released))]
      · simp
      · intro a ha
        have hne : a ≠ s.nextAcc := by omega
        simp [upd_apply, hne]
    rw [hsum]
    by_cases hxn : x = s.nextHold
    · subst hxn
      have : refsOf s s.nextHold = 0 := by
        unfold refsOf
        rw [sumTo_eq_zero]
        intro a ha
        have := (w.accHold a ha).1
        have : ¬ (s.acc a).holder = s.nextHold := by omega
        simp [this, one]
      simp [initNew, this, one]
    · have hlt' : x < s.nextHold := by simp only [initNew] at hlt; omega
      have hx := h x hlt'
      have : ¬ s.nextHold = x := fun e => hxn e.symm
      simp only [initNew, upd_ne _ _ hxn, one, this, decide_false, hx]
      simp
  case rlRel t o td r m mN k a hpc ha =>
    have hta := task_acc w hp (t := t) (r := r) (k := k) (by rw [hpc]; rfl) ha (by rw [hpc]; rfl)
    intro x hlt
    have hx := h x hlt
    have hsum := sumTo_change (n := s.nextAcc) (a := a)
      (f := fun b => one (decide ((s.acc b).holder = x) && !(s.acc b).released))
      (g := fun b => one (decide (((Verif.upd s.acc a { s.acc a with slock := none, released := true }) b).holder = x) &&
        !((Verif.upd s.acc a { s.acc a with slock := none, released := true }) b).released)) hta.2.1
      (by intro b _ hne; simp [hne])
    simp only [upd_same, Bool.not_true, Bool.and_false, hta.2.2.2.1, Bool.not_false, Bool.and_true] at hsum
    have hre : refsOf (setTask (setAcc (setHold s (s.acc a).holder (fun y => { y with aux := decAux y.aux }))
      a (fun x => { x with slock := none, released := true })) t (.mv o td r m mN true (k + 1))) x =
      sumTo s.nextAcc (fun b => one (decide (((Verif.upd s.acc a { s.acc a with slock := none, released := true }) b).holder = x) &&
        !((Verif.upd s.acc a { s.acc a with slock := none, released := true }) b).released)) := rfl
    rw [hre]
    have hrs : refsOf s x = sumTo s.nextAcc (fun b => one (decide ((s.acc b).holder = x) && !(s.acc b).released)) := rfl
    rw [← hrs] at hsum
    simp only [setTask, setAcc, setHold, upd_apply] at hsum ⊢
    by_cases hxh : x = (s.acc a).holder
    · subst hxh
      simp [one, decAux] at hsum ⊢
      omega
    · have : ¬ (s.acc a).holder = x := fun e => hxh e.symm
      simp [one, hxh, this] at hsum ⊢
      omega
  case rlKeep t o td r m mN k a hpc ha =>
    have hta := task_acc w hp (t := t) (r := r) (k := k) (by rw [hpc]; rfl) ha (by rw [hpc]; rfl)
    refine aux_frame h rfl rfl ?_ (fun _ => rfl)
    intro b _
    simp only [setTask, setAcc, upd_apply]
    grind
  all_goals first
   | exact h
   | (refine aux_frame h rfl rfl ?_ ?_ <;> clear h w hp <;> intro b <;> ssimp <;> grind)

theorem LmvRefs.preserved (h : LmvRefs s) (hx : Aux s) (w : Wf c s) (hp : RelPos s) (hs : Step c s s') : LmvRefs s' := by
  cases hs
  case initOld r l k h' hw hl hll hk hf =>
    have hlt := w.llockTask
    have hlc := w.lCur
    have hdo := w.dataOk
    unfold LmvRefs LLockTask LCur DataOk at *
    intro t l' td k' hd hh a ha he
    have := h t l' td k' hd hh a
    have := hlt t l' (by rw [show s.task t = _ from hh]; rfl)
    have := hdo l' k' hd (hlc t l' td k' hd 0 hh).1
    have := hdo l k h' (find_mem hf)
    clear h hp hx hlt hlc hdo w hh
    revert ha he
    ssimp
    grind
  case initNew r l k hw hl hll hk hf =>
    have hlc := w.lCur
    have hdo := w.dataOk
    unfold LmvRefs LCur DataOk at *
    intro t l' td k' hd hh a ha he
    have := h t l' td k' hd hh a
    have := hdo l' k' hd (hlc t l' td k' hd 0 hh).1
    clear h hp hx hlc hdo w hh
    revert ha he
    ssimp
    grind
  case rlKeep t o td r m mN k a hpc ha =>
    have hta := task_acc w hp (t := t) (r := r) (k := k) (by rw [hpc]; rfl) ha (by rw [hpc]; rfl)
    unfold LmvRefs at *
    intro t l' td k' hd hh a ha he
    have := h t l' td k' hd
    clear h hp hx w
    revert hh ha he
    ssimp
    grind
  case lscanDelta t l td k h' hpc hr hd =>
    have hlt := (w.dataOk l k h' ((w.lTodo t l (by rw [hpc]; rfl)).2 _ (by rw [hpc]; exact hr))).1
    have hzero : (s.hold h').aux = 0 → ∀ a, a < s.nextAcc → (s.acc a).holder = h' → (s.acc a).released = true := by
      intro h0 a ha he
      have h1 := hx h' hlt
      rw [h0] at h1
      have h2 : refsOf s h' = 0 := by omega
      unfold refsOf at h2
      rw [sumTo_eq_zero] at h2
      have := h2 a ha
      simp only [he, decide_true, Bool.true_and, one] at this
      cases hb : (s.acc a).released with
      | true => rfl
      | false => simp [hb] at this
    unfold LmvRefs at *
    intro t' l' td k' hd hh a ha he
    have := h t' l' td k' hd
    have := hzero
    clear h hp hx w
    revert hh ha he
    ssimp
    grind
  all_goals first
   | exact h
   | (unfold LmvRefs at *
      intro t' l' td k' hd hh a ha he
      have := h t' l' td k' hd
      have := w.taskIdle t'
      clear h hp hx w
      revert hh ha he
      ssimp
      grind)

theorem Stranded.preserved (h : Stranded s) (hl : LmvRefs s) (w : Wf c s) (hp : RelPos s) (hs : Step c s s') : Stranded s' := by
  cases hs
  case initOld r l k h' hw hlv hll hk hf =>
    have hd := w.dataOk l k h' (find_mem hf)
    have hm := find_mem hf
    unfold Stranded at *
    intro x hlt hx
    have := h x
    clear h hp w hl hf
    revert hlt hx
    ssimp
    grind
  case initNew r l k hw hlv hll hk hf =>
    have hah := w.accHold
    unfold AccHold at hah
    unfold Stranded at *
    intro x hlt hx
    have := h x
    clear h hp w hl hf
    revert hlt hx
    ssimp
    grind
  case mg t o td r m mN rel k a hpc ha =>
    have hta := task_acc w hp (t := t) (r := r) (k := k) (by rw [hpc]; rfl) ha (by rw [hpc]; rfl)
    unfold Stranded at *
    intro x hlt hx
    have := h x
    clear h hp w hl
    revert hlt hx
    ssimp
    grind
  case rlKeep t o td r m mN k a hpc ha =>
    have hta := task_acc w hp (t := t) (r := r) (k := k) (by rw [hpc]; rfl) ha (by rw [hpc]; rfl)
    unfold Stranded at *
    intro x hlt hx
    have := h x
    clear h hp w hl
    revert hlt hx
    ssimp
    grind
  case lmvDel t l td k h' hpc hc =>
    have hz := hl t l td k h' hpc
    have hd := w.dataOk l k h' (w.lCur t l td k h' 0 hpc).1
    have hin := (w.lCur t l td k h' 0 hpc).1
    have hdk := w.dataKeys l
    have huniq : ∀ y, (k, y) ∈ s.data l → y = h' := by
      intro y hy
      clear h hl hp hz hc hd
      have : ∀ (L : List (KS × Nat)), (L.map (·.1)).Nodup → (k, y) ∈ L → (k, h') ∈ L → y = h' := by
        intro L
        induction L with
        | nil => simp
        | cons e L ih => grind
      exact this _ hdk hy hin
    unfold Stranded at *
    intro x hlt hx
    have := h x
    have := w.dataOk l k x
    clear h hp w hl
    revert hlt hx
    ssimp
    grind [Storage.delete]
  all_goals first
   | exact h
   | (unfold Stranded at *
      intro x hlt hx
      have := h x
      clear h hp w hl
      revert hlt hx
      ssimp
      grind)

/-- The combined invariant. -/
structure Inv (c : Cfg AL KS N S) (s : State AL KS N S) : Prop where
  wf : Wf c s
  ref : Ref s
  relDead : RelDead c s
  relPos : RelPos s
  busyEmpty : BusyEmpty s
  relEmpty : RelEmpty s
  snapRl : SnapRl s
  snapIdle : SnapIdle s
  aux : Aux s
  lmvRefs : LmvRefs s
  stranded : Stranded s

theorem Inv.preserved (h : Inv c s) (hs : Step c s s') : Inv c s' where
  wf := h.wf.preserved hs
  ref := h.ref.preserved h.wf hs
  relDead := h.relDead.preserved h.relPos h.wf h.ref hs
  relPos := h.relPos.preserved h.wf h.ref hs
  busyEmpty := h.busyEmpty.preserved h.wf h.ref h.relPos hs
  relEmpty := h.relEmpty.preserved h.busyEmpty h.wf h.ref h.relPos hs
  snapRl := h.snapRl.preserved h.wf hs
  snapIdle := h.snapIdle.preserved h.snapRl h.wf hs
  aux := h.aux.preserved h.wf h.relPos hs
  lmvRefs := h.lmvRefs.preserved h.aux h.wf h.relPos hs
  stranded := h.stranded.preserved h.lmvRefs h.wf h.relPos hs

theorem Inv.initial (c : Cfg AL KS N S) (n0 : N) : Inv c (initial c n0) where
  wf := Wf.initial c n0
  ref := by simp [Ref, WordLive, WordDead, Sync.initial]
  relDead := by simp [RelDead, Sync.initial]
  relPos := by simp [RelPos, Sync.initial]
  busyEmpty := by simp [BusyEmpty, Sync.initial, TPc.relR]
  relEmpty := by simp [RelEmpty, Sync.initial]
  snapRl := by simp [SnapRl, Sync.initial]
  snapIdle := by simp [SnapIdle, Sync.initial]
  aux := by simp [Aux, Sync.initial]
  lmvRefs := by simp [LmvRefs, Sync.initial]
  stranded := by simp [Stranded, Sync.initial]

omit [DecidableEq KS] in
/-- Records visible in an unlocked table are mapped. -/
theorem Inv.even (h : Inv c s) : ∀ o r, s.lock o = none → r ∈ s.table o → (s.recs r).word % 2 = 0 := by
  intro o r hl hr
  have ho := (h.wf.tblLt o r hr).2
  have := h.ref.1 o r hr (by
    intro t ht
    have := (rel_locked h.wf.todoMem h.wf.lockTask h.wf.tblLt ht).2
    rw [ho, hl] at this; cases this)
  omega

theorem Inv.step_sound (h : Inv c s) {a : Action AL N} (hs : step c s a = some s') : Step c s s' :=
  Sync.step_sound h.even hs

/-- Induction principle over reachable states: every reachable state satisfies the invariant, and a property that
holds initially and is preserved by steps from invariant states holds in every reachable state. -/
theorem reachable_ind {n0 : N} {P : State AL KS N S → Prop} (h0 : P (Sync.initial c n0))
    (hstep : ∀ s s', Inv c s → P s → Step c s s' → P s') {s : State AL KS N S} (hr : Reachable c n0 s) :
    Inv c s ∧ P s := by
  obtain ⟨acts, hrun⟩ := hr
  have : ∀ (acts : List (Action AL N)) (s s' : State AL KS N S), Inv c s → P s → run c s acts = some s' →
      Inv c s' ∧ P s' := by
    intro acts
    induction acts with
    | nil => intro s s' hi hp hr; simp only [run, Option.some.injEq] at hr; subst hr; exact ⟨hi, hp⟩
    | cons a as ih =>
      intro s s' hi hp hr
      simp only [run] at hr
      cases hst : step c s a with
      | none => rw [hst] at hr; cases hr
      | some s1 =>
        rw [hst] at hr
        have hs1 := hi.step_sound hst
        exact ih s1 s' (hi.preserved hs1) (hstep _ _ hi hp hs1) hr
  exact this acts _ _ (Inv.initial c n0) h0 hrun

end
end Verif.Sync
