import Verif.Proof.SyncTotals

/-!
Helper file: a collection of a cumulative view that runs without interference.
-/

namespace Verif.Sync
open Verif
variable {AL KS N S : Type} [DecidableEq KS]
variable {c : Cfg AL KS N S} {s s' : State AL KS N S}

/-- The point a cumulative collection reports for a stored series. -/
def pointOf (s : State AL KS N S) (l : Nat) (e : KS × Nat) : Emit KS S :=
  { leaf := l, key := e.1, val := (s.hold e.2).store.val, ops := (s.hold e.2).store.ops, kept := true }

theorem filter_key_perm {V : Type} {td : List (KS × V)} {e : KS × V} (hn : (td.map (·.1)).Nodup) (he : e ∈ td) :
    td.Perm (e :: td.filter (fun x => !(x.1 == e.1))) := by
  induction td with
  | nil => cases he
  | cons x t ih =>
    rw [List.map_cons, List.nodup_cons] at hn
    rw [List.mem_cons] at he
    rcases he with he | he
    · subst he
      have : t.filter (fun x => !(x.1 == e.1)) = t := by
        rw [List.filter_eq_self]
        intro y hy
        simp only [Bool.not_eq_true', beq_eq_false_iff_ne]
        intro h
        exact hn.1 (List.mem_map.mpr ⟨y, hy, h⟩)
      rw [List.filter_cons]
      simp only [beq_self_eq_true, Bool.not_true, Bool.false_eq_true, if_false, this]
      exact List.Perm.refl _
    · have hne : x.1 ≠ e.1 := fun h => hn.1 (List.mem_map.mpr ⟨e, he, h.symm⟩)
      have : (!(x.1 == e.1)) = true := by simpa using hne
      rw [List.filter_cons, if_pos this]
      exact ((ih hn.2 he).cons x).trans (List.Perm.swap _ _ _)

theorem solo_cum {t l : Nat} (hd : c.delta l = false) : ∀ {acts : List (Action AL N)} {s : State AL KS N S} {td : List (KS × Nat)},
    (∀ a, a ∈ acts → ∃ ch, a = .task t ch) → s.task t = .lscan l td → (td.map (·.1)).Nodup →
    run c s acts = some s' → s'.task t = .done →
    ∃ pre, s'.emits = pre ++ s.emits ∧ pre.Perm (td.map (pointOf s l)) := by
  intro acts
  induction acts with
  | nil =>
    intro s td _ ht _ hr hdone
    simp only [run, Option.some.injEq] at hr
    subst hr
    rw [ht] at hdone; cases hdone
  | cons a as ih =>
    intro s td ha ht hn hr hdone
    obtain ⟨ch, rfl⟩ := ha a (List.mem_cons_self ..)
    have ha' : ∀ a, a ∈ as → ∃ ch, a = .task t ch := fun a h => ha a (List.mem_cons_of_mem _ h)
    simp only [run, step, stepTask, ht] at hr
    split at hr
    · split at hr
      · rename_i hemp
        have htd : td = [] := by simpa using hemp
        subst htd
        simp only [Option.bind_some] at hr
        -- the task is done; no further step of it is possible
        cases as with
        | nil =>
          simp only [run, Option.some.injEq] at hr
          subst hr
          exact ⟨[], rfl, List.Perm.refl _⟩
        | cons b bs =>
          obtain ⟨ch', rfl⟩ := ha' b (List.mem_cons_self ..)
          simp [run, step, stepTask, setTask] at hr
      · cases hr
    · rename_i k h hget
      rw [if_neg (by simp [hd])] at hr
      simp only [Option.bind_some] at hr
      have hmem : (k, h) ∈ td := List.mem_of_getElem? hget
      have := ih (s := setTask { s with emits := { leaf := l, key := k, val := (s.hold h).store.val, ops := (s.hold h).store.ops, kept := true } :: s.emits } t (.lscan l (td.filter (fun e => !(e.1 == k))))) (td := td.filter (fun e => !(e.1 == k))) ha' (by simp [setTask]) (List.Nodup.sublist (List.Sublist.map _ List.filter_sublist) hn) hr hdone
      obtain ⟨pre, h1, h2⟩ := this
      refine ⟨pre ++ [pointOf s l (k, h)], ?_, ?_⟩
      · rw [h1]; simp [setTask, pointOf]
      · have h3 : (pre ++ [pointOf s l (k, h)]).Perm (pointOf s l (k, h) :: pre) := List.perm_append_comm
        refine h3.trans ?_
        have h4 := (filter_key_perm hn hmem).map (pointOf s l)
        rw [List.map_cons] at h4
        exact (List.Perm.cons _ h2).trans h4.symm

/-- A complete collection of a cumulative view without interference reports exactly one point per listed series. -/
theorem solo_collect {l : Nat} {s1 s2 : State AL KS N S} (w : Wf c s) (hd : c.delta l = false) {acts : List (Action AL N)}
    (ha : ∀ a, a ∈ acts → ∃ ch, a = .task s.nextTask ch) (h1 : step c s (.collect l) = some s1)
    (h2 : run c s1 acts = some s2) (ht : s2.task s.nextTask = .done) :
    ∃ pre, s2.emits = pre ++ s.emits ∧ pre.Perm ((s.data l).map (pointOf s l)) := by
  simp only [step, Option.some.injEq] at h1
  subst h1
  cases acts with
  | nil =>
    simp only [run, Option.some.injEq] at h2
    subst h2
    simp at ht
  | cons a as =>
    obtain ⟨ch, rfl⟩ := ha a (List.mem_cons_self ..)
    simp only [run, step, stepTask, upd_same] at h2
    split at h2
    · cases h2
    · simp only [Option.bind_some] at h2
      have := solo_cum (td := s.data l) hd (fun a h => ha a (List.mem_cons_of_mem _ h)) (by simp [setTask]) (w.dataKeys l) h2 ht
      exact this

end Verif.Sync
