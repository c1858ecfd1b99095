import Verif.Proof.Provider
import Verif.Spec.Provider
import Verif.Props.Views

/-!
C32 (dropped instruments) and C36 (meters and instruments are singletons).
-/

namespace Verif.Provider
open Verif.Views Verif.Attr Verif.Front Verif.Props
variable {H ν : Type} [DecidableEq H]

/-! ### Histories -/

theorem responses_get (x : Ext H) (p : Provider H ν) (cs : List (Call ν)) (i : Nat) (c : Call ν) (h : cs[i]? = some c) :
    (responses x p cs)[i]? = some (step x (run x p (cs.take i)) c).2 := by
  induction cs generalizing p i with
  | nil => cases h
  | cons c' cs ih =>
    cases i with
    | zero => cases h; rfl
    | succ i => exact ih _ _ h

theorem firsts_mem {α : Type} [DecidableEq α] (l : List α) (a : α) : a ∈ firsts l ↔ a ∈ l := by
  induction l with
  | nil => rfl
  | cons b l ih =>
    unfold firsts
    simp only [List.mem_cons, List.mem_filter, ih, decide_eq_true_eq]
    by_cases h : a = b <;> simp [h]

theorem firsts_nodup {α : Type} [DecidableEq α] (l : List α) : (firsts l).Nodup := by
  induction l with
  | nil => exact List.nodup_nil
  | cons b l ih =>
    unfold firsts
    refine List.nodup_cons.2 ⟨by simp, ih.filter _⟩

theorem set_scopes {x : Ext H} {p : Provider H ν} (h : ProvOk x p) (c : Call ν) (hc : ∀ sc, c ≠ .meter sc) :
    (step x p c).1.ordered.map (·.scope) = p.ordered.map (·.scope) ∧ (c ≠ .shutdown → (step x p c).1.map = p.map) := by
  cases c with
  | meter sc => exact absurd rfl (hc sc)
  | shutdown => exact ⟨rfl, fun h => absurd rfl h⟩
  | instrument k d =>
    simp only [step]
    cases hk : p.ordered[k]? with
    | none => exact ⟨rfl, fun _ => rfl⟩
    | some m =>
      have hc := configure_spec (h.meters m (List.mem_of_getElem? hk)) d
      exact ⟨(provOk_set h hk hc.1 hc.2.1).2, fun _ => rfl⟩
  | record k inst v =>
    simp only [step]
    cases hk : p.ordered[k]? with
    | none => exact ⟨rfl, fun _ => rfl⟩
    | some m =>
      exact ⟨(provOk_set h hk (record_ok (h.meters m (List.mem_of_getElem? hk)) inst v) (record_fields m inst v).1).2, fun _ => rfl⟩

theorem scopes_closed {x : Ext H} {p : Provider H ν} (h : ProvOk x p) (hm : p.map = none) (cs : List (Call ν)) :
    (run x p cs).ordered.map (·.scope) = p.ordered.map (·.scope) ∧ (run x p cs).map = none := by
  induction cs generalizing p with
  | nil => exact ⟨rfl, hm⟩
  | cons c cs ih =>
    rw [run_cons]
    have h1 := (step_ok h c).1
    by_cases hc : ∃ sc, c = .meter sc
    · obtain ⟨sc, rfl⟩ := hc
      have e : (step x p (.meter sc)).1 = p := by
        show (meter p sc).1 = p
        unfold meter; rw [hm]
      rw [e]
      exact ih h hm
    · have hs := set_scopes h c (fun sc e => hc ⟨sc, e⟩)
      have hm' : (step x p c).1.map = none := by
        by_cases e : c = .shutdown
        · subst e; rfl
        · exact (hs.2 e).trans hm
      exact ⟨(ih h1 hm').1.trans hs.1, (ih h1 hm').2⟩

theorem scopes_open {x : Ext H} {p : Provider H ν} (h : ProvOk x p) (hm : p.map ≠ none) (cs : List (Call ν)) :
    (run x p cs).ordered.map (·.scope) = p.ordered.map (·.scope) ++ (firsts (asked cs)).filter (· ∉ p.ordered.map (·.scope)) := by
  induction cs generalizing p with
  | nil => simp [run, asked, firsts]
  | cons c cs ih =>
    rw [run_cons]
    have h1 := (step_ok h c).1
    by_cases hc : ∃ sc, c = .meter sc
    · obtain ⟨sc, rfl⟩ := hc
      have e : asked (.meter sc :: cs) = sc :: asked cs := rfl
      rw [e]
      show (run x (meter p sc).1 cs).ordered.map (·.scope) = _
      rcases (meter_spec h sc).2.2 with ⟨e, -⟩ | ⟨-, i, hi, e⟩ | ⟨-, hni, -, hm', e⟩
      · exact absurd e hm
      · rw [e]
        refine (ih h hm).trans (congrArg _ ?_)
        have hmem : sc ∈ p.ordered.map (·.scope) := List.mem_of_getElem? hi
        show _ = List.filter _ (sc :: _)
        rw [List.filter_cons, if_neg (by simpa using hmem), List.filter_filter]
        refine List.filter_congr (fun a _ => ?_)
        by_cases ha : a = sc
        · subst ha; simp only [hmem, not_true, decide_false, Bool.false_and]
        · simp [ha]
      · have hs : (meter p sc).1.ordered.map (·.scope) = p.ordered.map (·.scope) ++ [sc] := by rw [e]; simp [newMeter]
        refine (ih h1 hm').trans ?_
        show (meter p sc).1.ordered.map (·.scope) ++ List.filter (· ∉ (meter p sc).1.ordered.map (·.scope)) _ = _
        rw [hs, List.append_assoc]
        refine congrArg _ ?_
        show _ = List.filter _ (sc :: _)
        rw [List.filter_cons, if_pos (by simpa using hni), List.filter_filter]
        show sc :: _ = sc :: _
        refine congrArg _ (List.filter_congr (fun a _ => ?_))
        by_cases ha : a = sc <;> simp [ha]
    · have hs := set_scopes h c (fun sc e => hc ⟨sc, e⟩)
      by_cases e : c = .shutdown
      · subst e
        have := scopes_closed h1 rfl cs
        rw [this.1, hs.1]
        simp [asked, firsts]
      · have : asked (c :: cs) = asked cs := by
          cases c with
          | meter sc => exact absurd ⟨sc, rfl⟩ hc
          | shutdown => exact absurd rfl e
          | instrument k d => rfl
          | record k i v => rfl
        rw [this, ih h1 (by rw [hs.2 e]; exact hm), hs.1]

/-- The meters made are those of the distinct scopes asked for, in order. -/
theorem scopes_run (x : Ext H) (views : List (Views H)) (cs : List (Call ν)) :
    (run x (new views) cs).ordered.map (·.scope) = firsts (asked cs) := by
  rw [scopes_open (new_ok x views) (by simp [new]) cs]
  simp [new]

theorem map_run (x : Ext H) (views : List (Views H)) (cs : List (Call ν)) : (run x (new views) cs).map = none ↔ .shutdown ∈ cs := by
  suffices h : ∀ p : Provider H ν, ProvOk x p → ((run x p cs).map = none ↔ p.map = none ∨ .shutdown ∈ cs) by
    rw [h _ (new_ok x views)]; simp [new]
  induction cs with
  | nil => intro p _; simp [run]
  | cons c cs ih =>
    intro p hp
    rw [run_cons, ih _ (step_ok hp c).1]
    cases c with
    | meter sc =>
      show (meter p sc).1.map = none ∨ _ ↔ _
      rcases (meter_spec hp sc).2.2 with ⟨-, e⟩ | ⟨-, i, -, e⟩ | ⟨h1, -, -, h2, -⟩
      · rw [e]; simp
      · rw [e]; simp
      · simp [h1, h2]
    | shutdown => simp [step, shutdown]
    | instrument k d => rw [(set_scopes hp (.instrument k d) (by simp)).2 (by simp)]; simp
    | record k i v => rw [(set_scopes hp (.record k i v) (by simp)).2 (by simp)]; simp

theorem prefix_get {α : Type} {l l' : List α} (h : l <+: l') {n : Nat} {a : α} (hn : l[n]? = some a) : l'[n]? = some a := by
  obtain ⟨t, rfl⟩ := h
  rw [List.getElem?_append, if_pos (List.getElem?_eq_some_iff.1 hn).1]
  exact hn

theorem run_split (x : Ext H) (p : Provider H ν) (cs : List (Call ν)) (i : Nat) (c : Call ν) (h : cs[i]? = some c) :
    run x p cs = run x (step x (run x p (cs.take i)) c).1 (cs.drop (i+1)) := by
  have hlt : cs.take i ++ (c :: cs.drop (i+1)) = cs := by
    obtain ⟨hi, he⟩ := List.getElem?_eq_some_iff.1 h
    rw [← he, ← List.drop_eq_getElem_cons hi, List.take_append_drop]
  conv => lhs; rw [← hlt]
  rw [run_append, run_cons]

/-! ### C36 -/

/-- What a request for a meter returns, by the scopes of the whole history. -/
theorem meter_response (x : Ext H) (views : List (Views H)) (cs : List (Call ν)) (i : Nat) (sc : Scope) (h : cs[i]? = some (.meter sc)) :
    ∃ a, (responses x (new views) cs)[i]? = some (.pointer a) ∧ (a = none ↔ .shutdown ∈ cs.take i) ∧
      ∀ n, a = some n → (firsts (asked cs))[n]? = some sc := by
  have hok := (run_ok (new_ok (ν := ν) x views) (cs.take i)).1
  refine ⟨_, responses_get x _ cs i _ h, ?_, ?_⟩
  · rw [← map_run x views]
    rcases (meter_spec hok sc).2.2 with ⟨e, e'⟩ | ⟨hm, n, -, e⟩ | ⟨hm, -, e, -, -⟩
    · rw [e']; simp [e]
    · rw [e]; simp [hm]
    · rw [e]; simp [hm]
  · intro n hn
    have hrun := run_split x (new views) cs i _ h
    rw [← scopes_run x views cs, hrun]
    have hg := run_grows (step_ok hok (.meter sc)).1 (cs.drop (i+1))
    refine prefix_get hg.scopes ?_
    show ((meter (run x (new views) (cs.take i)) sc).1.ordered.map (·.scope))[n]? = some sc
    rcases (meter_spec hok sc).2.2 with ⟨-, e⟩ | ⟨-, j, hj, e⟩ | ⟨-, -, e, -, e'⟩
    · rw [e] at hn; cases hn
    · rw [e] at hn ⊢; cases hn; exact hj
    · rw [e] at hn; cases hn
      rw [e', List.map_append, List.getElem?_append, if_neg (by simp)]
      simp [newMeter]

/-- C36. In any history of calls, a request for a meter made before any shutdown is answered with a meter, and two such requests are answered
with the same meter exactly when they are for the same name, version and schema. After shutdown the answer is the no-op meter. -/
theorem C36_meters (x : Ext H) (views : List (Views H)) (cs : List (Call ν)) (i j : Nat) (sc sc' : Scope)
    (hi : cs[i]? = some (.meter sc)) (hj : cs[j]? = some (.meter sc')) :
    ∃ a b, (responses x (new views) cs)[i]? = some (.pointer a) ∧ (responses x (new views) cs)[j]? = some (.pointer b) ∧
      (a = none ↔ .shutdown ∈ cs.take i) ∧ (b = none ↔ .shutdown ∈ cs.take j) ∧
      (a ≠ none → b ≠ none → (a = b ↔ sc = sc')) := by
  obtain ⟨a, ha1, ha2, ha3⟩ := meter_response x views cs i sc hi
  obtain ⟨b, hb1, hb2, hb3⟩ := meter_response x views cs j sc' hj
  refine ⟨a, b, ha1, hb1, ha2, hb2, fun na nb => ?_⟩
  obtain ⟨n, rfl⟩ := Option.ne_none_iff_exists'.1 na
  obtain ⟨n', rfl⟩ := Option.ne_none_iff_exists'.1 nb
  have h1 := ha3 n rfl
  have h2 := hb3 n' rfl
  constructor
  · intro e; cases e; rw [h1] at h2; cases h2; rfl
  · rintro rfl
    have := (List.getElem?_inj (List.getElem?_eq_some_iff.1 h1).1 (firsts_nodup (asked cs))).1 (h1.trans h2.symm)
    rw [this]

/-- What a request for an instrument returns. -/
theorem instrument_response (x : Ext H) (views : List (Views H)) (cs : List (Call ν)) (i k : Nat) (d : Desc) (h : cs[i]? = some (.instrument k d)) :
    ∃ a, (responses x (new views) cs)[i]? = some (.pointer a) ∧
      (a = none ↔ ∀ sc, (firsts (asked (cs.take i)))[k]? = some sc → d.kind.synchronous = true ∧ NoOutput x views sc d) ∧
      ∀ n, a = some n → ∃ m : Meter H ν, (run x (new views) cs).ordered[k]? = some m ∧ ∃ o, m.insts[n]? = some o ∧ o.desc = d := by
  obtain ⟨hok, hv⟩ := run_ok (new_ok (ν := ν) x views) (cs.take i)
  have hv' : (run x (new views) (cs.take i) : Provider H ν).views = views := hv
  refine ⟨match ((run x (new views) (cs.take i) : Provider H ν).ordered[k]?) with
      | none => none
      | some m => (configure x views m d).2, (responses_get x _ cs i _ h).trans ?_, ?_, ?_⟩
  · simp only [step]
    cases hk : (run x (new views) (cs.take i) : Provider H ν).ordered[k]? with
    | none => rfl
    | some m => simp only [hv']
  · have hsc : (firsts (asked (cs.take i)))[k]? = ((run x (new views) (cs.take i) : Provider H ν).ordered[k]?).map (·.scope) := by
      rw [← scopes_run x views, List.getElem?_map]
    rw [hsc]
    cases hk : (run x (new views) (cs.take i) : Provider H ν).ordered[k]? with
    | none => simp
    | some m =>
      have hm := hok.meters m (List.mem_of_getElem? hk)
      rw [hv'] at hm
      simp only [Option.map_some, Option.some.injEq, forall_eq']
      rcases (configure_spec hm d).2.2.2 with ⟨n, hn, e, -, -⟩ | ⟨-, hs, hno, e, -, -⟩ | ⟨-, hno, e, -, -⟩
      · rw [e]
        simp only [reduceCtorEq, false_iff]
        have hidx := (hm.byDesc d n).1 hn
        rw [List.getElem?_map] at hidx
        obtain ⟨o, ho, rfl⟩ := Option.map_eq_some_iff.1 hidx
        exact hm.kept o (List.mem_of_getElem? ho)
      · rw [e]; simp [hs, hno]
      · rw [e]; simpa using hno
  · intro n hn
    cases hk : (run x (new views) (cs.take i) : Provider H ν).ordered[k]? with
    | none => rw [hk] at hn; cases hn
    | some m =>
      rw [hk] at hn
      dsimp only at hn
      have hm := hok.meters m (List.mem_of_getElem? hk)
      rw [hv'] at hm
      have hpost : ∃ o, (configure x views m d).1.insts[n]? = some o ∧ o.desc = d := by
        rcases (configure_spec hm d).2.2.2 with ⟨n', hn', e, e2, -⟩ | ⟨-, hs, hno, e, -, -⟩ | ⟨-, hno, e, ⟨ls, e2⟩, -⟩
        · rw [e] at hn
          cases hn
          have hidx := (hm.byDesc d n).1 hn'
          rw [List.getElem?_map] at hidx
          rw [e2]
          exact Option.map_eq_some_iff.1 hidx
        · rw [e] at hn; cases hn
        · rw [e] at hn; cases hn
          rw [e2]
          exact ⟨⟨d, ls⟩, by simp, rfl⟩
      obtain ⟨o, ho1, ho2⟩ := hpost
      have hstep : (step x (run x (new views) (cs.take i)) (.instrument k d)).1.ordered[k]? = some (configure x views m d).1 := by
        simp only [step, hk]
        rw [List.getElem?_set, if_pos rfl, if_pos (List.getElem?_eq_some_iff.1 hk).1, hv']
      have hg := run_grows (step_ok hok (.instrument k d)).1 (cs.drop (i+1))
      obtain ⟨m', h1, -, h3, -⟩ := hg.insts k _ hstep
      rw [run_split x _ cs i _ h]
      exact ⟨m', h1, o, prefix_get h3 ho1, ho2⟩

/-- C36. In any history of calls, two requests answered with an instrument are answered with the same one exactly when they are on the same meter
with the same descriptor. (Requests answered without one are those of C32.) -/
theorem C36_instruments (x : Ext H) (views : List (Views H)) (cs : List (Call ν)) (i j k k' : Nat) (d d' : Desc) (n n' : Nat)
    (hi : cs[i]? = some (.instrument k d)) (hj : cs[j]? = some (.instrument k' d'))
    (hn : (responses x (new views) cs)[i]? = some (.pointer (some n))) (hn' : (responses x (new views) cs)[j]? = some (.pointer (some n'))) :
    ((k, n) = (k', n')) ↔ (k, d) = (k', d') := by
  obtain ⟨a, ha, -, ha'⟩ := instrument_response x views cs i k d hi
  obtain ⟨b, hb, -, hb'⟩ := instrument_response x views cs j k' d' hj
  rw [hn] at ha; cases ha
  rw [hn'] at hb; cases hb
  obtain ⟨m, hm, o, ho, rfl⟩ := ha' n rfl
  obtain ⟨m', hm', o', ho', rfl⟩ := hb' n' rfl
  simp only [Prod.mk.injEq]
  constructor
  · rintro ⟨rfl, rfl⟩
    rw [hm] at hm'; cases hm'
    rw [ho] at ho'; cases ho'
    exact ⟨rfl, rfl⟩
  · rintro ⟨rfl, e⟩
    refine ⟨rfl, ?_⟩
    rw [hm] at hm'; cases hm'
    have hidx := ((run_ok (new_ok (ν := ν) x views) cs).1.meters m (List.mem_of_getElem? hm)).byDesc
    have h1 := (hidx o.desc n).2 (by rw [List.getElem?_map, ho]; rfl)
    have h2 := (hidx o'.desc n').2 (by rw [List.getElem?_map, ho']; rfl)
    rw [← e, h1] at h2
    cases h2; rfl

theorem mapM_some {α β : Type} (f : α → Option β) (l : List α) (r : List β) (h : l.mapM f = some r) :
    r.length = l.length ∧ ∀ (i : Nat) (a : α), l[i]? = some a → ∃ b, f a = some b ∧ r[i]? = some b := by
  induction l generalizing r with
  | nil => simp at h; subst h; simp
  | cons a l ih =>
    rw [List.mapM_cons] at h
    cases hf : f a with
    | none => simp [hf] at h
    | some b =>
      cases hl : l.mapM f with
      | none => simp [hf, hl] at h
      | some r' =>
        simp [hf, hl] at h
        subst h
        obtain ⟨h1, h2⟩ := ih r' hl
        refine ⟨by simp [h1], fun i a' ha => ?_⟩
        cases i with
        | zero => cases ha; exact ⟨b, hf, rfl⟩
        | succ i => exact h2 i a' ha

theorem mapM_none {α β : Type} (f : α → Option β) (l : List α) (a : α) (ha : a ∈ l) (h : f a = none) : l.mapM f = none := by
  cases hm : l.mapM f with
  | none => rfl
  | some r =>
    obtain ⟨i, hi⟩ := List.mem_iff_getElem?.1 ha
    obtain ⟨b, hb, -⟩ := (mapM_some f l r hm).2 i a hi
    rw [h] at hb; cases hb

theorem mapM_exists {α β : Type} (f : α → Option β) (l : List α) (h : ∀ a ∈ l, f a ≠ none) : ∃ r, l.mapM f = some r := by
  induction l with
  | nil => exact ⟨[], rfl⟩
  | cons a l ih =>
    obtain ⟨r, hr⟩ := ih (fun a' h' => h a' (List.mem_cons_of_mem _ h'))
    obtain ⟨b, hb⟩ := Option.ne_none_iff_exists'.1 (h a List.mem_cons_self)
    exact ⟨b :: r, by simp [List.mapM_cons, hb, hr]⟩

theorem mapM_congr {α β : Type} {f g : α → Option β} {l : List α} (h : ∀ a ∈ l, f a = g a) : l.mapM f = l.mapM g := by
  induction l with
  | nil => rfl
  | cons a l ih =>
    rw [List.mapM_cons, List.mapM_cons, h a List.mem_cons_self, ih (fun a' h' => h a' (List.mem_cons_of_mem _ h'))]

theorem collect_get (p : Provider H ν) (pipe : Nat) (obs : Nat → List (Nat × ν)) (r : List (Scope × List (Desc × List ν)))
    (h : collect p pipe obs = some r) :
    r.length = p.ordered.length ∧ ∀ (k : Nat) (m : Meter H ν), p.ordered[k]? = some m → ∃ s, collectFor m pipe (obs k) = some s ∧ r[k]? = some s := by
  obtain ⟨h1, h2⟩ := mapM_some _ _ _ h
  refine ⟨by simpa using h1, fun k m hk => ?_⟩
  exact h2 k (m, k) (by rw [List.getElem?_zipIdx, hk]; simp)

theorem collectFor_scope (m : Meter H ν) (pipe : Nat) (obs : List (Nat × ν)) (s : Scope × List (Desc × List ν)) (h : collectFor m pipe obs = some s) :
    s.1 = m.scope := by
  unfold collectFor at h
  split at h
  · cases h
  · cases h; rfl

/-- C36. Every collection reports the meters asked for before shutdown, each once, in order of first request. -/
theorem C36_order (x : Ext H) (views : List (Views H)) (cs : List (Call ν)) (pipe : Nat) (obs : Nat → List (Nat × ν))
    (r : List (Scope × List (Desc × List ν))) (h : collect (run x (new views) cs) pipe obs = some r) : r.map (·.1) = firsts (asked cs) := by
  obtain ⟨h1, h2⟩ := collect_get _ _ _ _ h
  rw [← scopes_run x views cs]
  refine List.ext_getElem? (fun k => ?_)
  rw [List.getElem?_map, List.getElem?_map]
  cases hk : (run x (new views) cs : Provider H ν).ordered[k]? with
  | none =>
    rw [List.getElem?_eq_none_iff] at hk
    rw [List.getElem?_eq_none (by omega)]; rfl
  | some m =>
    obtain ⟨s, hs, hr⟩ := h2 k m hk
    rw [hr, Option.map_some, Option.map_some, collectFor_scope m pipe _ s hs]

/-! ### C32 -/

theorem droppedBy_iff (x : Ext H) (v : Views H) (sc : Scope) {d : Desc} (hn : NoHint d) : (behaviors x v sc d).1 = [] ↔ DroppedBy v sc d := by
  rw [behaviors_plain x v sc hn]
  dsimp only
  by_cases he : (v.clauses.filter (fun c => «matches» c sc d)).isEmpty = true
  · rw [if_pos he]
    have hno : ∀ c ∈ v.clauses, ¬ Applies c sc d := by
      rw [List.isEmpty_iff, List.filter_eq_nil_iff] at he
      exact fun c hc ha => he c hc ((matches_iff c sc d).2 ha)
    unfold DroppedBy
    constructor
    · intro h
      refine Or.inr ⟨hno, ?_⟩
      by_cases hd : v.defaults.agg d.kind = .drop
      · exact hd
      · rw [if_neg hd] at h; cases h
    · rintro (⟨⟨c, hc, ha⟩, -⟩ | ⟨-, hd⟩)
      · exact absurd ha (hno c hc)
      · rw [if_pos hd]
  · rw [if_neg he]
    have hyes : ∃ c ∈ v.clauses, Applies c sc d := by
      rw [Bool.not_eq_true, List.isEmpty_eq_false_iff] at he
      obtain ⟨c, hc⟩ := List.exists_mem_of_ne_nil _ he
      obtain ⟨h1, h2⟩ := List.mem_filter.1 hc
      exact ⟨c, h1, (matches_iff c sc d).1 h2⟩
    rw [List.map_eq_nil_iff, List.filter_eq_nil_iff]
    unfold DroppedBy
    constructor
    · intro h
      refine Or.inl ⟨hyes, fun c hc ha => ?_⟩
      simpa using h c (List.mem_filter.2 ⟨hc, (matches_iff c sc d).2 ha⟩)
    · rintro (⟨-, h⟩ | ⟨h, -⟩)
      · intro c hc
        obtain ⟨h1, h2⟩ := List.mem_filter.1 hc
        simp [h c h1 ((matches_iff c sc d).1 h2)]
      · obtain ⟨c, hc, ha⟩ := hyes
        exact absurd ha (h c hc)

theorem outputName_of (x : Ext H) (v : Views H) (sc : Scope) {d : Desc} (hn : NoHint d) (b : Behavior H) (hb : b ∈ (behaviors x v sc d).1) :
    OutputName v sc d b.desc.name := by
  rw [behaviors_plain x v sc hn] at hb
  dsimp only at hb
  by_cases he : (v.clauses.filter (fun c => «matches» c sc d)).isEmpty = true
  · rw [if_pos he] at hb
    refine Or.inr ⟨?_, ?_⟩
    · rw [List.isEmpty_iff, List.filter_eq_nil_iff] at he
      exact fun c hc ha => he c hc ((matches_iff c sc d).2 ha)
    · by_cases hd : v.defaults.agg d.kind = .drop
      · rw [if_pos hd] at hb; cases hb
      · rw [if_neg hd, List.mem_singleton] at hb
        rw [hb]
  · rw [if_neg he] at hb
    obtain ⟨c, hc, rfl⟩ := List.mem_map.1 hb
    obtain ⟨hc, hc'⟩ := List.mem_filter.1 hc
    obtain ⟨h1, h2⟩ := List.mem_filter.1 hc
    exact Or.inl ⟨c, h1, (matches_iff c sc d).1 h2, by simpa using hc', rfl⟩

/-- C32. A request for an instrument is answered without one exactly when it is synchronous and dropped by every reader (or the meter was never
handed out). -/
theorem C32_nil_iff (x : Ext H) (views : List (Views H)) (cs : List (Call ν)) (i k : Nat) (d : Desc) (sc : Scope) (hn : NoHint d)
    (h : cs[i]? = some (.instrument k d)) (hk : (firsts (asked (cs.take i)))[k]? = some sc) :
    ∃ a, (responses x (new views) cs)[i]? = some (.pointer a) ∧ (a = none ↔ d.kind.synchronous = true ∧ ∀ v ∈ views, DroppedBy v sc d) := by
  obtain ⟨a, ha, ha', -⟩ := instrument_response x views cs i k d h
  refine ⟨a, ha, ha'.trans ?_⟩
  rw [hk]
  simp only [Option.some.injEq, forall_eq']
  unfold NoOutput
  simp only [droppedBy_iff x _ sc hn]

/-- C32. Recording on the instrument returned for a fully dropped synchronous instrument changes nothing at all. -/
theorem C32_noop (x : Ext H) (p : Provider H ν) (k : Nat) (v : ν) : (step x p (.record k none v)).1 = p := by
  simp only [step]
  cases hk : p.ordered[k]? with
  | none => rfl
  | some m =>
    have : p.ordered.set k (record m none v) = p.ordered := by
      show p.ordered.set k m = p.ordered
      refine List.ext_getElem? (fun j => ?_)
      rw [List.getElem?_set]
      by_cases e : k = j
      · subst e; rw [if_pos rfl, if_pos (List.getElem?_eq_some_iff.1 hk).1, hk]
      · rw [if_neg e]
    simp only [this]

theorem times_dropped {x : Ext H} {views : List (Views H)} {m : Meter H ν} (h : MeterOk x views m) {o : Inst} (ho : o ∈ m.insts) {pipe : Nat} {v : Views H}
    (hv : views[pipe]? = some v) (hb : (behaviors x v m.scope o.desc).1 = []) (l : Nat) : o.times pipe l = 0 := by
  have hlt := (List.getElem?_eq_some_iff.1 hv).1
  have h1 : o.leaves[pipe]? = some (o.leaves[pipe]'(by rw [h.leaves o ho]; exact hlt)) := by simp
  have h2 : m.comps[pipe]? = some (m.comps[pipe]'(by rw [h.comps]; exact hlt)) := by simp
  have he := (h.count o ho pipe _ v _ h1 hv h2).length
  unfold Inst.times
  rw [h1, Option.getD_some]
  rw [hb, List.length_nil] at he
  rw [List.length_eq_zero_iff.1 he]; rfl

/-- C32. Observations of an asynchronous instrument which a reader's views drop do not change what the reader collects, in any state: the report is that
of the other observations. -/
theorem C32_async (x : Ext H) (views : List (Views H)) (cs : List (Call ν)) (i k n : Nat) (d : Desc) (sc : Scope) (hn : NoHint d)
    (h : cs[i]? = some (.instrument k d)) (hr : (responses x (new views) cs)[i]? = some (.pointer (some n)))
    (hk : (firsts (asked cs))[k]? = some sc) (pipe : Nat) (v : Views H) (hv : views[pipe]? = some v) (hd : DroppedBy v sc d)
    (obs : Nat → List (Nat × ν)) :
    collect (run x (new views) cs) pipe obs =
      collect (run x (new views) cs) pipe (fun k' => if k' = k then (obs k').filter (fun e => e.1 ≠ n) else obs k') := by
  obtain ⟨a, ha, -, ha'⟩ := instrument_response x views cs i k d h
  rw [hr] at ha; cases ha
  obtain ⟨m, hm, o, ho, rfl⟩ := ha' n rfl
  have hok := run_ok (new_ok (ν := ν) x views) cs
  have hmok := hok.1.meters m (List.mem_of_getElem? hm)
  rw [hok.2] at hmok
  have hsc : m.scope = sc := by
    rw [← scopes_run x views cs, List.getElem?_map, hm] at hk
    simpa using hk
  have ht := times_dropped (pipe := pipe) hmok (List.mem_of_getElem? ho) hv (by rw [droppedBy_iff x v _ hn, hsc]; exact hd)
  unfold collect
  refine mapM_congr (fun e he => ?_)
  obtain ⟨m', k'⟩ := e
  rw [List.mem_zipIdx_iff_getElem?] at he
  dsimp only at he ⊢
  by_cases hkk : k' = k
  · subst hkk
    rw [hm] at he
    cases he
    rw [if_pos rfl]
    unfold collectFor
    by_cases hy : m.sync.any (·.isNone) = true
    · rw [if_pos hy, if_pos hy]
    · rw [if_neg hy, if_neg hy]
      have : ∀ l, observed m pipe l (obs k') = observed m pipe l ((obs k').filter (fun e => e.1 ≠ n)) := fun l => by
        unfold observed
        induction obs k' with
        | nil => rfl
        | cons e es ih =>
          rw [List.flatMap_cons, List.filter_cons, ih]
          by_cases hen : e.1 = n
          · rw [if_neg (by simpa using hen), hen, ho]
            dsimp only
            rw [ht l, List.replicate_zero, List.nil_append]
          · rw [if_pos (by simpa using hen), List.flatMap_cons]
      simp only [this]
  · rw [if_neg hkk]

/-- C32 fails: once a synchronous instrument which every reader drops has been asked for, every later collection, by any reader, panics (and so
reports nothing about any instrument). -/
theorem C32_dropped_fails (x : Ext H) (views : List (Views H)) (cs : List (Call ν)) (i k : Nat) (d : Desc) (sc : Scope) (hn : NoHint d)
    (h : cs[i]? = some (.instrument k d)) (hk : (firsts (asked (cs.take i)))[k]? = some sc) (hs : d.kind.synchronous = true)
    (hd : ∀ v ∈ views, DroppedBy v sc d) (pipe : Nat) (obs : Nat → List (Nat × ν)) : collect (run x (new views) cs) pipe obs = none := by
  obtain ⟨hok, hv⟩ := run_ok (new_ok (ν := ν) x views) (cs.take i)
  have hv' : (run x (new views) (cs.take i) : Provider H ν).views = views := hv
  rw [← scopes_run x views, List.getElem?_map] at hk
  obtain ⟨m, hm, hsc⟩ := Option.map_eq_some_iff.1 hk
  have hmok := hok.meters m (List.mem_of_getElem? hm)
  rw [hv'] at hmok
  have hno : NoOutput x views m.scope d := fun v hv => (droppedBy_iff x v _ hn).2 (by rw [hsc]; exact hd v hv)
  have hpost : none ∈ (configure x views m d).1.sync := by
    rcases (configure_spec hmok d).2.2.2 with ⟨n', hn', -, -, -⟩ | ⟨-, -, -, -, -, e⟩ | ⟨-, hno', -, -, -⟩
    · have hidx := (hmok.byDesc d n').1 hn'
      rw [List.getElem?_map] at hidx
      obtain ⟨o, ho, rfl⟩ := Option.map_eq_some_iff.1 hidx
      exact absurd ⟨hs, hno⟩ (hmok.kept o (List.mem_of_getElem? ho))
    · rw [e]; simp
    · exact absurd ⟨hs, hno⟩ hno'
  have hstep : (step x (run x (new views) (cs.take i)) (.instrument k d)).1.ordered[k]? = some (configure x views m d).1 := by
    simp only [step, hm]
    rw [List.getElem?_set, if_pos rfl, if_pos (List.getElem?_eq_some_iff.1 hm).1, hv']
  have hg := run_grows (step_ok hok (.instrument k d)).1 (cs.drop (i+1))
  obtain ⟨m', h1, -, -, h4⟩ := hg.insts k _ hstep
  rw [run_split x _ cs i _ h]
  refine mapM_none _ _ (m', k) ?_ ?_
  · rw [List.mem_zipIdx_iff_getElem?]; exact h1
  · unfold collectFor
    dsimp only
    rw [if_pos]
    rw [List.any_eq_true]
    exact ⟨none, h4.subset hpost, rfl⟩

/-- Every synchronous instrument asked for is kept by a reader. -/
def SyncKept (views : List (Views H)) (cs : List (Call ν)) : Prop :=
  ∀ (i k : Nat) (d : Desc) (sc : Scope), cs[i]? = some (.instrument k d) → (firsts (asked (cs.take i)))[k]? = some sc → d.kind.synchronous = true →
    NoHint d ∧ ∃ v ∈ views, ¬ DroppedBy v sc d

theorem sync_kept (x : Ext H) (views : List (Views H)) (cs : List (Call ν)) (h : SyncKept views cs) :
    ∀ m ∈ (run x (new views) cs).ordered, none ∉ m.sync := by
  suffices hs : ∀ n ≤ cs.length, ∀ m ∈ (run x (new views) (cs.take n) : Provider H ν).ordered, none ∉ m.sync by
    have := hs cs.length (Nat.le_refl _)
    rwa [List.take_length] at this
  intro n
  induction n with
  | zero => intro _ m hm; simp [run, new] at hm
  | succ n ih =>
    intro hn m hm
    have ih := ih (by omega)
    obtain ⟨hok, hv⟩ := run_ok (new_ok (ν := ν) x views) (cs.take n)
    have hv' : (run x (new views) (cs.take n) : Provider H ν).views = views := hv
    rw [List.take_add_one, List.getElem?_eq_getElem (by omega), Option.toList_some, run_append, run_cons] at hm
    change m ∈ (step x (run x (new views) (cs.take n)) _).1.ordered at hm
    have hc : cs[n]? = some cs[n] := by simp
    generalize cs[n] = c at hm hc
    generalize hp : (run x (new views) (cs.take n) : Provider H ν) = p at *
    cases c with
    | shutdown => exact ih m hm
    | meter sc =>
      change m ∈ (meter p sc).1.ordered at hm
      rcases (meter_spec hok sc).2.2 with ⟨-, e⟩ | ⟨-, j, -, e⟩ | ⟨-, -, -, -, e⟩
      · rw [e] at hm; exact ih m hm
      · rw [e] at hm; exact ih m hm
      · rw [e] at hm
        rcases List.mem_append.1 hm with hm | hm
        · exact ih m hm
        · rw [List.mem_singleton] at hm; subst hm; simp [newMeter]
    | record k inst v =>
      simp only [step] at hm
      cases hk : p.ordered[k]? with
      | none => rw [hk] at hm; exact ih m hm
      | some m0 =>
        rw [hk] at hm
        rcases List.mem_or_eq_of_mem_set hm with hm | hm
        · exact ih m hm
        · rw [hm, (record_fields m0 inst v).2.2.2.2.1]; exact ih m0 (List.mem_of_getElem? hk)
    | instrument k d =>
      simp only [step] at hm
      cases hk : p.ordered[k]? with
      | none => rw [hk] at hm; exact ih m hm
      | some m0 =>
        rw [hk] at hm
        rcases List.mem_or_eq_of_mem_set hm with hm | hm
        · exact ih m hm
        · rw [hm, hv']
          have hmok := hok.meters m0 (List.mem_of_getElem? hk)
          rw [hv'] at hmok
          have h0 := ih m0 (List.mem_of_getElem? hk)
          rcases (configure_spec hmok d).2.2.2 with ⟨n', hn', -, -, e⟩ | ⟨-, hs, hno, -, -, -⟩ | ⟨-, -, -, -, e⟩
          · rw [e]; exact h0
          · exfalso
            have hsc : (firsts (asked (cs.take n)))[k]? = some m0.scope := by
              rw [← scopes_run x views, List.getElem?_map, hp, hk]; rfl
            obtain ⟨hnh, v, hvm, hvd⟩ := h n k d m0.scope hc hsc hs
            exact hvd ((droppedBy_iff x v _ hnh).1 (hno v hvm))
          · rw [e]
            intro hmem
            rcases List.mem_append.1 hmem with hmem | hmem
            · exact h0 hmem
            · split at hmem
              · simp at hmem
              · cases hmem

theorem measured_cons (k n : Nat) (c : Call ν) (cs : List (Call ν)) : measured k n (c :: cs) = measured k n [c] ++ measured k n cs := by
  unfold measured
  rw [← List.filterMap_append]; rfl

/-- Measurements on an instrument reach its output metrics. -/
theorem run_recs (x : Ext H) {p : Provider H ν} (h : ProvOk x p) (cs : List (Call ν)) (k n : Nat) (m : Meter H ν) (o : Inst) (hm : p.ordered[k]? = some m)
    (ho : m.insts[n]? = some o) (pipe l : Nat) (ht : 0 < o.times pipe l) :
    ∃ m', (run x p cs).ordered[k]? = some m' ∧ (m.recs pipe l ++ measured k n cs).Sublist (m'.recs pipe l) := by
  induction cs generalizing p m with
  | nil => exact ⟨m, hm, by simp [measured]⟩
  | cons c cs ih =>
    have hok := (step_ok h c).1
    have key : ∃ m1 : Meter H ν, (step x p c).1.ordered[k]? = some m1 ∧ m1.insts[n]? = some o ∧ (m.recs pipe l ++ measured k n [c]).Sublist (m1.recs pipe l) := by
      obtain ⟨m1, h1, -, h3, -⟩ := (step_grows h c).insts k m hm
      refine ⟨m1, h1, prefix_get h3 ho, ?_⟩
      cases c with
      | shutdown =>
        change p.ordered[k]? = some m1 at h1
        rw [hm] at h1; cases h1
        simp [measured]
      | meter sc =>
        change (meter p sc).1.ordered[k]? = some m1 at h1
        have : m1 = m := by
          rcases (meter_spec h sc).2.2 with ⟨-, e⟩ | ⟨-, j, -, e⟩ | ⟨-, -, -, -, e⟩
          · rw [e] at h1; dsimp only at h1; rw [hm] at h1; exact (Option.some.inj h1).symm
          · rw [e] at h1; dsimp only at h1; rw [hm] at h1; exact (Option.some.inj h1).symm
          · rw [e, List.getElem?_append, if_pos (List.getElem?_eq_some_iff.1 hm).1, hm] at h1; exact (Option.some.inj h1).symm
        subst this
        simp [measured]
      | instrument k' d =>
        have e : measured k n [(.instrument k' d : Call ν)] = [] := rfl
        rw [e, List.append_nil]
        simp only [step] at h1
        cases hk : p.ordered[k']? with
        | none => rw [hk] at h1; dsimp only at h1; rw [hm] at h1; cases h1; exact List.Sublist.refl _
        | some m0 =>
          rw [hk] at h1
          dsimp only at h1
          rw [List.getElem?_set] at h1
          by_cases e : k' = k
          · subst e
            rw [if_pos rfl, if_pos (List.getElem?_eq_some_iff.1 hm).1] at h1
            cases h1
            rw [hm] at hk; cases hk
            rw [(configure_spec (h.meters m (List.mem_of_getElem? hm)) d).2.2.1]
            exact List.Sublist.refl _
          · rw [if_neg e, hm] at h1; cases h1; exact List.Sublist.refl _
      | record k' inst v =>
        simp only [step] at h1
        cases hk : p.ordered[k']? with
        | none =>
          rw [hk] at h1; dsimp only at h1; rw [hm] at h1; cases h1
          have : k' ≠ k := fun e => by subst e; rw [hm] at hk; cases hk
          cases inst <;> simp [measured, this]
        | some m0 =>
          rw [hk] at h1
          dsimp only at h1
          rw [List.getElem?_set] at h1
          by_cases e : k' = k
          · subst e
            rw [if_pos rfl, if_pos (List.getElem?_eq_some_iff.1 hm).1] at h1
            cases h1
            rw [hm] at hk; cases hk
            cases inst with
            | none => simp [measured, record]
            | some n' =>
              unfold record
              dsimp only
              by_cases en : n' = n
              · subst en
                rw [ho]
                dsimp only
                refine List.Sublist.append (List.Sublist.refl _) ?_
                simp only [measured, List.filterMap_cons, and_self, if_true, List.filterMap_nil]
                obtain ⟨t, ht'⟩ := Nat.exists_eq_succ_of_ne_zero (Nat.pos_iff_ne_zero.1 ht)
                rw [ht', List.replicate_succ]
                exact List.Sublist.cons_cons _ (List.nil_sublist _)
              · have : measured k' n [(.record k' (some n') v : Call ν)] = [] := by simp [measured, en]
                rw [this, List.append_nil]
                cases m.insts[n']? with
                | none => exact List.Sublist.refl _
                | some o' => exact List.sublist_append_left _ _
          · rw [if_neg e, hm] at h1; cases h1
            cases inst <;> simp [measured, e]
    obtain ⟨m1, h1, h2, h3⟩ := key
    obtain ⟨m', h4, h5⟩ := ih hok m1 h1 h2
    refine ⟨m', by rw [run_cons]; exact h4, ?_⟩
    rw [measured_cons, ← List.append_assoc]
    exact (List.Sublist.append h3 (List.Sublist.refl _)).trans h5

/-- C32 (partial: needs every synchronous instrument asked for to be kept by a reader, see `C32_dropped_fails`; other instruments may be dropped by
any readers). Every collection succeeds, and for every instrument which the reader's views keep reports, under the instrument's meter and a name
which the views give it, all its measurements (other instruments may have been merged into the same metric, C30). -/
theorem C32_collect_partial (x : Ext H) (views : List (Views H)) (cs : List (Call ν)) (hk : SyncKept views cs) (pipe : Nat) (v : Views H)
    (hv : views[pipe]? = some v) (obs : Nat → List (Nat × ν)) :
    ∃ r, collect (run x (new views) cs) pipe obs = some r ∧
      ∀ (i k n : Nat) (d : Desc) (sc : Scope), cs[i]? = some (.instrument k d) → NoHint d →
        (responses x (new views) cs)[i]? = some (.pointer (some n)) → (firsts (asked cs))[k]? = some sc → ¬ DroppedBy v sc d →
        ∃ metrics, r[k]? = some (sc, metrics) ∧
          ∃ e ∈ metrics, OutputName v sc d e.1.name ∧
            (measured k n (cs.drop (i+1)) ++ ((obs k).filter (fun e => e.1 = n)).map (·.2)).Sublist e.2 := by
  have hok := run_ok (new_ok (ν := ν) x views) cs
  have hsync := sync_kept x views cs hk
  obtain ⟨r, hr⟩ := mapM_exists (fun e : Meter H ν × Nat => collectFor e.1 pipe (obs e.2)) (run x (new views) cs).ordered.zipIdx (by
    rintro ⟨m, k⟩ he
    rw [List.mem_zipIdx_iff_getElem?] at he
    dsimp only at he ⊢
    unfold collectFor
    rw [if_neg]
    · simp
    · rw [List.any_eq_true]
      rintro ⟨o, ho, ho'⟩
      rw [Option.isNone_iff_eq_none] at ho'
      subst ho'
      exact hsync m (List.mem_of_getElem? he) ho)
  refine ⟨r, hr, ?_⟩
  intro i k n d sc hi hn hresp hsc hd
  obtain ⟨a, ha, -, ha'⟩ := instrument_response x views cs i k d hi
  rw [hresp] at ha; cases ha
  obtain ⟨m, hm, o, ho, rfl⟩ := ha' n rfl
  have hmok := hok.1.meters m (List.mem_of_getElem? hm)
  rw [hok.2] at hmok
  have hscope : m.scope = sc := by
    rw [← scopes_run x views cs, List.getElem?_map, hm] at hsc
    simpa using hsc
  subst hscope
  obtain ⟨s, hs, hrk⟩ := (collect_get _ _ _ _ hr).2 k m hm
  have hlt := (List.getElem?_eq_some_iff.1 hv).1
  have h1 : o.leaves[pipe]? = some (o.leaves[pipe]'(by rw [hmok.leaves o (List.mem_of_getElem? ho)]; exact hlt)) := by simp
  have h2 : m.comps[pipe]? = some (m.comps[pipe]'(by rw [hmok.comps]; exact hlt)) := by simp
  have he := hmok.count o (List.mem_of_getElem? ho) pipe _ v _ h1 hv h2
  have hb : (behaviors x v m.scope o.desc).1 ≠ [] := fun e => hd ((droppedBy_iff x v _ hn).1 e)
  obtain ⟨b, hb⟩ := List.exists_mem_of_ne_nil _ hb
  obtain ⟨j, hj⟩ := List.mem_iff_getElem?.1 hb
  obtain ⟨l, hl, leaf, hleaf, hname⟩ := he.get hj
  have ht : 0 < o.times pipe l := by
    unfold Inst.times
    rw [h1, Option.getD_some]
    exact List.count_pos_iff.2 (List.mem_of_getElem? hl)
  -- the state right after the request
  obtain ⟨hok0, hv0⟩ := run_ok (new_ok (ν := ν) x views) (cs.take i)
  have hstep := step_ok hok0 (.instrument k o.desc)
  have hrun := run_split x (new views) cs i _ hi
  have hpost : ∃ m1 : Meter H ν, (step x (run x (new views) (cs.take i)) (.instrument k o.desc)).1.ordered[k]? = some m1 ∧ m1.insts[n]? = some o := by
    obtain ⟨a, hra, -, hpa⟩ := instrument_response x views (cs.take i ++ [.instrument k o.desc]) i k o.desc (by
      have := (List.getElem?_eq_some_iff.1 hi).1
      rw [List.getElem?_append, if_neg (by simp; omega), List.length_take, Nat.min_eq_left (by omega)]; simp)
    have hresp' : (responses x (new views) (cs.take i ++ [.instrument k o.desc]))[i]? = some (Res.pointer (some n)) := by
      have hil := (List.getElem?_eq_some_iff.1 hi).1
      rw [responses_get x _ cs i _ hi] at hresp
      rw [responses_get x _ _ i (.instrument k o.desc) (by
        rw [List.getElem?_append, if_neg (by simp; omega), List.length_take, Nat.min_eq_left (by omega)]; simp)]
      rw [List.take_append, List.take_take, Nat.min_self, List.length_take, Nat.min_eq_left (by omega), Nat.sub_self, List.take_zero, List.append_nil]
      exact hresp
    rw [hresp'] at hra; cases hra
    obtain ⟨m1, hm1, o1, ho1, -⟩ := hpa n rfl
    rw [run_append] at hm1
    refine ⟨m1, hm1, ?_⟩
    obtain ⟨m2, hm2, -, hpre, -⟩ := (run_grows hstep.1 (cs.drop (i+1))).insts k m1 hm1
    rw [hrun, hm2] at hm
    cases hm
    rw [prefix_get hpre ho1] at ho
    rw [ho1, ← ho]
  obtain ⟨m1, hm1, ho1⟩ := hpost
  obtain ⟨m', hm', hsub⟩ := run_recs x hstep.1 (cs.drop (i+1)) k n m1 o hm1 ho1 pipe l ht
  rw [← hrun, hm] at hm'
  cases hm'
  unfold collectFor at hs
  split at hs
  · cases hs
  · cases hs
    refine ⟨_, hrk, (leaf.desc, m.recs pipe l ++ observed m pipe l (obs k)), ?_, ?_, ?_⟩
    · rw [List.mem_map]
      refine ⟨(leaf, l), ?_, rfl⟩
      rw [List.mem_zipIdx_iff_getElem?, h2]
      exact hleaf
    · dsimp only
      rw [hname]
      exact outputName_of x v _ hn b (List.mem_of_getElem? hj)
    · dsimp only
      refine List.Sublist.append ((List.sublist_append_right _ _).trans hsub) ?_
      unfold observed
      induction obs k with
      | nil => exact List.Sublist.refl _
      | cons e es ih =>
        rw [List.flatMap_cons, List.filter_cons]
        by_cases hen : e.1 = n
        · rw [if_pos (by simpa using hen), hen, ho, List.map_cons]
          dsimp only
          obtain ⟨t, ht'⟩ := Nat.exists_eq_succ_of_ne_zero (Nat.pos_iff_ne_zero.1 ht)
          rw [ht', List.replicate_succ, List.cons_append]
          exact List.Sublist.cons_cons _ (ih.trans (List.sublist_append_right _ _))
        · rw [if_neg (by simpa using hen)]
          exact ih.trans (List.sublist_append_right _ _)

namespace Ex
def gauge : Desc := { ViewEx.inst .asyncGauge "" with name := lit "g" }
def other : Scope := ⟨lit "lib", lit "v2", []⟩
/-- Two readers; the first drops `m`, the second everything asynchronous. -/
def views : List (Views Nat) :=
  [validate ViewEx.x (ViewEx.views [{ ViewEx.any with name := lit "m", agg := .drop }]),
   validate ViewEx.x (ViewEx.views [{ ViewEx.any with ikind := some .asyncGauge, agg := .drop }])]
def cs : List (Call Nat) :=
  [.meter ViewEx.lib, .meter other, .meter ViewEx.lib, .instrument 0 (ViewEx.inst .syncCounter ""), .instrument 0 gauge,
   .instrument 0 (ViewEx.inst .syncCounter ""), .instrument 1 (ViewEx.inst .syncCounter ""), .record 0 (some 0) 5, .record 0 (some 0) 7,
   .shutdown, .meter other, .record 0 (some 0) 8]
end Ex

/-- C36: what the calls of a history return. -/
example : responses ViewEx.x (new Ex.views) Ex.cs =
    [.pointer (some 0), .pointer (some 1), .pointer (some 0), .pointer (some 0), .pointer (some 1), .pointer (some 0), .pointer (some 0), .done false,
     .done false, .done true, .pointer none, .done false] ∧ firsts (asked Ex.cs) = [ViewEx.lib, Ex.other] := by decide +kernel

/-- Names and measurements of a report. -/
def Ex.view (r : Option (List (Scope × List (Desc × List Nat)))) : Option (List (Str × Str × List (Str × List Nat))) :=
  r.map (·.map (fun s => (s.1.name, s.1.version, s.2.map (fun e => (e.1.name, e.2)))))

instance Ex.dec1 : DecidableEq (Str × List Nat) := inferInstance
instance Ex.dec2 : DecidableEq (Str × Str × List (Str × List Nat)) := inferInstance
instance Ex.dec3 : DecidableEq (Option (List (Str × Str × List (Str × List Nat)))) := inferInstance

/-- C36, C32: what each reader then collects when a callback observes 1 on the gauge. -/
example : Ex.view (collect (run ViewEx.x (new Ex.views) Ex.cs) 0 (fun k => if k = 0 then [(1, 1)] else [])) =
    some [(lit "lib", [], [(lit "g", [1])]), (lit "lib", lit "v2", [])] := by decide +kernel
example : Ex.view (collect (run ViewEx.x (new Ex.views) Ex.cs) 1 (fun k => if k = 0 then [(1, 1)] else [])) =
    some [(lit "lib", [], [(lit "m", [5, 7, 8])]), (lit "lib", lit "v2", [(lit "m", [])])] := by decide +kernel

theorem Ex.dropped :
    DroppedBy (validate ViewEx.x (ViewEx.views [{ ViewEx.any with name := lit "m", agg := .drop }])) ViewEx.lib (ViewEx.inst .syncCounter "") := by
  refine (droppedBy_iff ViewEx.x _ _ (by unfold NoHint; decide +kernel)).1 (List.isEmpty_iff.1 ?_)
  decide +kernel

/-- C32: the histories above satisfy the hypothesis of `C32_collect_partial`. -/
example : SyncKept Ex.views (Ex.cs.take 6) := by
  intro i k d sc hi hsc hd
  have hkeep : ∀ sc, sc = ViewEx.lib → NoHint (ViewEx.inst .syncCounter "") ∧ ∃ v ∈ Ex.views, ¬ DroppedBy v sc (ViewEx.inst .syncCounter "") := by
    rintro sc rfl
    refine ⟨by unfold NoHint; decide +kernel, _, List.mem_cons_of_mem _ List.mem_cons_self, fun h => ?_⟩
    have := (droppedBy_iff ViewEx.x _ _ (by unfold NoHint; decide +kernel)).2 h
    exact absurd (List.isEmpty_iff.2 this) (by decide +kernel)
  match i, hi with
  | 3, hi =>
    cases hi
    exact hkeep sc (Option.some.inj (hsc.symm.trans (by decide +kernel)))
  | 4, hi => cases hi; cases hd
  | 5, hi =>
    cases hi
    exact hkeep sc (Option.some.inj (hsc.symm.trans (by decide +kernel)))
  | 0, hi => cases hi
  | 1, hi => cases hi
  | 2, hi => cases hi
  | n + 6, hi => cases hi

/-- C32: with a single reader dropping `m`, the hypotheses of `C32_dropped_fails` hold of asking for a counter `m` after another instrument, which was
collected before. -/
example : (∀ v ∈ Ex.views.take 1, DroppedBy v ViewEx.lib (ViewEx.inst .syncCounter "")) ∧ NoHint (ViewEx.inst .syncCounter "") ∧
    (collect (run ViewEx.x (new (ν := Nat) (Ex.views.take 1)) [.meter ViewEx.lib, .instrument 0 Ex.gauge]) 0 (fun _ => [(0, 1)])).isSome = true ∧
    (collect (run ViewEx.x (new (ν := Nat) (Ex.views.take 1)) [.meter ViewEx.lib, .instrument 0 Ex.gauge, .instrument 0 (ViewEx.inst .syncCounter "")])
      0 (fun _ => [(0, 1)])).isSome = false := by
  refine ⟨fun v hv => ?_, by unfold NoHint; decide +kernel, by decide +kernel, by decide +kernel⟩
  simp only [Ex.views, List.take_succ_cons, List.take_zero, List.mem_singleton] at hv
  subst hv
  exact Ex.dropped

end Verif.Provider
