import Verif.Model.Shutdown
import Verif.Props.Periodic

/-!
C37: shutting a provider down.
-/

namespace Verif.Shutdown
variable {ε : Type}

/-! ### Specification -/

def Ev.isShut : Ev ε → Bool
  | .shutBegin _ | .shutEnd _ _ => true
  | _ => false

/-- What the readers see of `Shutdown`. -/
def shutLog (s : State ε) : List (Ev ε) := s.log.filter Ev.isShut

/-- Each reader in turn is shut down, once, with these results; counting readers from `r`. -/
def inTurn (r : Nat) : List (Option ε) → List (Ev ε)
  | [] => []
  | e :: es => .shutBegin r :: .shutEnd r e :: inTurn (r + 1) es

/-! ### Invariant -/

/-- The call that found the provider open, with its results so far. -/
def Winner (n : Nat) (s : State ε) (t : Nat) (es : List (Option ε)) : Prop :=
  (∃ inside, s.calls[t]? = some (.shutLoop es.length inside (es.filterMap id)) ∧ es.length ≤ n ∧ (inside = true → es.length < n) ∧
    shutLog s = inTurn 0 es ++ if inside then [.shutBegin es.length] else []) ∨
  (s.calls[t]? = some (.shutDone false (es.filterMap id)) ∧ es.length = n ∧ shutLog s = inTurn 0 es)

def Pc.winning : Pc ε → Bool
  | .shutLoop _ _ _ => true
  | .shutDone already _ => !already
  | _ => false

def Pc.returned : Pc ε → Bool
  | .shutDone _ _ => true
  | _ => false

def Inv (n : Nat) (s : State ε) : Prop :=
  (s.open = true ∧ shutLog s = [] ∧ ∀ pc ∈ s.calls, pc.winning = false ∧ pc.returned = false) ∨
  (s.open = false ∧ ∃ t es, Winner n s t es ∧ ∀ (u : Nat) (pc : Pc ε), s.calls[u]? = some pc → pc.winning = true → u = t)

theorem inTurn_snoc (r : Nat) (es : List (Option ε)) (e : Option ε) :
    inTurn r (es ++ [e]) = inTurn r es ++ [.shutBegin (r + es.length), .shutEnd (r + es.length) e] := by
  induction es generalizing r with
  | nil => rfl
  | cons a es ih =>
    simp only [List.cons_append, inTurn, ih, List.length_cons]
    rw [show r + 1 + es.length = r + (es.length + 1) by omega]

theorem get_set {α : Type} {l : List α} {t : Nat} {a a' : α} (h : l[t]? = some a) (u : Nat) : (l.set t a')[u]? = if u = t then some a' else l[u]? := by
  rw [List.getElem?_set]
  by_cases e : t = u
  · subst e; rw [if_pos rfl, if_pos (List.getElem?_eq_some_iff.1 h).1, if_pos rfl]
  · rw [if_neg e, if_neg (fun e' => e e'.symm)]

/-- The winner is not touched, and the log gets nothing about shutting down. -/
theorem inv_keep {n : Nat} {s s' : State ε} (h : Inv n s) (hl : shutLog s' = shutLog s) (ho : s'.open = s.open)
    (hold : ∀ (u : Nat) (pc : Pc ε), s.calls[u]? = some pc → pc.winning = true → s'.calls[u]? = some pc)
    (hnew : ∀ (u : Nat) (pc : Pc ε), s'.calls[u]? = some pc → s.calls[u]? = some pc ∨ (pc.winning = false ∧ (pc.returned = true → s.open = false))) : Inv n s' := by
  rcases h with ⟨h1, h2, h3⟩ | ⟨h1, t, es, hw, hu⟩
  · refine Or.inl ⟨ho.trans h1, hl.trans h2, fun pc hpc => ?_⟩
    obtain ⟨u, hu⟩ := List.mem_iff_getElem?.1 hpc
    rcases hnew u pc hu with h | ⟨h, h'⟩
    · exact h3 pc (List.mem_of_getElem? h)
    · refine ⟨h, ?_⟩
      cases hr : pc.returned with
      | false => rfl
      | true => rw [h' hr] at h1; cases h1
  · refine Or.inr ⟨ho.trans h1, t, es, ?_, fun u pc hpc hwin => ?_⟩
    · rcases hw with ⟨inside, a, b, c, d⟩ | ⟨a, b, c⟩
      · exact Or.inl ⟨inside, hold t _ a rfl, b, c, hl.trans d⟩
      · exact Or.inr ⟨hold t _ a rfl, b, hl.trans c⟩
    · rcases hnew u pc hpc with h | ⟨h, -⟩
      · exact hu u pc h hwin
      · rw [h] at hwin; cases hwin

theorem shutLog_other (s : State ε) (e : Ev ε) (h : e.isShut = false) : (s.log ++ [e]).filter Ev.isShut = shutLog s := by
  rw [List.filter_append, List.filter_cons, if_neg (by simp [h])]
  simp [shutLog]

theorem shutLog_more (s : State ε) (e : Ev ε) (h : e.isShut = true) : (s.log ++ [e]).filter Ev.isShut = shutLog s ++ [e] := by
  rw [List.filter_append, List.filter_cons, if_pos h]
  rfl

theorem step_inv {n : Nat} {s : State ε} (h : Inv n s) (a : Act ε) : Inv n (step n s a) := by
  have hcall : ∀ pc : Pc ε, pc.winning = false → pc.returned = false → Inv n { s with calls := s.calls ++ [pc] } := by
    intro pc h1 h2
    refine inv_keep h rfl rfl (fun u pc' hu _ => ?_) (fun u pc' hu => ?_)
    · show (s.calls ++ [pc])[u]? = _
      rw [List.getElem?_append, if_pos (List.getElem?_eq_some_iff.1 hu).1]; exact hu
    · change (s.calls ++ [pc])[u]? = _ at hu
      rw [List.getElem?_append] at hu
      by_cases hlt : u < s.calls.length
      · rw [if_pos hlt] at hu; exact Or.inl hu
      · rw [if_neg hlt] at hu
        have := List.mem_of_getElem? hu
        rw [List.mem_singleton] at this
        subst this
        exact Or.inr ⟨h1, fun h => by rw [h2] at h; cases h⟩
  cases a with
  | shutdown => exact hcall _ rfl rfl
  | flush => exact hcall _ rfl rfl
  | meter => exact inv_keep h (shutLog_other s _ rfl) rfl (fun _ _ h _ => h) (fun _ _ h => Or.inl h)
  | go t e =>
    simp only [step]
    cases ht : s.calls[t]? with
    | none => exact h
    | some pc =>
      dsimp only
      -- a call which is not the winner moves to another such state
      have hmove : ∀ (pc' : Pc ε) (s' : State ε), pc.winning = false → pc'.winning = false → (pc'.returned = true → s.open = false) → s'.calls = s.calls.set t pc' →
          s'.open = s.open → shutLog s' = shutLog s → Inv n s' := by
        intro pc' s' hw hw' hr hc ho hl
        refine inv_keep h hl ho (fun u pcu hu hwu => ?_) (fun u pcu hu => ?_)
        · rw [hc, get_set ht, if_neg]
          · exact hu
          · rintro rfl
            rw [ht] at hu; cases hu
            rw [hw] at hwu; cases hwu
        · rw [hc, get_set ht] at hu
          by_cases eu : u = t
          · rw [if_pos eu] at hu; cases hu
            exact Or.inr ⟨hw', hr⟩
          · rw [if_neg eu] at hu; exact Or.inl hu
      cases pc with
      | shut =>
        unfold advance; dsimp only
        by_cases ho : s.open = true
        · rw [if_pos ho]
          rcases h with ⟨-, h2, h3⟩ | ⟨h1, -⟩
          · refine Or.inr ⟨rfl, t, [], Or.inl ⟨false, ?_, Nat.zero_le _, by simp, h2⟩, fun u pc hu hw => ?_⟩
            · show (s.calls.set t _)[t]? = _
              rw [get_set ht, if_pos rfl]; rfl
            · change (s.calls.set t _)[u]? = _ at hu
              rw [get_set ht] at hu
              by_cases eu : u = t
              · exact eu
              · rw [if_neg eu] at hu
                rw [(h3 pc (List.mem_of_getElem? hu)).1] at hw; cases hw
          · rw [h1] at ho; cases ho
        · rw [if_neg ho]
          exact hmove (.shutDone true []) _ rfl rfl (fun _ => by simpa using ho) rfl rfl rfl
      | shutDone _ _ => exact h
      | flushDone _ => exact h
      | flushLoop r inside errs =>
        unfold advance; dsimp only
        by_cases hi : inside = true
        · rw [if_pos hi]
          exact hmove (.flushLoop (r+1) false (errs ++ e.toList)) _ rfl rfl (fun h => by cases h) rfl rfl (shutLog_other s _ rfl)
        · rw [if_neg hi]
          by_cases hr : r < n
          · rw [if_pos hr]; exact hmove (.flushLoop r true errs) _ rfl rfl (fun h => by cases h) rfl rfl (shutLog_other s _ rfl)
          · rw [if_neg hr]; exact hmove (.flushDone errs) _ rfl rfl (fun h => by cases h) rfl rfl rfl
      | shutLoop r inside errs =>
        rcases h with ⟨-, -, h3⟩ | ⟨h1, t0, es, hw, hu⟩
        · have := (h3 _ (List.mem_of_getElem? ht)).1
          cases this
        · have e0 : t = t0 := hu t _ ht rfl
          subst e0
          rcases hw with ⟨ins, a, b, c, d⟩ | ⟨a, -⟩
          · rw [ht] at a
            cases a
            have huniq : ∀ (pc' : Pc ε) (u : Nat) (pcu : Pc ε), (s.calls.set t pc')[u]? = some pcu → pcu.winning = true → u = t := by
              intro pc' u pcu hpc hwin
              rw [get_set ht] at hpc
              by_cases eu : u = t
              · exact eu
              · rw [if_neg eu] at hpc; exact hu u pcu hpc hwin
            have hset : ∀ pc' : Pc ε, (s.calls.set t pc')[t]? = some pc' := fun pc' => by rw [get_set ht, if_pos rfl]
            unfold advance; dsimp only
            by_cases hi : inside = true
            · rw [if_pos hi]
              subst hi
              refine Or.inr ⟨h1, t, es ++ [e], Or.inl ⟨false, ?_, ?_, by simp, ?_⟩, huniq _⟩
              · show (s.calls.set t _)[t]? = _
                rw [hset, List.length_append, List.filterMap_append]
                cases e <;> rfl
              · rw [List.length_append]; exact c rfl
              · refine (shutLog_more s _ rfl).trans ?_
                rw [d, inTurn_snoc, if_pos rfl]
                simp
            · rw [if_neg hi]
              have hi' : inside = false := by simpa using hi
              subst hi'
              by_cases hr : es.length < n
              · rw [if_pos hr]
                refine Or.inr ⟨h1, t, es, Or.inl ⟨true, hset _, b, fun _ => hr, ?_⟩, huniq _⟩
                refine (shutLog_more s _ rfl).trans ?_
                rw [d]; simp
              · rw [if_neg hr]
                refine Or.inr ⟨h1, t, es, Or.inr ⟨hset _, by omega, ?_⟩, huniq _⟩
                refine Eq.trans (b := shutLog s) rfl ?_
                rw [d]; simp
          · rw [ht] at a; cases a

theorem run_inv (n : Nat) (as : List (Act ε)) {s : State ε} (h : Inv n s) : Inv n (run n s as) := by
  induction as generalizing s with
  | nil => exact h
  | cons a as ih => exact ih (step_inv h a)

theorem new_inv (n : Nat) : Inv n (new : State ε) := Or.inl ⟨rfl, rfl, by simp [new]⟩

theorem run_append (n : Nat) (s : State ε) (as bs : List (Act ε)) : run n s (as ++ bs) = run n (run n s as) bs := by
  unfold run; rw [List.foldl_append]

theorem inTurn_prefix (r : Nat) (es es' : List (Option ε)) : inTurn r es <+: inTurn r (es ++ es') := by
  induction es generalizing r with
  | nil => exact List.nil_prefix
  | cons a es ih =>
    obtain ⟨x, hx⟩ := ih (r + 1)
    exact ⟨x, by simp only [List.cons_append, inTurn, hx]⟩

theorem inTurn_append (r : Nat) (es es' : List (Option ε)) : inTurn r (es ++ es') = inTurn r es ++ inTurn (r + es.length) es' := by
  induction es generalizing r with
  | nil => rfl
  | cons a es ih =>
    simp only [List.cons_append, inTurn, ih, List.length_cons]
    rw [show r + 1 + es.length = r + (es.length + 1) by omega]

theorem inTurn_count [DecidableEq ε] (r n : Nat) (es : List (Option ε)) : (inTurn r es).count (.shutBegin n) = if r ≤ n ∧ n < r + es.length then 1 else 0 := by
  induction es generalizing r with
  | nil =>
    rw [if_neg (by simp only [List.length_nil]; omega)]; rfl
  | cons a es ih =>
    simp only [inTurn]
    rw [List.count_cons, List.count_cons, ih]
    have h2 : ((Ev.shutEnd r a : Ev ε) == .shutBegin n) = false := by simp
    have h3 : ((Ev.shutBegin r : Ev ε) == .shutBegin n) = decide (r = n) := by
      rw [Bool.eq_iff_iff]; simp
    rw [h2, h3, List.length_cons]
    have h4 : ∀ c : Bool, (if c = true then 1 else 0) = c.toNat := by intro c; cases c <;> rfl
    rw [h4, h4]
    by_cases e : r = n
    · subst e
      rw [if_neg (by omega), if_pos (by omega), decide_eq_true rfl]; rfl
    · rw [decide_eq_false e]
      by_cases h5 : r + 1 ≤ n ∧ n < r + 1 + es.length
      · rw [if_pos h5, if_pos (by omega)]; rfl
      · rw [if_neg h5, if_neg (by omega)]; rfl

/-! ### C37 -/

/-- C37. However many calls of `Shutdown` are made, at whatever times, the readers see at most this: each of the `n` readers is shut down once, in order, one after
the other. -/
theorem C37_once (n : Nat) (as : List (Act ε)) : ∃ es : List (Option ε), es.length = n ∧ shutLog (run n new as) <+: inTurn 0 es := by
  have h := run_inv n as (new_inv (ε := ε) n)
  rcases h with ⟨-, h2, -⟩ | ⟨-, t, es, hw, -⟩
  · exact ⟨List.replicate n none, by simp, by rw [h2]; exact List.nil_prefix⟩
  · rcases hw with ⟨inside, -, b, c, d⟩ | ⟨-, b, c⟩
    · cases inside with
      | false =>
        refine ⟨es ++ List.replicate (n - es.length) none, by simp; omega, ?_⟩
        rw [d]; simpa using inTurn_prefix 0 es _
      | true =>
        have hlt := c rfl
        refine ⟨es ++ (none :: List.replicate (n - es.length - 1) none), by simp; omega, ?_⟩
        rw [d, inTurn_append]
        refine (List.prefix_append_right_inj _).2 ?_
        simp [inTurn]
    · exact ⟨es, b, by rw [c]; exact List.prefix_refl _⟩

/-- C37. So no reader's `Shutdown` is called twice, and no other reader's is. -/
theorem C37_count [DecidableEq ε] (n : Nat) (as : List (Act ε)) (r : Nat) : (shutLog (run n new as)).count (.shutBegin r) ≤ if r < n then 1 else 0 := by
  obtain ⟨es, h1, h2⟩ := C37_once n as
  refine Nat.le_trans (h2.sublist.count_le _) ?_
  rw [inTurn_count, h1]
  by_cases h : r < n
  · rw [if_pos h, if_pos (by omega)]; exact Nat.le_refl _
  · rw [if_neg h, if_neg (by omega)]; exact Nat.le_refl _

/-- C37. When a `Shutdown` call has returned other than with the already-shutdown error, every reader has been shut down, exactly once, in order, and the call returned
exactly the readers' errors. -/
theorem C37_complete (n : Nat) (as : List (Act ε)) (t : Nat) (errs : List ε) (h : (run n new as).calls[t]? = some (.shutDone false errs)) :
    ∃ es : List (Option ε), es.length = n ∧ shutLog (run n new as) = inTurn 0 es ∧ errs = es.filterMap id := by
  rcases run_inv n as (new_inv (ε := ε) n) with ⟨-, -, h3⟩ | ⟨-, t0, es, hw, hu⟩
  · have := (h3 _ (List.mem_of_getElem? h)).1; cases this
  · have := hu t _ h rfl
    subst this
    rcases hw with ⟨inside, a, -⟩ | ⟨a, b, c⟩
    · rw [h] at a; cases a
    · rw [h] at a; cases a; exact ⟨es, b, c, rfl⟩

/-- C37. At most one call of `Shutdown` ever returns other than with the already-shutdown error. -/
theorem C37_one (n : Nat) (as : List (Act ε)) (t t' : Nat) (errs errs' : List ε) (h : (run n new as).calls[t]? = some (.shutDone false errs))
    (h' : (run n new as).calls[t']? = some (.shutDone false errs')) : t = t' := by
  rcases run_inv n as (new_inv (ε := ε) n) with ⟨-, -, h3⟩ | ⟨-, t0, es, hw, hu⟩
  · have := (h3 _ (List.mem_of_getElem? h)).1; cases this
  · exact (hu t _ h rfl).trans (hu t' _ h' rfl).symm

theorem open_step (n : Nat) {s : State ε} (h : s.open = false) (a : Act ε) : (step n s a).open = false := by
  cases a with
  | shutdown => exact h
  | flush => exact h
  | meter => exact h
  | go t e =>
    simp only [step]
    cases ht : s.calls[t]? with
    | none => exact h
    | some pc =>
      dsimp only
      cases pc with
      | shut => unfold advance; dsimp only; rw [if_neg (by simp [h])]; exact h
      | shutLoop r i errs => unfold advance; dsimp only; split; exact h; split <;> exact h
      | shutDone _ _ => exact h
      | flushLoop r i errs => unfold advance; dsimp only; split; exact h; split <;> exact h
      | flushDone _ => exact h

theorem open_run (n : Nat) {s : State ε} (h : s.open = false) (as : List (Act ε)) : (run n s as).open = false := by
  induction as generalizing s with
  | nil => exact h
  | cons a as ih => exact ih (open_step n h a)

theorem closed_of_returned (n : Nat) (as : List (Act ε)) (t : Nat) (already : Bool) (errs : List ε)
    (h : (run n new as).calls[t]? = some (.shutDone already errs)) : (run n (new : State ε) as).open = false := by
  rcases run_inv n as (new_inv (ε := ε) n) with ⟨-, -, h3⟩ | ⟨h1, -⟩
  · have := (h3 _ (List.mem_of_getElem? h)).2; cases this
  · exact h1

theorem calls_length (n : Nat) (s : State ε) (a : Act ε) : s.calls.length ≤ (step n s a).calls.length := by
  cases a with
  | shutdown => simp [step]
  | flush => simp [step]
  | meter => exact Nat.le_refl _
  | go t e =>
    simp only [step]
    cases ht : s.calls[t]? with
    | none => exact Nat.le_refl _
    | some pc =>
      dsimp only
      cases pc <;> unfold advance <;> (repeat' split) <;> simp

/-- A call of `Shutdown` not yet past its lock when the provider is closed can only return already-shutdown. -/
theorem late_step (n : Nat) {s : State ε} (h : s.open = false) {t : Nat} (ht : ∀ pc, s.calls[t]? = some pc → pc.winning = false) (a : Act ε) :
    ∀ pc, (step n s a).calls[t]? = some pc → pc.winning = false := by
  have hcall : ∀ x : Pc ε, x.winning = false → ∀ pc, (s.calls ++ [x])[t]? = some pc → pc.winning = false := by
    intro x hx pc hpc
    rw [List.getElem?_append] at hpc
    by_cases hlt : t < s.calls.length
    · rw [if_pos hlt] at hpc; exact ht pc hpc
    · rw [if_neg hlt] at hpc
      have := List.mem_of_getElem? hpc
      rw [List.mem_singleton] at this
      subst this; exact hx
  cases a with
  | shutdown => exact hcall _ rfl
  | flush => exact hcall _ rfl
  | meter => exact ht
  | go u e =>
    intro pc hpc
    simp only [step] at hpc
    cases hu : s.calls[u]? with
    | none => rw [hu] at hpc; exact ht pc hpc
    | some pcu =>
      rw [hu] at hpc
      dsimp only at hpc
      have hset : ∀ x : Pc ε, (u = t → x.winning = false) → (s.calls.set u x)[t]? = some pc → pc.winning = false := by
        intro x hx hh
        rw [get_set hu] at hh
        by_cases eu : t = u
        · rw [if_pos eu] at hh; cases hh; exact hx eu.symm
        · rw [if_neg eu] at hh; exact ht pc hh
      have hw : u = t → pcu.winning = false := by rintro rfl; exact ht pcu hu
      cases pcu with
      | shut =>
        unfold advance at hpc; dsimp only at hpc
        rw [h, if_neg (by simp)] at hpc
        exact hset _ (fun _ => rfl) hpc
      | shutLoop r i errs =>
        unfold advance at hpc; dsimp only at hpc
        split at hpc
        · exact hset _ (fun e => by cases hw e) hpc
        · split at hpc
          · exact hset _ (fun e => by cases hw e) hpc
          · exact hset _ (fun e => by cases hw e) hpc
      | shutDone _ _ => exact ht pc hpc
      | flushLoop r i errs =>
        unfold advance at hpc; dsimp only at hpc
        split at hpc
        · exact hset _ (fun _ => rfl) hpc
        · split at hpc
          · exact hset _ (fun _ => rfl) hpc
          · exact hset _ (fun _ => rfl) hpc
      | flushDone _ => exact ht pc hpc

/-- C37. Once a `Shutdown` call has returned (with whatever result), every `Shutdown` called later can only return the already-shutdown error. -/
theorem C37_later (n : Nat) (as bs : List (Act ε)) (t : Nat) (already : Bool) (errs : List ε) (h : (run n new as).calls[t]? = some (.shutDone already errs))
    (u : Nat) (hu : (run n (new : State ε) as).calls.length ≤ u) (already' : Bool) (errs' : List ε)
    (hr : (run n new (as ++ bs)).calls[u]? = some (.shutDone already' errs')) : already' = true := by
  have ho := closed_of_returned n as t already errs h
  rw [run_append] at hr
  have h0 : ∀ pc, (run n (new : State ε) as).calls[u]? = some pc → pc.winning = false := by
    intro pc hpc; rw [List.getElem?_eq_none hu] at hpc; cases hpc
  generalize run n (new : State ε) as = s at *
  have : ∀ pc, (run n s bs).calls[u]? = some pc → pc.winning = false := by
    clear hr h hu
    induction bs generalizing s with
    | nil => exact h0
    | cons b bs ih => exact ih _ (open_step n ho b) (late_step n ho h0 b)
  have := this _ hr
  simpa [Pc.winning] using this

/-- C37. After a `Shutdown` call has returned, `Meter` answers with the no-op meter, at any time. -/
theorem C37_meter (n : Nat) (as bs : List (Act ε)) (t : Nat) (already : Bool) (errs : List ε) (h : (run n new as).calls[t]? = some (.shutDone already errs)) :
    (run n new (as ++ bs ++ [.meter])).log = (run n (new : State ε) (as ++ bs)).log ++ [.meter true] := by
  have ho := open_run n (closed_of_returned n as t already errs h) bs
  rw [run_append n new (as ++ bs), run_append]
  show (run n (run n new as) bs).log ++ _ = _
  rw [ho]; rfl

/-- C37 fails in that flushing still reaches the readers: after `Shutdown` has returned (and with whatever else going on), `ForceFlush` calls each reader's, in turn,
as before. -/
theorem C37_flush_after_fails (n : Nat) (hn : 0 < n) (as : List (Act ε)) (t : Nat) (errs : List ε)
    (_ : (run n new as).calls[t]? = some (.shutDone false errs)) :
    ∃ bs, (run n new (as ++ bs)).log = (run n (new : State ε) as).log ++ [.flushBegin 0] := by
  refine ⟨[.flush, .go (run n (new : State ε) as).calls.length none], ?_⟩
  rw [run_append]
  generalize run n (new : State ε) as = s
  show (step n (step n s .flush) (.go s.calls.length none)).log = _
  have : (step n s .flush).calls[s.calls.length]? = some (.flushLoop 0 false []) := by simp [step]
  show (match (step n s .flush).calls[s.calls.length]? with | none => _ | some pc => advance n (step n s .flush) s.calls.length none pc).log = _
  rw [this]
  dsimp only
  unfold advance; dsimp only
  rw [if_neg (by simp), if_pos hn]; rfl

/-- C37 fails in that a periodic reader still exports: after its `Shutdown` has returned, a `ForceFlush` collects and exports again. -/
theorem C37_export_after_fails (as : List Periodic.Act) (t : Nat) (_ : Periodic.Returned (Periodic.run Periodic.new as) t .shutdown) :
    ∃ bs u, (u, Periodic.What.export .flush) ∈ (Periodic.run Periodic.new (as ++ bs)).log ∧ Periodic.events (Periodic.run Periodic.new as) u = [] := by
  have hget : (Periodic.run Periodic.new (as ++ [.callFlush])).threads[(Periodic.run Periodic.new as).threads.length]? = some ⟨.flush, .wait⟩ := by
    rw [Periodic.run_snoc]; simp [Periodic.step]
  have hne : (Periodic.run Periodic.new as).threads.length ≠ 0 := by
    obtain ⟨p, hp, -⟩ := (Periodic.run_all as).1.loop
    have := (List.getElem?_eq_some_iff.1 hp).1
    omega
  obtain ⟨bs, -, hr⟩ := Periodic.C38_no_deadlock (as ++ [.callFlush]) _ _ hne hget
  refine ⟨[.callFlush] ++ bs, _, ?_, (Periodic.run_all as).1.noEv _ (Nat.le_refl _)⟩
  have hev := Periodic.C38_flush _ _ hr
  rw [← List.append_assoc]
  have hm : Periodic.What.export .flush ∈ Periodic.events (Periodic.run Periodic.new (as ++ [.callFlush] ++ bs)) (Periodic.run Periodic.new as).threads.length := by
    rw [hev]; simp
  obtain ⟨⟨u, w⟩, h1, h2⟩ := List.mem_map.1 hm
  obtain ⟨h3, h4⟩ := List.mem_filter.1 h1
  simp only [decide_eq_true_eq] at h4
  dsimp only at h2
  subst h2
  rw [← h4]; exact h3

/-- C37 (partial: without `ForceFlush`, see `C37_flush_after_fails`, `C37_export_after_fails`). Nothing more is exported by a periodic reader after its `Shutdown` has
returned, when no call is pending or made after. -/
theorem C37_no_export_partial (as bs : List Periodic.Act) (t : Nat) (h : Periodic.Returned (Periodic.run Periodic.new as) t .shutdown)
    (hp : ∀ (u : Nat) (th : Periodic.Thread), u ≠ 0 → (Periodic.run Periodic.new as).threads[u]? = some th → th.pos = .done)
    (hb : ∀ b ∈ bs, b ≠ .callFlush ∧ b ≠ .callShutdown) :
    (Periodic.run Periodic.new (as ++ bs)).log = (Periodic.run Periodic.new as).log := by
  have hi := (Periodic.run_all as).1
  have hd := (Periodic.returned_done hi h).2
  rw [Periodic.run_append]
  generalize Periodic.run Periodic.new as = s at *
  clear h
  have hall : ∀ (u : Nat) (th : Periodic.Thread), s.threads[u]? = some th → th.pos = .done := by
    intro u th hu
    by_cases e : u = 0
    · subst e
      obtain ⟨th0, h0, h1⟩ := (Periodic.loopDone_iff s).1 hd
      rw [hu] at h0; cases h0; exact h1
    · exact hp u th e hu
  clear hp hd hi
  induction bs generalizing s with
  | nil => rfl
  | cons b bs ih =>
    have hb' := fun b' h' => hb b' (List.mem_cons_of_mem _ h')
    have hstep : (Periodic.step s b).log = s.log ∧ (Periodic.step s b).threads = s.threads := by
      cases b with
      | tick => exact ⟨rfl, rfl⟩
      | callShutdown => exact absurd rfl (hb _ List.mem_cons_self).2
      | callFlush => exact absurd rfl (hb _ List.mem_cons_self).1
      | go u q =>
        simp only [Periodic.step]
        cases hu : s.threads[u]? with
        | none => exact ⟨rfl, rfl⟩
        | some th => simp only [Periodic.advance, hall u th hu, and_self]
    have := ih hb' (s := Periodic.step s b) (by rw [hstep.2]; exact hall)
    exact this.trans hstep.1

/-- C37: two readers, the second failing, three concurrent calls of `Shutdown` and a flush afterwards. -/
example : let s := run 2 (new : State Nat) [.meter, .shutdown, .shutdown, .go 1 none, .go 0 none, .meter, .go 1 none, .go 1 none, .go 1 none, .go 1 (some 7), .go 1 none,
      .shutdown, .go 2 none, .flush, .go 3 none]
    s.calls = [.shutDone true [], .shutDone false [7], .shutDone true [], .flushLoop 0 true []] ∧
    s.log = [.meter false, .meter true, .shutBegin 0, .shutEnd 0 none, .shutBegin 1, .shutEnd 1 (some 7), .flushBegin 0] := by decide

end Verif.Shutdown
