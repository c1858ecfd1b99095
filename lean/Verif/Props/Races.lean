import Verif.Proof.Races

/-!
# C87: the API is free of data races
-/

namespace Verif.Props
open Verif.Races
open Verif.Locks (Lock Mode)

/-- C87 (for all calls but `Unregister`, the text of an error after it was returned, shared attributes that have to be truncated,
and overlapping collections of one `ManualReader`). Any number of threads, any calls by each, in whatever order, callbacks,
exporters, processors and error handlers that again make any calls: in no execution two threads are about to use the same
memory, one of them to write, not both atomically. -/
theorem C87_no_race_partial (w : World) (n : Nat) (os : List Obj) (threads : List (List Op)) (h : ∀ t ∈ threads, user w n t)
    {s : State} (hs : Reaches (start os threads) s) : ¬ Race s :=
  no_race (π := policy w) (fun t ht => fits_user w n t (h t ht)) hs

namespace RacesEx

/-! ### Evaluating executions -/

def freeB (s : State) (held : List (Lock × Mode)) : Op → Bool
  | .acq l .write => s.threads.all (fun t => !t.held.contains (l, .read) && !t.held.contains (l, .write))
  | .acq l .read => s.threads.all (fun t => !t.held.contains (l, .write))
  | .rel l => (held.head?.map (·.1)) == some l
  | .alloc o => !s.born.contains o
  | .see o => s.known.contains o
  | .pub _ => true
  | .acc _ _ => true

theorem freeB_free {s : State} {held : List (Lock × Mode)} {o : Op} (h : freeB s held o = true) : free s held o := by
  cases o with
  | acq l m =>
    cases m with
    | read => simpa [freeB, free] using h
    | write =>
      simp only [freeB, List.all_eq_true, Bool.and_eq_true, Bool.not_eq_true', List.contains_eq_mem, decide_eq_false_iff_not] at h
      intro t ht m
      cases m with
      | read => exact (h t ht).1
      | write => exact (h t ht).2
  | rel l =>
    cases held with
    | nil => simp [freeB] at h
    | cons x xs =>
      obtain ⟨a, b⟩ := x
      simpa [freeB, free] using h
  | alloc o => simpa [freeB, free] using h
  | see o => simpa [freeB, free] using h
  | pub _ => trivial
  | acc _ _ => trivial

/-- Thread `i` executes its next operation. -/
def exec1 (s : State) (i : Nat) : Option State :=
  match s.threads[i]? with
  | none => none
  | some t => match t.todo with
    | [] => none
    | o :: rest => if freeB s t.held o then
        some ⟨s.threads.take i ++ ⟨after t.held o, rest⟩ :: s.threads.drop (i + 1), allocated s.born o, published s.known o⟩ else none

def exec (s : State) : List Nat → Option State
  | [] => some s
  | i :: is => match exec1 s i with
    | none => none
    | some s' => exec s' is

theorem exec1_step {s s' : State} {i : Nat} (h : exec1 s i = some s') : Step s s' := by
  obtain ⟨ts, born, known⟩ := s
  unfold exec1 at h
  split at h
  · cases h
  · rename_i t ht
    split at h
    · cases h
    · rename_i o rest e
      split at h
      · rename_i hf
        injection h with h
        subst h
        obtain ⟨hi, hget⟩ := List.getElem?_eq_some_iff.1 ht
        have es : ts = ts.take i ++ t :: ts.drop (i + 1) := by
          rw [← hget, List.getElem_cons_drop, List.take_append_drop]
        have hf := freeB_free hf
        rw [es] at hf
        have := Step.run e hf
        rwa [← es] at this
      · cases h

theorem reaches_trans {s s' s'' : State} (h : Reaches s s') (h' : Reaches s' s'') : Reaches s s'' := by
  induction h' with
  | refl => exact h
  | step _ hs ih => exact ih.step hs

theorem exec_reaches {is : List Nat} : ∀ {s s' : State}, exec s is = some s' → Reaches s s' := by
  induction is with
  | nil => intro s s' h; cases h; exact .refl
  | cons i is ih =>
    intro s s' h
    unfold exec at h
    split at h
    · cases h
    · rename_i s1 h1
      exact reaches_trans (Reaches.refl.step (exec1_step h1)) (ih h)

/-- Threads 0 and 1 race. -/
def raceB (s : State) : Bool :=
  match s.threads with
  | ⟨_, .acc c a :: _⟩ :: ⟨_, .acc c' b :: _⟩ :: _ => c == c' && a.conflict b
  | _ => false

theorem raceB_race {s : State} (h : raceB s = true) : Race s := by
  unfold raceB at h
  split at h
  · rename_i held c a r held' c' b r' ts e
    rw [Bool.and_eq_true, beq_iff_eq] at h
    obtain ⟨rfl, h⟩ := h
    exact ⟨0, 1, _, _, c, a, b, r, r', by decide, by rw [e]; rfl, by rw [e]; rfl, rfl, rfl, h⟩
  · cases h

/-- Thread `i` goes on until its next operation is `o`, the `k`-th time. -/
def goto (i : Nat) (o : Op) : Nat → Nat → State → Option State
  | 0, _, _ => none
  | fuel + 1, k, s =>
    let here := (s.threads[i]?.bind (·.todo.head?)) == some o
    if here && k == 0 then some s else match exec1 s i with
      | none => none
      | some s' => goto i o fuel (if here then k - 1 else k) s'

theorem goto_reaches {i : Nat} {o : Op} {fuel : Nat} : ∀ {k : Nat} {s s' : State}, goto i o fuel k s = some s' → Reaches s s' := by
  induction fuel with
  | zero => intro k s s' h; cases h
  | succ fuel ih =>
    intro k s s' h
    unfold goto at h
    dsimp only at h
    split at h
    · injection h with h
      subst h
      exact .refl
    · split at h
      · cases h
      · rename_i s1 h1
        exact reaches_trans (Reaches.refl.step (exec1_step h1)) (ih h)

/-- An execution of the two threads, from the start of the program, ends in a race. -/
def Races (t u : List Op) : Prop := ∃ s, Reaches (start [] [t, u]) s ∧ Race s

/-- The threads listed run, one after the other, each up to the operation given, met for the `k`-th time. -/
def play : List (Nat × Op × Nat) → State → Option State
  | [], s => some s
  | (i, o, k) :: l, s => (goto i o 1000 k s).bind (play l)

theorem play_reaches {l : List (Nat × Op × Nat)} : ∀ {s s' : State}, play l s = some s' → Reaches s s' := by
  induction l with
  | nil => intro s s' h; cases h; exact .refl
  | cons x l ih =>
    intro s s' h
    obtain ⟨s1, h1, h2⟩ := Option.bind_eq_some_iff.1 h
    exact reaches_trans (goto_reaches h1) (ih h2)

theorem races_of {t u : List Op} (l : List (Nat × Op × Nat)) (h : ((play l (start [] [t, u])).map raceB) = some true) : Races t u := by
  obtain ⟨s, hs, hr⟩ := Option.map_eq_some_iff.1 h
  exact ⟨s, play_reaches hs, raceB_race hr⟩

/-! ### Building sequences -/

theorem lockedI {l : Lock} {A : Lang} {u : List Op} (h : A u) : locked l A (.acq l .write :: (u ++ [.rel l])) := ⟨u, h, rfl⟩
theorem rlockedI {l : Lock} {A : Lang} {u : List Op} (h : A u) : rlocked l A (.acq l .read :: (u ++ [.rel l])) := ⟨u, h, rfl⟩
theorem seqI {A B : Lang} {u v : List Op} (h : A u) (h' : B v) : seq A B (u ++ v) := ⟨u, v, h, h', rfl⟩
theorem optI {A : Lang} {u : List Op} (h : A u) : opt A u := Or.inr h
theorem optN {A : Lang} : opt A [] := Or.inl rfl
theorem altL {A B : Lang} {u : List Op} (h : A u) : alt A B u := Or.inl h
theorem altR {A B : Lang} {u : List Op} (h : B u) : alt A B u := Or.inr h
theorem many1 {A : Lang} {u : List Op} (h : A u) : Many A (u ++ []) := .cons h .nil
theorem manyN {A : Lang} : Many A [] := .nil
theorem someI {A : Nat → Lang} (i : Nat) {u : List Op} (h : A i u) : some' A u := ⟨i, h⟩
theorem opsI {l : List Op} : ops l l := rfl
theorem whenI {P : Prop} {A : Lang} {u : List Op} (hp : P) (h : A u) : when P A u := ⟨hp, h⟩

theorem iteI {b : Bool} {A B : Lang} {u : List Op} (hb : b = true) (h : A u) : (if b = true then A else B) u := by
  rw [if_pos hb]
  exact h

/-- One provider, one reader, one meter; aggregators from number 20 are those of asynchronous sums with delta temporality, the others
have a lock; `C` is executed by callbacks, `U` is plugged in elsewhere. -/
def W (C U : Lang) : World := ⟨fun _ => true, fun h => if h < 20 then .locked else .diff 0, fun _ => 0, fun _ => 0, C, U, U, U⟩

theorem W_ofReader (C U : Lang) (h : Nat) : (W C U).ofReader 0 h := by
  intro r' e
  simp only [W] at e
  split at e <;> cases e
  rfl

theorem append_mem (hd : Cell) (x k : Nat) : append hd ([.acc hd .read] ++ ([] ++ ((make (.elem x k) [.slot x k] ++ []) ++ [.acc hd .write]))) :=
  seqI opsI (seqI manyN (seqI (many1 (someI x (someI k opsI))) opsI))

theorem element_mem (x k : Nat) : element [.see (.elem x k), .acc (.slot x k) .read] := someI x (someI k opsI)

/-- `Meter`, with one reader -/
def getMeterT : { t // getMeter t } :=
  ⟨_, someI 0 (lockedI (l := .provider 0) (seqI opsI (optI (someI 0 (seqI (many1 (someI 0 opsI)) (seqI opsI (seqI (append_mem (.ordered 0) 0 0) opsI)))))))⟩

/-- `RegisterCallback`, the `k`-th -/
def registerT (k : Nat) : { t // registerCallback t } :=
  ⟨_, someI 0 (someI k (someI k (seqI opsI (optI (lockedI (l := .meter 0) (seqI opsI (seqI (append_mem (.callbacks 0) 1 k) opsI)))))))⟩

/-- `Unregister`, of the `k`-th -/
def unregisterT (k : Nat) : { t // unregister t } :=
  ⟨_, someI k (someI 0 (someI 1 (someI k (seqI opsI (lockedI (l := .registration k) (seqI opsI (optI (seqI opsI (seqI (many1 (element_mem 1 k))
    (seqI (optI opsI) opsI))))))))))⟩

/-- Creating an instrument, number `k`, with a view of its own -/
def createT (C U : Lang) (k : Nat) : { t // createInstrument (W C U) t } :=
  ⟨_, someI 0 (seqI opsI (lockedI (l := .meter 0) (seqI opsI (seqI (many1 (someI 0 (whenI rfl (seqI manyN (seqI opsI (lockedI (l := .compiler 0) (many1 (seqI opsI (seqI manyN (optI (someI k (whenI rfl
    (seqI opsI (seqI (append_mem (.collectors 0) 2 k) opsI))))))))))))))
    (seqI (optI (someI k (seqI opsI (altL (append_mem (.syncInsts 0) 3 k))))) optN)))))⟩

/-- Creating it again, with a longer description -/
def againT (C U : Lang) (k : Nat) : { t // createInstrument (W C U) t } :=
  ⟨_, someI 0 (seqI opsI (lockedI (l := .meter 0) (seqI opsI (seqI (many1 (someI 0 (whenI rfl (seqI manyN (seqI opsI (lockedI (l := .compiler 0) (many1 (seqI opsI (seqI (many1 (someI k (whenI rfl
    (seqI opsI (optI (lockedI (l := .view k) opsI)))))) optN)))))))))
    (seqI optN optN)))))⟩

/-- The aggregator `h` of a view: there, or new -/
theorem findStorage_mem (C U : Lang) (v h : Nat) {A : Lang} {u x : List Op} (hx : alt (ops [.see (.stor h)])
    (ops (make (.stor h) [.value h] ++ [.acc (.viewData v) .write])) x) (hA : A u) : findStorage (W C U) v h A
      ([] ++ ([.see (.view v)] ++ (.acq (.view v) .write :: (([.acc (.viewData v) .read] ++ ([] ++ (x ++ u))) ++ [.rel (.view v)])))) :=
  seqI optN (seqI opsI (lockedI (seqI opsI (seqI optN (seqI hx hA)))))

/-- The parts of a measurement with instrument 0: the record is not in the table, or is -/
def missT (C U : Lang) : { t // lookup (W C U) 0 t } := ⟨_, seqI opsI manyN⟩
def hitT (C U : Lang) : { t // lookup (W C U) 0 t } := ⟨_, seqI opsI (many1 (someI 0 (seqI opsI (seqI (iteI rfl rfl) (optI opsI)))))⟩
def insertT (C U : Lang) : { t // acquireNotFound (W C U) 0 t } :=
  ⟨_, seqI manyN (someI 0 (optI (lockedI (l := .inst 0) (seqI (missT C U).2 opsI))))⟩

/-- the accumulator is not yet there, or is -/
def newSyncT (C U : Lang) : { t // newSync (W C U) t } :=
  ⟨_, many1 (someI 0 (someI 10 (someI 0 (someI 11 (seqI (findStorage_mem C U 0 10 (altR opsI) opsI) opsI)))))⟩
def initT (C U : Lang) : { t // readAccumulator (W C U) 0 t } :=
  ⟨_, seqI opsI (seqI (altR (lockedI (l := .once 0) (altR (seqI opsI (seqI (iteI rfl (seqI (someI 0 opsI) opsI)) (seqI (newSyncT C U).2 opsI)))))) opsI)⟩
def readT (C U : Lang) : { t // readAccumulator (W C U) 0 t } := ⟨_, seqI opsI (seqI (altL opsI) opsI)⟩
def updateT (C U : Lang) : { t // syncUpdate (W C U) t } :=
  ⟨_, many1 (someI 0 (someI 11 (whenI (fun r e => by cases e) (seqI opsI (lockedI (l := .storage 11) opsI)))))⟩

/-- The first measurement with instrument 0, by way of a list of attributes -/
def addT (C U : Lang) {list : Lang} (l : { t // list t }) : { t // syncObserveWith list (W C U) t } :=
  ⟨_, seqI optN (optI (seqI l.2 (seqI optN (someI 0 (someI 0 (seqI opsI (seqI (rlockedI (l := .inst 0) (missT C U).2) (seqI (optI (insertT C U).2)
    (seqI (initT C U).2 (seqI (updateT C U).2 opsI))))))))))⟩

/-- Another one -/
def addAgainT (C U : Lang) {list : Lang} (l : { t // list t }) : { t // syncObserveWith list (W C U) t } :=
  ⟨_, seqI optN (optI (seqI l.2 (seqI optN (someI 0 (someI 0 (seqI opsI (seqI (rlockedI (l := .inst 0) (hitT C U).2) (seqI optN
    (seqI (readT C U).2 (seqI (updateT C U).2 opsI))))))))))⟩

/-- A new list of attributes, and one made before -/
def newListT (k : Nat) : { t // attributes t } := ⟨_, someI k (altL opsI)⟩
def oldListT (k : Nat) : { t // attributes t } := ⟨_, someI k (altR opsI)⟩
def truncatedT (k : Nat) : { t // truncated t } := ⟨_, someI k opsI⟩

/-- Observing with instrument 1 in a callback, in collection `n`; the aggregator is there, or new -/
def storT (first : Bool) : { x // alt (ops [.see (.stor 20)]) (ops (make (.stor 20) [.value 20] ++ [.acc (.viewData 1) .write])) x } :=
  if first then ⟨_, altR opsI⟩ else ⟨_, altL opsI⟩
def newAsyncT (C U : Lang) (n : Nat) (first : Bool) : { t // newAsync (W C U) t } :=
  ⟨_, many1 (someI 1 (someI 20 (someI (20 + n) (seqI (findStorage_mem C U 1 20 (storT first).2 (A := skip) rfl) opsI))))⟩
def getOrCreateT (C U : Lang) (n : Nat) (first : Bool) : { t // asyncGetOrCreate (W C U) t } :=
  ⟨_, someI n (seqI opsI (lockedI (l := .state n) (seqI opsI (seqI (optI opsI) (optI (seqI (newAsyncT C U n first).2 opsI))))))⟩
def currentT (n : Nat) : { t // asyncUpdate t } := ⟨_, many1 (someI (20 + n) (seqI opsI (lockedI (l := .acc (20 + n)) opsI)))⟩
def observeT (C U : Lang) (n : Nat) (first : Bool) : { t // asyncObserve (W C U) t } :=
  ⟨_, seqI (someI n (seqI opsI (lockedI (l := .callback n) opsI))) (altR (someI 0 (someI 1 (seqI opsI (seqI optN (optI
    (seqI (getOrCreateT C U n first).2 (currentT n).2)))))))⟩

/-- The parts of collection `n`: executing callback 0, -/
def callbackT (C U : Lang) (n : Nat) (cb : { t // C t }) : { t // runCallback (W C U) t } :=
  ⟨_, someI 0 (someI n (seqI opsI (seqI (A := (W C U).callback) cb.2 (seqI opsI (lockedI (l := .callback n) opsI)))))⟩

/-- synchronous instrument 0, -/
def moveT (C U : Lang) : { t // move (W C U) 11 [.snapshot 0] t } := ⟨_, lockedI (l := .storage 11) opsI⟩
def mergeT (C U : Lang) : { t // merge (W C U) 0 10 t } := ⟨_, lockedI (l := .storage 10) opsI⟩
def snapshotT (C U : Lang) : { t // syncSnapshot (W C U) t } :=
  ⟨_, many1 (someI 0 (someI 11 (someI 10 (whenI ⟨fun r e => (by cases e), fun r e => (by cases e)⟩ (seqI opsI (lockedI (l := .acc 0)
    (seqI (moveT C U).2 (seqI opsI (seqI (mergeT C U).2 optN)))))))))⟩
def syncT (C U : Lang) : { t // syncSnapshotAll (W C U) t } :=
  ⟨_, someI 0 (seqI opsI (lockedI (l := .inst 0) (seqI opsI (many1 (someI 0 (seqI opsI (seqI (optI (seqI (readT C U).2 (snapshotT C U).2))
    (seqI optN optN))))))))⟩

/-- asynchronous instrument 1, -/
def asyncUpdT (C U : Lang) : { t // update (W C U) 20 t } := ⟨_, opsI⟩
def asyncSnapshotT (C U : Lang) (n : Nat) : { t // asyncSnapshot (W C U) 0 t } :=
  ⟨_, many1 (someI (20 + n) (someI 20 (whenI (W_ofReader C U 20) (seqI opsI (lockedI (l := .acc (20 + n)) (seqI opsI (asyncUpdT C U).2))))))⟩
def asyncT (C U : Lang) (n : Nat) : { t // asyncSnapshotAll (W C U) 0 t } :=
  ⟨_, someI 1 (someI n (seqI opsI (lockedI (l := .state n) (seqI opsI (many1 (asyncSnapshotT C U n).2)))))⟩

/-- and the output of instrument 1: the sum, or the difference to the sum before. -/
def copyT (C U : Lang) : { t // copy (W C U) 20 t } := ⟨_, opsI⟩
def firstT (C U : Lang) : { t // collectView (W C U) 0 t } :=
  ⟨_, someI 1 (seqI opsI (lockedI (l := .view 1) (seqI opsI (seqI (many1 (someI 20 (whenI (W_ofReader C U 20) (seqI opsI (altL (copyT C U).2)))))
    (seqI (optI (someI 21 opsI)) (optI opsI))))))⟩
def secondT (C U : Lang) : { t // collectView (W C U) 0 t } :=
  ⟨_, someI 1 (seqI opsI (lockedI (l := .view 1) (seqI opsI (seqI (many1 (someI 20 (whenI (W_ofReader C U 20) (seqI opsI (altR (altR
    (someI 21 (whenI ⟨rfl, rfl⟩ (seqI opsI opsI))))))))) (seqI optN optN)))))⟩
def outputT (C U : Lang) (first : Bool) : { t // collectView (W C U) 0 t } := if first then firstT C U else secondT C U

/-- Everything together. Without `sync`, there is no instrument 0. -/
def syncsT (C U : Lang) (sync : Bool) : { t // Many (seq element (syncSnapshotAll (W C U))) t } :=
  if sync then ⟨_, many1 (seqI (element_mem 3 0) (syncT C U).2)⟩ else ⟨_, manyN⟩
def collectForT (C U : Lang) (n : Nat) (first sync : Bool) (cb : { t // C t }) : { t // collectFor (W C U) 0 t } :=
  ⟨_, someI 0 (someI n (someI 0 (seqI opsI (seqI (lockedI (l := .meter 0) opsI) (seqI opsI
    (seqI (many1 (seqI (element_mem 1 0) (callbackT C U n cb).2)) (seqI (syncsT C U sync).2 (seqI (many1 (seqI (element_mem 3 1) (asyncT C U n).2))
    (seqI opsI (seqI (lockedI (l := .compiler 0) opsI) (many1 (seqI (element_mem 2 1) (outputT C U first).2))))))))))))⟩
def produceT (C U : Lang) (n : Nat) (first sync : Bool) (cb : { t // C t }) : { t // produce (W C U) 0 t } :=
  ⟨_, someI 0 (seqI (lockedI (l := .provider 0) opsI) (seqI (lockedI (l := .producer 0) opsI)
    (many1 (seqI (element_mem 0 0) (collectForT C U n first sync cb).2))))⟩
def collectT (C U : Lang) (n : Nat) (first sync : Bool) (cb : { t // C t }) (ex : { t // U t }) : { t // collect (W C U) 0 t } :=
  ⟨_, lockedI (l := .reader 0) (seqI opsI (seqI (produceT C U n first sync cb).2 (seqI (B := (W C U).exporter) opsI ex.2)))⟩

end RacesEx

open RacesEx in
/-- C87 (fails for `Unregister`). It changes the list of callbacks of the meter without holding the meter's lock: it races with
`RegisterCallback`. -/
theorem C87_unregister_fails : ∃ t u, seq getMeter (seq registerCallback unregister) t ∧ registerCallback u ∧ Races t u :=
  ⟨_, _, seqI getMeterT.2 (seqI (registerT 0).2 (unregisterT 0).2), (registerT 1).2,
    races_of [(0, .acc (.callbacks 0) .write, 2), (1, .acc (.callbacks 0) .write, 0)] (by decide +kernel)⟩

open RacesEx in
/-- C87 (fails for the text of errors). An error returned by the creation of an instrument that conflicts with others copies
their descriptions when it is formatted, without a lock: this races with a creation that replaces a description by a longer
one. -/
theorem C87_error_text_fails : ∃ t u, seq getMeter (seq (createInstrument (W skip skip)) (errorText fun _ => True)) t ∧
    createInstrument (W skip skip) u ∧ Races t u :=
  ⟨_, _, seqI getMeterT.2 (seqI (createT skip skip 0).2 (many1 (someI 0 (whenI trivial opsI)))),
    (againT skip skip 0).2,
    races_of [(0, .acc (.viewDesc 0) .read, 0), (1, .acc (.viewDesc 0) .write, 0)] (by decide +kernel)⟩

open RacesEx in
/-- C87 (fails for lists of attributes that are shared). Values that are too long are truncated in the list the caller has handed
over: two measurements with one list race. -/
theorem C87_truncation_fails : ∃ t u, seq getMeter (seq (createInstrument (W skip skip)) (seq (syncObserve (W skip skip)) (syncObserveWith truncated (W skip skip)))) t ∧
    syncObserveWith truncated (W skip skip) u ∧ Races t u :=
  ⟨_, _, seqI getMeterT.2 (seqI (createT skip skip 0).2 (seqI (addT skip skip (newListT 0)).2 (addAgainT skip skip (truncatedT 0)).2)),
    (addAgainT skip skip (truncatedT 0)).2,
    races_of [(0, .acc (.slice 0) .write, 2), (1, .acc (.slice 0) .read, 0)] (by decide +kernel)⟩

open RacesEx in
/-- C87 (fails for overlapping collections). A `ManualReader` may be asked for its metrics by several threads at once: for
asynchronous sums with delta temporality, computing the difference in one collection races with storing the new sum in the
other. -/
theorem C87_overlapping_fails :
    ∃ t u, seq getMeter (seq (createInstrument (W (asyncObserve (W skip skip)) skip)) (seq registerCallback (seq (produce (W (asyncObserve (W skip skip)) skip) 0)
      (produce (W (asyncObserve (W skip skip)) skip) 0)))) t ∧ produce (W (asyncObserve (W skip skip)) skip) 0 u ∧ Races t u :=
  ⟨_, _, seqI getMeterT.2 (seqI (createT _ _ 1).2 (seqI (registerT 0).2 (seqI (produceT _ _ 0 true false (observeT skip skip 0 true)).2
      (produceT _ _ 1 false false (observeT skip skip 1 false)).2))),
    (produceT _ _ 2 false false (observeT skip skip 2 false)).2,
    races_of [(0, .alloc (.cbstate 1), 0), (1, .acc (.value 20) .store, 0), (0, .acc (.value 20) .read, 0)] (by decide +kernel)⟩

namespace RacesEx

/-- The callback of the runtime metrics, with one metric -/
def runtimeT (n : Nat) (first : Bool) : { t // runtimeCallback (W skip skip) t } := ⟨_, seqI opsI (many1 (seqI opsI (observeT skip skip n first).2))⟩

/-- A collection by reader 1 -/
def otherT (C U : Lang) (n : Nat) (cb : { t // C t }) (ex : { t // U t }) : { t // collect (W C U) 1 t } :=
  ⟨_, lockedI (l := .reader 1) (seqI opsI (seqI (someI 1 (seqI (lockedI (l := .provider 1) opsI) (seqI (lockedI (l := .producer 1) opsI)
    (many1 (seqI (element_mem 0 0) (someI 0 (someI n (someI 0 (seqI opsI (seqI (lockedI (l := .meter 0) opsI) (seqI opsI
      (seqI (many1 (seqI (element_mem 1 0) (callbackT C U n cb).2)) (seqI manyN (seqI manyN (seqI opsI
      (seqI (lockedI (l := .compiler 0) opsI) manyN)))))))))))))))) (seqI (B := (W C U).exporter) opsI ex.2)))⟩

end RacesEx

open RacesEx in
/-- C87 (fails for the runtime metrics of `lightstep/instrumentation/runtime`). Their callback reuses the samples it has read into
the time before, without a lock: two readers that collect at the same time race. -/
theorem C87_runtime_metrics_fails :
    let w : World := W (runtimeCallback (W skip skip)) skip
    ∃ t u, seq getMeter (seq (createInstrument w) (seq registerCallback (collect w 0))) t ∧ collect w 1 u ∧ Races t u :=
  ⟨_, _, seqI getMeterT.2 (seqI (createT _ _ 1).2 (seqI (registerT 0).2 (collectT _ skip 0 true false (runtimeT 0 true) ⟨[], rfl⟩).2)),
    (otherT _ skip 1 (runtimeT 1 false) ⟨[], rfl⟩).2,
    races_of [(0, .acc (.app 0) .read, 0), (1, .acc (.app 0) .write, 0)] (by decide +kernel)⟩

namespace RacesEx

/-- A callback that writes data of the application and observes, holding a lock -/
def lockingT (n : Nat) (first : Bool) : { t // user (W skip skip) 1 t } :=
  ⟨_, App.lock (k := 0) (m := .write) (.write List.mem_cons_self (.call (Or.inr (Or.inr (Or.inr (Or.inr (Or.inl (observeT _ _ n first).2))))) .nil)) .nil⟩

def idleT : { t // user (W skip skip) 1 t } := ⟨[], App.nil⟩

/-- One thread makes a meter, a counter and an asynchronous counter, counts and collects; the other one makes the same counter again,
counts, and collects. -/
def threads : List (List Op) :=
  [getMeterT.1 ++ ((createT (user (W skip skip) 1) (user (W skip skip) 1) 0).1 ++ ((addT (user (W skip skip) 1) (user (W skip skip) 1) (newListT 0)).1 ++ ((createT (user (W skip skip) 1) (user (W skip skip) 1) 1).1 ++ ((registerT 0).1 ++
      ((collectT _ _ 0 true true (lockingT 0 true) idleT).1 ++ []))))),
   (againT (user (W skip skip) 1) (user (W skip skip) 1) 0).1 ++ ((addAgainT (user (W skip skip) 1) (user (W skip skip) 1) (oldListT 0)).1 ++ ((collectT _ _ 1 false true (lockingT 1 false) idleT).1 ++ []))]

theorem threads_mem : ∀ t ∈ threads, user (W skip skip) 2 t := by
  intro t ht
  simp only [threads, List.mem_cons, List.not_mem_nil, or_false] at ht
  rcases ht with rfl | rfl
  · exact App.call (Or.inl getMeterT.2) (.call (Or.inr (Or.inl (createT _ _ 0).2)) (.call (Or.inr (Or.inr (Or.inr (Or.inl (addT _ _ (newListT 0)).2))))
      (.call (Or.inr (Or.inl (createT _ _ 1).2)) (.call (Or.inr (Or.inr (Or.inl (registerT 0).2)))
      (.call (Or.inr (Or.inr (Or.inr (Or.inr (Or.inr (Or.inl (someI 0 (collectT _ _ 0 true true (lockingT 0 true) idleT).2))))))) .nil)))))
  · exact App.call (Or.inr (Or.inl (againT _ _ 0).2)) (.call (Or.inr (Or.inr (Or.inr (Or.inl (addAgainT _ _ (oldListT 0)).2))))
      (.call (Or.inr (Or.inr (Or.inr (Or.inr (Or.inr (Or.inl (someI 0 (collectT _ _ 1 false true (lockingT 1 false) idleT).2))))))) .nil))

/-- The conditions are met, and there is an execution in which the threads take turns in the middle of measurements and
collections and all calls return: the second changes the description and counts while the first is collecting. -/
example : (∀ t ∈ threads, user (W skip skip) 2 t) ∧ ∃ s s', Reaches (start [] threads) s ∧ Reaches s s' ∧ (∀ t ∈ s'.threads, t.todo = []) ∧
    (s.threads.map fun t => t.todo.head?) = [some (.acc (.accumulator 0) .read), some (.acc (.value 11) .write)] := by
  have h : (((play [(0, .acq (.reader 0) .write, 0), (1, .acc (.value 11) .write, 0), (0, .acc (.accumulator 0) .read, 0)]
      (start [] threads)).map fun s => s.threads.map fun t => t.todo.head?)) = some [some (.acc (.accumulator 0) .read), some (.acc (.value 11) .write)] := by
    decide +kernel
  obtain ⟨s, hs, hh⟩ := Option.map_eq_some_iff.1 h
  have h2 : ((((play [(0, .acq (.reader 0) .write, 0), (1, .acc (.value 11) .write, 0), (0, .acc (.accumulator 0) .read, 0)]
      (start [] threads)).bind (play [(1, .acq (.reader 0) .write, 0)])).bind fun s => exec s (List.replicate 52 0 ++ List.replicate 123 1)).map
        fun s => s.threads.all (fun t => t.todo == [])) = some true := by
    decide +kernel
  rw [hs] at h2
  obtain ⟨s', hs', ha⟩ := Option.map_eq_some_iff.1 h2
  obtain ⟨s1, h1, h3⟩ := Option.bind_eq_some_iff.1 hs'
  refine ⟨threads_mem, s, s', play_reaches hs, reaches_trans (play_reaches h1) (exec_reaches h3), ?_, hh⟩
  intro t ht
  have := List.all_eq_true.1 ha t ht
  simpa using this

end RacesEx

end Verif.Props
