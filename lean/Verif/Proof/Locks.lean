import Verif.Spec.Locks

/-!
# Lock order

Every lock has a level; locks are taken in increasing order. From this no set of threads can wait for one another.
-/

namespace Verif.Locks

def level : Lock → Nat
  | .reader _ => 0
  | .app _ => 1
  | .producer _ => 2
  | .provider _ => 3
  | .registration _ => 4
  | .meter _ => 5
  | .compiler _ => 6
  | .callback _ => 7
  | .state _ => 8
  | .inst _ => 9
  | .once _ => 10
  | .view _ => 11
  | .acc _ => 12
  | .storage _ => 13
  | .resource _ => 14
  | .every => 15
  | .handler _ => 16

def sub : Lock → Nat
  | .app k => k
  | .handler k => k
  | _ => 0

/-- `a` has to be taken before `b`. -/
def Lt (a b : Lock) : Prop := level a < level b ∨ (level a = level b ∧ sub a < sub b)

theorem Lt.irrefl (a : Lock) : ¬ Lt a a := by
  intro h; rcases h with h | h <;> omega

theorem Lt.trans {a b c : Lock} (h : Lt a b) (h' : Lt b c) : Lt a c := by
  unfold Lt at *; omega

/-- The operations respect the order: taken locks are above all held, the last taken is released first, no lock is held while
waiting for a loop, and at the end none is held. -/
def Ok (held : List Lock) : List Op → Prop
  | [] => held = []
  | .acq l _ :: t => (∀ h ∈ held, Lt h l) ∧ Ok (l :: held) t
  | .rel l :: t => ∃ rest, held = l :: rest ∧ Ok rest t
  | .join _ :: t => held = [] ∧ Ok held t

def NoJoin (t : List Op) : Prop := ∀ r, Op.join r ∉ t

/-- `t` can be put anywhere where all locks satisfying `P` may be taken. -/
def Fits (P : Lock → Prop) (t : List Op) : Prop :=
  NoJoin t ∧ ∀ held rest, (∀ h ∈ held, ∀ l, P l → Lt h l) → Ok held rest → Ok held (t ++ rest)

theorem NoJoin.nil : NoJoin [] := fun _ h => by cases h

theorem NoJoin.append {t u : List Op} (h : NoJoin t) (h' : NoJoin u) : NoJoin (t ++ u) := by
  intro r hr
  rcases List.mem_append.1 hr with hr | hr
  · exact h r hr
  · exact h' r hr

theorem Fits.nil {P : Lock → Prop} : Fits P [] := ⟨NoJoin.nil, fun _ _ _ hr => hr⟩

theorem Fits.append {P : Lock → Prop} {t u : List Op} (h : Fits P t) (h' : Fits P u) : Fits P (t ++ u) := by
  refine ⟨h.1.append h'.1, fun held rest hp hr => ?_⟩
  rw [List.append_assoc]
  exact h.2 held _ hp (h'.2 held rest hp hr)

def FitsAll (P : Lock → Prop) (A : Lang) : Prop := ∀ t, A t → Fits P t

theorem FitsAll.mono {P Q : Lock → Prop} {A : Lang} (h : FitsAll P A) (hpq : ∀ l, P l → Q l) : FitsAll Q A :=
  fun t ht => ⟨(h t ht).1, fun held rest hq hr => (h t ht).2 held rest (fun x hx l hl => hq x hx l (hpq l hl)) hr⟩

theorem FitsAll.skip {P : Lock → Prop} : FitsAll P skip := by
  intro t ht
  cases ht; exact Fits.nil

theorem FitsAll.seq {P : Lock → Prop} {A B : Lang} (ha : FitsAll P A) (hb : FitsAll P B) : FitsAll P (seq A B) := by
  rintro t ⟨u, v, hu, hv, rfl⟩
  exact (ha u hu).append (hb v hv)

theorem FitsAll.alt {P : Lock → Prop} {A B : Lang} (ha : FitsAll P A) (hb : FitsAll P B) : FitsAll P (alt A B) := by
  rintro t (h | h)
  · exact ha t h
  · exact hb t h

theorem FitsAll.opt {P : Lock → Prop} {A : Lang} (ha : FitsAll P A) : FitsAll P (opt A) := FitsAll.alt FitsAll.skip ha

theorem FitsAll.many {P : Lock → Prop} {A : Lang} (ha : FitsAll P A) : FitsAll P (Many A) := by
  intro t ht
  induction ht with
  | nil => exact FitsAll.skip [] rfl
  | cons hu _ ih => exact (ha _ hu).append ih

theorem FitsAll.some' {P : Lock → Prop} {A : Nat → Lang} (ha : ∀ i, FitsAll P (A i)) : FitsAll P (some' A) := by
  rintro t ⟨i, h⟩
  exact ha i t h

theorem Fits.around {P Q : Lock → Prop} {l : Lock} {m : Mode} {u : List Op} (hu : Fits Q u) (hp : P l)
    (hq : ∀ q, Q q → P q ∧ Lt l q) : Fits P (.acq l m :: (u ++ [.rel l])) := by
  refine ⟨?_, ?_⟩
  · intro r hr
    simp only [List.mem_cons, List.mem_append, List.not_mem_nil, or_false, reduceCtorEq, false_or] at hr
    exact hu.1 r hr
  intro held rest hb hr
  show (∀ h ∈ held, Lt h l) ∧ Ok (l :: held) ((u ++ [.rel l]) ++ rest)
  refine ⟨fun h hh => hb h hh l hp, ?_⟩
  rw [List.append_assoc]
  refine hu.2 (l :: held) _ ?_ ⟨held, rfl, hr⟩
  intro h hh q hql
  rcases List.mem_cons.1 hh with rfl | hh
  · exact (hq q hql).2
  · exact hb h hh q (hq q hql).1

theorem FitsAll.locked {P Q : Lock → Prop} {l : Lock} {A : Lang} (ha : FitsAll Q A) (hp : P l)
    (hq : ∀ q, Q q → P q ∧ Lt l q) : FitsAll P (locked l A) := by
  rintro t ⟨u, hu, rfl⟩
  exact Fits.around (ha u hu) hp hq

theorem FitsAll.rlocked {P Q : Lock → Prop} {l : Lock} {A : Lang} (ha : FitsAll Q A) (hp : P l)
    (hq : ∀ q, Q q → P q ∧ Lt l q) : FitsAll P (rlocked l A) := by
  rintro t ⟨u, hu, rfl⟩
  exact Fits.around (ha u hu) hp hq

/-- Locks of level at least `n`. -/
def From (n : Nat) (l : Lock) : Prop := n ≤ level l

theorem FitsAll.from' {m n : Nat} {A : Lang} (h : FitsAll (From n) A) (hmn : m ≤ n) : FitsAll (From m) A :=
  h.mono (fun _ hl => Nat.le_trans hmn hl)

/-- A lock around code of higher level. -/
theorem FitsAll.lockedAt {n : Nat} {l : Lock} {A : Lang} (ha : FitsAll (From (level l + 1)) A) (hn : n ≤ level l) :
    FitsAll (From n) (Locks.locked l A) := by
  refine FitsAll.locked ha hn (fun q hq => ⟨?_, Or.inl hq⟩)
  unfold From at *; omega

theorem FitsAll.rlockedAt {n : Nat} {l : Lock} {A : Lang} (ha : FitsAll (From (level l + 1)) A) (hn : n ≤ level l) :
    FitsAll (From n) (Locks.rlocked l A) := by
  refine FitsAll.rlocked ha hn (fun q hq => ⟨?_, Or.inl hq⟩)
  unfold From at *; omega

/-- A lock around nothing. -/
theorem FitsAll.brief {n : Nat} {l : Lock} (hn : n ≤ level l) : FitsAll (From n) (Locks.locked l Locks.skip) :=
  FitsAll.lockedAt FitsAll.skip hn

/-! ### Every function -/

section
variable {e : Env} (hH : FitsAll (From 16) e.handler)
include hH

theorem fits_everyHandle : FitsAll (From 15) (everyHandle e) :=
  FitsAll.seq (FitsAll.brief (by simp [level])) (FitsAll.opt (hH.from' (by decide)))

theorem fits_rangeTest : FitsAll (From 15) (rangeTest e) := FitsAll.opt (fits_everyHandle hH)

theorem fits_findStorage (v : Nat) : FitsAll (From 11) (findStorage e v) :=
  FitsAll.seq (FitsAll.opt ((fits_everyHandle hH).from' (by decide)))
    (FitsAll.lockedAt (l := .view v) (FitsAll.opt ((fits_everyHandle hH).from' (by simp [level]))) (by simp [level]))

theorem fits_newAccumulator : FitsAll (From 11) (newAccumulator e) := FitsAll.many (FitsAll.some' (fits_findStorage hH))

omit hH in
theorem fits_aggregate : FitsAll (From 13) aggregate :=
  FitsAll.opt (FitsAll.some' (fun _ => FitsAll.brief (by simp [level])))

omit hH in
theorem fits_syncSnapshot : FitsAll (From 12) syncSnapshot :=
  FitsAll.many (FitsAll.some' (fun a => FitsAll.lockedAt (l := .acc a)
    ((FitsAll.seq fits_aggregate fits_aggregate).from' (by simp [level])) (by simp [level])))

omit hH in
theorem fits_asyncUpdate : FitsAll (From 12) asyncUpdate :=
  FitsAll.many (FitsAll.some' (fun _ => FitsAll.brief (by simp [level])))

omit hH in
theorem fits_asyncSnapshot : FitsAll (From 12) asyncSnapshot :=
  FitsAll.many (FitsAll.some' (fun a => FitsAll.lockedAt (l := .acc a) (fits_aggregate.from' (by simp [level])) (by simp [level])))

theorem fits_readAccumulator : FitsAll (From 10) (readAccumulator e) :=
  FitsAll.opt (FitsAll.some' (fun r => FitsAll.lockedAt (l := .once r) ((fits_newAccumulator hH).from' (by simp [level])) (by simp [level])))

theorem fits_observeRecord (i : Nat) : FitsAll (From 9) (seq (rlocked (.inst i) skip) (seq (Many (locked (.inst i) skip))
    (seq (readAccumulator e) syncUpdate))) :=
  FitsAll.seq (FitsAll.rlockedAt FitsAll.skip (by simp [level])) (FitsAll.seq (FitsAll.many (FitsAll.brief (by simp [level])))
    (FitsAll.seq ((fits_readAccumulator hH).from' (by decide)) (FitsAll.many (fits_aggregate.from' (by decide)))))

theorem fits_syncObserve {P : Lock → Prop} (hP : ∀ l, 2 ≤ level l → P l) (hp : FitsAll P e.processor) : FitsAll P (syncObserve e) :=
  FitsAll.seq ((fits_rangeTest hH).mono (fun l hl => hP l (by unfold From at hl; omega)))
    (FitsAll.opt (FitsAll.seq (FitsAll.opt hp) (FitsAll.some' (fun i => (fits_observeRecord hH i).mono
      (fun l hl => hP l (by unfold From at hl; omega))))))

theorem fits_asyncObserve : FitsAll (From 7) (asyncObserve e) :=
  FitsAll.seq (FitsAll.some' (fun _ => FitsAll.brief (by simp [level]))) (FitsAll.alt (FitsAll.opt (hH.from' (by decide)))
    (FitsAll.seq ((fits_rangeTest hH).from' (by decide)) (FitsAll.opt (FitsAll.seq (FitsAll.some' (fun s =>
      FitsAll.lockedAt (l := .state s) (FitsAll.opt ((fits_newAccumulator hH).from' (by simp [level]))) (by simp [level])))
      (fits_asyncUpdate.from' (by decide))))))

theorem fits_compile : FitsAll (From 6) (compile e) :=
  FitsAll.seq (FitsAll.many (hH.from' (by decide))) (FitsAll.some' (fun c => FitsAll.lockedAt (l := .compiler c)
    (FitsAll.many (FitsAll.some' (fun _ => FitsAll.brief (by simp [level])))) (by simp [level])))

theorem fits_createInstrument (m : Nat) : FitsAll (From 5) (createInstrument e m) :=
  FitsAll.lockedAt (l := .meter m) (FitsAll.seq (FitsAll.many ((fits_compile hH).from' (by simp [level])))
    (FitsAll.opt (hH.from' (by simp [level])))) (by simp [level])

omit hH in
theorem fits_getMeter : FitsAll (From 3) getMeter := FitsAll.some' (fun _ => FitsAll.brief (by simp [level]))

omit hH in
theorem fits_registerCallback : FitsAll (From 5) registerCallback :=
  FitsAll.opt (FitsAll.some' (fun _ => FitsAll.brief (by simp [level])))

omit hH in
theorem fits_unregister : FitsAll (From 4) unregister := FitsAll.some' (fun _ => FitsAll.brief (by simp [level]))

theorem fits_syncSnapshotAll : FitsAll (From 9) (syncSnapshotAll e) :=
  FitsAll.some' (fun i => FitsAll.lockedAt (l := .inst i) (FitsAll.many (FitsAll.seq ((fits_readAccumulator hH).from' (by simp [level]))
    (fits_syncSnapshot.from' (by simp [level])))) (by simp [level]))

omit hH in
theorem fits_asyncSnapshotAll : FitsAll (From 8) asyncSnapshotAll :=
  FitsAll.some' (fun s => FitsAll.lockedAt (l := .state s) (FitsAll.many (fits_asyncSnapshot.from' (by simp [level]))) (by simp [level]))

omit hH in
theorem fits_collectView : FitsAll (From 11) collectView :=
  FitsAll.some' (fun v => FitsAll.lockedAt (l := .view v) (FitsAll.many (fits_aggregate.from' (by simp [level]))) (by simp [level]))

theorem fits_collectFor {P : Lock → Prop} (hP : ∀ l, 2 ≤ level l → P l) (hc : FitsAll P e.callback) : FitsAll P (collectFor e) := by
  have up : ∀ {n : Nat} {A : Lang}, FitsAll (From n) A → 2 ≤ n → FitsAll P A :=
    fun h hn => h.mono (fun l hl => hP l (Nat.le_trans hn hl))
  have brief : ∀ l, 2 ≤ level l → FitsAll P (locked l skip) := fun l hl => up (FitsAll.brief (n := 2) hl) (Nat.le_refl _)
  exact FitsAll.seq (FitsAll.some' (fun _ => brief _ (by simp [level]))) (FitsAll.seq (FitsAll.many (FitsAll.seq hc
    (FitsAll.some' (fun _ => brief _ (by simp [level]))))) (FitsAll.seq (FitsAll.many (up (fits_syncSnapshotAll hH) (by decide)))
    (FitsAll.seq (FitsAll.many (up fits_asyncSnapshotAll (by decide))) (FitsAll.seq
      (FitsAll.some' (fun _ => brief _ (by simp [level]))) (FitsAll.many (up fits_collectView (by decide)))))))

theorem fits_produce {P : Lock → Prop} (hP : ∀ l, 2 ≤ level l → P l) (hc : FitsAll P e.callback) : FitsAll P (produce e) := by
  have brief : ∀ l, 2 ≤ level l → FitsAll P (locked l skip) := fun l hl => (FitsAll.brief (n := 2) hl).mono hP
  exact FitsAll.seq (FitsAll.some' (fun _ => brief _ (by simp [level]))) (FitsAll.seq (FitsAll.some' (fun _ => brief _ (by simp [level])))
    (FitsAll.many (fits_collectFor hH hP hc)))

theorem fits_calls {P : Lock → Prop} (hP : ∀ l, 2 ≤ level l → P l) (hc : FitsAll P e.callback) (hp : FitsAll P e.processor) :
    FitsAll P (calls e) := by
  have up : ∀ {n : Nat} {A : Lang}, FitsAll (From n) A → 2 ≤ n → FitsAll P A :=
    fun h hn => h.mono (fun l hl => hP l (Nat.le_trans hn hl))
  rintro t (h | h | h | h | h | h | h | h | h)
  · exact up fits_getMeter (by decide) t h
  · exact up (FitsAll.some' (fits_createInstrument hH)) (by decide) t h
  · exact up fits_registerCallback (by decide) t h
  · exact up fits_unregister (by decide) t h
  · exact fits_syncObserve hH hP hp t h
  · exact up (fits_asyncObserve hH) (by decide) t h
  · exact fits_produce hH hP hc t h
  · exact up (FitsAll.some' (fun _ => FitsAll.brief (n := 2) (by simp [level]))) (by decide) t h
  · exact up (FitsAll.opt hH) (by decide) t h

theorem fits_collect (hc : FitsAll (From 1) e.callback) (he : FitsAll (From 1) e.exporter) (r : Nat) : FitsAll (From 0) (collect e r) :=
  FitsAll.lockedAt (l := .reader r) (FitsAll.seq (fits_produce hH (fun l hl => by show 0 + 1 ≤ level l; omega) hc) he) (by simp [level])

end

/-! ### Application code -/

/-- Application locks from number `g` on, and all locks of the SDK that application code may meet. -/
def Over (g : Nat) (l : Lock) : Prop := (∃ k, l = .app k ∧ g ≤ k) ∨ 2 ≤ level l

theorem fits_app {api : Nat → Lang} (h : ∀ g, FitsAll (Over g) (api g)) {g : Nat} : FitsAll (Over g) (App api g) := by
  intro t ht
  induction ht with
  | nil => exact FitsAll.skip [] rfl
  | call hc _ ih => exact (h _ _ hc).append ih
  | @lock g k m t u hk _ _ ih1 ih2 =>
    have h1 : Fits (Over g) (.acq (.app k) m :: (t ++ [.rel (.app k)])) := by
      refine Fits.around ih1 (Or.inl ⟨k, rfl, hk⟩) ?_
      rintro q (⟨j, rfl, hj⟩ | hq)
      · exact ⟨Or.inl ⟨j, rfl, by omega⟩, Or.inr ⟨rfl, hj⟩⟩
      · exact ⟨Or.inr hq, Or.inl (by show 1 < level q; omega)⟩
    have h2 := h1.append ih2
    simpa using h2

theorem fits_quiet {g : Nat} : FitsAll (fun l => ∃ k, l = .handler k ∧ g ≤ k) (Quiet g) := by
  intro t ht
  induction ht with
  | nil => exact FitsAll.skip [] rfl
  | @lock g k m t u hk _ _ ih1 ih2 =>
    have h1 : Fits (fun l => ∃ k, l = .handler k ∧ g ≤ k) (.acq (.handler k) m :: (t ++ [.rel (.handler k)])) := by
      refine Fits.around ih1 ⟨k, rfl, hk⟩ ?_
      rintro q ⟨j, rfl, hj⟩
      exact ⟨⟨j, rfl, by omega⟩, Or.inr ⟨rfl, hj⟩⟩
    have h2 := h1.append ih2
    simpa using h2

theorem fits_handler {H : Lang} (hH : ∀ t, H t → Quiet 0 t) : FitsAll (From 16) H := by
  intro t ht
  refine FitsAll.mono fits_quiet ?_ t (hH t ht)
  rintro l ⟨k, rfl, _⟩
  exact Nat.le_refl 16

theorem fits_user {H : Lang} (hH : ∀ t, H t → Quiet 0 t) (n : Nat) : ∀ g, FitsAll (Over g) (user H n g) := by
  induction n with
  | zero => intro g; exact fits_app (fun _ => FitsAll.skip)
  | succ n ih =>
    intro g
    exact fits_app (fun g => fits_calls (e := plugged H (user H n g)) (fits_handler hH) (fun _ hl => Or.inr hl) (ih g) (ih g))

theorem over_from {g : Nat} {l : Lock} (h : Over g l) : From 1 l := by
  rcases h with ⟨k, rfl, _⟩ | h
  · exact Nat.le_refl 1
  · exact Nat.le_trans (by decide) h

/-- Code that is fine where no lock is held. -/
def Top (A : Lang) : Prop := ∀ t, A t → ∀ rest, Ok [] rest → Ok [] (t ++ rest)

theorem FitsAll.top {P : Lock → Prop} {A : Lang} (h : FitsAll P A) : Top A :=
  fun t ht rest hr => (h t ht).2 [] rest (fun x hx => by cases hx) hr

theorem Top.seq {A B : Lang} (ha : Top A) (hb : Top B) : Top (seq A B) := by
  rintro t ⟨u, v, hu, hv, rfl⟩ rest hr
  rw [List.append_assoc]
  exact ha u hu _ (hb v hv rest hr)

theorem Top.many {A : Lang} (ha : Top A) : Top (Many A) := by
  intro t ht
  induction ht with
  | nil => exact fun rest hr => hr
  | cons hu _ ih =>
    intro rest hr
    rw [List.append_assoc]
    exact ha _ hu _ (ih rest hr)

theorem top_join (r : Nat) : Top (fun t => t = [.join r]) := by
  rintro t rfl rest hr
  exact ⟨rfl, hr⟩

theorem fits_loop {H : Lang} (hH : ∀ t, H t → Quiet 0 t) (n r : Nat) : FitsAll (From 0) (loop (plugged H (user H n 0)) r) := by
  have hu : FitsAll (From 1) (user H n 0) := (fits_user hH n 0).mono (fun _ => over_from)
  exact FitsAll.many (FitsAll.seq (fits_collect (e := plugged H (user H n 0)) (fits_handler hH) hu hu r)
    (FitsAll.opt ((fits_handler hH).from' (by decide))))

theorem program_ok {H : Lang} (hH : ∀ t, H t → Quiet 0 t) {n : Nat} {r : Option Nat} {t : List Op} (h : Program H n r t) : Ok [] t := by
  have hu : FitsAll (From 1) (user H n 0) := (fits_user hH n 0).mono (fun _ => over_from)
  have hc : ∀ r, FitsAll (From 0) (collect (plugged H (user H n 0)) r) := fits_collect (e := plugged H (user H n 0)) (fits_handler hH) hu hu
  have key : ∀ {A : Lang}, Top A → ∀ {t}, A t → Ok [] t := by
    intro A ha t ht
    have := ha t ht [] rfl
    rwa [List.append_nil] at this
  cases h with
  | loop h =>
    exact key (fits_loop hH n _).top h
  | main h =>
    refine key (Top.many ?_) h
    rintro t (h | h | h)
    · exact hu.top t h
    · exact (FitsAll.many (FitsAll.some' hc)).top t h
    · refine Top.seq (FitsAll.top (P := From 3) (FitsAll.some' (fun _ => FitsAll.brief (by simp [level])))) (Top.many ?_) t h
      rintro t ⟨r, h⟩
      exact Top.seq (top_join r) (hc r).top t h

theorem program_join {H : Lang} (hH : ∀ t, H t → Quiet 0 t) {n r : Nat} {t : List Op} (h : Program H n (some r) t) : NoJoin t := by
  cases h with
  | loop h => exact (fits_loop hH n r t h).1

/-! ### Threads -/

/-- What holds of all threads, always. -/
structure Sound (s : State) : Prop where
  ok : ∀ t ∈ s, Ok (t.held.map (·.1)) t.todo
  join : ∀ t ∈ s, t.loopOf.isSome → NoJoin t.todo

theorem Sound.step {s s' : State} (h : Sound s) (hs : Step s s') : Sound s' := by
  cases hs with
  | @run pre post t o rest htodo hfree =>
    have hm : t ∈ pre ++ t :: post := by simp
    have ho := h.ok t hm
    have hj := h.join t hm
    rw [htodo] at ho hj
    refine ⟨?_, ?_⟩
    · intro x hx
      rcases List.mem_append.1 hx with hx | hx
      · exact h.ok x (by simp [hx])
      rcases List.mem_cons.1 hx with rfl | hx
      · cases o with
        | acq l m => exact ho.2
        | rel l =>
          obtain ⟨r, hr, hok⟩ := ho
          show Ok (t.held.tail.map (·.1)) rest
          rw [List.map_tail, hr]
          exact hok
        | join r => exact ho.2
      · exact h.ok x (by simp [hx])
    · intro x hx
      rcases List.mem_append.1 hx with hx | hx
      · exact h.join x (by simp [hx])
      rcases List.mem_cons.1 hx with rfl | hx
      · intro hl r hr
        exact hj hl r (List.mem_cons_of_mem _ hr)
      · exact h.join x (by simp [hx])

theorem Sound.reaches {s s' : State} (h : Sound s) (hr : Reaches s s') : Sound s' := by
  induction hr with
  | refl => exact h
  | step _ hs ih => exact ih.step hs

/-- The lock a thread is waiting for, if it is waiting for one. -/
def wants (t : Thread) : Option Lock :=
  match t.todo with
  | .acq l _ :: _ => some l
  | _ => none

theorem exists_max (ls : List Lock) (h : ls ≠ []) : ∃ x ∈ ls, ∀ y ∈ ls, ¬ Lt x y := by
  induction ls with
  | nil => exact absurd rfl h
  | cons a ls ih =>
    by_cases e : ls = []
    · subst e
      refine ⟨a, List.mem_cons_self, ?_⟩
      intro y hy
      rcases List.mem_cons.1 hy with rfl | hy
      · exact Lt.irrefl y
      · cases hy
    · obtain ⟨x, hx, hmax⟩ := ih e
      by_cases hlt : Lt x a
      · refine ⟨a, List.mem_cons_self, ?_⟩
        intro y hy
        rcases List.mem_cons.1 hy with rfl | hy
        · exact Lt.irrefl y
        · intro hl; exact hmax y hy (hlt.trans hl)
      · refine ⟨x, List.mem_cons_of_mem _ hx, ?_⟩
        intro y hy
        rcases List.mem_cons.1 hy with rfl | hy
        · exact hlt
        · exact hmax y hy

open Classical in
/-- Some thread can go on. -/
theorem Sound.progress {s : State} (h : Sound s) (hun : ∃ t ∈ s, t.todo ≠ []) : ∃ t, Ready s t := by
  by_cases hn : ∃ t, Ready s t
  · exact hn
  exfalso
  -- the holder of a lock is waiting for a lock above it
  have holder : ∀ t ∈ s, ∀ l m, (l, m) ∈ t.held → ∃ l', wants t = some l' ∧ Lt l l' := by
    intro t ht l m hl
    have ho := h.ok t ht
    have hl' : l ∈ t.held.map (·.1) := List.mem_map.2 ⟨(l, m), hl, rfl⟩
    cases e : t.todo with
    | nil => rw [e] at ho; rw [show t.held.map (·.1) = [] from ho] at hl'; cases hl'
    | cons o rest =>
      rw [e] at ho
      cases o with
      | acq l2 m2 => exact ⟨l2, by simp [wants, e], ho.1 l hl'⟩
      | rel l2 =>
        obtain ⟨r, hr, _⟩ := ho
        refine absurd ⟨t, ht, _, _, e, ?_, fun _ hc => by cases hc⟩ hn
        cases hh : t.held with
        | nil => rw [hh] at hl; cases hl
        | cons x xs =>
          rw [hh] at hr
          simp only [List.map_cons, List.cons.injEq] at hr
          exact ⟨x.2, xs, by rw [← hr.1]⟩
      | join r => rw [show t.held.map (·.1) = [] from ho.1] at hl'; cases hl'
  -- a thread waiting for a lock waits for a thread that waits for a lock above it
  have write : ∀ t ∈ s, ∀ l rest, t.todo = .acq l .write :: rest → ∃ t' ∈ s, ∃ l', wants t' = some l' ∧ Lt l l' := by
    intro t ht l rest e
    by_cases hf : ∀ x ∈ s, ∀ m, (l, m) ∉ x.held
    · exact absurd ⟨t, ht, _, _, e, hf, fun _ hc => by cases hc⟩ hn
    · have : ∃ x ∈ s, ∃ m, (l, m) ∈ x.held :=
        Classical.byContradiction fun hc => hf (fun x hx m hm => hc ⟨x, hx, m, hm⟩)
      obtain ⟨x, hx, m, hm⟩ := this
      exact ⟨x, hx, holder x hx l m hm⟩
  have up : ∀ t ∈ s, ∀ l, wants t = some l → ∃ t' ∈ s, ∃ l', wants t' = some l' ∧ Lt l l' := by
    intro t ht l hw
    cases e : t.todo with
    | nil => simp [wants, e] at hw
    | cons o rest =>
      cases o with
      | rel l2 => simp [wants, e] at hw
      | join r => simp [wants, e] at hw
      | acq l2 m =>
        have : l2 = l := by simpa [wants, e] using hw
        subst this
        cases m with
        | write => exact write t ht l2 rest e
        | read =>
          by_cases hf : ∀ x ∈ s, (l2, Mode.write) ∉ x.held
          · by_cases hw : wanted s l2
            · obtain ⟨x, hx, rest', hx'⟩ := hw
              exact write x hx l2 rest' hx'
            · exact absurd ⟨t, ht, _, _, e, hf, fun l hc => by injection hc with h1; subst h1; exact hw⟩ hn
          · have : ∃ x ∈ s, (l2, Mode.write) ∈ x.held :=
              Classical.byContradiction fun hc => hf (fun x hx hm => hc ⟨x, hx, hm⟩)
            obtain ⟨x, hx, hm⟩ := this
            exact ⟨x, hx, holder x hx l2 _ hm⟩
  -- so nobody waits for a lock
  have none : ∀ t ∈ s, wants t = none := by
    intro t ht
    cases hw : wants t with
    | none => rfl
    | some l =>
      exfalso
      have hne : s.filterMap wants ≠ [] := by
        intro hc
        have : l ∈ s.filterMap wants := List.mem_filterMap.2 ⟨t, ht, hw⟩
        rw [hc] at this; cases this
      obtain ⟨x, hx, hmax⟩ := exists_max _ hne
      obtain ⟨t', ht', hw'⟩ := List.mem_filterMap.1 hx
      obtain ⟨t2, ht2, l2, hw2, hlt⟩ := up t' ht' x hw'
      exact hmax l2 (List.mem_filterMap.2 ⟨t2, ht2, hw2⟩) hlt
  -- what remains are threads waiting for loops
  have joins : ∀ t ∈ s, t.todo ≠ [] → ∃ r rest, t.todo = .join r :: rest := by
    intro t ht hne
    cases e : t.todo with
    | nil => exact absurd e hne
    | cons o rest =>
      cases o with
      | acq l m => have := none t ht; simp [wants, e] at this
      | rel l =>
        have ho := h.ok t ht
        rw [e] at ho
        obtain ⟨r, hr, _⟩ := ho
        refine absurd ⟨t, ht, _, _, e, ?_, fun _ hc => by cases hc⟩ hn
        cases hh : t.held with
        | nil => rw [hh] at hr; cases hr
        | cons x xs =>
          rw [hh] at hr
          simp only [List.map_cons, List.cons.injEq] at hr
          exact ⟨x.2, xs, by rw [← hr.1]⟩
      | join r => exact ⟨r, rest, rfl⟩
  obtain ⟨t, ht, hne⟩ := hun
  obtain ⟨r, rest, e⟩ := joins t ht hne
  by_cases hf : ∀ x ∈ s, x.loopOf = some r → x.todo = []
  · exact hn ⟨t, ht, _, _, e, hf, fun _ hc => by cases hc⟩
  · have : ∃ x ∈ s, x.loopOf = some r ∧ x.todo ≠ [] :=
      Classical.byContradiction fun hc => hf (fun x hx hl => Classical.byContradiction fun hne => hc ⟨x, hx, hl, hne⟩)
    obtain ⟨x, hx, hl, hxne⟩ := this
    obtain ⟨r', rest', e'⟩ := joins x hx hxne
    exact h.join x hx (by rw [hl]; rfl) r' (by rw [e']; exact List.mem_cons_self)

theorem Ready.step {s : State} {t : Thread} (h : Ready s t) : ∃ s', Step s s' := by
  obtain ⟨ht, o, rest, e, hf, _⟩ := h
  obtain ⟨pre, post, rfl⟩ := List.append_of_mem ht
  exact ⟨_, Step.run e hf⟩

/-- Operations left. -/
def left (s : State) : Nat := (s.map (fun t => t.todo.length)).sum

theorem Step.left {s s' : State} (h : Step s s') : left s' < left s := by
  cases h with
  | run e _ =>
    simp only [Locks.left, List.map_append, List.map_cons, List.sum_append, List.sum_cons, e, List.length_cons]
    omega

theorem Reaches.trans {s s' s'' : State} (h : Reaches s s') (h' : Reaches s' s'') : Reaches s s'' := by
  induction h' with
  | refl => exact h
  | step _ hs ih => exact ih.step hs

theorem Sound.finish {s : State} (h : Sound s) : ∃ s', Reaches s s' ∧ ∀ t ∈ s', t.todo = [] := by
  generalize hn : left s = n
  induction n using Nat.strongRecOn generalizing s with
  | _ n ih =>
    by_cases hd : ∀ t ∈ s, t.todo = []
    · exact ⟨s, .refl, hd⟩
    · have : ∃ t ∈ s, t.todo ≠ [] :=
        Classical.byContradiction fun hc => hd (fun t ht => Classical.byContradiction fun hne => hc ⟨t, ht, hne⟩)
      obtain ⟨t, hr⟩ := h.progress this
      obtain ⟨s1, hs1⟩ := hr.step
      obtain ⟨s2, hs2, hd2⟩ := ih (left s1) (by have := hs1.left; omega) (h.step hs1) rfl
      exact ⟨s2, (Reaches.refl.step hs1).trans hs2, hd2⟩

theorem Sound.start {ts : List (Option Nat × List Op)} (h : ∀ t ∈ ts, Ok [] t.2 ∧ (t.1.isSome → NoJoin t.2)) : Sound (start ts) := by
  refine ⟨?_, ?_⟩
  · intro x hx
    obtain ⟨t, ht, rfl⟩ := List.mem_map.1 hx
    exact (h t ht).1
  · intro x hx
    obtain ⟨t, ht, rfl⟩ := List.mem_map.1 hx
    exact (h t ht).2

end Verif.Locks
