import Verif.Spec.Races

/-!
# Every cell is protected

Each cell has a policy: locks that have to be held, atomic operations only, or no writing once a pointer to the object is
stored. Code that keeps to the policies does not race.
-/

namespace Verif.Races
open Verif.Locks (Lock Mode)

inductive Policy where
  /-- to write all of them have to be held (for writing), to read one of them -/
  | locks (ls : List Lock)
  | atomic
  | frozen

def policy (w : World) : Cell → Policy
  | .ordered p | .meters p => .locks [.provider p]
  | .lastCollect p => .locks [.producer p]
  | .byDesc m | .syncInsts m | .asyncInsts m | .callbacks m => .locks [.meter m]
  | .slot _ _ => .frozen
  | .registered i => .locks [.registration i]
  | .names c | .collectors c => .locks [.compiler c]
  | .viewDesc v => .locks [.meter (w.meterOf (w.compilerOf v)), .compiler (w.compilerOf v), .view v]
  | .viewData v => .locks [.view v]
  | .observer _ => .frozen
  | .callbackFields _ => .frozen
  | .table i => .locks [.inst i]
  | .attrs r => if w.ignore r then .locks [.once r] else .frozen
  | .counts _ | .refs _ => .atomic
  | .accumulator _ => .frozen
  | .snapshot a | .current a => .locks [.acc a]
  | .holder _ => .frozen
  | .value h => match w.storage h with
    | .locked => .locks [.storage h]
    | .sum => .atomic
    | .diff r => .locks [.reader r]
  | .cbState c => .locks [.callback c]
  | .store s => .locks [.state s]
  | .readerData r => .locks [.reader r]
  | .everyMap => .locks [.every]
  | .resource x => .locks [.resource x]
  | .slice _ => .frozen
  | .app k => .locks [.app k]

/-- Is an access in order for a thread holding `held`? -/
def allowed (held : List (Lock × Mode)) : Policy → Kind → Prop
  | .locks ls, k => if k.writes then ls ≠ [] ∧ ∀ l ∈ ls, (l, .write) ∈ held else ∃ l ∈ ls, ∃ m, (l, m) ∈ held
  | .atomic, k => k.atomic = true
  | .frozen, k => k.writes = false

/-- Lock exclusion makes policies sufficient. -/
theorem allowed_apart {h h' : List (Lock × Mode)} {p : Policy} {a b : Kind} (hx : ∀ l, (l, Mode.write) ∈ h → ∀ m, (l, m) ∉ h')
    (hx' : ∀ l, (l, Mode.write) ∈ h' → ∀ m, (l, m) ∉ h) (ha : allowed h p a) (hb : allowed h' p b) : a.conflict b = false := by
  cases p with
  | atomic =>
    have ha : a.atomic = true := ha
    have hb : b.atomic = true := hb
    simp [Kind.conflict, ha, hb]
  | frozen =>
    have ha : a.writes = false := ha
    have hb : b.writes = false := hb
    simp [Kind.conflict, ha, hb]
  | locks ls =>
    simp only [allowed] at ha hb
    by_cases wa : a.writes = true
    · rw [if_pos wa] at ha
      exfalso
      by_cases wb : b.writes = true
      · rw [if_pos wb] at hb
        cases ls with
        | nil => exact ha.1 rfl
        | cons l ls => exact hx l (ha.2 l List.mem_cons_self) _ (hb.2 l List.mem_cons_self)
      · rw [if_neg wb] at hb
        obtain ⟨l, hl, m, hm⟩ := hb
        exact hx l (ha.2 l hl) m hm
    · rw [if_neg wa] at ha
      by_cases wb : b.writes = true
      · rw [if_pos wb] at hb
        exfalso
        obtain ⟨l, hl, m, hm⟩ := ha
        exact hx' l (hb.2 l hl) m hm
      · simp only [Bool.not_eq_true] at wa wb
        simp [Kind.conflict, wa, wb]

/-- What a thread holds, has made and not yet stored a pointer to, has a pointer to. -/
structure Ctx where
  held : List (Lock × Mode)
  mine : List Obj
  seen : List Obj

def can (π : Cell → Policy) (x : Ctx) (c : Cell) (k : Kind) : Prop :=
  (∃ o, obj c = some o ∧ o ∈ x.mine) ∨ ((∀ o, obj c = some o → o ∈ x.seen) ∧ allowed x.held (π c) k)

/-- The operations keep to the policies. -/
def Ok (π : Cell → Policy) (x : Ctx) : List Op → Prop
  | [] => True
  | .acq l m :: t => Ok π { x with held := (l, m) :: x.held } t
  | .rel l :: t => ∃ m rest, x.held = (l, m) :: rest ∧ Ok π { x with held := rest } t
  | .alloc o :: t => Ok π { x with mine := o :: x.mine } t
  | .pub o :: t => o ∈ x.mine ∧ Ok π { x with mine := x.mine.filter (· ≠ o), seen := o :: x.seen } t
  | .see o :: t => Ok π { x with seen := o :: x.seen } t
  | .acc c k :: t => can π x c k ∧ Ok π x t

/-! ### Composing code -/

/-- `t` keeps to the policies wherever the locks `L` are held and pointers to `S` are known. -/
def Fits (π : Cell → Policy) (L : List (Lock × Mode)) (S : List Obj) (t : List Op) : Prop :=
  ∀ (x : Ctx) (rest : List Op), L ⊆ x.held → S ⊆ x.seen →
    (∀ x' : Ctx, x'.held = x.held → x.seen ⊆ x'.seen → Ok π x' rest) → Ok π x (t ++ rest)

def FitsAll (π : Cell → Policy) (L : List (Lock × Mode)) (S : List Obj) (A : Lang) : Prop := ∀ t, A t → Fits π L S t

variable {π : Cell → Policy} {L : List (Lock × Mode)} {S : List Obj}

theorem Fits.nil : Fits π L S [] := fun x _ _ _ hr => hr x rfl (List.Subset.refl _)

theorem Fits.append {t u : List Op} (h : Fits π L S t) (h' : Fits π L S u) : Fits π L S (t ++ u) := by
  intro x rest hL hS hr
  rw [List.append_assoc]
  refine h x _ hL hS (fun x' e hs => ?_)
  refine h' x' rest (by rw [e]; exact hL) (hS.trans hs) (fun x'' e' hs' => ?_)
  exact hr x'' (e'.trans e) (hs.trans hs')

theorem Fits.mono {L' : List (Lock × Mode)} {S' : List Obj} {t : List Op} (h : Fits π L S t) (hl : L ⊆ L') (hs : S ⊆ S') : Fits π L' S' t :=
  fun x rest hL hS hr => h x rest (hl.trans hL) (hs.trans hS) hr

theorem FitsAll.mono {L' : List (Lock × Mode)} {S' : List Obj} {A : Lang} (h : FitsAll π L S A) (hl : L ⊆ L') (hs : S ⊆ S') :
    FitsAll π L' S' A := fun t ht => (h t ht).mono hl hs

/-- Code that fits anywhere. -/
theorem FitsAll.any {A : Lang} (h : FitsAll π [] [] A) : FitsAll π L S A := h.mono (List.nil_subset _) (List.nil_subset _)

theorem FitsAll.skip : FitsAll π L S skip := by
  intro t ht; cases ht; exact Fits.nil

theorem FitsAll.seq {A B : Lang} (ha : FitsAll π L S A) (hb : FitsAll π L S B) : FitsAll π L S (seq A B) := by
  rintro t ⟨u, v, hu, hv, rfl⟩
  exact (ha u hu).append (hb v hv)

theorem FitsAll.alt {A B : Lang} (ha : FitsAll π L S A) (hb : FitsAll π L S B) : FitsAll π L S (alt A B) := by
  rintro t (h | h)
  · exact ha t h
  · exact hb t h

theorem FitsAll.opt {A : Lang} (ha : FitsAll π L S A) : FitsAll π L S (opt A) := FitsAll.alt FitsAll.skip ha

theorem FitsAll.many {A : Lang} (ha : FitsAll π L S A) : FitsAll π L S (Many A) := by
  intro t ht
  induction ht with
  | nil => exact Fits.nil
  | cons hu _ ih => exact (ha _ hu).append ih

theorem FitsAll.some' {A : Nat → Lang} (ha : ∀ i, FitsAll π L S (A i)) : FitsAll π L S (some' A) := by
  rintro t ⟨i, h⟩
  exact ha i t h

theorem FitsAll.when {P : Prop} {A : Lang} (ha : P → FitsAll π L S A) : FitsAll π L S (when P A) :=
  fun t h => ha h.1 t h.2

theorem FitsAll.ite {b : Bool} {A B : Lang} (ha : b = true → FitsAll π L S A) (hb : b = false → FitsAll π L S B) :
    FitsAll π L S (if b = true then A else B) := by
  cases b with
  | true => exact ha rfl
  | false => exact hb rfl

theorem Fits.around {l : Lock} {m : Mode} {u : List Op} (h : Fits π ((l, m) :: L) S u) : Fits π L S (.acq l m :: (u ++ [.rel l])) := by
  intro x rest hL hS hr
  show Ok π { x with held := (l, m) :: x.held } ((u ++ [.rel l]) ++ rest)
  rw [List.append_assoc]
  refine h _ _ (List.cons_subset_cons _ hL) hS (fun x' e hs => ?_)
  exact ⟨m, x.held, e, hr _ rfl hs⟩

theorem FitsAll.locked {l : Lock} {A : Lang} (ha : FitsAll π ((l, .write) :: L) S A) : FitsAll π L S (locked l A) := by
  rintro t ⟨u, hu, rfl⟩
  exact Fits.around (ha u hu)

theorem FitsAll.rlocked {l : Lock} {A : Lang} (ha : FitsAll π ((l, .read) :: L) S A) : FitsAll π L S (rlocked l A) := by
  rintro t ⟨u, hu, rfl⟩
  exact Fits.around (ha u hu)

/-- Straight-line code without locks. -/
def Line (π : Cell → Policy) (x : Ctx) : List Op → Prop
  | [] => True
  | .acq _ _ :: _ => False
  | .rel _ :: _ => False
  | .alloc o :: t => Line π { x with mine := o :: x.mine } t
  | .pub o :: t => o ∈ x.mine ∧ Line π { x with mine := x.mine.filter (· ≠ o), seen := o :: x.seen } t
  | .see o :: t => Line π { x with seen := o :: x.seen } t
  | .acc c k :: t => can π x c k ∧ Line π x t

/-- The pointers known afterwards. -/
def sees (S : List Obj) : List Op → List Obj
  | [] => S
  | .pub o :: t => sees (o :: S) t
  | .see o :: t => sees (o :: S) t
  | _ :: t => sees S t

theorem allowed.mono {h h' : List (Lock × Mode)} {p : Policy} {k : Kind} (hs : h ⊆ h') (ha : allowed h p k) : allowed h' p k := by
  cases p with
  | atomic => exact ha
  | frozen => exact ha
  | locks ls =>
    simp only [allowed] at ha ⊢
    split
    · rename_i hk
      rw [if_pos hk] at ha
      exact ⟨ha.1, fun l hl => hs (ha.2 l hl)⟩
    · rename_i hk
      rw [if_neg hk] at ha
      obtain ⟨l, hl, m, hm⟩ := ha
      exact ⟨l, hl, m, hs hm⟩

theorem can.mono {x y : Ctx} {c : Cell} {k : Kind} (h : can π x c k) (hh : x.held ⊆ y.held) (hm : x.mine ⊆ y.mine) (hs : x.seen ⊆ y.seen) :
    can π y c k := by
  rcases h with ⟨o, ho, hmem⟩ | ⟨ho, ha⟩
  · exact Or.inl ⟨o, ho, hm hmem⟩
  · exact Or.inr ⟨fun o e => hs (ho o e), ha.mono hh⟩

theorem Line.fits {l : List Op} : ∀ {x y : Ctx} {rest : List Op}, Line π x l → x.held ⊆ y.held → x.mine ⊆ y.mine → x.seen ⊆ y.seen →
    (∀ y' : Ctx, y'.held = y.held → y.seen ⊆ y'.seen → sees x.seen l ⊆ y'.seen → Ok π y' rest) → Ok π y (l ++ rest) := by
  induction l with
  | nil => exact fun _ _ _ hs hr => hr _ rfl (List.Subset.refl _) hs
  | cons o l ih =>
    intro x y rest h hh hm hs hr
    cases o with
    | acq _ _ => exact h.elim
    | rel _ => exact h.elim
    | alloc o =>
      exact ih (x := { x with mine := o :: x.mine }) (y := { y with mine := o :: y.mine }) h hh (List.cons_subset_cons _ hm) hs hr
    | pub o =>
      refine ⟨hm h.1, ?_⟩
      refine ih (x := { x with mine := x.mine.filter (· ≠ o), seen := o :: x.seen })
        (y := { y with mine := y.mine.filter (· ≠ o), seen := o :: y.seen }) h.2 hh ?_ (List.cons_subset_cons _ hs) ?_
      · intro p hp
        have := List.mem_filter.1 hp
        exact List.mem_filter.2 ⟨hm this.1, this.2⟩
      · exact fun y' e s s' => hr y' e (fun p hp => s (List.mem_cons_of_mem _ hp)) s'
    | see o =>
      refine ih (x := { x with seen := o :: x.seen }) (y := { y with seen := o :: y.seen }) h hh hm (List.cons_subset_cons _ hs) ?_
      exact fun y' e s s' => hr y' e (fun p hp => s (List.mem_cons_of_mem _ hp)) s'
    | acc c k => exact ⟨h.1.mono hh hm hs, ih h.2 hh hm hs hr⟩

/-- Straight-line code, and code after it that uses the pointers it has got. -/
theorem FitsAll.line {l : List Op} {A : Lang} (h : Line π ⟨L, [], S⟩ l) (ha : FitsAll π L (sees S l) A) : FitsAll π L S (Races.seq (ops l) A) := by
  rintro t ⟨u, v, rfl, hv, rfl⟩
  intro x rest hL hS hr
  rw [List.append_assoc]
  refine Line.fits (x := ⟨L, [], S⟩) h hL (List.nil_subset _) hS (fun y' e hs hs' => ?_)
  exact ha v hv y' rest (by rw [e]; exact hL) hs' (fun x' e' s' => hr x' (e'.trans e) (hs.trans s'))

theorem FitsAll.ops {l : List Op} (h : Line π ⟨L, [], S⟩ l) : FitsAll π L S (Races.ops l) := by
  rintro t rfl
  intro x rest hL hS hr
  exact Line.fits (x := ⟨L, [], S⟩) h hL (List.nil_subset _) hS (fun y' e hs _ => hr y' e hs)

/-- As `FitsAll`, and pointers to `S'` are known afterwards. -/
def FitsTo (π : Cell → Policy) (L : List (Lock × Mode)) (S S' : List Obj) (A : Lang) : Prop :=
  ∀ t, A t → ∀ (x : Ctx) (rest : List Op), L ⊆ x.held → S ⊆ x.seen →
    (∀ x' : Ctx, x'.held = x.held → x.seen ⊆ x'.seen → S' ⊆ x'.seen → Ok π x' rest) → Ok π x (t ++ rest)

variable {S' : List Obj}

theorem FitsAll.seqTo {A B : Lang} (ha : FitsTo π L S S' A) (hb : FitsAll π L S' B) : FitsAll π L S (Races.seq A B) := by
  rintro t ⟨u, v, hu, hv, rfl⟩ x rest hL hS hr
  rw [List.append_assoc]
  refine ha u hu x _ hL hS (fun x' e hs hs' => ?_)
  exact hb v hv x' rest (by rw [e]; exact hL) hs' (fun x'' e' s => hr x'' (e'.trans e) (hs.trans s))

theorem FitsTo.seq {A B : Lang} (ha : FitsAll π L S A) (hb : FitsTo π L S S' B) : FitsTo π L S S' (Races.seq A B) := by
  rintro t ⟨u, v, hu, hv, rfl⟩ x rest hL hS hr
  rw [List.append_assoc]
  refine ha u hu x _ hL hS (fun x' e hs => ?_)
  exact hb v hv x' rest (by rw [e]; exact hL) (hS.trans hs) (fun x'' e' s s' => hr x'' (e'.trans e) (hs.trans s) s')

theorem FitsTo.alt {A B : Lang} (ha : FitsTo π L S S' A) (hb : FitsTo π L S S' B) : FitsTo π L S S' (Races.alt A B) := by
  rintro t (h | h)
  · exact ha t h
  · exact hb t h

theorem FitsTo.ops {l : List Op} (h : Line π ⟨L, [], S⟩ l) (hs : S' ⊆ sees S l) : FitsTo π L S S' (Races.ops l) := by
  rintro t rfl x rest hL hS hr
  exact Line.fits (x := ⟨L, [], S⟩) h hL (List.nil_subset _) hS (fun y' e s s' => hr y' e s (hs.trans s'))

theorem FitsTo.locked {l : Lock} {A : Lang} (ha : FitsTo π ((l, .write) :: L) S S' A) : FitsTo π L S S' (locked l A) := by
  rintro t ⟨u, hu, rfl⟩ x rest hL hS hr
  show Ok π { x with held := (l, .write) :: x.held } ((u ++ [.rel l]) ++ rest)
  rw [List.append_assoc]
  refine ha u hu _ _ (List.cons_subset_cons _ hL) hS (fun x' e hs hs' => ?_)
  exact ⟨.write, x.held, e, hr _ rfl hs hs'⟩

theorem FitsTo.line {l : List Op} {A : Lang} (h : Line π ⟨L, [], S⟩ l) (ha : FitsAll π L (sees S l) A) :
    FitsTo π L S (sees S l) (Races.seq (Races.ops l) A) := by
  rintro t ⟨u, v, rfl, hv, rfl⟩ x rest hL hS hr
  rw [List.append_assoc]
  refine Line.fits (x := ⟨L, [], S⟩) h hL (List.nil_subset _) hS (fun y' e hs hs' => ?_)
  exact ha v hv y' rest (by rw [e]; exact hL) hs' (fun x' e' s' => hr x' (e'.trans e) (hs.trans s') (hs'.trans s'))

theorem FitsTo.all {A : Lang} (h : FitsTo π L S S' A) : FitsAll π L S A :=
  fun t ht x rest hL hS hr => h t ht x rest hL hS (fun x' e s _ => hr x' e s)

/-- Checks straight-line code. -/
macro "line" : tactic =>
  `(tactic| (simp (config := { decide := true }) [Line, sees, make, can, obj, policy, allowed, Kind.writes, Kind.atomic, *]))

/-! ### The functions -/

/-- What is plugged in keeps to the policies. -/
structure Plugs (w : World) (π : Cell → Policy) : Prop where
  callback : FitsAll π [] [] w.callback
  exporter : FitsAll π [] [] w.exporter
  processor : FitsAll π [] [] w.processor
  handler : FitsAll π [] [] w.handler

variable {w : World}

theorem fits_everyHandle (H : Plugs w (policy w)) : FitsAll (policy w) L S (everyHandle w) := by
  refine .seq (.locked (.seq (.ops ?_) (.opt (.ops ?_)))) (.opt H.handler.any) <;> line

theorem fits_element : FitsAll (policy w) L S element := by
  refine .some' fun x => .some' fun k => .ops ?_
  line

theorem fits_append {hd : Cell} (hr : can (policy w) ⟨L, [], S⟩ hd .read) (hw : can (policy w) ⟨L, [], S⟩ hd .write) :
    FitsAll (policy w) L S (append hd) := by
  refine .seq (.ops ⟨hr, trivial⟩) (.seq (.many (.some' fun x => .some' fun k => .ops ?_)) (.seq (.many (.some' fun x => .some' fun k =>
    .ops ?_)) (.ops ⟨hw, trivial⟩))) <;> line

theorem fits_findStorage (H : Plugs w (policy w)) {v h : Nat} {A : Lang} (hA : ∀ S, Obj.stor h ∈ S → FitsAll (policy w) ((.view v, .write) :: L) S A) :
    FitsAll (policy w) L S (findStorage w v h A) := by
  refine .seq (.opt (fits_everyHandle H)) (.line ?_ (.locked (.seq (.ops ?_) (.seq (.opt (fits_everyHandle H))
    (.seqTo (S' := .stor h :: .view v :: S) (.alt (.ops ?_ ?_) (.ops ?_ ?_)) (hA _ List.mem_cons_self))))))
  all_goals line

theorem fits_rangeTest (H : Plugs w (policy w)) : FitsAll (policy w) L S (rangeTest w) := .opt (fits_everyHandle H)

theorem fits_newSync (H : Plugs w (policy w)) : FitsAll (policy w) L S (newSync w) := by
  refine .many (.some' fun v => .some' fun h => .some' fun a => .some' fun c => .seq (fits_findStorage H fun S hS => .ops ?_) (.ops ?_))
  all_goals line

theorem fits_newAsync (H : Plugs w (policy w)) : FitsAll (policy w) L S (newAsync w) := by
  refine .many (.some' fun v => .some' fun h => .some' fun a => .seq (fits_findStorage H fun S hS => .skip) (.ops ?_))
  all_goals line

/-- An aggregator `h` may be used: it is not one with differences, or the reader's lock is held. -/
def Usable (w : World) (L : List (Lock × Mode)) (h : Nat) : Prop := ∀ r, w.storage h = .diff r → (.reader r, .write) ∈ L

theorem Usable.sync {h : Nat} (hs : w.sync h) : Usable w L h := fun r e => absurd e (hs r)

theorem Usable.ofReader {h r : Nat} (hs : w.ofReader r h) (hL : (Lock.reader r, Mode.write) ∈ L) : Usable w L h := by
  intro r' e
  rw [hs r' e]
  exact hL

theorem fits_update {h : Nat} (hS : Obj.stor h ∈ S) (hu : Usable w L h) : FitsAll (policy w) L S (update w h) := by
  unfold update
  split
  · refine .locked (.ops ?_)
    line
  · refine .ops ?_
    line
  · rename_i r e
    have := hu r e
    refine .ops ?_
    line

theorem fits_copy {h : Nat} (hS : Obj.stor h ∈ S) (hu : Usable w L h) : FitsAll (policy w) L S (copy w h) := by
  unfold copy
  split
  · refine .locked (.ops ?_)
    line
  · refine .ops ?_
    line
  · rename_i r e
    have := hu r e
    refine .ops ?_
    line
    exact ⟨_, this⟩

theorem fits_move_nil {h : Nat} (hS : Obj.stor h ∈ S) (hu : Usable w L h) : FitsAll (policy w) L S (move w h []) := by
  unfold move
  split
  · refine .locked (.ops ?_)
    line
  · refine .ops ?_
    line
  · rename_i r e
    have := hu r e
    refine .ops ?_
    line

theorem fits_move_snapshot {h a : Nat} (hS : Obj.stor h ∈ S) (hu : Usable w L h) (ha : Obj.accum a ∈ S) (hL : (Lock.acc a, Mode.write) ∈ L) :
    FitsAll (policy w) L S (move w h [.snapshot a]) := by
  unfold move
  split
  · refine .locked (.ops ?_)
    line
  · refine .ops ?_
    line
  · rename_i r e
    have := hu r e
    refine .ops ?_
    line

theorem fits_merge {h a : Nat} (hS : Obj.stor h ∈ S) (hu : Usable w L h) (ha : Obj.accum a ∈ S) (hL : (Lock.acc a, Mode.write) ∈ L) :
    FitsAll (policy w) L S (merge w a h) := by
  have hm : ∃ m, (Lock.acc a, m) ∈ L := ⟨_, hL⟩
  unfold merge
  split
  · have hm' : ∀ l, ∃ m, (Lock.acc a, m) ∈ l :: L := fun l => ⟨_, List.mem_cons_of_mem _ hL⟩
    simp only [List.mem_cons] at hm'
    refine .locked (.ops ?_)
    line
  · refine .ops ?_
    line
  · rename_i r e
    have := hu r e
    refine .ops ?_
    line

theorem fits_subtract {p h r : Nat} (hp : Obj.stor p ∈ S) (hh : Obj.stor h ∈ S) (ep : w.storage p = .diff r) (eh : w.storage h = .diff r)
    (hL : (Lock.reader r, Mode.write) ∈ L) : FitsAll (policy w) L S (subtract p h) := by
  have hm : ∃ m, (Lock.reader r, m) ∈ L := ⟨_, hL⟩
  refine .ops ?_
  line

theorem fits_syncUpdate : FitsAll (policy w) L S (syncUpdate w) := by
  refine .many (.some' fun a => .some' fun c => .when fun hs => .line ?_ (fits_update ?_ (Usable.sync hs)))
  all_goals line

theorem fits_syncSnapshot : FitsAll (policy w) L S (syncSnapshot w) := by
  refine .many (.some' fun a => .some' fun c => .some' fun h => .when fun hs => .line ?_ (.locked (.seq
    (fits_move_snapshot ?_ (Usable.sync hs.1) ?_ ?_) (.seq (.ops ?_) (.seq (fits_merge ?_ (Usable.sync hs.2) ?_ ?_) (.opt (.ops ?_)))))))
  all_goals line

theorem fits_asyncUpdate : FitsAll (policy w) L S asyncUpdate := by
  refine .many (.some' fun a => .line ?_ (.locked (.ops ?_)))
  all_goals line

theorem fits_asyncSnapshot {r : Nat} (hL : (Lock.reader r, Mode.write) ∈ L) : FitsAll (policy w) L S (asyncSnapshot w r) := by
  refine .many (.some' fun a => .some' fun h => .when fun hs => .line ?_ (.locked (.seq (.ops ?_)
    (fits_update ?_ (Usable.ofReader hs (List.mem_cons_of_mem _ hL))))))
  all_goals line

theorem fits_readAccumulator (H : Plugs w (policy w)) {r : Nat} : FitsTo (policy w) L S (.record r :: S) (readAccumulator w r) := by
  refine .line ?_ (.seqTo (S' := .made r :: .record r :: S) (.alt (.ops ?_ ?_) (.locked (.alt (.ops ?_ ?_) ?_))) (.ops ?_))
  any_goals (line; done)
  refine .seq (.ops ?_) (.seq (.ite (fun hi => .seq (.some' fun k => .ops ?_) (.ops ?_)) (fun _ => .skip)) (.seq (fits_newSync H) (.ops ?_ ?_)))
  · cases hi : w.ignore r <;> line
  all_goals line

theorem fits_lookup {i : Nat} (hS : Obj.inst i ∈ S) (hL : ∃ m, (Lock.inst i, m) ∈ L) : FitsAll (policy w) L S (lookup w i) := by
  refine .seq (.ops ?_) (.many (.some' fun r => .line ?_ (.seq (.ite (fun _ => .skip) (fun hi => .ops ?_)) (.opt (.ops ?_)))))
  all_goals line

theorem fits_acquireNotFound {i : Nat} (hS : Obj.inst i ∈ S) : FitsAll (policy w) L S (acquireNotFound w i) := by
  have hm : ∃ m, (Lock.inst i, m) ∈ (Lock.inst i, Mode.write) :: L := ⟨_, List.mem_cons_self⟩
  refine .seq (.many (.locked (fits_lookup hS hm))) (.some' fun r => .opt (.locked (.seq (fits_lookup hS hm) (.ops ?_))))
  line

theorem fits_attributes : FitsAll (policy w) L S attributes := by
  refine .some' fun k => .alt (.ops ?_) (.ops ?_)
  all_goals line

theorem fits_syncObserve (H : Plugs w (policy w)) : FitsAll (policy w) L S (syncObserve w) := by
  refine .seq (fits_rangeTest H) (.opt (.seq fits_attributes (.seq (.opt H.processor.any) (.some' fun i => .some' fun r => .line ?_
    (.seq (.rlocked (fits_lookup ?_ ⟨_, List.mem_cons_self⟩)) (.seq (.opt (fits_acquireNotFound ?_)) (.seqTo (fits_readAccumulator H)
      (.seq fits_syncUpdate (.ops ?_)))))))))
  all_goals line

theorem fits_asyncGetOrCreate (H : Plugs w (policy w)) : FitsAll (policy w) L S (asyncGetOrCreate w) := by
  refine .some' fun s => .line ?_ (.locked (.seq (.ops ?_) (.seq (.opt (.ops ?_)) (.opt (.seq (fits_newAsync H) (.ops ?_))))))
  all_goals line

theorem fits_asyncObserve (H : Plugs w (policy w)) : FitsAll (policy w) L S (asyncObserve w) := by
  refine .seq (.some' fun c => .line ?_ (.locked (.ops ?_))) (.alt (.opt H.handler.any) (.some' fun b => .some' fun i => .line ?_
    (.seq (fits_rangeTest H) (.opt (.seq (fits_asyncGetOrCreate H) fits_asyncUpdate)))))
  all_goals line

theorem fits_compile (H : Plugs w (policy w)) {c : Nat} (hL : (Lock.meter (w.meterOf c), Mode.write) ∈ L) : FitsAll (policy w) L S (compile w c) := by
  have hm : ∃ m, (Lock.meter (w.meterOf c), m) ∈ L := ⟨_, hL⟩
  refine .seq (.many H.handler.any) (.line ?_ (.locked (.many (.seq (.ops ?_) (.seq
    (.many (.some' fun v => .when fun hv => .line ?_ (.opt (.locked (.ops ?_)))))
    (.opt (.some' fun v => .when fun hv => .seq (.ops ?_) (.seq (fits_append ?_ ?_) (.ops ?_)))))))))
  all_goals try subst hv
  all_goals line

theorem fits_errorText {P : Nat → Prop} (hL : ∀ v, P v → ∃ m, (Lock.meter (w.meterOf (w.compilerOf v)), m) ∈ L) :
    FitsAll (policy w) L S (errorText P) := by
  refine .many (.some' fun v => .when fun hv => .ops ?_)
  have := hL v hv
  line

theorem fits_createInstrument (H : Plugs w (policy w)) : FitsAll (policy w) L S (createInstrument w) := by
  refine .some' fun m => .line ?_ (.locked (.seq (.ops ?_) (.seq (.many (.some' fun c => .when fun hc => fits_compile H ?_)) (.seq
    (.opt (.some' fun i => .seq (.ops ?_) (.alt (fits_append ?_ ?_) (fits_append ?_ ?_))))
    (.opt (.seq (fits_errorText fun v hv => ?_) H.handler.any))))))
  all_goals line

theorem fits_getMeter : FitsAll (policy w) L S getMeter := by
  refine .some' fun p => .locked (.seq (.ops ?_) (.opt (.some' fun m => .seq (.many (.some' fun c => .ops ?_)) (.seq (.ops ?_)
    (.seq (fits_append ?_ ?_) (.ops ?_))))))
  all_goals line

theorem fits_registerCallback : FitsAll (policy w) L S registerCallback := by
  refine .some' fun m => .some' fun b => .some' fun i => .line ?_ (.opt (.locked (.seq (.ops ?_) (.seq (fits_append ?_ ?_) (.ops ?_)))))
  all_goals line

theorem fits_runCallback (H : Plugs w (policy w)) : FitsAll (policy w) L S (runCallback w) := by
  refine .some' fun b => .some' fun c => .seq (.ops ?_) (.seq H.callback.any (.line ?_ (.locked (.ops ?_))))
  all_goals line

theorem fits_syncSnapshotAll (H : Plugs w (policy w)) : FitsAll (policy w) L S (syncSnapshotAll w) := by
  refine .some' fun i => .line ?_ (.locked (.seq (.ops ?_) (.many (.some' fun r => .line ?_ (.seq
    (.opt (.seq (fits_readAccumulator H).all fits_syncSnapshot)) (.seq
    (.opt (.seq (.ops ?_) (.opt (.seq (fits_readAccumulator H).all fits_syncSnapshot)))) (.opt (.ops ?_))))))))
  all_goals line

theorem fits_asyncSnapshotAll {r : Nat} (hL : (Lock.reader r, Mode.write) ∈ L) : FitsAll (policy w) L S (asyncSnapshotAll w r) := by
  refine .some' fun i => .some' fun s => .line ?_ (.locked (.seq (.ops ?_) (.many (fits_asyncSnapshot (List.mem_cons_of_mem _ hL)))))
  all_goals line

theorem fits_collectView {r : Nat} (hL : (Lock.reader r, Mode.write) ∈ L) : FitsAll (policy w) L S (collectView w r) := by
  have hL' : ∀ l, (Lock.reader r, Mode.write) ∈ l :: L := fun l => List.mem_cons_of_mem _ hL
  refine .some' fun v => .line ?_ (.locked (.seq (.ops ?_) (.seq
    (.many (.some' fun h => .when fun hh => .line ?_ (.alt (fits_copy ?_ (Usable.ofReader hh (hL' _))) (.alt
      (.seq (.ops ?_) (fits_move_nil ?_ (Usable.ofReader hh (hL' _))))
      (.some' fun p => .when fun hp => .line ?_ (fits_subtract ?_ ?_ hp.2 hp.1 (hL' _)))))))
    (.seq (.opt (.some' fun h => .ops ?_)) (.opt (.ops ?_))))))
  all_goals line

theorem fits_collectFor (H : Plugs w (policy w)) {r : Nat} (hL : (Lock.reader r, Mode.write) ∈ L) : FitsAll (policy w) L S (collectFor w r) := by
  refine .some' fun m => .some' fun s => .some' fun c => .line ?_ (.seq (.locked (.ops ?_)) (.seq (.ops ?_)
    (.seq (.many (.seq fits_element (fits_runCallback H))) (.seq (.many (.seq fits_element (fits_syncSnapshotAll H)))
    (.seq (.many (.seq fits_element (fits_asyncSnapshotAll hL))) (.line ?_ (.seq (.locked (.ops ?_))
      (.many (.seq fits_element (fits_collectView hL))))))))))
  all_goals line

theorem fits_produce (H : Plugs w (policy w)) {r : Nat} (hL : (Lock.reader r, Mode.write) ∈ L) : FitsAll (policy w) L S (produce w r) := by
  refine .some' fun p => .seq (.locked (.ops ?_)) (.seq (.locked (.ops ?_)) (.many (.seq fits_element (fits_collectFor H hL))))
  all_goals line

theorem fits_convertResource : FitsAll (policy w) L S convertResource := by
  refine .some' fun x => .locked (.seq (.ops ?_) (.opt (.ops ?_)))
  all_goals line

theorem fits_collect (H : Plugs w (policy w)) {r : Nat} : FitsAll (policy w) L S (collect w r) := by
  refine .locked (.seq (.ops ?_) (.seq (fits_produce H List.mem_cons_self) (.seq (.ops ?_) H.exporter.any)))
  all_goals line

theorem fits_shutdown : FitsAll (policy w) L S shutdown := by
  refine .some' fun p => .locked (.ops ?_)
  line

theorem fits_calls (H : Plugs w (policy w)) : FitsAll (policy w) [] [] (calls w) := by
  rintro t (h | h | h | h | h | h | h | h | h)
  · exact fits_getMeter t h
  · exact fits_createInstrument H t h
  · exact fits_registerCallback t h
  · exact fits_syncObserve H t h
  · exact fits_asyncObserve H t h
  · exact FitsAll.some' (fun r => fits_collect H) t h
  · exact fits_shutdown t h
  · exact fits_convertResource t h
  · exact H.handler t h

/-! ### Application code -/

theorem fits_app {api : Lang} (ha : FitsAll (policy w) [] [] api) {g : List (Nat × Mode)} {t : List Op} (h : App api g t) :
    Fits (policy w) (g.map fun e => (.app e.1, e.2)) [] t := by
  induction h with
  | nil => exact Fits.nil
  | call ht _ ih => exact ((ha _ ht).mono (List.nil_subset _) (List.nil_subset _)).append ih
  | lock _ _ ih ih' =>
    rename_i g k m t u _ _
    have := (Fits.around (l := .app k) (m := m) ih).append ih'
    simpa using this
  | read hg _ ih =>
    intro x rest hL hS hr
    refine ⟨Or.inr ⟨fun o e => (by cases e), ?_⟩, ih x rest hL hS hr⟩
    exact ⟨_, List.mem_singleton.2 rfl, _, hL (List.mem_map.2 ⟨_, hg, rfl⟩)⟩
  | write hg _ ih =>
    intro x rest hL hS hr
    refine ⟨Or.inr ⟨fun o e => (by cases e), ?_⟩, ih x rest hL hS hr⟩
    refine ⟨List.cons_ne_nil _ _, fun l hl => ?_⟩
    rw [List.mem_singleton.1 hl]
    exact hL (List.mem_map.2 ⟨_, hg, rfl⟩)

theorem policy_plugged (U : Lang) : policy (plugged w U) = policy w := by
  funext c
  cases c <;> rfl

theorem fits_user (w : World) (n : Nat) : FitsAll (policy w) [] [] (user w n) := by
  induction n with
  | zero => exact fun t ht => fits_app (fun t ht => by cases ht; exact Fits.nil) ht
  | succ n ih =>
    intro t ht
    refine fits_app (g := []) ?_ ht
    have := fits_calls (w := plugged w (user w n)) (by rw [policy_plugged]; exact ⟨ih, ih, ih, ih⟩)
    rwa [policy_plugged] at this

/-! ### Threads -/

/-- A thread with its objects. -/
structure Ghost where
  ctx : Ctx
  todo : List Op

def Ghost.thread (g : Ghost) : Thread := ⟨g.ctx.held, g.todo⟩

/-- No lock in common but for reading, and different new objects. -/
def Apart (g g' : Ghost) : Prop :=
  (∀ l, (l, Mode.write) ∈ g.ctx.held → ∀ m, (l, m) ∉ g'.ctx.held) ∧ (∀ l, (l, Mode.write) ∈ g'.ctx.held → ∀ m, (l, m) ∉ g.ctx.held) ∧
    ∀ o ∈ g.ctx.mine, o ∉ g'.ctx.mine

theorem Apart.symm {g g' : Ghost} (h : Apart g g') : Apart g' g := ⟨h.2.1, h.1, fun o ho ho' => h.2.2 o ho' ho⟩

structure Good (π : Cell → Policy) (born known : List Obj) (g : Ghost) : Prop where
  ok : Ok π g.ctx g.todo
  mine : ∀ o ∈ g.ctx.mine, o ∈ born ∧ o ∉ known
  seen : ∀ o ∈ g.ctx.seen, o ∈ known

structure Inv (π : Cell → Policy) (s : State) (gs : List Ghost) : Prop where
  threads : gs.map Ghost.thread = s.threads
  good : ∀ g ∈ gs, Good π s.born s.known g
  apart : gs.Pairwise Apart
  known : s.known ⊆ s.born

theorem Inv.start (os : List Obj) (ts : List (List Op)) (h : ∀ t ∈ ts, Ok π ⟨[], [], []⟩ t) :
    Inv π (start os ts) (ts.map fun t => ⟨⟨[], [], []⟩, t⟩) := by
  refine ⟨?_, ?_, ?_, List.Subset.refl _⟩
  · simp [Races.start, Ghost.thread, List.map_map, Function.comp_def]
  · intro g hg
    obtain ⟨t, ht, rfl⟩ := List.mem_map.1 hg
    exact ⟨h t ht, fun o ho => (by cases ho), fun o ho => (by cases ho)⟩
  · rw [List.pairwise_map]
    refine List.pairwise_of_forall fun t u => ⟨fun l hl => (by cases hl), fun l hl => (by cases hl), fun o ho => (by cases ho)⟩

/-- The invariant after a step of one thread. -/
theorem Inv.replace {s : State} {pre post : List Ghost} {g g' : Ghost} {born known : List Obj} (h : Inv π s (pre ++ g :: post))
    (hk : known ⊆ born) (hg : Good π born known g')
    (ho : ∀ u ∈ pre ++ g :: post, Good π s.born s.known u → Apart u g → Good π born known u ∧ Apart u g') :
    Inv π ⟨(pre ++ g' :: post).map Ghost.thread, born, known⟩ (pre ++ g' :: post) := by
  have hp := List.pairwise_append.1 h.apart
  have hp' := List.pairwise_cons.1 hp.2.1
  have hpre : ∀ u ∈ pre, Good π born known u ∧ Apart u g' := fun u hu =>
    ho u (List.mem_append_left _ hu) (h.good u (List.mem_append_left _ hu)) (hp.2.2 u hu g List.mem_cons_self)
  have hpost : ∀ u ∈ post, Good π born known u ∧ Apart u g' := fun u hu =>
    ho u (List.mem_append_right _ (List.mem_cons_of_mem _ hu)) (h.good u (List.mem_append_right _ (List.mem_cons_of_mem _ hu))) (hp'.1 u hu).symm
  refine ⟨rfl, ?_, ?_, hk⟩
  · intro u hu
    rcases List.mem_append.1 hu with hu | hu
    · exact (hpre u hu).1
    · rcases List.mem_cons.1 hu with rfl | hu
      · exact hg
      · exact (hpost u hu).1
  · refine List.pairwise_append.2 ⟨hp.1, List.pairwise_cons.2 ⟨fun u hu => (hpost u hu).2.symm, hp'.2⟩, ?_⟩
    intro u hu v hv
    rcases List.mem_cons.1 hv with rfl | hv
    · exact (hpre u hu).2
    · exact hp.2.2 u hu v (List.mem_cons_of_mem _ hv)

theorem Inv.step {s s' : State} {gs : List Ghost} (h : Inv π s gs) (hs : Step s s') : ∃ gs', Inv π s' gs' := by
  obtain ⟨hto, hfree⟩ := hs
  rename_i pre post t o rest born known
  have hth := h.threads
  obtain ⟨pg, gl, rfl, hpre, hgl⟩ := List.map_eq_append_iff.1 hth
  obtain ⟨g, qg, rfl, hg, hpost⟩ := List.map_eq_cons_iff.1 hgl
  subst hpre hpost
  have hgood := h.good g (List.mem_append_right _ List.mem_cons_self)
  have hok := hgood.ok
  have e1 : g.todo = o :: rest := by rw [← hto, ← hg]; rfl
  have e2 : t.held = g.ctx.held := by rw [← hg]; rfl
  rw [e1] at hok
  have others : ∀ u ∈ pg ++ g :: qg, u.thread ∈ (pg.map Ghost.thread ++ t :: qg.map Ghost.thread) := by
    intro u hu
    have := List.mem_map_of_mem (f := Ghost.thread) hu
    rwa [List.map_append, List.map_cons, hg] at this
  have build : ∀ (x : Ctx), x.held = after t.held o → published known o ⊆ allocated born o → Good π (allocated born o) (published known o) ⟨x, rest⟩ →
      (∀ u ∈ pg ++ g :: qg, Good π born known u → Apart u g → Good π (allocated born o) (published known o) u ∧ Apart u ⟨x, rest⟩) →
      ∃ gs', Inv π ⟨pg.map Ghost.thread ++ ⟨after t.held o, rest⟩ :: qg.map Ghost.thread, allocated born o, published known o⟩ gs' := by
    intro x hx hk hgd ho
    have hi := h.replace hk hgd ho
    rw [List.map_append, List.map_cons] at hi
    have e : Ghost.thread ⟨x, rest⟩ = ⟨after t.held o, rest⟩ := by simp [Ghost.thread, hx]
    rw [e] at hi
    exact ⟨_, hi⟩
  have hk : known ⊆ born := h.known
  cases o with
  | acq l m =>
    refine build { g.ctx with held := (l, m) :: g.ctx.held } (by rw [e2]; rfl) hk ⟨hok, hgood.mine, hgood.seen⟩ ?_
    intro u hu gu au
    refine ⟨gu, ?_, ?_, au.2.2⟩
    · intro l' hl' m' hm'
      rcases List.mem_cons.1 hm' with e | hm'
      · cases e
        cases m with
        | write => exact hfree u.thread (others u hu) _ hl'
        | read => exact hfree u.thread (others u hu) hl'
      · exact au.1 l' hl' m' hm'
    · intro l' hl' m' hm'
      rcases List.mem_cons.1 hl' with e | hl'
      · cases e
        exact hfree u.thread (others u hu) _ hm'
      · exact au.2.1 l' hl' m' hm'
  | rel l =>
    obtain ⟨m, held, eh, hok⟩ := hok
    refine build { g.ctx with held := held } (by rw [e2, eh]; rfl) hk ⟨hok, hgood.mine, hgood.seen⟩ ?_
    intro u hu gu au
    have sub : ∀ e, e ∈ held → e ∈ g.ctx.held := fun e he => by rw [eh]; exact List.mem_cons_of_mem _ he
    exact ⟨gu, fun l hl m hm => au.1 l hl m (sub _ hm), fun l hl m hm => au.2.1 l (sub _ hl) m hm, au.2.2⟩
  | alloc o =>
    have hf : o ∉ born := hfree
    refine build { g.ctx with mine := o :: g.ctx.mine } (by rw [e2]; rfl) (fun p hp => List.mem_cons_of_mem _ (hk hp))
      ⟨hok, ?_, hgood.seen⟩ ?_
    · intro p hp
      rcases List.mem_cons.1 hp with rfl | hp
      · exact ⟨List.mem_cons_self, fun hp => hf (hk hp)⟩
      · exact ⟨List.mem_cons_of_mem _ (hgood.mine p hp).1, (hgood.mine p hp).2⟩
    · intro u hu gu au
      refine ⟨⟨gu.ok, fun p hp => ⟨List.mem_cons_of_mem _ (gu.mine p hp).1, (gu.mine p hp).2⟩, gu.seen⟩, au.1, au.2.1, ?_⟩
      intro p hp hp'
      rcases List.mem_cons.1 hp' with rfl | hp'
      · exact hf (gu.mine p hp).1
      · exact au.2.2 p hp hp'
  | pub o =>
    obtain ⟨hm, hok⟩ := hok
    refine build { g.ctx with mine := g.ctx.mine.filter (· ≠ o), seen := o :: g.ctx.seen } (by rw [e2]; rfl) ?_ ⟨hok, ?_, ?_⟩ ?_
    · intro p hp
      rcases List.mem_cons.1 hp with rfl | hp
      · exact (hgood.mine p hm).1
      · exact hk hp
    · intro p hp
      obtain ⟨hp, hne⟩ := List.mem_filter.1 hp
      refine ⟨(hgood.mine p hp).1, fun hp' => ?_⟩
      rcases List.mem_cons.1 hp' with rfl | hp'
      · simp at hne
      · exact (hgood.mine p hp).2 hp'
    · intro p hp
      rcases List.mem_cons.1 hp with rfl | hp
      · exact List.mem_cons_self
      · exact List.mem_cons_of_mem _ (hgood.seen p hp)
    · intro u hu gu au
      refine ⟨⟨gu.ok, fun p hp => ⟨(gu.mine p hp).1, fun hp' => ?_⟩, fun p hp => List.mem_cons_of_mem _ (gu.seen p hp)⟩, au.1, au.2.1,
        fun p hp hp' => au.2.2 p hp (List.mem_filter.1 hp').1⟩
      rcases List.mem_cons.1 hp' with rfl | hp'
      · exact au.2.2 p hp hm
      · exact (gu.mine p hp).2 hp'
  | see o =>
    have hf : o ∈ known := hfree
    refine build { g.ctx with seen := o :: g.ctx.seen } (by rw [e2]; rfl) hk ⟨hok, hgood.mine, ?_⟩ (fun u hu gu au => ⟨gu, au⟩)
    intro p hp
    rcases List.mem_cons.1 hp with rfl | hp
    · exact hf
    · exact hgood.seen p hp
  | acc c k => exact build g.ctx (by rw [e2]; rfl) hk ⟨hok.2, hgood.mine, hgood.seen⟩ (fun u hu gu au => ⟨gu, au⟩)

theorem Inv.reaches {s s' : State} {gs : List Ghost} (h : Inv π s gs) (hr : Reaches s s') : ∃ gs', Inv π s' gs' := by
  induction hr with
  | refl => exact ⟨gs, h⟩
  | step _ hs ih =>
    obtain ⟨gs', hi⟩ := ih
    exact hi.step hs

theorem Inv.apart_getElem {s : State} {gs : List Ghost} (h : Inv π s gs) {i j : Nat} {g g' : Ghost} (hij : i ≠ j) (hi : gs[i]? = some g)
    (hj : gs[j]? = some g') : Apart g g' := by
  obtain ⟨hi', rfl⟩ := List.getElem?_eq_some_iff.1 hi
  obtain ⟨hj', rfl⟩ := List.getElem?_eq_some_iff.1 hj
  have hp := List.pairwise_iff_getElem.1 h.apart
  rcases Nat.lt_or_gt_of_ne hij with hlt | hlt
  · exact hp i j hi' hj' hlt
  · exact (hp j i hj' hi' hlt).symm

theorem Inv.no_race {s : State} {gs : List Ghost} (h : Inv π s gs) : ¬ Race s := by
  rintro ⟨i, j, t, u, c, a, b, rest, rest', hij, hi, hj, ht, hu, hc⟩
  rw [← h.threads, List.getElem?_map] at hi hj
  obtain ⟨g, hg, rfl⟩ := Option.map_eq_some_iff.1 hi
  obtain ⟨g', hg', rfl⟩ := Option.map_eq_some_iff.1 hj
  have hap := h.apart_getElem hij hg hg'
  have hG := h.good g (List.mem_of_getElem? hg)
  have hG' := h.good g' (List.mem_of_getElem? hg')
  have ok := hG.ok
  have ok' := hG'.ok
  have ht : g.todo = _ := ht
  have hu : g'.todo = _ := hu
  rw [ht] at ok
  rw [hu] at ok'
  rcases ok.1 with ⟨o, ho, hm⟩ | ⟨hs, ha⟩
  · rcases ok'.1 with ⟨o', ho', hm'⟩ | ⟨hs', _⟩
    · rw [ho] at ho'
      cases ho'
      exact hap.2.2 o hm hm'
    · exact (hG.mine o hm).2 (hG'.seen o (hs' o ho))
  · rcases ok'.1 with ⟨o', ho', hm'⟩ | ⟨_, ha'⟩
    · exact (hG'.mine o' hm').2 (hG.seen o' (hs o' ho'))
    · have := allowed_apart hap.1 hap.2.1 ha ha'
      rw [this] at hc
      exact absurd hc (by decide)

/-- Threads that keep to the policies do not race. -/
theorem no_race {os : List Obj} {ts : List (List Op)} (h : ∀ t ∈ ts, Fits π [] [] t) {s : State} (hr : Reaches (start os ts) s) : ¬ Race s := by
  have hi := Inv.start (π := π) os ts (fun t ht => by
    have := h t ht ⟨[], [], []⟩ [] (List.nil_subset _) (List.nil_subset _) (fun _ _ _ => trivial)
    rwa [List.append_nil] at this)
  obtain ⟨gs, hg⟩ := hi.reaches hr
  exact hg.no_race

end Verif.Races
