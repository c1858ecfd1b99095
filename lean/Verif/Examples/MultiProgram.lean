import Verif.Proof.Multi
import Verif.Examples.DeliveryProgram

/-!
A program with two readers, the first with cumulative, the second with delta temporality. It asks for a counter or another synchronous instrument and calls it; while the first reader collects because of `ForceFlush` of the
provider, it asks for an observable counter, calls the counter once more and then shuts down the provider.
-/

namespace Verif.Examples.Mu
open Verif Verif.Attr Verif.Number Verif.Aggr Verif.Export Verif.Assembly Verif.Instruments Verif.Launched Verif.Examples
open Verif.Examples.Asm (scA ka kb)
open Verif.Views (Views lit)
open Verif.Launcher (documented)
open Verif.Examples.Ln (out)

def w : World Nat (List Bits) := Ln.w .cumulative
def vs : List (Views Nat) := [view out (documented .cumulative), view out (documented .delta)]
def cs (ct : Ln.Made) : List (Provider.Call Nat) := [.meter scA, .instrument 0 (ct.1.desc (lit "n") ct.2.text (lit "s")), .instrument 0 (Ctor.int64ObservableCounter.desc (lit "y") [] (lit "s")), .shutdown]
def p (ct : Ln.Made) : Provider.Provider Nat Nat := Provider.run Props.ViewEx.x (Provider.new vs) (cs ct)
def n (ct : Ln.Made) : Front.Inst := Dl.n ct

abbrev Act := Multi.Act Nat
abbrev S := Multi.Sys Nat (List Bits) Nat
def ops (i n : Nat) : List Act := List.replicate n (.op i)
def tasks (t n : Nat) : List Act := List.replicate n (.task t 0)
/-- A goroutine of reader `i` goes on. -/
def go (i t : Nat) : Act := .reader i (.go t false) []
def produces (i n : Nat) (now : Int) : List Act := List.replicate n (.produce i now)

def runIn (s : S) (as : List Act) : Option S := Multi.run (fun _ => 0) w Wh.fsub Props.ViewEx.x s as
def initial (ct : Ln.Made) : S := Multi.initial (fun _ => 0) w Wh.fsub (p ct) vs 1

/-- `ForceFlush` is number 0, `Shutdown` number 1 of the calls on the provider. The first reader is within `Produce`, having taken its snapshot of the counter. -/
def acts (ct : Ln.Made) : List Act :=
  [.make (.meter scA), .make (.instrument 0 (ct.1.desc (lit "n") ct.2.text (lit "s"))), .call (n ct) ka 7] ++ ops 0 12 ++ [.call (n ct) kb 5] ++ ops 1 12 ++
  [.flush, .go 0, go 0 1] ++ produces 0 4 2 ++ tasks 0 20 ++ produces 0 1 2 ++
  [.make (.instrument 0 (Ctor.int64ObservableCounter.desc (lit "y") [] (lit "s"))), .call (n ct) ka 2] ++ ops 2 9 ++ [.shutdown]

/-- The callback of the observable counter, run by reader `i` for the `cb`th time, observes twice. -/
def sees (i cb : Nat) (a : List KV) (x : Bits) (b : List KV) (y : Bits) : List Act :=
  [.cb i (.startCb [2]), .cb i (.observe cb 2 a x)] ++ List.replicate 3 (.cb i (.op (2 * cb))) ++ [.cb i (.observe cb 2 b y)] ++ List.replicate 3 (.cb i (.op (2 * cb + 1))) ++ [.cb i (.endCb cb)]

def e (i : Nat) (set : List KV) (v : Bits) : Async.Entry (List KV) Bits := ⟨2, set, [(leafAddr 0 i 1, set)], v⟩

/-- The collection of reader `i` by its goroutine `t`, whose tasks have the numbers `a` and `a + 1`; the callback observes `x` and `y`. -/
def collects (i t a sn co : Nat) (now : Int) (cb : Nat) (x y : Bits) : List Act :=
  [go i t] ++ produces i 2 now ++ sees i cb ka x kb y ++ produces i 2 now ++ tasks a sn ++ produces i 3 now ++ tasks (a + 1) co ++ produces i 3 now ++
  [.reader i (.go t false) [e i ka x, e i kb y], go i t, go i t]

/-- The collection of the first reader ends; `ForceFlush` calls the second reader, and `Shutdown` the first one, then the second one. -/
def after : List Act :=
  produces 0 2 2 ++ tasks 1 4 ++ produces 0 3 2 ++ [go 0 1, go 0 1, go 0 1] ++ [.go 0, .go 0, .go 1] ++ collects 1 1 2 12 6 3 0 10 20 ++
  [.go 0, .go 0, go 0 2, .reader 0 (.go 0 true) [], go 0 2] ++ collects 0 2 4 4 4 4 0 11 20 ++ [.go 1, .go 1, go 1 2, .reader 1 (.go 0 true) [], go 1 2] ++ collects 1 2 6 4 6 5 1 13 20 ++ [.go 1, .go 1]

/-- Then the program goes on: a ticker fires, the counter is called, `Shutdown` is called again. -/
def more (ct : Ln.Made) : List Act := [.reader 0 .tick [], .call (n ct) ka 3] ++ ops 3 2 ++ [.reader 0 (.go 0 false) [], .shutdown, .reader 1 .tick [], go 1 0]

def stages (ct : Ln.Made) : Option (S × S × S) := (runIn (initial ct) (acts ct)).bind fun s => (runIn s after).bind fun s' => (runIn s' (more ct)).bind fun s2 => some (s, s', s2)

/-- Evaluates `Orderly`. -/
def orderlyB : S → List Act → Bool
  | _, [] => true
  | s, b :: as =>
    (match b with
      | .reader i r _ => !Delivery.returns (s.readers i).r r ||
          (List.range (s.readers i).async.nextOp).all (fun j => decide (((s.readers i).async.op j).pc ≠ .create) && decide (((s.readers i).async.op j).pc ≠ .update))
      | _ => true) &&
    match Multi.step (fun _ => 0) w Wh.fsub Props.ViewEx.x s b with | none => true | some y => orderlyB y as

theorem orderlyB_spec {s : S} {acts : List Act} (h : orderlyB s acts = true) : Multi.Orderly (fun _ => 0) w Wh.fsub Props.ViewEx.x s acts := by
  unfold Multi.Orderly
  induction acts generalizing s with
  | nil => intro before i r order after y h1 _; simp at h1
  | cons b acts ih =>
    intro before i r order after y h1 h2 hr
    unfold orderlyB at h
    rw [Bool.and_eq_true] at h
    cases before with
    | nil =>
      simp only [List.nil_append, List.cons.injEq] at h1
      rw [h1.1] at h
      have h3 := h.1
      simp only [Multi.run, Option.some.injEq] at h2
      subst h2
      dsimp only at h3
      rw [hr] at h3
      rintro ⟨j, hj, hpc⟩
      have h4 := List.all_eq_true.1 h3 j (List.mem_range.2 hj)
      simp only [Bool.and_eq_true, decide_eq_true_eq] at h4
      rcases hpc with hpc | hpc
      · exact h4.1 hpc
      · exact h4.2 hpc
    | cons b' before =>
      simp only [List.cons_append, List.cons.injEq] at h1
      rw [← h1.1] at h2
      simp only [Multi.run, Option.bind_eq_some_iff] at h2
      obtain ⟨z, h3, h4⟩ := h2
      have h5 := h.2
      rw [h3] at h5
      exact ih h5 before i r order after y h1.2 h4 hr

def called (ct : Ln.Made) : List Pipeline.Act := [.call (n ct) ka 7, .call (n ct) kb 5, .call (n ct) ka 2]

theorem makes_acts (ct : Ln.Made) : Multi.makes (acts ct) = cs ct := rfl
theorem measured_acts (ct : Ln.Made) : Multi.measured (acts ct) = called ct := rfl
theorem makes_after : Multi.makes after = [] := rfl
theorem measured_after : Multi.measured after = [] := rfl
theorem no_flush (ct : Ln.Made) : ∀ a ∈ more ct, a ≠ .flush ∧ ∀ j o, a ≠ .reader j .callFlush o ∧ a ≠ .reader j .callShutdown o := by
  intro a ha
  simp only [more, ops, go, List.replicate, List.mem_append, List.mem_cons, List.not_mem_nil, or_false] at ha
  rcases ha with ((rfl | rfl) | rfl | rfl) | rfl | rfl | rfl | rfl <;> simp

theorem observed (ct : Ln.Made) : ∀ i cb o as v, Multi.Act.cb i (.observe cb o as v) ∈ acts ct ++ after → ∀ kv ∈ as, kv.val ≠ .invalid := by
  intro i cb o as v hm
  let f : Act → Bool := fun b => match b with
    | .cb _ (.observe _ _ as _) => as.all (fun kv : KV => decide (kv.val ≠ Val.invalid))
    | _ => true
  have hd : (acts ct ++ after).all f = true := by
    rw [List.all_append, Bool.and_eq_true]
    refine ⟨List.all_eq_true.2 fun b hb => ?_, by decide⟩
    cases b with
    | cb i c => exact absurd hb (by simp [acts, ops, tasks, produces, go, List.replicate])
    | _ => rfl
  have := List.all_eq_true.1 hd _ hm
  exact fun kv hkv => of_decide_eq_true (List.all_eq_true.1 this kv hkv)

theorem typed (ct : Ln.Made) : ∀ e ∈ Pipeline.calls (called ct), ∀ kv ∈ e.1.attrs e.2.1, kv.val ≠ .invalid := Dl.typed ct

attribute [irreducible] p acts after

/-- Evaluates `OneByOne`. -/
def quietB : S → List Act → Bool
  | _, [] => true
  | s, b :: as =>
    (match b with
      | .call _ _ _ => (List.range s.sync.nextOp).all (fun j => decide ((s.sync.op j).pc = .done))
      | _ => true) &&
    match Multi.step (fun _ => 0) w Wh.fsub Props.ViewEx.x s b with | none => true | some y => quietB y as

theorem quietB_spec {s : S} {acts : List Act} (h : quietB s acts = true) {before after : List Act} {i : Front.Inst} {kvs : List KV} {b : Bits} {y : S}
    (h1 : acts = before ++ .call i kvs b :: after) (h2 : runIn s before = some y) : ∀ j, j < y.sync.nextOp → (y.sync.op j).pc = .done := by
  induction acts generalizing s before with
  | nil => simp at h1
  | cons c acts ih =>
    unfold quietB at h
    rw [Bool.and_eq_true] at h
    cases before with
    | nil =>
      simp only [List.nil_append, List.cons.injEq] at h1
      rw [h1.1] at h
      have h3 := h.1
      simp only [runIn, Multi.run, Option.some.injEq] at h2
      subst h2
      exact fun j hj => of_decide_eq_true (List.all_eq_true.1 h3 j (List.mem_range.2 hj))
    | cons b' before =>
      simp only [List.cons_append, List.cons.injEq] at h1
      rw [← h1.1] at h2
      simp only [runIn, Multi.run, Option.bind_eq_some_iff] at h2
      obtain ⟨z, h3, h4⟩ := h2
      have h5 := h.2
      rw [h3] at h5
      exact ih h5 h1.2 h4

/-- What is to be evaluated. -/
def Good (s : S × S) : Prop :=
  (∀ i, i < s.1.sync.nextOp → (s.1.sync.op i).pc = .done) ∧ s.1.calls[1]? = some (Multi.Pc.loop .shutdown 0 none) ∧ s.2.calls = [.done false, .done false] ∧
    ∀ j, j < 2 → (s.2.readers j).r.threads.all (fun th => decide (th.pos = .done)) = true

instance (s : S × S) : Decidable (Good s) := by unfold Good; infer_instance

def evaluated (ct : Ln.Made) : Bool := orderlyB (initial ct) (acts ct ++ after) && match stages ct with | none => false | some s => decide (Good (s.1, s.2.1))

theorem prov {s s' : S} {as : List Act} (h : runIn s as = some s') : s'.p = Provider.run Props.ViewEx.x s.p (Multi.makes as) := Multi.run_prov h

theorem of_evaluated {ct : Ln.Made} (h : evaluated ct = true) :
    ∃ s s' s2, stages ct = some (s, s', s2) ∧ s'.p = p ct ∧ Good (s, s') ∧ runIn s' (more ct) = some s2 ∧ runIn (initial ct) (acts ct) = some s ∧
      Multi.Closing (fun _ => 0) w Wh.fsub Props.ViewEx.x vs 1 (acts ct) after s s' := by
  simp only [evaluated, Bool.and_eq_true] at h
  obtain ⟨ho, h⟩ := h
  cases hs : stages ct with
  | none => rw [hs] at h; cases h
  | some q =>
    rw [hs] at h
    obtain ⟨s, s', s2⟩ := q
    have g : Good (s, s') := of_decide_eq_true h
    unfold stages at hs
    simp only [Option.bind_eq_some_iff, Option.some.injEq, Prod.mk.injEq] at hs
    obtain ⟨u, h1, u', h2, u2, h3, e1, e2, e3⟩ := hs
    subst e1 e2 e3
    have hall : runIn (initial ct) (acts ct ++ after) = some u' := by unfold runIn at *; rw [Multi.run_append, h1, Option.bind_some, h2]
    have hp : u'.p = p ct := by
      rw [prov h2, prov h1, makes_after, makes_acts]
      unfold p
      rfl
    have hm : Multi.measured (acts ct ++ after) = called ct := by
      rw [Multi.measured, List.filterMap_append]
      exact (congr (congrArg (· ++ ·) (measured_acts ct)) measured_after).trans (List.append_nil _)
    refine ⟨u, u', u2, rfl, hp, g, h3, h1, ⟨⟨Ln.exportable .cumulative, ?_, observed ct, ?_, ?_⟩, by rw [measured_acts]; exact (by decide : 3 < 2 ^ 32), ?_, g.1, ⟨makes_after, measured_after⟩,
      1, .inr ⟨_, g.2.1⟩, by rw [g.2.2.1]; rfl⟩⟩
    · rw [hm]; exact typed ct
    · rw [hp]; exact orderlyB_spec ho
    · rw [hp]; exact hall
    · rw [hp]; exact h1

theorem oneByOne {ct : Ln.Made} (h : quietB (initial ct) (acts ct) = true) (k : Nat) (v : Views Nat) (sc : Verif.Views.Scope) (nm : Str) :
    Multi.OneByOne (fun _ => 0) w Wh.fsub Props.ViewEx.x vs 1 (p ct) k v sc nm (acts ct) :=
  fun _ _ _ _ _ _ h1 h2 _ j hj _ => quietB_spec h h1 h2 j hj

end Verif.Examples.Mu
