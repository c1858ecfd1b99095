import Verif.Proof.DeliveryEnds
import Verif.Examples.LaunchedProgram

/-!
A program which starts the launcher and asks for a counter; while the reader collects because of a tick, the program asks for an observable counter, calls the counter once
more, and then shuts down or flushes the provider.
-/

namespace Verif.Examples.Dl
open Verif Verif.Attr Verif.Number Verif.Aggr Verif.Export Verif.Assembly Verif.Instruments Verif.Launched Verif.Delivery Verif.Examples
open Verif.Examples.Asm (scA ka kb by' listH)
open Verif.Examples.AsmV (kab)
open Verif.Front (IKind)
open Verif.Views (Views Tempo lit)
open Verif.Launcher (Preference documented)
open Verif.Examples.Ln (Made out pc w vs opts lw launch)

/-- Which call is made at the end. -/
inductive Last
  | flush | shutdown
deriving DecidableEq

def Last.kind : Last → Periodic.Kind
  | .flush => .flush
  | .shutdown => .shutdown

/-- Marks the provider as shut down. -/
def Last.mark : Last → List (Provider.Call Nat)
  | .flush => []
  | .shutdown => [.shutdown]

def cs (ct : Made) (k : Last) : List (Provider.Call Nat) :=
  [.meter scA, .instrument 0 (ct.1.desc (lit "n") ct.2.text (lit "s")), .instrument 0 (Ctor.int64ObservableCounter.desc (lit "y") [] (lit "s"))] ++ k.mark

def p (a : Preference) (ct : Made) (k : Last) : Provider.Provider Nat Nat := Provider.run Props.ViewEx.x (Provider.new (vs a)) (cs ct k)

def n (ct : Made) : Front.Inst := { id := 0, kind := ct.1.kinds.2, num := ct.1.kinds.1, sizeLimit := 8192, proc := none }
def e (set : List KV) (v : Bits) : Async.Entry (List KV) Bits := ⟨2, set, [(4, set)], v⟩

abbrev Act := Delivery.Act Nat
def ops (i n : Nat) : List Act := List.replicate n (.op i)
def tasks (t n : Nat) : List Act := List.replicate n (.task t 0)
def go (t : Nat) : Act := .reader (.go t false) []
def produces (n : Nat) (now : Int) : List Act := List.replicate n (.produce now)
/-- The callback observes twice; number `i` is its first observation. -/
def sees (cb i : Nat) (a : List KV) (x : Bits) (b : List KV) (y : Bits) : List Act :=
  .cb (.startCb [2]) :: .cb (.observe cb 2 a x) :: List.replicate 3 (.cb (.op i)) ++ .cb (.observe cb 2 b y) :: List.replicate 3 (.cb (.op (i + 1))) ++ [.cb (.endCb cb)]

/-- Until the calls have returned; the reader has taken the snapshot of the counter then. -/
def acts (ct : Made) (k : Last) : List Act :=
  [.make (.meter scA), .make (.instrument 0 (ct.1.desc (lit "n") ct.2.text (lit "s")))] ++ [.call (n ct) ka 7] ++ ops 0 9 ++ [.call (n ct) kb 5] ++ ops 1 9 ++
  [.reader .tick [], go 0, go 0] ++ produces 4 2 ++ tasks 0 14 ++ produces 1 2 ++
  [.make (.instrument 0 (Ctor.int64ObservableCounter.desc (lit "y") [] (lit "s")))] ++ [.call (n ct) ka 2] ++ ops 2 7 ++ k.mark.map .make

def order : List (Async.Entry (List KV) Bits) := [e ka 5, e kab 10]

/-- The call is made while the reader collects, waits for this collection, and makes its own. -/
def after (a : Preference) (ct : Made) (k : Last) : List Act :=
  (match k with | .flush => [.reader .callFlush []] | .shutdown => [.reader .callShutdown [], go 1]) ++ [go 1] ++
  produces 2 2 ++ tasks 1 (by' (Ln.tempo a ct) 6 4) ++ produces 3 2 ++ [go 0, go 0, go 1, go 0] ++
  (match k with | .flush => [] | .shutdown => [.reader (.go 0 true) [], go 1]) ++ [go 1] ++
  produces 2 3 ++ sees 0 0 kab 10 ka 5 ++ produces 2 3 ++ tasks 2 9 ++ produces 3 3 ++ tasks 3 (by' (Ln.tempo a ct) 6 4) ++ produces 3 3 ++
  [.reader (.go 1 false) order, go 1, go 1]

def initial (a : Preference) (ct : Made) (k : Last) : Delivery.Sys Nat (List Bits) Nat := Delivery.initial (fun _ => 0) (w a) Wh.fsub (p a ct k) (vs a) 0 1

def runIn (a : Preference) (s : Delivery.Sys Nat (List Bits) Nat) (as : List Act) : Option (Delivery.Sys Nat (List Bits) Nat) :=
  Delivery.run (fun _ => 0) (w a) Wh.fsub Props.ViewEx.x 0 s as

def stages (a : Preference) (ct : Made) (k : Last) : Option (Delivery.Sys Nat (List Bits) Nat × Delivery.Sys Nat (List Bits) Nat) :=
  (runIn a (initial a ct k) (acts ct k)).bind fun s => (runIn a s (after a ct k)).bind fun s' => some (s, s')

/-- Evaluates `Orderly`. -/
def orderlyB (a : Preference) : Delivery.Sys Nat (List Bits) Nat → List Act → Bool
  | _, [] => true
  | s, b :: as =>
    (match b with
      | .reader r _ => !returns s.r r || (List.range s.z.s.async.nextOp).all (fun i => decide ((s.z.s.async.op i).pc ≠ .create) && decide ((s.z.s.async.op i).pc ≠ .update))
      | _ => true) &&
    match Delivery.step (fun _ => 0) (w a) Wh.fsub Props.ViewEx.x 0 s b with | none => true | some y => orderlyB a y as

theorem orderlyB_spec {a : Preference} {s : Delivery.Sys Nat (List Bits) Nat} {acts : List Act} (h : orderlyB a s acts = true) :
    Orderly (fun _ => 0) (w a) Wh.fsub Props.ViewEx.x 0 s acts := by
  unfold Orderly
  induction acts generalizing s with
  | nil => intro before r order after y h1 _; simp at h1
  | cons b acts ih =>
    intro before r order after y h1 h2 hr
    unfold orderlyB at h
    rw [Bool.and_eq_true] at h
    cases before with
    | nil =>
      simp only [List.nil_append, List.cons.injEq] at h1
      rw [h1.1] at h
      have h3 := h.1
      simp only [Delivery.run, Option.some.injEq] at h2
      subst h2
      dsimp only at h3
      rw [hr] at h3
      rintro ⟨i, hi, hpc⟩
      have h4 := List.all_eq_true.1 h3 i (List.mem_range.2 hi)
      simp only [Bool.and_eq_true, decide_eq_true_eq] at h4
      rcases hpc with hpc | hpc
      · exact h4.1 hpc
      · exact h4.2 hpc
    | cons b' before =>
      simp only [List.cons_append, List.cons.injEq] at h1
      rw [← h1.1] at h2
      simp only [Delivery.run, Option.bind_eq_some_iff] at h2
      obtain ⟨z, h3, h4⟩ := h2
      have h5 := h.2
      rw [h3] at h5
      exact ih h5 before r order after y h1.2 h4 hr

def called (ct : Made) : List Pipeline.Act := [.call (n ct) ka 7, .call (n ct) kb 5, .call (n ct) ka 2]

theorem makes_acts (ct : Made) (k : Last) : makes (acts ct k) = cs ct k := by cases k <;> rfl
theorem measured_acts (ct : Made) (k : Last) : measured (acts ct k) = called ct := by cases k <;> rfl
theorem makes_after (a : Preference) (ct : Made) (k : Last) : makes (after a ct k) = [] := by
  unfold after by'
  cases k <;> dsimp only <;> split <;> rfl
theorem measured_after (a : Preference) (ct : Made) (k : Last) : measured (after a ct k) = [] := by
  unfold after by'
  cases k <;> dsimp only <;> split <;> rfl

attribute [irreducible] p

/-- What is to be evaluated: all calls had returned, and the last call has. -/
def Good (s : Delivery.Sys Nat (List Bits) Nat × Delivery.Sys Nat (List Bits) Nat) (k : Last) : Prop :=
  (∀ i, i < s.1.z.s.sync.nextOp → (s.1.z.s.sync.op i).pc = .done) ∧ s.1.r.threads.length = 1 ∧
    s.2.r.threads[1]? = some ⟨k.kind, .done⟩

instance (s : Delivery.Sys Nat (List Bits) Nat × Delivery.Sys Nat (List Bits) Nat) (k : Last) : Decidable (Good s k) := by unfold Good; infer_instance

def evaluated (a : Preference) (ct : Made) (k : Last) : Bool :=
  orderlyB a (initial a ct k) (acts ct k ++ after a ct k) && match stages a ct k with | none => false | some s => decide (Good s k)

theorem run_two {a : Preference} {s0 s s' : Delivery.Sys Nat (List Bits) Nat} {as bs : List Act} (h1 : runIn a s0 as = some s) (h2 : runIn a s bs = some s') :
    runIn a s0 (as ++ bs) = some s' := by
  unfold runIn at h1 h2 ⊢
  rw [run_append, h1, Option.bind_some, h2]

theorem prov {a : Preference} {s0 s' : Delivery.Sys Nat (List Bits) Nat} {as : List Act} (h : runIn a s0 as = some s') : s'.z.p = Provider.run Props.ViewEx.x s0.z.p (makes as) := by
  have := Live.run_prov (run_lives h)
  rw [lives_makes h] at this
  exact this

theorem typed (ct : Made) : ∀ e ∈ Pipeline.calls (called ct), ∀ kv ∈ e.1.attrs e.2.1, kv.val ≠ .invalid := by
  have hd : ∀ e ∈ Pipeline.calls (called ct), (e.1.attrs e.2.1).all (fun kv => decide (kv.val ≠ .invalid)) = true := by rcases ct with ⟨c, h⟩ <;> cases c <;> cases h <;> decide
  exact fun e he kv hkv => of_decide_eq_true (List.all_eq_true.1 (hd e he) kv hkv)

theorem observed (a : Preference) (ct : Made) (k : Last) (cb o : Nat) (as : List KV) (v : Bits) (hmem : .cb (.observe cb o as v) ∈ acts ct k ++ after a ct k) :
    ∀ kv ∈ as, kv.val ≠ .invalid := by
  have hd : (acts ct k ++ after a ct k).all (fun b : Act => match b with
      | .cb (.observe _ _ as _) => as.all (fun kv : KV => decide (kv.val ≠ Val.invalid))
      | _ => true) = true := by
    unfold acts after by'
    cases k <;> dsimp only <;> split <;> rcases ct with ⟨c, h⟩ <;> cases c <;> cases h <;> decide
  have := List.all_eq_true.1 hd _ hmem
  exact fun kv hkv => of_decide_eq_true (List.all_eq_true.1 this kv hkv)

attribute [irreducible] acts after

theorem of_evaluated {a : Preference} {ct : Made} {k : Last} (h : evaluated a ct k = true) :
    ∃ s s', stages a ct k = some (s, s') ∧ s'.z.p = p a ct k ∧ s'.r.threads[1]? = some ⟨k.kind, .done⟩ ∧
      Closes out (pc a) (documented a) 1 (acts ct k) (after a ct k) s s' := by
  simp only [evaluated, Bool.and_eq_true] at h
  obtain ⟨ho, h⟩ := h
  cases hs : stages a ct k with
  | none => rw [hs] at h; cases h
  | some q =>
    rw [hs] at h
    obtain ⟨s, s'⟩ := q
    obtain ⟨g1, g2, g3⟩ : Good (s, s') k := of_decide_eq_true h
    unfold stages at hs
    simp only [Option.bind_eq_some_iff, Option.some.injEq, Prod.mk.injEq] at hs
    obtain ⟨u, h1, u', h2, e1, e2⟩ := hs
    subst e1 e2
    have hall := run_two h1 h2
    have hp : u'.z.p = p a ct k := by
      have := prov hall
      rw [makes, List.filterMap_append] at this
      have e1 : List.filterMap _ (acts ct k) = cs ct k := makes_acts ct k
      have e2 : List.filterMap _ (after a ct k) = [] := makes_after a ct k
      rw [e1, e2, List.append_nil] at this
      rw [this]
      unfold p
      rfl
    have hm : measured (acts ct k ++ after a ct k) = called ct := by
      rw [measured, List.filterMap_append]
      exact (congr (congrArg (· ++ ·) (measured_acts ct k)) (measured_after a ct k)).trans (List.append_nil _)
    refine ⟨u, u', rfl, hp, g3, ⟨⟨Ln.exportable a, ?_, observed a ct k, ?_, ?_⟩, by rw [measured_acts]; exact (by decide : 3 < 2 ^ 32), ?_, g1, ⟨makes_after a ct k, measured_after a ct k⟩,
      1, _, Nat.le_of_eq g2, g3⟩⟩
    · rw [hm]
      exact typed ct
    · rw [hp]
      exact orderlyB_spec ho
    · rw [hp]
      exact hall
    · rw [hp]
      exact h1

/-- Evaluates that calls do not overlap. -/
def quietB (a : Preference) : Delivery.Sys Nat (List Bits) Nat → List Act → Bool
  | _, [] => true
  | x, b :: as =>
    (match b with
      | .call _ _ _ => (List.range x.z.s.sync.nextOp).all (fun i => decide ((x.z.s.sync.op i).pc = .done))
      | _ => true) &&
    match Delivery.step (fun _ => 0) (w a) Wh.fsub Props.ViewEx.x 0 x b with | none => true | some y => quietB a y as

theorem quietB_spec {a : Preference} {x : Delivery.Sys Nat (List Bits) Nat} {acts : List Act} (h : quietB a x acts = true) :
    ∀ before i kvs b after y, acts = before ++ .call i kvs b :: after → Delivery.run (fun _ => 0) (w a) Wh.fsub Props.ViewEx.x 0 x before = some y →
      ∀ j, j < y.z.s.sync.nextOp → (y.z.s.sync.op j).pc = .done := by
  induction acts generalizing x with
  | nil => intro before i kvs b after y h1 _; simp at h1
  | cons b acts ih =>
    intro before i kvs b0 after y h1 h2
    unfold quietB at h
    rw [Bool.and_eq_true] at h
    cases before with
    | nil =>
      simp only [List.nil_append, List.cons.injEq] at h1
      rw [h1.1] at h
      have h3 := h.1
      simp only [Delivery.run, Option.some.injEq] at h2
      subst h2
      intro j hj
      exact of_decide_eq_true (List.all_eq_true.1 h3 j (List.mem_range.2 hj))
    | cons b' before =>
      simp only [List.cons_append, List.cons.injEq] at h1
      rw [← h1.1] at h2
      simp only [Delivery.run, Option.bind_eq_some_iff] at h2
      obtain ⟨z, h3, h4⟩ := h2
      have h5 := h.2
      rw [h3] at h5
      exact ih h5 before i kvs b0 after y h1.2 h4

theorem oneByOne {a : Preference} {ct : Made} {k : Last} {j : Nat} {nm : Str} (h : quietB a (initial a ct k) (acts ct k) = true) :
    Delivery.OneByOne out (pc a) (documented a) 1 (p a ct k) j nm (acts ct k) := by
  intro before i kvs b after y h1 h2 _ j hj _
  exact quietB_spec h before i kvs b after y h1 h2 j hj

/-- The provider has an instrument with this name. -/
def hasB (a : Preference) (ct : Made) (k : Last) (nm : Str) : Bool :=
  match (p a ct k).ordered[0]? with
  | none => false
  | some m => decide (m.scope = scA) && m.insts.any (fun o => decide (o.desc.name = nm))

theorem named {a : Preference} {ct : Made} {c : Ctor} {k : Last} {nm : Str} (h : hasB a ct k nm = true) (hr : ∀ d ∈ requests 0 (cs ct k), d.name = nm → d = c.desc nm [] (lit "s")) :
    Named (makes (acts ct k)) (p a ct k) 0 scA c nm (lit "s") := by
  rw [makes_acts]
  unfold hasB at h
  cases hm : (p a ct k).ordered[0]? with
  | none => rw [hm] at h; cases h
  | some m =>
    rw [hm] at h
    simp only [Bool.and_eq_true, decide_eq_true_eq, List.any_eq_true] at h
    obtain ⟨h1, o, ho, h2⟩ := h
    refine ⟨⟨m, o, hm, h1, ho, h2⟩, fun d hd hn => ?_⟩
    have := hr d hd hn
    refine ⟨?_, [], this⟩
    rw [this]
    unfold Views.NoHint
    simp [Ctor.desc]

theorem few {a : Preference} {ct : Made} {k : Last} {j : Nat} {nm : Str} : Few (p a ct k) j nm (measured (acts ct k)) := by
  refine ⟨fun _ => [kab, ka, kb], [kab, ka, kb], fun _ _ => (by decide : 3 < 3000), (by decide : 3 < 2000), ?_,
    fun id _ b hb => ⟨AsmV.noNaN b hb, b, hb, AsmV.sameSeries_refl _ _⟩⟩
  intro e he _
  rw [measured_acts] at he
  have : ∀ e ∈ Pipeline.calls (called ct), e.1.attrs e.2.1 ∈ [kab, ka, kb] := by rcases ct with ⟨c, h⟩ <;> cases c <;> cases h <;> decide
  exact this e he

theorem noEmpty {ct : Made} {k : Last} : ∀ e ∈ Pipeline.calls (measured (acts ct k)), Pipeline.NoEmptyList (e.1.attrs e.2.1) := by
  intro e he kv hkv
  rw [measured_acts] at he
  have h : ∀ e ∈ Pipeline.calls (called ct),
      (e.1.attrs e.2.1).all (fun kv => decide (kv.val ≠ .bools [] ∧ kv.val ≠ .ints [] ∧ kv.val ≠ .floats [] ∧ kv.val ≠ .strs [])) = true := by
    rcases ct with ⟨c, h⟩ <;> cases c <;> cases h <;> decide
  exact of_decide_eq_true (List.all_eq_true.1 (h e he) kv hkv)

end Verif.Examples.Dl
