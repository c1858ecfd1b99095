import Verif.Proof.Counted
import Verif.Examples.LaunchedProgram

/-!
A program which starts the launcher, with an observable counter and a counter: values are rejected, observations are made in time, too late, and for an instrument which was
not declared.
-/

namespace Verif.Examples.Cn
open Verif Verif.Attr Verif.Number Verif.Aggr Verif.Export Verif.Assembly Verif.Instruments Verif.Launched Verif.Examples
open Verif.Examples.Asm (scA ka kb)
open Verif.Examples.AsmV (kab)
open Verif.Views (lit)
open Verif.Launcher (Preference documented)
open Verif.Examples.Wh (ops)

/-- `a` twice: the last value counts. -/
def twice : List KV := [⟨[97], .bool false⟩, ⟨[98], .bool true⟩, ⟨[97], .bool true⟩]

/-- Constructor of the observable instrument, and its description. -/
abbrev Made := Ctor × Str

def cs (ct : Made) : List (Provider.Call Nat) :=
  [.meter scA, .instrument 0 (ct.1.desc (lit "y") ct.2 (lit "s")), .instrument 0 (Ctor.int64Counter.desc (lit "n") [] (lit "s")),
    .instrument 0 (Ctor.int64ObservableCounter.desc (lit "z") [] (lit "s"))]

def p (a : Preference) (ct : Made) : Provider.Provider Nat Nat := Provider.run Props.ViewEx.x (Provider.new (Ln.vs a)) (cs ct)
def n : Front.Inst := { id := 2, kind := .syncCounter, num := .int64, sizeLimit := 8192, proc := none }
def e (set : List KV) (v : Bits) : Async.Entry (List KV) Bits := ⟨0, set, [(0, set)], v⟩

/-- One observation, carried out. -/
def sees (i cb o : Nat) (as : List KV) (v : Bits) (steps : Nat) : List Whole.Act := .cb (.observe cb o as v) :: List.replicate steps (.cb (.op i))

/-- In the first callback: 5 and then 7 for the same attributes, a NaN, one for an instrument not declared; one after its end. In the second callback: 12. The counter
is called with 3 and with -1. -/
def body : List Whole.Act :=
  [.cb (.startCb [0])] ++ sees 0 0 0 twice 5 3 ++ sees 1 0 0 kab 7 3 ++ sees 2 0 0 ka 0x7ff8000000000000 1 ++ sees 3 0 4 ka 2 1 ++ sees 4 0 0 kb 1 3 ++ [.cb (.endCb 0)] ++ sees 5 0 0 kb 9 1 ++
  [.call n ka 3] ++ ops 0 9 ++ [.call n ka (-1), .collect [e kab 7, e kb 1] ⟨1, 1, 2⟩] ++
  [.cb (.startCb [0])] ++ sees 6 1 0 kab 12 3 ++ [.cb (.endCb 1), .collect [e kab 12] ⟨1, 2, 3⟩]

def acts (ct : Made) : List (Live.Act Nat) := (cs ct).map .make ++ body.map .run

def initial (a : Preference) (ct : Made) : Live.Sys Nat (List Bits) Nat := Live.initial (fun _ => 0) (Ln.w a) Wh.fsub (p a ct) (Ln.vs a) 0

def last (a : Preference) (ct : Made) : Option (Live.Sys Nat (List Bits) Nat) := Live.run (fun _ => 0) (Ln.w a) Wh.fsub Props.ViewEx.x 0 (initial a ct) (acts ct)

/-- Evaluates a condition before every action. -/
def alwaysB (a : Preference) (f : Live.Sys Nat (List Bits) Nat → Live.Act Nat → Bool) : Live.Sys Nat (List Bits) Nat → List (Live.Act Nat) → Bool
  | _, [] => true
  | x, b :: as => f x b && match Live.step (fun _ => 0) (Ln.w a) Wh.fsub Props.ViewEx.x 0 x b with | none => true | some y => alwaysB a f y as

theorem alwaysB_spec {a : Preference} {f : Live.Sys Nat (List Bits) Nat → Live.Act Nat → Bool} {x : Live.Sys Nat (List Bits) Nat} {acts : List (Live.Act Nat)}
    (h : alwaysB a f x acts = true) : ∀ before b after y, acts = before ++ b :: after →
      Live.run (fun _ => 0) (Ln.w a) Wh.fsub Props.ViewEx.x 0 x before = some y → f y b = true := by
  induction acts generalizing x with
  | nil => intro before b after y h1 _; simp at h1
  | cons b acts ih =>
    intro before b0 after y h1 h2
    unfold alwaysB at h
    rw [Bool.and_eq_true] at h
    cases before with
    | nil =>
      simp only [List.nil_append, List.cons.injEq] at h1
      simp only [Live.run, Option.some.injEq] at h2
      subst h2
      rw [← h1.1]
      exact h.1
    | cons b' before =>
      simp only [List.cons_append, List.cons.injEq] at h1
      rw [← h1.1] at h2
      simp only [Live.run, Option.bind_eq_some_iff] at h2
      obtain ⟨z, h3, h4⟩ := h2
      have h5 := h.2
      rw [h3] at h5
      exact ih h5 before b0 after y h1.2 h4

instance (o : Async.Op (List KV) Bits) : Decidable (Live.Returned o) := by unfold Live.Returned; infer_instance

def returnedB (x : Live.Sys Nat (List Bits) Nat) : Bool := (List.range x.s.async.nextOp).all (fun i => decide (Live.Returned (x.s.async.op i)))

theorem returnedB_spec {x : Live.Sys Nat (List Bits) Nat} (h : returnedB x = true) (i : Nat) (hi : i < x.s.async.nextOp) : Live.Returned (x.s.async.op i) :=
  of_decide_eq_true (List.all_eq_true.1 h i (List.mem_range.2 hi))

/-- All observations have returned whenever one starts, a callback returns or a collection ends. -/
def turnB (x : Live.Sys Nat (List Bits) Nat) : Live.Act Nat → Bool
  | .run (.cb (.observe _ _ _ _)) => returnedB x
  | .run (.cb (.endCb _)) => returnedB x
  | .run (.collect _ _) => returnedB x
  | _ => true

/-- The provider has an instrument with this name. -/
def hasB (p : Provider.Provider Nat Nat) (nm : Str) : Bool :=
  match p.ordered[0]? with
  | none => false
  | some m => decide (m.scope = scA) && m.insts.any (fun o => decide (o.desc.name = nm))

theorem hasB_spec {p : Provider.Provider Nat Nat} {nm : Str} (h : hasB p nm = true) :
    ∃ (m : Provider.Meter Nat Nat) (o : Provider.Inst), p.ordered[0]? = some m ∧ m.scope = scA ∧ o ∈ m.insts ∧ o.desc.name = nm := by
  unfold hasB at h
  cases hm : p.ordered[0]? with
  | none => rw [hm] at h; cases h
  | some m =>
    rw [hm] at h
    simp only [Bool.and_eq_true, decide_eq_true_eq, List.any_eq_true] at h
    obtain ⟨h1, o, ho, h2⟩ := h
    exact ⟨m, o, rfl, h1, ho, h2⟩

/-- What is to be evaluated. -/
def evaluated (a : Preference) (ct : Made) : Bool :=
  alwaysB a turnB (initial a ct) (acts ct) && hasB (p a ct) (lit "y") && hasB (p a ct) (lit "n") && match last a ct with | none => false | some z => returnedB z

theorem makes_acts (ct : Made) : Live.makes (acts ct) = cs ct := rfl
theorem rest_acts (ct : Made) : Live.rest (acts ct) = body := rfl

theorem of_evaluated {a : Preference} {ct : Made} (h : evaluated a ct = true) :
    ∃ z, last a ct = some z ∧ z.p = p a ct ∧ Runs Ln.out (Ln.pc a) (documented a) (acts ct) z ∧ Waits Ln.out (Ln.pc a) (documented a) z.p (acts ct) ∧
      (∀ k nm, InTurn Ln.out (Ln.pc a) (documented a) z.p k nm (acts ct)) ∧ ∀ k nm, Finished z.p k nm z := by
  simp only [evaluated, Bool.and_eq_true] at h
  obtain ⟨⟨⟨h1, -⟩, -⟩, h2⟩ := h
  cases hl : last a ct with
  | none => rw [hl] at h2; cases h2
  | some z =>
    rw [hl] at h2
    have hz : z.p = p a ct := Live.run_prov hl
    have hi : Live.initial Ln.out.farm (world Ln.out (Ln.pc a)) Ln.out.fsub z.p (views Ln.out (documented a)) 0 = initial a ct := by rw [hz]; rfl
    have key := alwaysB_spec h1
    refine ⟨z, rfl, hz, ⟨Ln.exportable a, ?_, ?_, ?_, ?_⟩, ?_, ?_, fun k nm i hi _ => returnedB_spec h2 i hi⟩
    · intro e he
      rw [rest_acts] at he
      have hd : ∀ e ∈ Whole.calls body, (e.1.attrs e.2.1).all (fun kv => decide (kv.val ≠ .invalid)) = true := by decide +kernel
      exact fun kv hkv => of_decide_eq_true (List.all_eq_true.1 (hd e he) kv hkv)
    · intro cb o as v hm
      have hd : body.all (fun b : Whole.Act => match b with
          | .cb (.observe _ _ as _) => as.all (fun kv : KV => decide (kv.val ≠ Val.invalid))
          | _ => true) = true := by decide +kernel
      rcases List.mem_append.1 hm with hm | hm
      · obtain ⟨c, -, hc⟩ := List.mem_map.1 hm
        cases hc
      · obtain ⟨c, h3, hc⟩ := List.mem_map.1 hm
        cases hc
        have := List.all_eq_true.1 hd _ h3
        exact fun kv hkv => of_decide_eq_true (List.all_eq_true.1 this kv hkv)
    · intro before order q after y hs hr
      rw [hi] at hr
      have h3 := key before _ after y hs hr
      rintro ⟨i, hi, hpc⟩
      rcases returnedB_spec h3 i hi with h4 | h4 <;> rw [h4] at hpc <;> rcases hpc with hpc | hpc <;> cases hpc
    · rw [hi]
      exact hl
    · intro before cb after y hs hr i hi' _
      rw [hi] at hr
      exact returnedB_spec (key before _ after y hs hr) i hi'
    · intro k nm before cb o as v after y hs hr _ i hi' _
      rw [hi] at hr
      exact returnedB_spec (key before _ after y hs hr) i hi'

end Verif.Examples.Cn
