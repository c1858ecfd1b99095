import Verif.Spec.Busy
import Verif.Examples.DeliveryProgram

/-!
A program which flushes or shuts down its provider while it goes on recording: one call is running when `ForceFlush` is called, one is made and returns before its collection, one is made between the snapshot
and the end of the collection, and one is made after it.
-/

namespace Verif.Examples.Bz
open Verif Verif.Attr Verif.Number Verif.Aggr Verif.Export Verif.Assembly Verif.Instruments Verif.Launched Verif.Delivery Verif.Examples
open Verif.Examples.Asm (scA ka kb by')
open Verif.Front (IKind)
open Verif.Views (Views Tempo lit)
open Verif.Launcher (Preference documented)
open Verif.Examples.Ln (Made out pc w vs opts lw launch)
open Verif.Examples.Dl (ops tasks go produces runIn n)

def cs (ct : Made) : List (Provider.Call Nat) := [.meter scA, .instrument 0 (ct.1.desc (lit "n") ct.2.text (lit "s"))]

def p (a : Preference) (ct : Made) : Provider.Provider Nat Nat := Provider.run Props.ViewEx.x (Provider.new (vs a)) (cs ct)

/-- Two calls have returned, the third has begun. -/
def acts (ct : Made) : List (Delivery.Act Nat) :=
  [.make (.meter scA), .make (.instrument 0 (ct.1.desc (lit "n") ct.2.text (lit "s")))] ++ [.call (n ct) ka 7] ++ ops 0 9 ++ [.call (n ct) kb 5] ++ ops 1 9 ++
  [.call (n ct) ka 2] ++ ops 2 2

def after (a : Preference) (ct : Made) : List (Delivery.Act Nat) :=
  [.reader .callFlush [], go 1] ++ produces 3 2 ++ [.call (n ct) kb 4] ++ ops 3 7 ++ produces 1 2 ++ tasks 0 14 ++ [.call (n ct) ka 9] ++ ops 4 2 ++ produces 3 2 ++
  tasks 1 (by' (Ln.tempo a ct) 6 4) ++ produces 2 2 ++ [.reader (.go 1 false) [], go 1, go 1] ++ ops 2 5 ++ ops 4 5 ++ [.call (n ct) ka 1]

def initial (a : Preference) (ct : Made) : Delivery.Sys Nat (List Bits) Nat := Delivery.initial (fun _ => 0) (w a) Wh.fsub (p a ct) (vs a) 0 1

def stages (a : Preference) (ct : Made) : Option (Delivery.Sys Nat (List Bits) Nat × Delivery.Sys Nat (List Bits) Nat) :=
  (runIn a (initial a ct) (acts ct)).bind fun s => (runIn a s (after a ct)).bind fun s' => some (s, s')

def called (ct : Made) : List Pipeline.Act := [.call (n ct) ka 7, .call (n ct) kb 5, .call (n ct) ka 2, .call (n ct) kb 4, .call (n ct) ka 9, .call (n ct) ka 1]

theorem makes_acts (ct : Made) : makes (acts ct) = cs ct := rfl
theorem makes_after (a : Preference) (ct : Made) : makes (after a ct) = [] := by unfold after by'; split <;> rfl
theorem measured_all (a : Preference) (ct : Made) : measured (acts ct ++ after a ct) = called ct := by unfold acts after by'; split <;> rfl

attribute [irreducible] p

/-- What is to be evaluated: the first two calls had returned and the third had not, and `ForceFlush` has returned. -/
def Good (s : Delivery.Sys Nat (List Bits) Nat × Delivery.Sys Nat (List Bits) Nat) : Prop :=
  (List.range s.1.z.s.sync.nextOp).map (fun i => decide ((s.1.z.s.sync.op i).pc = .done)) = [true, true, false] ∧ s.1.r.threads.length = 1 ∧ s.2.r.threads[1]? = some ⟨.flush, .done⟩ ∧
    (s.1.z.s.sync.op 0).obs = instAddr 0 0 ∧ (s.1.z.s.sync.op 0).attrs = ka

instance (s : Delivery.Sys Nat (List Bits) Nat × Delivery.Sys Nat (List Bits) Nat) : Decidable (Good s) := by unfold Good; infer_instance

def evaluated (a : Preference) (ct : Made) : Bool :=
  Dl.orderlyB a (initial a ct) (acts ct ++ after a ct) && match stages a ct with | none => false | some s => decide (Good s)

theorem typed (ct : Made) : ∀ e ∈ Pipeline.calls (called ct), ∀ kv ∈ e.1.attrs e.2.1, kv.val ≠ .invalid := by
  have hd : ∀ e ∈ Pipeline.calls (called ct), (e.1.attrs e.2.1).all (fun kv => decide (kv.val ≠ .invalid)) = true := by rcases ct with ⟨c, h⟩ <;> cases c <;> cases h <;> decide
  exact fun e he kv hkv => of_decide_eq_true (List.all_eq_true.1 (hd e he) kv hkv)

theorem observed (a : Preference) (ct : Made) (cb o : Nat) (as : List KV) (v : Bits) (hmem : .cb (.observe cb o as v) ∈ acts ct ++ after a ct) :
    ∀ kv ∈ as, kv.val ≠ .invalid := by
  have hd : (acts ct ++ after a ct).all (fun b : Delivery.Act Nat => match b with | .cb _ => false | _ => true) = true := by
    unfold acts after by'
    split <;> rfl
  exact absurd (List.all_eq_true.1 hd _ hmem) (by simp)

attribute [irreducible] acts after

theorem of_evaluated {a : Preference} {ct : Made} (h : evaluated a ct = true) :
    ∃ s s', stages a ct = some (s, s') ∧ s'.z.p = p a ct ∧ Good (s, s') ∧ Busy.Flushes out (pc a) (documented a) 1 (acts ct) (after a ct) s s' := by
  simp only [evaluated, Bool.and_eq_true] at h
  obtain ⟨ho, h⟩ := h
  cases hs : stages a ct with
  | none => rw [hs] at h; cases h
  | some q =>
    rw [hs] at h
    obtain ⟨s, s'⟩ := q
    have hg : Good (s, s') := of_decide_eq_true h
    unfold stages at hs
    simp only [Option.bind_eq_some_iff, Option.some.injEq, Prod.mk.injEq] at hs
    obtain ⟨u, h1, u', h2, e1, e2⟩ := hs
    subst e1 e2
    have hall := Dl.run_two h1 h2
    have hp : u'.z.p = p a ct := by
      have := Dl.prov hall
      rw [makes, List.filterMap_append] at this
      have e1 : List.filterMap _ (acts ct) = cs ct := makes_acts ct
      have e2 : List.filterMap _ (after a ct) = [] := makes_after a ct
      rw [e1, e2, List.append_nil] at this
      rw [this]
      unfold p
      rfl
    refine ⟨u, u', rfl, hp, hg, ⟨⟨Ln.exportable a, ?_, observed a ct, ?_, ?_⟩, by rw [measured_all]; exact (by decide : 6 < 2 ^ 32), ?_, makes_after a ct,
      1, _, Nat.le_of_eq hg.2.1, hg.2.2.1, Or.inr rfl⟩⟩
    · rw [measured_all]
      exact typed ct
    · rw [hp]
      exact Dl.orderlyB_spec ho
    · rw [hp]
      exact hall
    · rw [hp]
      exact h1

/-- The provider has the instrument. -/
def hasB (a : Preference) (ct : Made) : Bool :=
  match (p a ct).ordered[0]? with
  | none => false
  | some m => decide (m.scope = scA) && m.insts[0]?.any (fun o => decide (o.desc.name = lit "n"))

theorem named {a : Preference} {ct : Made} (h0 : ct.2 = .none) (h : hasB a ct = true) : Named (makes (acts ct)) (p a ct) 0 scA ct.1 (lit "n") (lit "s") := by
  rw [makes_acts]
  unfold hasB at h
  cases hm : (p a ct).ordered[0]? with
  | none => rw [hm] at h; cases h
  | some m =>
    rw [hm] at h
    simp only [Bool.and_eq_true, decide_eq_true_eq, Option.any_eq_true] at h
    obtain ⟨h1, o, ho, h2⟩ := h
    have ho := List.mem_of_getElem? ho
    refine ⟨⟨m, o, hm, h1, ho, h2⟩, fun d hd hn => ?_⟩
    have hd' : d = ct.1.desc (lit "n") ct.2.text (lit "s") := by simpa [cs, requests] using hd
    refine ⟨?_, _, hd'⟩
    rw [hd', h0]
    unfold Views.NoHint
    simp [Ctor.desc, Ln.Hinting.text]

theorem called_first {a : Preference} {ct : Made} (h : hasB a ct = true) : Called (p a ct) 0 (lit "n") (instAddr 0 0) := by
  unfold hasB at h
  cases hm : (p a ct).ordered[0]? with
  | none => rw [hm] at h; cases h
  | some m =>
    rw [hm] at h
    simp only [Bool.and_eq_true, decide_eq_true_eq, Option.any_eq_true] at h
    obtain ⟨-, o, ho, h2⟩ := h
    exact ⟨m, 0, o, hm, ho, h2, rfl⟩

/-- The value of the first call had been recorded. -/
theorem returned {a : Preference} {ct : Made} {s s' : Delivery.Sys Nat (List Bits) Nat} (h : hasB a ct = true) (hg : Good (s, s')) :
    Busy.returnedBy (p a ct) 0 (lit "n") (fun as => Pipeline.Describes none as Asm.ma) s.z.s.sync ≠ [] := by
  obtain ⟨g1, -, -, g2, g3⟩ := hg
  dsimp only at g1 g2 g3
  have hlen : s.z.s.sync.nextOp = 3 := by
    have := congrArg List.length g1
    simpa using this
  have hdone : (s.z.s.sync.op 0).pc = .done := by
    rw [hlen] at g1
    simpa [List.range_succ] using (congrArg List.head? g1)
  unfold Busy.returnedBy
  rw [Ne, List.map_eq_nil_iff, List.filter_eq_nil_iff]
  intro h0
  refine h0 0 (List.mem_range.2 (by omega)) ?_
  rw [g2, g3]
  simp only [decide_eq_true_eq]
  exact ⟨hdone, Asm.describes_ka, called_first h⟩

theorem few {a : Preference} {ct : Made} {j : Nat} {nm : Str} : Few (p a ct) j nm (measured (acts ct ++ after a ct)) := by
  refine ⟨fun _ => [AsmV.kab, ka, kb], [AsmV.kab, ka, kb], fun _ _ => (by decide : 3 < 3000), (by decide : 3 < 2000), ?_,
    fun id _ b hb => ⟨AsmV.noNaN b hb, b, hb, AsmV.sameSeries_refl _ _⟩⟩
  intro e he _
  rw [measured_all] at he
  have : ∀ e ∈ Pipeline.calls (called ct), e.1.attrs e.2.1 ∈ [AsmV.kab, ka, kb] := by rcases ct with ⟨c, h⟩ <;> cases c <;> cases h <;> decide
  exact this e he

theorem noEmpty {a : Preference} {ct : Made} : ∀ e ∈ Pipeline.calls (measured (acts ct ++ after a ct)), Pipeline.NoEmptyList (e.1.attrs e.2.1) := by
  intro e he kv hkv
  rw [measured_all] at he
  have h : ∀ e ∈ Pipeline.calls (called ct),
      (e.1.attrs e.2.1).all (fun kv => decide (kv.val ≠ .bools [] ∧ kv.val ≠ .ints [] ∧ kv.val ≠ .floats [] ∧ kv.val ≠ .strs [])) = true := by
    rcases ct with ⟨c, h⟩ <;> cases c <;> cases h <;> decide
  exact of_decide_eq_true (List.all_eq_true.1 (h e he) kv hkv)

end Verif.Examples.Bz
