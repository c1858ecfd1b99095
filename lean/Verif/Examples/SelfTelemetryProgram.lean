import Verif.Proof.SelfTelemetry
import Verif.Examples.DeliveryProgram

/-!
A program which starts the launcher and records; the reader collects because of a tick, the payload with two points is answered with a timeout, and then `ForceFlush` is called.
-/

namespace Verif.Examples.St
open Verif Verif.Attr Verif.Number Verif.Aggr Verif.Export Verif.Assembly Verif.Instruments Verif.Launched Verif.Delivery Verif.Examples Verif.SelfTelemetry
open Verif.Examples.Asm (scA ka kb)
open Verif.Views (Views Tempo lit)
open Verif.Launcher (Preference documented)
open Verif.Examples.Ln (out pc w vs opts lw launch)
open Verif.Examples.Dl (ops tasks go produces runIn)

abbrev Y := SelfTelemetry.Sys Nat (List Bits) Nat Nat

/-- Error 1 is "canceled", error 2 "deadline exceeded". -/
def errs : Client.Errs Nat := ⟨fun e => e == 1, fun e => e == 2⟩

/-- The exporter's counter comes first. -/
def cs : List (Provider.Call Nat) := [.meter selfScope, .instrument 0 (Ctor.int64Counter.desc items [] []), .meter scA, .instrument 1 (Ctor.int64Counter.desc (lit "n") [] (lit "s"))]

def p (a : Preference) : Provider.Provider Nat Nat := Provider.run Props.ViewEx.x (Provider.new (vs a)) cs

def n : Front.Inst := { id := instAddr 1 0, kind := .syncCounter, num := .int64, sizeLimit := 8192, proc := none }

/-- Steps of `Collect`. -/
def by3 (a : Preference) (d c : Nat) : Nat := if documented a .syncCounter = .delta then d else c

def prog (l : List (Delivery.Act Nat)) : List (SelfTelemetry.Act Nat Nat) := l.map .prog

def acts (a : Preference) : List (SelfTelemetry.Act Nat Nat) :=
  prog (cs.map .make ++ [.call n ka 7] ++ ops 0 9 ++ [.call n kb 5] ++ ops 1 9 ++ [.reader .tick [], go 0, go 0] ++
    produces 4 2 ++ tasks 0 2 ++ produces 3 2 ++ tasks 1 2 ++ produces 5 2 ++ tasks 2 14 ++ produces 3 2 ++ tasks 3 (by3 a 6 4) ++ produces 2 2 ++ [go 0, go 0]) ++
  [.answer (some 2)] ++ prog (ops 2 9 ++ [go 0])

def after (a : Preference) : List (SelfTelemetry.Act Nat Nat) :=
  prog ([.reader .callFlush [], go 1] ++ produces 4 3 ++ tasks 4 8 ++ produces 3 3 ++ tasks 5 (by3 a 4 3) ++ produces 5 3 ++ tasks 6 4 ++ produces 3 3 ++ tasks 7 (by3 a 6 4) ++ produces 2 3 ++ [go 1, go 1])

def initial (a : Preference) : Y := SelfTelemetry.initial (fun _ => 0) (w a) Wh.fsub (p a) (vs a) 0 1

def runIn (a : Preference) (y : Y) (as : List (SelfTelemetry.Act Nat Nat)) : Option Y := SelfTelemetry.run (fun _ => 0) (w a) Wh.fsub Props.ViewEx.x 0 errs 0 y as

def stages (a : Preference) : Option (Y × Y) := (runIn a (initial a) (acts a)).bind fun y => (runIn a y (after a)).bind fun y' => some (y, y')

/-- What is sent under the name of the counter, payload by payload, and the numbers of points. -/
def told (y : Y) : List (List PNum) × List Nat :=
  (y.d.z.s.sent.map (fun pl => (Pipeline.pointsIn Pipeline.numbers (sentScope selfScope) items pl).map (·.value)), y.d.z.s.sent.map Client.payloadPoints)

theorem asked_acts (a : Preference) : asked (acts a) = cs := by unfold acts by3; split <;> rfl
theorem asked_after (a : Preference) : asked (after a) = [] := by unfold after by3; split <;> rfl

attribute [irreducible] p

/-- What is to be evaluated. -/
def Good (a : Preference) (q : Y × Y) : Prop :=
  Dl.orderlyB a (initial a).d q.2.past = true ∧ (measured q.2.past).length = 3 ∧
  q.2.past.all (fun b : Delivery.Act Nat => match b with | .cb _ => false | _ => true) = true ∧
  (Pipeline.calls (measured q.2.past)).all (fun e => (e.1.attrs e.2.1).all (fun kv => decide (kv.val ≠ .invalid ∧ kv.val ≠ .bools [] ∧ kv.val ≠ .ints [] ∧ kv.val ≠ .floats [] ∧ kv.val ≠ .strs []))) = true ∧
  q.1.d.r.threads.length = 1 ∧ q.2.d.r.threads[1]? = some ⟨.flush, .crit .exporting⟩ ∧
  (List.range q.1.d.z.s.sync.nextOp).map (fun i => decide ((q.1.d.z.s.sync.op i).pc = .done)) = [true, true, true] ∧
  q.2.d.z.s.sent.all (fun pl => decide (Client.payloadPoints pl < 2 ^ 63)) = true ∧ q.1.answers = [some 2] ∧ q.2.answers = [some 2] ∧ q.1.d.z.s.sent.map Client.payloadPoints = [2]

instance (a : Preference) (q : Y × Y) : Decidable (Good a q) := by unfold Good; infer_instance

def evaluated (a : Preference) : Bool := match stages a with | none => false | some q => decide (Good a q)

theorem of_evaluated {a : Preference} (h : evaluated a = true) :
    ∃ y y', stages a = some (y, y') ∧ y'.d.z.p = p a ∧ makes y.past = cs ∧ Good a (y, y') ∧ Reports out (pc a) (documented a) 1 errs 0 (acts a) (after a) y y' := by
  unfold evaluated at h
  cases hs : stages a with
  | none => rw [hs] at h; cases h
  | some q =>
    rw [hs] at h
    obtain ⟨y, y'⟩ := q
    have hg : Good a (y, y') := of_decide_eq_true h
    unfold stages at hs
    simp only [Option.bind_eq_some_iff, Option.some.injEq, Prod.mk.injEq] at hs
    obtain ⟨u, h1, u', h2, e1, e2⟩ := hs
    subst e1 e2
    obtain ⟨b, b1, b2, b3⟩ := run_past h1
    obtain ⟨more, m1, m2, m3⟩ := run_past h2
    have b1 : u.past = b := b1
    subst b1
    rw [asked_acts] at b3
    rw [asked_after] at m3
    have hall : Dl.runIn a (initial a).d u'.past = some u'.d := by rw [m1]; exact Dl.run_two b2 m2
    have hp : u'.d.z.p = p a := by
      have := Dl.prov hall
      rw [m1, makes, List.filterMap_append] at this
      have e1 : List.filterMap _ u.past = cs := b3
      have e2 : List.filterMap _ more = [] := m3
      rw [e1, e2, List.append_nil] at this
      rw [this]
      unfold p
      rfl
    obtain ⟨g1, g2, g3, g4, g5, g6, g7, g8, g9, g10, g11⟩ := hg
    dsimp only at g1 g2 g3 g4 g5 g6 g7 g8 g9 g10 g11
    have hlen : u.d.z.s.sync.nextOp = 3 := by simpa using congrArg List.length g7
    have hret : ∀ j, j < u.d.z.s.sync.nextOp → (u.d.z.s.sync.op j).pc = .done := by
      intro j hj
      rw [hlen] at hj g7
      have hj' := congrArg (·[j]?) g7
      simp only [List.getElem?_map, List.getElem?_range hj, Option.map_some] at hj'
      match j, hj with
      | 0, _ | 1, _ | 2, _ => simpa using hj'
    refine ⟨u, u', rfl, hp, b3, ⟨g1, g2, g3, g4, g5, g6, g7, g8, g9, g10, g11⟩, ⟨?_, h2, ⟨more, m1, ⟨⟨Ln.exportable a, ?_, ?_, ?_, ?_⟩, ?_, ?_, m3, 1, _, Nat.le_of_eq g5, g6, Or.inl rfl⟩⟩, fun j hj _ => hret j hj, ?_⟩⟩
    · rw [hp]; exact h1
    · rw [← m1]
      exact fun e he kv hkv => (of_decide_eq_true (List.all_eq_true.1 (List.all_eq_true.1 g4 e he) kv hkv)).1
    · rw [← m1]
      intro cb o as v hmem
      exact absurd (List.all_eq_true.1 g3 _ hmem) (by simp)
    · rw [← m1, hp]
      exact Dl.orderlyB_spec g1
    · rw [← m1, hp]
      exact hall
    · rw [← m1, g2]; decide
    · rw [hp]; exact b2
    · exact fun pl hpl => of_decide_eq_true (List.all_eq_true.1 g8 pl hpl)

/-- The provider has the counter, alone in its meter. -/
def hasB (a : Preference) : Bool := decide ((p a).ordered[0]?.map (fun m => (m.scope, m.insts.map (·.desc.name))) = some (selfScope, [items]))

theorem has {a : Preference} (h : hasB a = true) : ∃ m o, (p a).ordered[0]? = some m ∧ m.scope = selfScope ∧ m.insts = [o] ∧ o.desc.name = items := by
  have h := of_decide_eq_true h
  obtain ⟨m, h1, h2⟩ := Option.map_eq_some_iff.1 h
  simp only [Prod.mk.injEq] at h2
  obtain ⟨o, h3, h4⟩ := List.map_eq_singleton_iff.1 h2.2
  exact ⟨m, o, h1, h2.1, h3, h4⟩

theorem named {a : Preference} (h : hasB a = true) : Named cs (p a) 0 selfScope .int64Counter items [] := by
  obtain ⟨m, o, h1, h2, h3, h4⟩ := has h
  refine ⟨⟨m, o, h1, h2, by rw [h3]; exact List.mem_singleton_self _, h4⟩, fun d hd _ => ?_⟩
  have hd' : d = Ctor.int64Counter.desc items [] [] := by simpa [cs, requests] using hd
  refine ⟨?_, [], hd'⟩
  rw [hd']
  unfold Views.NoHint
  simp [Ctor.desc]

theorem alone {a : Preference} (h : hasB a = true) (id : Nat) : Called (p a) 0 items id ↔ id = 0 := by
  obtain ⟨m, o, h1, h2, h3, h4⟩ := has h
  constructor
  · rintro ⟨m', i, o', g1, g2, g3, rfl⟩
    rw [h1] at g1
    cases g1
    rw [h3] at g2
    cases i with
    | zero => rfl
    | succ i => simp at g2
  · rintro rfl
    exact ⟨m, 0, o, h1, by rw [h3]; rfl, h4, rfl⟩

theorem answered_one {sent : List Payload} (h : sent.map Client.payloadPoints = [2]) : answered errs false "timeout" sent [some 2] = [2] := by
  obtain ⟨pl, rfl, h2⟩ := List.map_eq_singleton_iff.1 h
  have hn : Client.Named errs (some 2) "timeout" := (named_iff _ _).2 rfl
  simp [answered, hn, h2]

end Verif.Examples.St
