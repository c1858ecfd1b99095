import Verif.Examples.DeliveryProgram
import Verif.Proof.Prom
import Verif.Props.Export

/-!
The program of `Examples/DeliveryProgram.lean` with the Prometheus exporter, for several kinds of histograms.
-/

namespace Verif.Examples.Pm
open Verif Verif.Attr Verif.Number Verif.Aggr Verif.Export Verif.Assembly Verif.Instruments Verif.Launched Verif.Delivery Verif.Examples
open Verif.Launcher (Preference documented)
open Verif.Examples.Ln (Made pc)
open Verif.Examples.Dl (Last acts after)

/-- What the values of a histogram are like. -/
inductive Shape
  | narrow | wide | negative

/-- The content of a histogram, of which only the number of values is of interest here: all are in one bucket. -/
def Shape.toHist (h : Shape) (l : List Bits) : ExpHist :=
  { sum := 0, count := l.length, min := 0, max := 0, zeroCount := 0, scale := (match h with | .wide => 0 | _ => 1), posOffset := 3,
    pos := (match h with | .negative => [] | _ => [l.length]), negOffset := 0, neg := (match h with | .negative => [l.length] | _ => []) }

def out (h : Shape) : Outside Nat (List Bits) := { Ln.out with toHist := h.toHist, mapping := Props.logMapping (fun _ i => BitVec.ofInt 64 i) }

def w (a : Preference) (h : Shape) : World Nat (List Bits) := world (out h) (pc a)

abbrev S := Prom.Sys Nat (List Bits) Nat

def initial (a : Preference) (h : Shape) (ct : Made) (k : Last) : S := Prom.initial (fun _ => 0) (w a h) Wh.fsub (Dl.p a ct k) (Ln.vs a) 0 1

def runIn (a : Preference) (h : Shape) (s : S) (as : List Dl.Act) : Option S := Prom.run (fun _ => 0) (w a h) Wh.fsub Props.ViewEx.x 0 s as

def stages (a : Preference) (h : Shape) (ct : Made) (k : Last) : Option (S × S) :=
  (runIn a h (initial a h ct k) (acts ct k)).bind fun s => (runIn a h s (after a ct k)).bind fun s' => some (s, s')

/-- Until the first payload is handed to the exporter. -/
def toFirst (a : Preference) (ct : Made) (k : Last) : List Dl.Act := acts ct k ++ (after a ct k).take 12
/-- Evaluates `Orderly`. -/
def orderlyB (a : Preference) (h : Shape) : Delivery.Sys Nat (List Bits) Nat → List Dl.Act → Bool
  | _, [] => true
  | s, b :: as =>
    (match b with
      | .reader r _ => !returns s.r r || (List.range s.z.s.async.nextOp).all (fun i => decide ((s.z.s.async.op i).pc ≠ .create) && decide ((s.z.s.async.op i).pc ≠ .update))
      | _ => true) &&
    match Delivery.step (fun _ => 0) (w a h) Wh.fsub Props.ViewEx.x 0 s b with | none => true | some y => orderlyB a h y as

theorem orderlyB_spec {a : Preference} {h : Shape} {s : Delivery.Sys Nat (List Bits) Nat} {acts : List Dl.Act} (ho : orderlyB a h s acts = true) :
    Orderly (fun _ => 0) (w a h) Wh.fsub Props.ViewEx.x 0 s acts := by
  unfold Orderly
  induction acts generalizing s with
  | nil => intro before r order after y h1 _; simp at h1
  | cons b acts ih =>
    intro before r order after y h1 h2 hr
    unfold orderlyB at ho
    rw [Bool.and_eq_true] at ho
    cases before with
    | nil =>
      simp only [List.nil_append, List.cons.injEq] at h1
      rw [h1.1] at ho
      have h3 := ho.1
      simp only [Delivery.run, Option.some.injEq] at h2
      subst h2
      dsimp only at h3
      rw [hr] at h3
      rintro ⟨i, hi, hpc⟩
      have h4 := List.all_eq_true.1 h3 i (List.mem_range.2 hi)
      simp only [Bool.and_eq_true, decide_eq_true_eq] at h4
      rcases hpc with hpc | hpc
      · exact h4.1 hpc
      · exact h4.2 hpc
    | cons b' before =>
      simp only [List.cons_append, List.cons.injEq] at h1
      rw [← h1.1] at h2
      simp only [Delivery.run, Option.bind_eq_some_iff] at h2
      obtain ⟨z, h3, h4⟩ := h2
      have h5 := ho.2
      rw [h3] at h5
      exact ih h5 before r order after y h1.2 h4 hr

theorem run_append {a : Preference} {h : Shape} {s0 s s' : S} {as bs : List Dl.Act} (h1 : runIn a h s0 as = some s) (h2 : runIn a h s bs = some s') :
    runIn a h s0 (as ++ bs) = some s' := by
  unfold runIn at *
  induction as generalizing s0 with
  | nil => cases h1; exact h2
  | cons b as ih =>
    simp only [Prom.run, Option.bind_eq_some_iff] at h1
    obtain ⟨t, h3, h4⟩ := h1
    simp only [List.cons_append, Prom.run, h3, Option.bind_some]
    exact ih h4

/-- What is to be evaluated: see `Dl.Good`; the program has not panicked. -/
def Good (s : S × S) (k : Last) : Prop := Dl.Good (s.1.prog, s.2.prog) k ∧ s.2.panicked = false

instance (s : S × S) (k : Last) : Decidable (Good s k) := by unfold Good; infer_instance

def evaluated (a : Preference) (h : Shape) (ct : Made) (k : Last) : Bool :=
  orderlyB a h (initial a h ct k).prog (acts ct k ++ after a ct k) && match stages a h ct k with | none => false | some s => decide (Good s k)

theorem prov {a : Preference} {h : Shape} {ct : Made} {k : Last} {s : S} {as : List Dl.Act} (hr : runIn a h (initial a h ct k) as = some s) (hm : makes as = Dl.cs ct k) :
    s.prog.z.p = Dl.p a ct k := by
  have := Live.run_prov (run_lives (Prom.run_prog hr))
  rw [lives_makes (Prom.run_prog hr), hm] at this
  rw [this]
  unfold Dl.p
  rfl

theorem of_evaluated {a : Preference} {h : Shape} {ct : Made} {k : Last} (he : evaluated a h ct k = true) :
    ∃ s s', stages a h ct k = some (s, s') ∧ s'.prog.z.p = Dl.p a ct k ∧ s'.prog.r.threads[1]? = some ⟨k.kind, .done⟩ ∧
      Prom.Closing (fun _ => 0) (w a h) Wh.fsub Props.ViewEx.x (Ln.vs a) 0 1 (acts ct k) (after a ct k) s s' := by
  simp only [evaluated, Bool.and_eq_true] at he
  obtain ⟨ho, he⟩ := he
  cases hs : stages a h ct k with
  | none => rw [hs] at he; cases he
  | some q =>
    rw [hs] at he
    obtain ⟨s, s'⟩ := q
    obtain ⟨⟨g1, g2, g3⟩, g4⟩ : Good (s, s') k := of_decide_eq_true he
    unfold stages at hs
    simp only [Option.bind_eq_some_iff, Option.some.injEq, Prod.mk.injEq] at hs
    obtain ⟨u, h1, u', h2, e1, e2⟩ := hs
    subst e1 e2
    have hall := run_append h1 h2
    have hp : u'.prog.z.p = Dl.p a ct k := by
      refine prov hall ?_
      rw [makes, List.filterMap_append]
      exact (congr (congrArg (· ++ ·) (Dl.makes_acts ct k)) (Dl.makes_after a ct k)).trans (List.append_nil _)
    have hm : measured (acts ct k ++ after a ct k) = Dl.called ct := by
      rw [measured, List.filterMap_append]
      exact (congr (congrArg (· ++ ·) (Dl.measured_acts ct k)) (Dl.measured_after a ct k)).trans (List.append_nil _)
    refine ⟨u, u', rfl, hp, g3, ⟨⟨Ln.exportable a, ?_, Dl.observed a ct k, ?_, ?_⟩, g4, by rw [Dl.measured_acts]; exact (by decide : 3 < 2 ^ 32), ?_, g1,
      ⟨Dl.makes_after a ct k, Dl.measured_after a ct k⟩, 1, _, Nat.le_of_eq g2, g3⟩⟩
    · rw [hm]
      exact Dl.typed ct
    · rw [hp]
      exact orderlyB_spec ho
    · rw [hp]
      exact hall
    · rw [hp]
      exact h1

def evaluatedFirst (a : Preference) (h : Shape) (ct : Made) (k : Last) : Bool :=
  orderlyB a h (initial a h ct k).prog (toFirst a ct k) && (runIn a h (initial a h ct k) (toFirst a ct k)).isSome

theorem of_first {a : Preference} {h : Shape} {ct : Made} {k : Last} (he : evaluatedFirst a h ct k = true) :
    ∃ s, runIn a h (initial a h ct k) (toFirst a ct k) = some s ∧ Prom.Running (fun _ => 0) (w a h) Wh.fsub Props.ViewEx.x (Ln.vs a) 0 1 (toFirst a ct k) s := by
  simp only [evaluatedFirst, Bool.and_eq_true] at he
  obtain ⟨ho, he⟩ := he
  obtain ⟨s, hs⟩ := Option.isSome_iff_exists.1 he
  have hmem : ∀ b ∈ toFirst a ct k, b ∈ acts ct k ++ after a ct k := by
    intro b hb
    rcases List.mem_append.1 hb with hb | hb
    · exact List.mem_append_left _ hb
    · exact List.mem_append_right _ (List.mem_of_mem_take hb)
  have hmk : makes (toFirst a ct k) = Dl.cs ct k := by
    rw [toFirst, makes, List.filterMap_append]
    refine (congr (congrArg (· ++ ·) (Dl.makes_acts ct k)) ?_).trans (List.append_nil _)
    refine List.filterMap_eq_nil_iff.2 fun b hb => ?_
    exact List.filterMap_eq_nil_iff.1 (Dl.makes_after a ct k) b (List.mem_of_mem_take hb)
  have hms : measured (toFirst a ct k) = Dl.called ct := by
    rw [toFirst, measured, List.filterMap_append]
    refine (congr (congrArg (· ++ ·) (Dl.measured_acts ct k)) ?_).trans (List.append_nil _)
    refine List.filterMap_eq_nil_iff.2 fun b hb => ?_
    exact List.filterMap_eq_nil_iff.1 (Dl.measured_after a ct k) b (List.mem_of_mem_take hb)
  have hp := prov hs hmk
  refine ⟨s, hs, ⟨Ln.exportable a, ?_, fun cb o as v hm => Dl.observed a ct k cb o as v (hmem _ hm), ?_, ?_⟩⟩
  · rw [hms]
    exact Dl.typed ct
  · rw [hp]
    exact orderlyB_spec ho
  · rw [hp]
    exact hs

end Verif.Examples.Pm
