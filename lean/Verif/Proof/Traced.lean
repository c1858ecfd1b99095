import Verif.Spec.Traced
import Verif.Props.Export
import Verif.Props.Client
import Verif.Proof.Launched

/-!
The exporter of the trace pipeline over its life.
-/

namespace Verif.Traced
open Verif Verif.Attr Verif.Export Verif.TraceExport Verif.Client Verif.Props
variable {E : Type} {x : Errs E} {res : List KV}

/-- The cache has only seen the resource of the provider. -/
def Ok (res : List KV) (y : Sys E) : Prop := RmOk y.rm ∧ ∀ i, y.rm.input = some i → i = res

theorem get_ok {rm : ResourceMap} (h1 : RmOk rm) (h2 : ∀ i, rm.input = some i → i = res) :
    RmOk (rm.get res).1 ∧ (∀ i, (rm.get res).1.input = some i → i = res) ∧ (rm.get res).2 = copyAttributes [] res := by
  obtain ⟨g1, g2⟩ := get_spec h1 res
  refine ⟨g1, inputs_fed _ h2 rfl, ?_⟩
  rcases g2 with g2 | ⟨i, g2, -, g3⟩
  · exact g2
  · rw [g3, h2 i g2]

theorem d2pd_rm {rm : ResourceMap} (l : List Span) (h1 : RmOk rm) (h2 : ∀ i, rm.input = some i → i = res) :
    RmOk (TraceExport.d2pd rm (l.map (ofProvider res))).1 ∧ ∀ i, (TraceExport.d2pd rm (l.map (ofProvider res))).1.input = some i → i = res := by
  cases l with
  | nil => exact ⟨h1, h2⟩
  | cons s l =>
    obtain ⟨g1, g2, -⟩ := get_ok h1 h2
    exact ⟨g1, g2⟩

/-- Every payload has the resource of the provider. -/
theorem d2pd_res {rm : ResourceMap} {l : List Span} {r : PMap} {ss : List PScopeSpans} (h1 : RmOk rm) (h2 : ∀ i, rm.input = some i → i = res)
    (h : (TraceExport.d2pd rm (l.map (ofProvider res))).2 = some (.one r ss)) : copyAttributes [] res = some r := by
  cases l with
  | nil => simp [TraceExport.d2pd] at h
  | cons s l =>
    obtain ⟨-, -, g3⟩ := get_ok h1 h2
    simp only [List.map_cons, TraceExport.d2pd] at h
    rw [show (ofProvider res s).resource = res from rfl, g3, Option.bind_eq_some_iff] at h
    obtain ⟨r', h3, h4⟩ := h
    rw [Option.map_eq_some_iff] at h4
    obtain ⟨ss', -, h5⟩ := h4
    cases h5
    exact h3

theorem typed_ofProvider {s : Span} (h : s.Typed) : (ofProvider res s).Typed := h

theorem pointwise_map {α β γ : Type} {R : β → γ → Prop} {f : α → β} {l : List α} {m : List γ} (h : Pointwise R (l.map f) m) : Pointwise (fun a c => R (f a) c) l m := by
  refine ⟨by rw [← h.1, List.length_map], fun i a c ha hc => ?_⟩
  exact h.2 i (f a) c (by rw [List.getElem?_map, ha]; rfl) hc

theorem spanOf_res {s : Span} {p : PSpan} (h : SpanOf (ofProvider res s) p) : SpanOf s p := ⟨h.name, h.kind, h.ids, h.times, h.status, h.attrs, h.events, h.links, h.dropped⟩

/-- The conversion of a proper batch. -/
theorem d2pd_ok {rm : ResourceMap} {l : List Span} (hx : Exportable res) (h1 : RmOk rm) (h2 : ∀ i, rm.input = some i → i = res) (hl : Proper l) :
    ∃ p, (TraceExport.d2pd rm (l.map (ofProvider res))).2 = some p ∧ Pointwise SpanOf l ((spansIn p).map (·.2)) ∧
      (SameNameSameScope l → Pointwise (fun s e => e.1 = s.scope ∧ SpanOf s e.2) l (spansIn p)) := by
  by_cases hne : l = []
  · subst hne
    exact ⟨.empty, rfl, ⟨rfl, fun i a c ha => by simp at ha⟩, fun _ => ⟨rfl, fun i a c ha => by simp at ha⟩⟩
  · obtain ⟨m, hm, -⟩ := copyAttributes_ok hx
    obtain ⟨-, -, g3⟩ := get_ok h1 h2
    have hres : ∀ s, (l.map (ofProvider res)).head? = some s → (rm.get s.resource).2 = some m := by
      intro s hs
      rw [List.head?_map, Option.map_eq_some_iff] at hs
      obtain ⟨s', -, rfl⟩ := hs
      show (rm.get res).2 = some m
      rw [g3, hm]
    have ht : ∀ s ∈ l.map (ofProvider res), s.Typed := by
      intro s hs
      obtain ⟨s', hs', rfl⟩ := List.mem_map.1 hs
      exact (hl s' hs').1
    have hn : ∀ s, (l.map (ofProvider res)).head? = some s → s.scope.name ≠ [] := by
      intro s hs
      rw [List.head?_map, Option.map_eq_some_iff] at hs
      obtain ⟨s', hs', rfl⟩ := hs
      exact (hl s' (List.mem_of_mem_head? hs')).2
    have hne' : l.map (ofProvider res) ≠ [] := by simpa using hne
    obtain ⟨ss, e1, e2⟩ := C46_order_partial rm _ m hres ht hn hne'
    refine ⟨.one m ss, e1, ?_, fun hs => ?_⟩
    · have := pointwise_map e2
      exact ⟨this.1, fun i a c ha hc => spanOf_res (this.2 i a c ha hc)⟩
    · have hs' : SameNameSameScope (l.map (ofProvider res)) := by
        intro i s t h3 h4
        rw [List.getElem?_map, Option.map_eq_some_iff] at h3 h4
        obtain ⟨s', h3, rfl⟩ := h3
        obtain ⟨t', h4, rfl⟩ := h4
        exact hs i s' t' h3 h4
      obtain ⟨ss', f1, f2⟩ := C46_spans_partial rm _ m hres ht hn hs' hne'
      rw [e1] at f1
      cases f1
      have := pointwise_map f2
      exact ⟨this.1, fun i a c ha hc => ⟨(this.2 i a c ha hc).1, spanOf_res (this.2 i a c ha hc).2⟩⟩

/-! ### Calls -/

theorem exportSpans_rm (next : Traces → Option E) (rm : ResourceMap) (l : List Span) : (exportSpans x next rm l).1 = (TraceExport.d2pd rm l).1 := rfl

theorem step_spans {y : Sys E} {l : List Span} {next : Traces → Option E} (hp : y.panicked = false) {p : Traces}
    (h : (TraceExport.d2pd y.rm (l.map (ofProvider res))).2 = some p) :
    step x res y (.spans l next) = { y with rm := (TraceExport.d2pd y.rm (l.map (ofProvider res))).1, log := y.log ++ (.consume p (next p) :: account x (spanCount p) (next p)) } := by
  simp only [step, hp, exportSpans, h]
  rfl

theorem step_panics {y : Sys E} {l : List Span} {next : Traces → Option E} (hp : y.panicked = false)
    (h : (TraceExport.d2pd y.rm (l.map (ofProvider res))).2 = none) :
    step x res y (.spans l next) = { y with rm := (TraceExport.d2pd y.rm (l.map (ofProvider res))).1, panicked := true } := by
  simp only [step, hp, exportSpans, h]
  rfl

theorem initial_ok : Ok res (initial : Sys E) := ⟨(fun i hi => by cases hi), (fun i hi => by cases hi)⟩

theorem step_ok {y : Sys E} (h : Ok res y) (c : Call E) : Ok res (step x res y c) := by
  cases hp : y.panicked with
  | true => simp only [step, hp, if_true]; exact h
  | false =>
    cases c with
    | shutdown bat exp => simp only [step, hp]; exact h
    | spans l next =>
      cases hd : (TraceExport.d2pd y.rm (l.map (ofProvider res))).2 with
      | none => rw [step_panics hp hd]; exact d2pd_rm l h.1 h.2
      | some p => rw [step_spans hp hd]; exact d2pd_rm l h.1 h.2

theorem sent_append (a b : List (Ev Traces E)) : sent (a ++ b) = sent a ++ sent b := List.filterMap_append ..

theorem sent_export (p : Traces) (a : Option E) (n : Nat) : sent (.consume p a :: account x n a) = [(p, a)] := rfl

theorem sent_shutdown (bat exp : Option E) : sent (shutdownTrace bat exp).1 = [] := rfl

theorem run_snoc (cs : List (Call E)) (c : Call E) : run x res (cs ++ [c]) = step x res (run x res cs) c := by
  simp [run]

theorem run_ok (cs : List (Call E)) : Ok res (run x res cs) := by
  induction cs using list_snoc_ind with
  | h0 => exact initial_ok
  | h1 cs c ih => rw [run_snoc]; exact step_ok ih c

theorem run_res (cs : List (Call E)) : ∀ p ∈ sent (run x res cs).log, ∀ r ss, p.1 = .one r ss → copyAttributes [] res = some r := by
  induction cs using list_snoc_ind with
  | h0 => intro p hp; simp [run, initial, sent] at hp
  | h1 cs c ih =>
    rw [run_snoc]
    cases hp : (run x res cs).panicked with
    | true => simp only [step, hp, if_true]; exact ih
    | false =>
      cases c with
      | shutdown bat exp =>
        simp only [step, hp, Bool.false_eq_true, if_false, sent_append, sent_shutdown, List.append_nil]
        exact ih
      | spans l next =>
        have hok := run_ok (x := x) (res := res) cs
        cases hd : (TraceExport.d2pd (run x res cs).rm (l.map (ofProvider res))).2 with
        | none => rw [step_panics hp hd]; exact ih
        | some p =>
          rw [step_spans hp hd]
          intro q hq r ss hr
          rw [sent_append, sent_export, List.mem_append, List.mem_singleton] at hq
          rcases hq with hq | rfl
          · exact ih q hq r ss hr
          · dsimp only at hr
            rw [hr] at hd
            exact d2pd_res hok.1 hok.2 hd

theorem pointwise_snoc {α β : Type} {R : α → β → Prop} {l : List α} {m : List β} (h : Pointwise R l m) {a : α} {b : β} (hr : R a b) : Pointwise R (l ++ [a]) (m ++ [b]) := by
  refine ⟨by simp [h.1], fun i x y hx hy => ?_⟩
  rcases Nat.lt_trichotomy i l.length with hi | hi | hi
  · rw [List.getElem?_append_left hi] at hx
    rw [List.getElem?_append_left (by rw [← h.1]; exact hi)] at hy
    exact h.2 i x y hx hy
  · subst hi
    rw [List.getElem?_append_right (Nat.le_refl _)] at hx
    rw [h.1, List.getElem?_append_right (Nat.le_refl _)] at hy
    simp at hx hy
    rw [← hx, ← hy]
    exact hr
  · rw [List.getElem?_eq_none (by simp; omega)] at hx
    cases hx

theorem batches_snoc (cs : List (Call E)) (l : List Span) (next : Traces → Option E) : batches (cs ++ [.spans l next]) = batches cs ++ [l] := by
  simp [batches]

theorem batches_stop (cs : List (Call E)) (bat exp : Option E) : batches (cs ++ [.shutdown bat exp]) = batches cs := by
  simp [batches]

/-- Batch by batch. -/
theorem run_spans (hx : Exportable res) (cs : List (Call E)) (hb : ∀ l ∈ batches cs, Proper l) : (run x res cs).panicked = false ∧
    Pointwise (fun l p => Pointwise SpanOf l ((spansIn p.1).map (·.2)) ∧ (SameNameSameScope l → Pointwise (fun s e => e.1 = s.scope ∧ SpanOf s e.2) l (spansIn p.1)))
      (batches cs) (sent (run x res cs).log) := by
  induction cs using list_snoc_ind with
  | h0 => exact ⟨rfl, rfl, fun i a c ha => by simp [batches] at ha⟩
  | h1 cs c ih =>
    rw [run_snoc]
    cases c with
    | shutdown bat exp =>
      rw [batches_stop] at hb ⊢
      obtain ⟨h1, h2⟩ := ih hb
      simp only [step, h1, Bool.false_eq_true, if_false, sent_append, sent_shutdown, List.append_nil]
      exact ⟨trivial, h2⟩
    | spans l next =>
      rw [batches_snoc] at hb ⊢
      obtain ⟨h1, h2⟩ := ih (fun l hl => hb l (List.mem_append_left _ hl))
      have hok := run_ok (x := x) (res := res) cs
      obtain ⟨p, g1, g2, g3⟩ := d2pd_ok hx hok.1 hok.2 (hb l (by simp))
      rw [step_spans h1 g1]
      refine ⟨h1, ?_⟩
      rw [sent_append, sent_export]
      exact pointwise_snoc h2 ⟨g2, g3⟩

/-! ### Counts -/

theorem spanCount_eq (p : Traces) : spanCount p = (spansIn p).length := by
  cases p with
  | empty => rfl
  | one r ss =>
    simp only [spanCount, spansIn, underScopes, List.length_flatMap, List.length_map]

theorem counted_append (ok : Bool) (a b : List (Ev Traces E)) : counted ok (a ++ b) = counted ok a + counted ok b := by simp [counted]

theorem answered_append (ok : Bool) (a b : List (Ev Traces E)) : spansAnswered ok (a ++ b) = spansAnswered ok a + spansAnswered ok b := by
  simp [spansAnswered, sent_append]

theorem run_counts (ok : Bool) (cs : List (Call E)) : counted ok (run x res cs).log = spansAnswered ok (run x res cs).log := by
  induction cs using list_snoc_ind with
  | h0 => rfl
  | h1 cs c ih =>
    rw [run_snoc]
    cases hp : (run x res cs).panicked with
    | true => simp only [step, hp, if_true]; exact ih
    | false =>
      cases c with
      | shutdown bat exp =>
        simp only [step, hp, Bool.false_eq_true, if_false, counted_append, answered_append, ih]
        rfl
      | spans l next =>
        cases hd : (TraceExport.d2pd (run x res cs).rm (l.map (ofProvider res))).2 with
        | none => rw [step_panics hp hd]; exact ih
        | some p =>
          rw [step_spans hp hd]
          simp only [counted_append, answered_append, ih]
          simp [counted, spansAnswered, account, sent, spanCount_eq]

/-! ### The launcher -/

variable {lx : Launcher.Ext} {lw : Launcher.World} {opts : List Launcher.Opt} {pc : Launcher.PipelineConfig}

theorem Starts.spec (h : Starts lx lw opts pc) : ∃ c eff, Launcher.configure lx lw opts = some (c, eff) ∧ Launcher.TraceOf c pc := by
  obtain ⟨c, eff, ps, h1, h2⟩ := h
  obtain ⟨c', eff', tr, me, g1, -, g2, ⟨pc', g3, g4⟩, ⟨pm, -, g5⟩⟩ := Launcher.C56_pipelines_partial lx lw opts
  rw [h1] at g1
  cases g1
  refine ⟨c, eff, h1, ?_⟩
  have := (g2 _).1 h2
  rw [List.mem_append] at this
  rcases this with h | h
  · rcases g4 with ⟨ps', e, -⟩ | ⟨e, -⟩
    · rw [e, List.mem_singleton] at h
      cases h
      exact g3
    · rw [e] at h; cases h
  · rcases g5 with ⟨a, b, d, e, -⟩ | ⟨e, -⟩
    · rw [e, List.mem_singleton] at h; cases h
    · rw [e] at h; cases h

end Verif.Traced
