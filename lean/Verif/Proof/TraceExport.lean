import Verif.Spec.TraceExport
import Verif.Proof.Export

/-! Lemmas about the conversion of spans. -/

namespace Verif.TraceExport
open Verif Verif.Attr Verif.Export

theorem underScopes_append (a b : List PScopeSpans) : underScopes (a ++ b) = underScopes a ++ underScopes b := by simp [underScopes]

theorem appendSpan_last (p : PSpan) (l : List PScopeSpans) (e : PScopeSpans) :
    appendSpan p (l ++ [e]) = some (l ++ [{ e with spans := e.spans ++ [p] }]) := by
  induction l with
  | nil => rfl
  | cons x xs ih =>
    cases hx : xs ++ [e] with
    | nil => simp at hx
    | cons y ys =>
      rw [List.cons_append, hx, appendSpan, ← hx, ih]
      · rfl
      · simp

/-- Consecutive spans whose scopes have the same name have the same scope. -/
def Consistent (cur : Option Library) : List Span → Prop
  | [] => True
  | s :: rest => (∀ l, cur = some l → s.scope.name = l.name → s.scope = l) ∧ Consistent (some s.scope) rest

theorem loop_some {cur : Library} {done : List PScopeSpans} {e : PScopeSpans} {in_ : List Span} {ps : List PSpan}
    (he : e.library.name = cur.name) (hc : mapM copySpan in_ = some ps) :
    ∃ out, loop cur.name (done ++ [e]) in_ = some out ∧
      (underScopes out).map (·.2) = (underScopes (done ++ [e])).map (·.2) ++ ps ∧
      (e.library = cur → Consistent (some cur) in_ → underScopes out = underScopes (done ++ [e]) ++ (in_.map (·.scope)).zip ps) := by
  induction in_ generalizing cur done e ps with
  | nil => simp only [mapM, Option.some.injEq] at hc; subst hc; exact ⟨_, rfl, by simp, by simp⟩
  | cons s rest ih =>
    cases hs : copySpan s with
    | none => simp [mapM, hs] at hc
    | some p =>
      cases hr : mapM copySpan rest with
      | none => simp [mapM, hs, hr] at hc
      | some qs =>
        simp only [mapM, hs, hr, Option.bind_some, Option.some.injEq] at hc
        subst hc
        rw [loop]
        by_cases hn : s.scope.name = cur.name
        · simp only [hn, ne_eq, not_true, if_false, hs, Option.bind_some]
          rw [appendSpan_last, Option.bind_some]
          obtain ⟨out, h1, h2, h3⟩ := ih (cur := cur) (done := done) (e := { e with spans := e.spans ++ [p] }) he hr
          refine ⟨out, h1, ?_, ?_⟩
          · rw [h2]; simp [underScopes]
          · intro hl hcons
            have hsc := hcons.1 cur rfl hn
            rw [h3 hl (by rw [← hsc]; exact hcons.2)]
            simp [underScopes, hl, hsc]
        · simp only [hn, ne_eq, not_false_eq_true, if_true, hs, Option.bind_some]
          rw [appendSpan_last, Option.bind_some]
          obtain ⟨out, h1, h2, h3⟩ := ih (cur := s.scope) (done := done ++ [e]) (e := { library := s.scope, spans := [] ++ [p] }) rfl hr
          refine ⟨out, h1, ?_, ?_⟩
          · rw [h2]; simp [underScopes]
          · intro _ hcons
            rw [h3 rfl hcons.2]
            simp [underScopes]

theorem loop_none {cur : Str} {scopes : List PScopeSpans} {in_ : List Span} (hc : mapM copySpan in_ = none) : loop cur scopes in_ = none := by
  induction in_ generalizing cur scopes with
  | nil => cases hc
  | cons s rest ih =>
    rw [loop]
    dsimp only
    cases hs : copySpan s with
    | none => rfl
    | some p =>
      have hr : mapM copySpan rest = none := by
        cases hr : mapM copySpan rest with
        | none => rfl
        | some qs => simp [mapM, hs, hr] at hc
      rw [Option.bind_some]
      cases appendSpan p _ with
      | none => rfl
      | some x => exact ih hr

theorem loop_start {s : Span} {rest : List Span} {ps : List PSpan} (hn : s.scope.name ≠ []) (hc : mapM copySpan (s :: rest) = some ps) :
    ∃ out, loop [] [] (s :: rest) = some out ∧ (underScopes out).map (·.2) = ps ∧
      (Consistent none (s :: rest) → underScopes out = ((s :: rest).map (·.scope)).zip ps) := by
  cases hs : copySpan s with
  | none => simp [mapM, hs] at hc
  | some p =>
    cases hr : mapM copySpan rest with
    | none => simp [mapM, hs, hr] at hc
    | some qs =>
      simp only [mapM, hs, hr, Option.bind_some, Option.some.injEq] at hc
      subst hc
      obtain ⟨out, h1, h2, h3⟩ := loop_some (cur := s.scope) (done := []) (e := { library := s.scope, spans := [p] }) rfl hr
      refine ⟨out, ?_, ?_, ?_⟩
      · rw [loop]
        simp only [hn, ne_eq, not_false_eq_true, if_true, hs, Option.bind_some, List.nil_append]
        exact h1
      · rw [h2]; simp [underScopes]
      · intro hcons
        rw [h3 rfl hcons.2]
        simp [underScopes]

theorem loop_empty_name {s : Span} {rest : List Span} (hn : s.scope.name = []) : loop [] [] (s :: rest) = none := by
  rw [loop]
  simp only [hn, ne_eq, not_true, if_false]
  cases copySpan s <;> rfl

theorem mem_newSet {l : List KV} {kv : KV} (h : kv ∈ newSet l) : ∃ x ∈ l, kv.key = x.key ∧ kv.val = canonVal x.val := by
  have key : ∀ (l acc : List KV), kv ∈ l.foldl (fun acc kv => insertKV { key := kv.key, val := canonVal kv.val } acc) acc →
      kv ∈ acc ∨ ∃ x ∈ l, kv.key = x.key ∧ kv.val = canonVal x.val := by
    intro l
    induction l with
    | nil => intro acc h; exact Or.inl h
    | cons x xs ih =>
      intro acc h
      rcases ih _ h with h | ⟨y, hy, e⟩
      · rcases mem_insertKV h with h | h
        · exact Or.inr ⟨x, List.mem_cons_self, by rw [h]; exact ⟨rfl, rfl⟩⟩
        · exact Or.inl h
      · exact Or.inr ⟨y, List.mem_cons_of_mem _ hy, e⟩
  rcases key l [] h with h | h
  · cases h
  · exact h

theorem newSet_exportable {l : List KV} (h : Typed l) : Exportable (newSet l) := by
  refine ⟨fun kv hkv e => ?_, ?_⟩
  · obtain ⟨x, hx, _, hv⟩ := mem_newSet hkv
    have := h x hx
    rw [hv] at e
    cases hxv : x.val <;> rw [hxv] at e <;> cases e
    exact this hxv
  have key : ∀ {l : List KV}, Sorted l → l.Pairwise (fun x y => x.key ≠ y.key) := by
    intro l hl
    induction l with
    | nil => exact List.Pairwise.nil
    | cons x xs ih =>
      rw [List.pairwise_cons]
      refine ⟨fun y hy e => ?_, ih hl.2⟩
      have := hl.1 y hy
      rw [e] at this
      exact List.lt_irrefl _ this
  exact key (newSet_sorted l)

theorem copySpan_ok {s : Span} (h : s.Typed) : ∃ p, copySpan s = some p ∧ SpanOf s p := by
  obtain ⟨m, h1, h2⟩ := copyAttributes_ok (newSet_exportable h.1)
  obtain ⟨es, h3, h4⟩ := mapM_pointwise (f := copyEvent) (R := EventOf) (l := s.events) (by
    intro e he
    obtain ⟨m, h1, h2⟩ := copyAttributes_ok (newSet_exportable (h.2.1 e he))
    refine ⟨_, by rw [copyEvent, h1]; exact rfl, ?_⟩
    exact ⟨rfl, rfl, h2, rfl⟩)
  obtain ⟨ls, h5, h6⟩ := mapM_pointwise (f := copyLink) (R := LinkOf) (l := s.links) (by
    intro e he
    obtain ⟨m, h1, h2⟩ := copyAttributes_ok (newSet_exportable (h.2.2 e he))
    refine ⟨_, by rw [copyLink, h1]; exact rfl, ?_⟩
    exact ⟨rfl, rfl, rfl, h2, rfl⟩)
  refine ⟨_, by rw [copySpan, h1, Option.bind_some, h3, Option.bind_some, h5]; rfl, ?_⟩
  refine ⟨rfl, ?_, ⟨rfl, rfl, rfl, rfl⟩, ⟨rfl, rfl⟩, ⟨?_, rfl⟩, h2, h4, h6, ⟨rfl, rfl, rfl⟩⟩
  · unfold KindOf; cases s.kind <;> simp [translateSpanKind]
  · unfold CodeOf; cases s.code <;> simp [translateSpanStatusCode]

theorem consistent_of {l : List Span} (h : SameNameSameScope l) : Consistent none l := by
  have key : ∀ (l : List Span) (cur : Option Library), SameNameSameScope l →
      (∀ s c, l[0]? = some s → cur = some c → s.scope.name = c.name → s.scope = c) → Consistent cur l := by
    intro l
    induction l with
    | nil => intro _ _ _; trivial
    | cons s rest ih =>
      intro cur h h0
      refine ⟨fun c hc hn => h0 s c rfl hc hn, ih _ ?_ ?_⟩
      · intro i a b ha hb
        exact h (i + 1) a b (by simpa using ha) (by simpa using hb)
      · intro t c ht hc hn
        cases hc
        exact (h 0 s t rfl (by simpa using ht) hn.symm).symm
  exact key l none h (by intro _ _ _ hc; cases hc)

end Verif.TraceExport
