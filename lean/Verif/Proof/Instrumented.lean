import Verif.Spec.Instrumented
import Verif.Props.Counted

/-!
What is sent for instruments which are observed at most once for each attribute set in each collection.
-/

namespace Verif.Launched
open Verif Verif.Attr Verif.Number Verif.Export Verif.Assembly Verif.Instruments Verif.Props
open Verif.Pipeline (numbers pointsIn)
open Verif.Live (makes rest)
open Verif.Front (IKind)
open Verif.Views (Tempo usualAgg AggKind)
open Verif.Launcher (documented)

/-- In collection `t` there is exactly one observation for each `d` with `P d`, with the attributes `f d` and the value `v d`. -/
structure Once {D : Type} (obs : List Seen) (F : Nat → Prop) (t : Nat) (P : D → Prop) (f : D → List KV) (v : D → Bits) : Prop where
  only : ∀ e ∈ obs, e.1 = t → F e.2.1 → ∃ d, P d ∧ e.2.2 = (f d, v d)
  all : ∀ d, P d → ∃ id, F id ∧ (t, id, f d, v d) ∈ obs
  once : (obs.filter (fun e => decide (e.1 = t))).Pairwise (fun e e' => e.2.2.1 ≠ e'.2.2.1)
  inj : ∀ d d', P d → P d' → f d = f d' → d = d'
  keys : ∀ d, P d → ∀ kv ∈ f d, kv.key ≠ []

section
variable {C G D : Type} {obs : List Seen} {F : Nat → Prop} {t : Nat} {P : D → Prop} {f : D → List KV} {v : D → Bits}

theorem shown_all {a : List KV} (h : ∀ kv ∈ a, kv.key ≠ []) : shown none a = a := by
  unfold shown
  rw [List.filter_eq_self]
  intro kv hkv
  rw [decide_eq_true_eq]
  exact ⟨h kv hkv, fun ks hks => by cases hks⟩

theorem Once.shows (h : Once obs F t P f v) (a : List KV) : Shows F none obs t a ↔ ∃ d, P d ∧ f d = a := by
  constructor
  · rintro ⟨e, he, h1, h2, h3⟩
    obtain ⟨d, hd, h4⟩ := h.only e he h1 h2
    refine ⟨d, hd, ?_⟩
    rw [h4] at h3
    rw [← h3, shown_all (h.keys d hd)]
  · rintro ⟨d, hd, rfl⟩
    obtain ⟨id, h1, h2⟩ := h.all d hd
    exact ⟨_, h2, rfl, h1, shown_all (h.keys d hd)⟩

theorem pairwise_filter_single {α : Type} {R : α → α → Prop} {l : List α} (h : l.Pairwise R) (q : α → Bool) (hq : ∀ a ∈ l, ∀ b ∈ l, q a = true → q b = true → ¬ R a b)
    {a : α} (ha : a ∈ l) (hqa : q a = true) : l.filter q = [a] := by
  induction l with
  | nil => cases ha
  | cons b l ih =>
    obtain ⟨h1, h2⟩ := List.pairwise_cons.1 h
    by_cases hb : q b = true
    · have hn : l.filter q = [] := List.filter_eq_nil_iff.2 (fun c hc hqc => hq b List.mem_cons_self c (List.mem_cons_of_mem _ hc) hb hqc (h1 c hc))
      rw [List.filter_cons_of_pos hb, hn]
      rcases List.mem_cons.1 ha with rfl | ha
      · rfl
      · exact absurd (h1 a ha) (hq b List.mem_cons_self a (List.mem_cons_of_mem _ ha) hb hqa)
    · rw [List.filter_cons_of_neg hb]
      rcases List.mem_cons.1 ha with rfl | ha
      · exact absurd hqa hb
      · exact ih h2 (fun a ha b hb => hq a (List.mem_cons_of_mem _ ha) b (List.mem_cons_of_mem _ hb)) ha

theorem Once.last (h : Once obs F t P f v) {id : Nat} {set : List KV} {y : Bits} : lastSeen obs t id set = some y ↔ (t, id, set, y) ∈ obs := by
  have key : ∀ {y'}, (t, id, set, y') ∈ obs → obs.filter (fun e => decide (e.1 = t ∧ e.2.1 = id ∧ e.2.2.1 = set)) = [(t, id, set, y')] := by
    intro y' hy
    have := pairwise_filter_single h.once (fun e => decide (e.2.1 = id ∧ e.2.2.1 = set))
      (fun a _ b _ ha hb hne => hne (by rw [decide_eq_true_eq] at ha hb; rw [ha.2, hb.2])) (a := (t, id, set, y')) (List.mem_filter.2 ⟨hy, by simp⟩) (by simp)
    rw [← this, List.filter_filter]
    congr 1
    funext e
    rw [Bool.eq_iff_iff]
    simp only [decide_eq_true_eq, Bool.and_eq_true]
    constructor
    · rintro ⟨a, b⟩; exact ⟨b, a⟩
    · rintro ⟨b, a⟩; exact ⟨a, b⟩
  constructor
  · intro hl
    unfold lastSeen at hl
    obtain ⟨e, he, hv⟩ := Option.map_eq_some_iff.1 hl
    obtain ⟨h1, h2⟩ := List.mem_filter.1 (List.mem_of_getLast? he)
    rw [decide_eq_true_eq] at h2
    obtain ⟨e1, e2, e3, e4⟩ := e
    obtain ⟨rfl, rfl, rfl⟩ := h2
    rw [← hv]
    exact h1
  · intro hy
    unfold lastSeen
    rw [key hy]
    rfl

theorem Once.values (h : Once obs F t P f v) {d : D} (hd : P d) : ∃ id, LastValues F none obs t (f d) [(id, f d, v d)] := by
  obtain ⟨id, h1, h2⟩ := h.all d hd
  refine ⟨id, by simp, fun id' set y => ?_⟩
  rw [List.mem_singleton]
  constructor
  · intro he
    cases he
    exact ⟨h1, shown_all (h.keys d hd), h.last.2 h2⟩
  · rintro ⟨g1, g2, g3⟩
    have g4 := h.last.1 g3
    obtain ⟨d', hd', he⟩ := h.only _ g4 rfl g1
    simp only [Prod.mk.injEq] at he
    obtain ⟨rfl, rfl⟩ := he
    rw [shown_all (h.keys d' hd')] at g2
    obtain rfl := h.inj _ _ hd' hd g2
    have h3 : (t, id, f d', v d') ∈ obs.filter (fun e => decide (e.1 = t)) := List.mem_filter.2 ⟨h2, by simp⟩
    have h4 : (t, id', f d', v d') ∈ obs.filter (fun e => decide (e.1 = t)) := List.mem_filter.2 ⟨g4, by simp⟩
    have h5 := pairwise_filter_single h.once (fun e => decide (e.2.2.1 = f d')) (fun a _ b _ ha hb hne => hne (by rw [decide_eq_true_eq] at ha hb; rw [ha, hb])) h3 (by simp)
    have h6 : (t, id', f d', v d') ∈ (obs.filter (fun e => decide (e.1 = t))).filter (fun e => decide (e.2.2.1 = f d')) := List.mem_filter.2 ⟨h4, by simp⟩
    rw [h5, List.mem_singleton] at h6
    simp only [Prod.mk.injEq] at h6
    rw [h6.2.1]

theorem lastValues_perm {a : List KV} {ps qs : List (Nat × List KV × Bits)} (h : LastValues F none obs t a ps) (h' : LastValues F none obs t a qs) : ps.Perm qs := by
  have nd : ∀ {l : List (Nat × List KV × Bits)}, (l.map (fun e => (e.1, e.2.1))).Nodup → l.Nodup := fun hl => List.Pairwise.imp (fun hne he => hne (by rw [he])) (List.pairwise_map.1 hl)
  rw [List.perm_ext_iff_of_nodup (nd h.1) (nd h'.1)]
  rintro ⟨id, set, y⟩
  rw [h.2, h'.2]

theorem Once.amount [DecidableEq C] (h : Once obs F t P f v) {e : Outside C G} {pc : Launcher.PipelineConfig} {c : Ctor} (hc : (promise c).observed = true) (a : List KV) (y : Bits) :
    Amount (world e pc) F none (usualAgg c.kinds.2) (promise c).num obs t a y ↔ ∃ d, P d ∧ f d = a ∧ y = single e c (v d) := by
  have comb : ∀ x y, Combined (world e pc) (usualAgg c.kinds.2) (promise c).num [x] y ↔ y = single e c x := by
    intro x y
    have hf : ∀ y, (∃ order : List Bits, order.Perm [x] ∧ y = order.foldl e.fadd 0) ↔ y = e.fadd 0 x := by
      intro y
      constructor
      · rintro ⟨o, h1, h2⟩
        rw [List.perm_singleton.1 h1] at h2
        exact h2
      · intro h
        exact ⟨[x], List.Perm.refl _, h⟩
    have hi : Spec.total64 [x] = x := by
      simp [Spec.total64, Spec.total]
    unfold Combined single
    cases c <;> simp [promise, Ctor.kinds, usualAgg, hi, world] at hc ⊢ <;> exact hf y
  constructor
  · rintro ⟨ps, hne, h1, h2⟩
    obtain ⟨q, qs, rfl⟩ := List.exists_cons_of_ne_nil hne
    obtain ⟨g1, g2, g3⟩ := (h1.2 q.1 q.2.1 q.2.2).1 List.mem_cons_self
    obtain ⟨d, hd, he⟩ := h.only _ (h.last.1 g3) rfl g1
    simp only [Prod.mk.injEq] at he
    rw [he.1, shown_all (h.keys d hd)] at g2
    subst g2
    obtain ⟨id, h3⟩ := h.values hd
    have h4 := lastValues_perm h1 h3
    rw [List.perm_singleton.1 h4] at h2
    exact ⟨d, hd, rfl, (comb _ _).1 h2⟩
  · rintro ⟨d, hd, rfl, rfl⟩
    obtain ⟨id, h3⟩ := h.values hd
    exact ⟨_, by simp, h3, (comb _ _).2 rfl⟩

theorem preimage {Q : D → Prop} (inj : ∀ d d', Q d → Q d' → f d = f d' → d = d') {as : List (List KV)} (hnd : as.Nodup) (hm : ∀ a, a ∈ as ↔ ∃ d, Q d ∧ f d = a) :
    ∃ ds : List D, ds.map f = as ∧ ds.Nodup ∧ ∀ d, d ∈ ds ↔ Q d := by
  have key : ∀ as : List (List KV), (∀ a ∈ as, ∃ d, Q d ∧ f d = a) → ∃ ds : List D, ds.map f = as ∧ ∀ d ∈ ds, Q d := by
    intro as
    induction as with
    | nil => intro _; exact ⟨[], rfl, by simp⟩
    | cons a as ih =>
      intro h
      obtain ⟨ds, h1, h2⟩ := ih (fun a ha => h a (List.mem_cons_of_mem _ ha))
      obtain ⟨d, h3, h4⟩ := h a List.mem_cons_self
      refine ⟨d :: ds, by rw [List.map_cons, h1, h4], fun d' hd' => ?_⟩
      rcases List.mem_cons.1 hd' with rfl | hd'
      · exact h3
      · exact h2 _ hd'
  obtain ⟨ds, h1, h2⟩ := key as (fun a ha => (hm a).1 ha)
  refine ⟨ds, h1, ?_, fun d => ⟨h2 d, fun hd => ?_⟩⟩
  · rw [← h1] at hnd
    exact List.Pairwise.imp (fun hne he => hne (by rw [he])) (List.pairwise_map.1 hnd)
  · have : f d ∈ ds.map f := by rw [h1]; exact (hm _).2 ⟨d, hd, rfl⟩
    obtain ⟨d', h3, h4⟩ := List.mem_map.1 this
    rw [inj d d' hd (h2 _ h3) h4.symm]
    exact h3

theorem pointwise_back {β : Type} {R : List KV → β → Prop} {R' : D → β → Prop} {ds : List D} {ps : List β} (h : Pointwise R (ds.map f) ps) (hr : ∀ d ∈ ds, ∀ b, R (f d) b → R' d b) :
    Pointwise R' ds ps := by
  refine ⟨by rw [← h.1, List.length_map], fun i d b hd hb => hr d (List.mem_of_getElem? hd) b (h.2 i (f d) b ?_ hb)⟩
  rw [List.getElem?_map, hd]
  rfl

end

section
variable {C G ν D : Type} [DecidableEq C] {lx : Launcher.Ext} {lw : Launcher.World} {opts : List Launcher.Opt} {pref : Launcher.Preference} {pc : Launcher.PipelineConfig}
  {sel : IKind → Tempo} {e : Outside C G} {k : Nat} {sc : Views.Scope} {c : Ctor} {n unit : Str} {acts : List (Live.Act ν)} {z : Live.Sys C G ν}

/-- Cumulative sums and gauges. -/
theorem once_cumulative (hl : Launch lx lw opts pref pc sel) (h : Named (makes acts) z.p k sc c n unit) (hp : Runs e pc sel acts z) (hasy : (promise c).observed = true)
    (hw : Waits e pc sel z.p acts) (hin : InTurn e pc sel z.p k n acts) (hd : Finished z.p k n z) (ht : documented pref c.kinds.2 = .cumulative ∨ (promise c).output = .gauge)
    {t : Nat} (htl : t < (Whole.collections (rest acts)).length) (hf : FewSets (Called z.p k n) none 2000 (observedOn z.p k c n (rest acts)) t)
    {P : D → Prop} {f : D → List KV} {v : D → Bits} (ho : Once (observedOn z.p k c n (rest acts)) (Called z.p k n) t P f v) :
    ∃ pl, z.s.sent[t]? = some pl ∧ ∃ ds : List D, ds.Nodup ∧ (∀ d, d ∈ ds ↔ P d) ∧
      Pointwise (fun d p => AttrsOf (f d) p.attrs ∧ NumOf (promise c).num (single e c (v d)) p.value) ds (pointsIn numbers (sentScope sc) n pl) := by
  obtain ⟨pl, h1, as, h2, h3, h4⟩ := C96_async_cumulative hl h hp hasy hw hin hd ht htl hf
  obtain ⟨ds, rfl, h6, h7⟩ := preimage ho.inj h2 (fun a => (h3 a).trans (ho.shows a))
  refine ⟨pl, h1, ds, h6, h7, pointwise_back h4 ?_⟩
  rintro d hd' p ⟨g1, y, g2, g3⟩
  obtain ⟨d', hd'', he, rfl⟩ := (ho.amount hasy _ _).1 g2
  obtain rfl := ho.inj _ _ hd'' ((h7 d).1 hd') he
  exact ⟨g1, g3⟩

theorem Once.before {t : Nat} {obs : List Seen} {F : Nat → Prop} {P : Nat → D → Prop} {f : D → List KV} {v : Nat → D → Bits} (ho : ∀ t', t = t' + 1 → Once obs F t' (P t') f (v t')) {c : Ctor}
    (hc : (promise c).observed = true) (a : List KV) (b : Bits) :
    AmountBefore (world e pc) F none (usualAgg c.kinds.2) (promise c).num obs t a b ↔ ∃ t' d, t = t' + 1 ∧ P t' d ∧ f d = a ∧ b = single e c (v t' d) := by
  constructor
  · rintro ⟨t', h1, h2⟩
    obtain ⟨d, h3⟩ := ((ho t' h1).amount hc _ _).1 h2
    exact ⟨t', d, h1, h3⟩
  · rintro ⟨t', d, h1, h2⟩
    exact ⟨t', h1, ((ho t' h1).amount hc _ _).2 ⟨d, h2⟩⟩

/-- Delta sums. -/
theorem once_delta (hl : Launch lx lw opts pref pc sel) (h : Named (makes acts) z.p k sc c n unit) (hp : Runs e pc sel acts z) (hasy : (promise c).observed = true)
    (hw : Waits e pc sel z.p acts) (hin : InTurn e pc sel z.p k n acts) (hd : Finished z.p k n z) (ht : documented pref c.kinds.2 = .delta) (hg : (promise c).output ≠ .gauge)
    (hf : ∀ t, t < (Whole.collections (rest acts)).length → FewSets (Called z.p k n) none 2000 (observedOn z.p k c n (rest acts)) t)
    (hov : ∀ o ∈ observedOn z.p k c n (rest acts), Called z.p k n o.2.1 → shown none o.2.2.1 ≠ overflowSet)
    {t : Nat} (htl : t < (Whole.collections (rest acts)).length) {P : Nat → D → Prop} {f : D → List KV} {v : Nat → D → Bits}
    (ho : ∀ t, t < (Whole.collections (rest acts)).length → Once (observedOn z.p k c n (rest acts)) (Called z.p k n) t (P t) f (v t))
    (inj : ∀ t t' d d', P t d → P t' d' → f d = f d' → d = d') :
    ∃ pl, z.s.sent[t]? = some pl ∧ ∃ ds : List D, ds.Nodup ∧
      (∀ d, d ∈ ds ↔ P t d ∧ ∀ t', t = t' + 1 → P t' d → Moved e (promise c).num (single e c (v t d)) (single e c (v t' d))) ∧
      Pointwise (fun d p => AttrsOf (f d) p.attrs ∧
        ((∃ t', t = t' + 1 ∧ P t' d ∧ NumOf (promise c).num (difference e (promise c).num (single e c (v t d)) (single e c (v t' d))) p.value) ∨
          ((∀ t', t = t' + 1 → ¬ P t' d) ∧ NumOf (promise c).num (single e c (v t d)) p.value))) ds (pointsIn numbers (sentScope sc) n pl) := by
  have now := ho t htl
  have ago : ∀ t', t = t' + 1 → Once (observedOn z.p k c n (rest acts)) (Called z.p k n) t' (P t') f (v t') := fun t' h => ho t' (by omega)
  have inj' : ∀ d d', (P t d ∧ ∀ t', t = t' + 1 → P t' d → Moved e (promise c).num (single e c (v t d)) (single e c (v t' d))) →
      (P t d' ∧ ∀ t', t = t' + 1 → P t' d' → Moved e (promise c).num (single e c (v t d')) (single e c (v t' d'))) → f d = f d' → d = d' := fun d d' hd hd' => inj t t d d' hd.1 hd'.1
  have hnone : ∀ {d}, P t d → (∀ b, ¬ AmountBefore (world e pc) (Called z.p k n) none (usualAgg c.kinds.2) (promise c).num (observedOn z.p k c n (rest acts)) t (f d) b) →
      ∀ t', t = t' + 1 → ¬ P t' d := fun hd hb t' e1 hd' => hb _ ((Once.before ago hasy _ _).2 ⟨t', _, e1, hd', rfl, rfl⟩)
  cases hn : (promise c).num with
  | int64 =>
    obtain ⟨pl, h1, as, h2, h3, h4⟩ := C96_async_delta hl h hp hasy hw hin hd ht hn hg hf hov htl
    rw [← hn] at h3 h4
    obtain ⟨ds, rfl, h6, h7⟩ := preimage inj' h2 (fun a => (h3 a).trans (by
      constructor
      · rintro ⟨y, g1, g2⟩
        obtain ⟨d, hd', rfl, rfl⟩ := (now.amount hasy _ _).1 g1
        refine ⟨d, ⟨hd', fun t' e1 hd'' => ?_⟩, rfl⟩
        rw [hn]
        intro heq
        exact g2 ((Once.before ago hasy _ _).2 ⟨t', d, e1, hd'', rfl, heq⟩)
      · rintro ⟨d, ⟨hd', hm⟩, rfl⟩
        refine ⟨_, (now.amount hasy _ _).2 ⟨d, hd', rfl, rfl⟩, fun hb => ?_⟩
        obtain ⟨t', d', e1, hd'', he, heq⟩ := (Once.before ago hasy _ _).1 hb
        obtain rfl := inj _ _ _ _ hd'' hd' he
        have := hm t' e1 hd''
        rw [hn] at this
        exact this heq))
    rw [← hn]
    refine ⟨pl, h1, ds, h6, h7, pointwise_back h4 ?_⟩
    rintro d hd' p ⟨g1, y, g2, g3⟩
    obtain ⟨d', hd'', he, rfl⟩ := (now.amount hasy _ _).1 g2
    obtain rfl := inj _ _ _ _ hd'' ((h7 d).1 hd').1 he
    refine ⟨g1, ?_⟩
    rcases g3 with ⟨b, g3, g4⟩ | ⟨g3, g4⟩
    · obtain ⟨t', d2, e1, hd2, he2, rfl⟩ := (Once.before ago hasy _ _).1 g3
      obtain rfl := inj _ _ _ _ hd2 hd'' he2
      refine .inl ⟨t', e1, hd2, ?_⟩
      rw [hn]
      exact g4
    · refine .inr ⟨hnone hd'' g3, ?_⟩
      rw [hn]
      exact g4
  | float64 =>
    obtain ⟨pl, h1, as, h2, h3, h3', h4⟩ := C96_async_delta_float hl h hp hasy hw hin hd ht hn hg hf hov htl
    rw [← hn] at h3' h4
    obtain ⟨ds, rfl, h6, h7⟩ := preimage inj' h2 (fun a => by
      constructor
      · intro ha
        obtain ⟨d, hd', rfl⟩ := (now.shows a).1 (h3 a ha)
        refine ⟨d, ⟨hd', fun t' e1 hd'' => ?_⟩, rfl⟩
        rw [hn]
        obtain ⟨p, -, -, y, g2, g3⟩ := Pipeline.pointwise_mem_left h4 ha
        obtain ⟨d', hd3, he, rfl⟩ := (now.amount hasy _ _).1 g2
        obtain rfl := inj _ _ _ _ hd3 hd' he
        rcases g3 with ⟨b, g3, g4, -⟩ | ⟨g3, -⟩
        · obtain ⟨t2, d2, e2, hd2, he2, rfl⟩ := (Once.before ago hasy _ _).1 g3
          obtain rfl := inj _ _ _ _ hd2 hd' he2
          obtain rfl : t' = t2 := by omega
          exact g4
        · exact absurd hd'' (hnone hd' g3 t' e1)
      · rintro ⟨d, ⟨hd', hm⟩, rfl⟩
        by_cases ha : f d ∈ as
        · exact ha
        · obtain ⟨y, b, g1, g2, g3⟩ := h3' (f d) ((now.shows _).2 ⟨d, hd', rfl⟩) ha
          obtain ⟨d', hd3, he, rfl⟩ := (now.amount hasy _ _).1 g1
          obtain rfl := inj _ _ _ _ hd3 hd' he
          obtain ⟨t2, d2, e2, hd2, he2, rfl⟩ := (Once.before ago hasy _ _).1 g2
          obtain rfl := inj _ _ _ _ hd2 hd' he2
          have := hm t2 e2 hd2
          rw [hn] at this
          exact absurd g3 this)
    rw [← hn]
    refine ⟨pl, h1, ds, h6, h7, pointwise_back h4 ?_⟩
    rintro d hd' p ⟨g1, y, g2, g3⟩
    obtain ⟨d', hd'', he, rfl⟩ := (now.amount hasy _ _).1 g2
    obtain rfl := inj _ _ _ _ hd'' ((h7 d).1 hd').1 he
    refine ⟨g1, ?_⟩
    rcases g3 with ⟨b, g3, -, g4⟩ | ⟨g3, g4⟩
    · obtain ⟨t', d2, e1, hd2, he2, rfl⟩ := (Once.before ago hasy _ _).1 g3
      obtain rfl := inj _ _ _ _ hd2 hd'' he2
      refine .inl ⟨t', e1, hd2, ?_⟩
      rw [hn]
      exact g4
    · refine .inr ⟨hnone hd'' g3, ?_⟩
      rw [hn]
      exact g4

end

end Verif.Launched
