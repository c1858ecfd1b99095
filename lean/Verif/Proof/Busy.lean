import Verif.Proof.BusyValues
import Verif.Props.Delivery

/-!
Helper file: the program while a flush is running, seen as one with a single collection at its end.
-/

namespace Verif.Whole
open Verif.Attr Verif.Number Verif.Assembly
variable {H : Type} {P : Parts H} {R : Pipeline.Reader H} {l : Nat}

/-- A collection, with what happened before. -/
theorem Collected.after {x0 x x' : Sys H} {ls mid : List Act} (h : Collected P R l x mid x') (hr : run P R x0 ls = some x) : Collected P R l x0 (ls ++ mid) x' := by
  obtain ⟨m, fin, y, z, order, q, h1, h2, h3, h4, h5, h6⟩ := h.split
  refine ⟨ls ++ m, fin, y, z, order, q, ?_, ?_, h3, h4, h5, ?_⟩
  · rw [h1]; simp [List.append_assoc]
  · rw [run_append, hr]; exact h2
  · intro o ho
    obtain ⟨m1, m2, w, j1, j2, j3⟩ := h6 o ho
    exact ⟨ls ++ m1, m2, w, by rw [j1, List.append_assoc], by rw [run_append, hr]; exact j2, j3⟩

/-- The same for the part with the synchronous instruments. -/
theorem Collected.sync {Ra : Pipeline.Reader H} (asyncOf : AsyncOf P R Ra) {x x' : Sys H} {coll : List Act} (h : Collected P R l x coll x') {xs xs' : Pipeline.Sys H}
    {xa : AsyncPipeline.Sys} {n : Nat} (g3 : Joined P R Ra x xs xa n) (hrest : Pipeline.run P.c R xs (syncActs coll) = some xs') :
    Pipeline.Collected P.c R l xs (syncActs coll) xs' := by
  obtain ⟨mid, fin, y, z, order, q, e, r1, r2, r3, r4, r5⟩ := h.split
  obtain ⟨ys, ya, k1, k2, k3⟩ := g3.run asyncOf r1
  obtain ⟨zs, za, l1, l2, l3⟩ := k3.run asyncOf r2
  obtain ⟨vs, va, m1, m2, m3⟩ := l3.run asyncOf (acts := [.collect order q]) (y := x') (by rw [Whole.run, r3]; rfl)
  have hstep : Pipeline.step P.c R zs (.export q) = some vs := by
    have : Pipeline.run P.c R zs [.export q] = some vs := m1
    rw [Pipeline.run] at this
    cases hst : Pipeline.step P.c R zs (.export q) with
    | none => rw [hst] at this; cases this
    | some v => rw [hst] at this; exact this
  have heq : vs = xs' := by
    have e' : syncActs coll = syncActs mid ++ (syncActs (.sched (.collect l) :: fin) ++ [.export q]) := by
      rw [e, List.append_assoc, syncActs_append, syncActs_append]
      rfl
    rw [e'] at hrest
    obtain ⟨y', a1, a2⟩ := Pipeline.run_append hrest
    have a1' := a1.symm.trans k1
    cases a1'
    obtain ⟨z', b1, b2⟩ := Pipeline.run_append a2
    have b1' := b1.symm.trans l1
    cases b1'
    have b2' := b2.symm.trans m1
    cases b2'
    rfl
  subst heq
  refine ⟨syncActs mid, syncActs fin, ys, zs, q, ?_, k1, l1, hstep, ?_, ?_⟩
  · rw [e, syncActs_append, syncActs_append]
    rfl
  · rw [l3.s, k3.s]
    exact r4
  · intro id hid
    obtain ⟨m1', m2', w', f1, f2, f3⟩ := r5 id hid
    obtain ⟨ws, wa, n1, n2, n3⟩ := g3.run asyncOf f2
    refine ⟨syncActs m1', syncActs m2', ws, ?_, n1, ?_⟩
    · rw [f1, syncActs_append]
      rfl
    · rw [k3.s, n3.s]
      exact f3

end Verif.Whole

namespace Verif.Pipeline
open Verif.Attr Verif.Number Verif.Aggr Verif.Export
variable {H : Type} {farm : Str → UInt64} {u : Front.Setup (Cell Bits H)} {R : Reader H} {lib : Library} {name : Str} {o : Out} {shapes : List Shape} {acts coll : List Act}
  {x x' : Sys H}

/-- The calls made before. -/
theorem Busy.calls_before (h : Busy farm u R lib name o [o.shape] acts coll x x') {kinds : DataKind → Prop} {D : Type} {get : PData → List D} {Rel : Point → D → Prop}
    (hx : Extracts get Rel kinds) (hk : kinds o.shape.kind) : Sync.CallsAre x.s (started acts) := by
  obtain ⟨out, hout, _⟩ := copyAttributes_ok h.resource
  have ht : Typed acts := by
    intro e he
    refine h.typed e ?_
    unfold Pipeline.calls at he ⊢
    rw [List.filterMap_append]
    exact List.mem_append_left _ he
  exact (Inv.initial (farm := farm) (u := u) (R := R) (lib := lib) (name := name) (o := o) (out := out) |>.run ⟨h.only, hx, hk⟩ hout ht h.before).calls

/-- Calls made before are the same at the end. -/
theorem Busy.same (h : Busy farm u R lib name o [o.shape] acts coll x x') {kinds : DataKind → Prop} {D : Type} {get : PData → List D} {Rel : Point → D → Prop}
    (hx : Extracts get Rel kinds) (hk : kinds o.shape.kind) : x.s.nextOp ≤ x'.s.nextOp ∧
      ∀ i, i < x.s.nextOp → (x'.s.op i).obs = (x.s.op i).obs ∧ (x'.s.op i).attrs = (x.s.op i).attrs ∧ (x'.s.op i).num = (x.s.op i).num := by
  obtain ⟨out, hout, _⟩ := copyAttributes_ok h.resource
  have ht : Typed acts := by
    intro e he
    refine h.typed e ?_
    unfold Pipeline.calls at he ⊢
    rw [List.filterMap_append]
    exact List.mem_append_left _ he
  have ix : Inv farm u R lib name o get Rel out acts x :=
    Inv.initial (farm := farm) (u := u) (R := R) (lib := lib) (name := name) (o := o) (out := out) |>.run ⟨h.only, hx, hk⟩ hout ht h.before
  obtain ⟨mid, fin, y, z, q, hsplit, h1, h2, h3, -, -⟩ := h.collected.split
  have hx's : x'.s = z.s := by
    simp only [Pipeline.step, Option.some.injEq] at h3
    subst h3
    rfl
  have mx := Sync.reachable_more ix.reach
  have hp : Sync.run (Front.realCfg farm u) x.s (proj mid ++ proj (.sched (.collect o.leaf) :: fin)) = some z.s := by
    rw [Sync.run_append, run_proj h1]
    exact run_proj h2
  rw [hx's]
  exact ⟨Sync.nextOp_run mx hp, Sync.op_static_run mx hp⟩

end Verif.Pipeline

namespace Verif.Whole
open Verif.Attr Verif.Number Verif.Export

/-- Payloads with the same metrics have the same points, one by one. -/
theorem sent_same_each {D : Type} (get : PData → List D) (lib : Library) (n : Str) {a b : List Payload} (hl : a.length = b.length)
    (h : ∀ {t : Nat} {pl ps : Payload}, a[t]? = some pl → b[t]? = some ps → metricsIn lib n pl = metricsIn lib n ps) :
    a.map (Pipeline.pointsIn get lib n) = b.map (Pipeline.pointsIn get lib n) := by
  refine List.ext_getElem (by simp [hl]) fun t h1 h2 => ?_
  rw [List.getElem_map, List.getElem_map, points_metrics, points_metrics]
  rw [h (t := t) (List.getElem?_eq_getElem (by simpa using h1)) (List.getElem?_eq_getElem (by simpa using h2))]

theorem _root_.Verif.Live.Sim.points_each {G D : Type} (get : PData → List D) {s t : Whole.Sys G} (h : Live.Sim s t) (lib : Library) (n : Str) :
    t.sent.map (Pipeline.pointsIn get lib n) = s.sent.map (Pipeline.pointsIn get lib n) := by
  have hs := h.sent
  generalize t.sent = bs at hs ⊢
  generalize s.sent = as at hs ⊢
  induction hs with
  | nil => rfl
  | cons h1 _ ih => rw [List.map_cons, List.map_cons, ih, Live.same_points get h1]

end Verif.Whole

namespace Verif.Busy
open Verif.Attr Verif.Number Verif.Assembly Verif.Delivery
variable {C G ν : Type} [DecidableEq C]
variable {farm : Str → UInt64} {w : World C G} {fsub : Bits → Bits → Bits} {x : Views.Ext C} {pipe : Nat} {views : List (Views.Views C)} {start : Int}
  {acts after : List (Delivery.Act ν)} {s s' : Delivery.Sys C G ν} {k : Nat} {v : Views.Views C} {sc : Views.Scope} {n : Str} {L : Look C}

/-- The program up to its last collection. -/
theorem Flushing.live (h : Flushing farm w fsub x views pipe start acts after s s') :
    ∃ (las : List (Live.Act ν)) (ls mid : List Whole.Act) (z1 z2 : Live.Sys C G ν), Live.Running farm w fsub x views pipe (las ++ (ls ++ mid).map .run) z2 ∧ z2.p = s'.z.p ∧ s.z.p = s'.z.p ∧
      z2.s.sent = s'.z.s.sent ∧ Live.run farm w fsub x pipe (Live.initial farm w fsub z2.p views pipe) las = some s.z ∧
      Live.run farm w fsub x pipe s.z (ls.map .run) = some z1 ∧ z1.p = z2.p ∧
      (∃ more, Pipeline.calls (measured (acts ++ after)) = (Whole.calls (Live.rest las) ++ Whole.calls (ls ++ mid)) ++ more) ∧
      Whole.calls (Live.rest las) = Pipeline.calls (measured acts) ∧ Once mid ∧
      (∃ tl, lives farm w fsub x pipe (initial farm w fsub s'.z.p views pipe start) (acts ++ after) = las ++ (ls ++ mid).map .run ++ tl) ∧ ∀ sc ∈ (reader w s'.z.p pipe).scopes, ∀ o ∈ sc.2, syncLeaf s'.z.p o.leaf = true →
        Whole.Collected (Whole.parts farm w fsub s'.z.p pipe) (reader w s'.z.p pipe) o.leaf z1.s mid z2.s := by
  generalize hi : initial farm w fsub s'.z.p views pipe start = ini
  have hbefore := h.before
  have hruns := h.running.runs
  rw [hi] at hbefore hruns
  have hafter : run farm w fsub x pipe s after = some s' := by
    rw [run_append, hbefore] at hruns
    exact hruns
  have hlive := h.running.live
  rw [hi, lives_append hbefore] at hlive
  have hlk : Locked s := by
    have := locked_initial (farm := farm) (w := w) (fsub := fsub) (pipe := pipe) s'.z.p views start
    rw [hi] at this
    exact this.run hbefore
  have hmk : Live.makes (lives farm w fsub x pipe s after) = [] := by rw [lives_makes hafter]; exact h.fixed
  have hW := Live.all_run hmk
  have hcW := lives_calls hafter
  generalize hWW : Live.rest (lives farm w fsub x pipe s after) = W at hW hcW
  rw [hW] at hlive
  have hrun := run_lives hafter
  rw [hW] at hrun
  obtain ⟨hpp, hrunW⟩ := Live.fixed_run hrun
  have hlist : ∀ m ∈ s.z.p.ordered, Provider.Listed m := by
    have := Live.run_prov (run_lives hbefore)
    rw [this]
    refine Provider.listed_run ?_ _
    intro m hm
    rw [← hi] at hm
    cases hm
  have hn : 1 ≤ s.r.threads.length := by
    obtain ⟨th, h1, -⟩ := hlk.per.loop
    exact (List.getElem?_eq_some_iff.1 h1).1
  have start : Ahead s.z.p pipe (Whole.parts farm w fsub s.z.p pipe) (reader w s.z.p pipe) s.z.s s.r.threads.length [] s := by
    refine ⟨rfl, rfl, hlk, Or.inr ⟨fun t th ht hth => ?_, fun ⟨t, th, ht, hth, _⟩ => ?_⟩⟩
    · rw [List.getElem?_eq_none ht] at hth; cases hth
    · rw [List.getElem?_eq_none ht] at hth; cases hth
  have fin := start.run hlist hn h.fixed hafter
  rw [List.nil_append, hWW] at fin
  obtain ⟨t, th, ht, hth, hd⟩ := h.call
  have hdone := fin.phase.elim (·.1) (fun hh => absurd (hd.elim (fun h => Or.inr (Or.inl h)) (fun h => Or.inr (Or.inr h))) (hh.1 t _ ht hth))
  obtain ⟨ls, mid, tail, y, y', g1, g2, g3, g4, g5, g6, g7⟩ := hdone
  rw [g1] at hrun hcW hlive
  rw [List.map_append, List.map_append, Live.run_append, Live.run_append] at hrun
  obtain ⟨z2, hrun, k3⟩ := Option.bind_eq_some_iff.1 hrun
  obtain ⟨z1, k1, k2⟩ := Option.bind_eq_some_iff.1 hrun
  obtain ⟨p1, q1⟩ := Live.fixed_run k1
  rw [g2] at q1
  have q1 := Option.some.inj q1
  obtain ⟨p2, q2⟩ := Live.fixed_run k2
  rw [p1, ← q1, g3] at q2
  have q2 := Option.some.inj q2
  have hz2 : z2.p = s'.z.p := by rw [p2, p1, hpp]
  have hiz : Live.initial farm w fsub z2.p views pipe = ini.z := by rw [← hi, hz2]; rfl
  refine ⟨lives farm w fsub x pipe ini acts, ls, mid, z1, z2, ?_, hz2, hpp.symm, ?_, ?_, k1, p2.symm, ⟨Whole.calls tail, ?_⟩, lives_calls hbefore, g7, ⟨tail.map .run, ?_⟩, ?_⟩
  · rw [List.map_append, ← List.append_assoc] at hlive
    refine hlive.front ?_ hz2
    rw [← hz2, hiz, Live.run_append, run_lives hbefore, List.map_append, Option.bind_some, Live.run_append, k1]
    exact k2
  · rw [← q2, g5]
  · rw [hiz]; exact run_lives hbefore
  · rw [measured, List.filterMap_append, Pipeline.calls, List.filterMap_append]
    show Pipeline.calls (measured acts) ++ Pipeline.calls (measured after) = _
    rw [← lives_calls hbefore, ← hcW]
    simp [Whole.calls, List.append_assoc]
  · rw [lives_append hbefore, hW, g1]
    simp [List.append_assoc]
  · rw [hpp, ← q1, ← q2]
    intro sc hsc o ho hsy
    obtain ⟨⟨m, k⟩, hmk', rfl⟩ := List.mem_map.1 hsc
    have hk := List.mem_zipIdx_iff_getElem?.1 hmk'
    obtain ⟨j, hj⟩ := List.getElem?_of_mem ho
    rw [Live.outs_get] at hj
    obtain ⟨f, h4, rfl⟩ := Option.map_eq_some_iff.1 hj
    obtain ⟨c, h5, h6⟩ := Option.bind_eq_some_iff.1 h4
    exact g6 k m c j hk h5 (List.getElem?_eq_some_iff.1 h6).1 hsy

theorem Flushing.pipeline (h : Flushing farm w fsub x views pipe start acts after s s') (hv : Viewed x views (makes acts) s'.z.p pipe k v sc n L) (hs : L.sync = true) :
    ∃ (o : Pipeline.Out) (f : Views.Leaf C) (pacts pcoll : List Pipeline.Act) (xs xs' : Pipeline.Sys G) (more : List (Front.Inst × List KV × Bits)),
      Fed w s'.z.p pipe k sc v n L o f ∧
      (∀ shapes, o.shape ∈ shapes → Pipeline.Busy farm (setup w s'.z.p) (reader w s'.z.p pipe) (sentScope sc) n o shapes pacts pcoll xs xs') ∧ xs.s = s.z.s.sync ∧
      Pipeline.calls pacts = Pipeline.calls (measured acts) ∧
      Pipeline.calls (measured (acts ++ after)) = Pipeline.calls (pacts ++ pcoll) ++ more ∧
      (∀ {D : Type} (get : Export.PData → List D), s'.z.s.sent.map (Pipeline.pointsIn get (sentScope sc) n) = xs'.sent.map (Pipeline.pointsIn get (sentScope sc) n)) ∧
      (∃ c1 c0 q x1, pcoll = c1 ++ (c0 ++ [.export q]) ∧ (∀ a ∈ c0, ∀ q, a ≠ .export q) ∧
        Pipeline.run (Front.realCfg farm (setup w s'.z.p)) (reader w s'.z.p pipe) xs c1 = some x1 ∧
        Pipeline.Collected (Front.realCfg farm (setup w s'.z.p)) (reader w s'.z.p pipe) o.leaf x1 (c0 ++ [.export q]) xs') ∧
      ∃ las tl, lives farm w fsub x pipe (initial farm w fsub s'.z.p views pipe start) (acts ++ after) = las ++ tl ∧
        (Live.OneByOne farm w fsub x views s'.z.p pipe k v sc n las → OneByOneVia farm w s'.z.p pipe k v sc n (pacts ++ pcoll)) := by
  obtain ⟨las, ls, mid, z1, z2, h1, h2, h3, h4, h5, h6, h7, ⟨more, h8⟩, h11, h10, ⟨tl, h12⟩, h9⟩ := h.live
  obtain ⟨o, f, hw⟩ := Assembly.fed w hv hs
  obtain ⟨t2, j1, j2⟩ := h1.static
  rw [Live.rest_append, Live.rest_run] at j1
  obtain ⟨y0, t0, m1, m2, m3, m4, m5⟩ := Live.middle h1.runs rfl
  rw [h5] at m1
  cases m1
  have h1r := h1.runs
  rw [List.map_append, ← List.append_assoc] at h1r
  obtain ⟨y1, t1, n1, n2, n3, n4, n5⟩ := Live.middle h1r rfl
  rw [Live.run_append, h5, Option.bind_some, h6] at n1
  cases n1
  rw [Live.rest_append, Live.rest_run, Whole.run_append, m4, Option.bind_some] at n4
  rw [h2] at j1 n4 m4
  -- the collection
  obtain ⟨sm, s1, s2⟩ := hw.mem
  have hcol := h9 sm s1 o s2 (by unfold syncLeaf; rw [hw.leaf]; exact hw.sync)
  obtain ⟨b, c1, c2⟩ := Live.sent_collected hcol t1.sent
  rw [← n5.state] at c1 c2
  have hrun := j1.runs
  rw [Whole.run_append, m4, Option.bind_some, Whole.run_append, n4, Option.bind_some, c2] at hrun
  rw [Option.some.inj hrun] at c1
  have c3 := c1.after n4
  -- the synchronous part
  obtain ⟨xs', xa, e1, e2, e3⟩ := j1.split
  have hap := j1.apart hv.made e1 e2 e3
  obtain ⟨xs, xa0, f1, f2, f3⟩ := (Whole.Joined.initial (P := Whole.parts farm w fsub s'.z.p pipe) (R := reader w s'.z.p pipe) (Ra := asyncReader w s'.z.p pipe)).run Whole.asyncOf m4
  have hrest : Pipeline.run (Front.realCfg farm (setup w s'.z.p)) (reader w s'.z.p pipe) xs (Whole.syncActs (ls ++ mid)) = some xs' := by
    rw [Whole.syncActs_append] at e1
    obtain ⟨y, a1, a2⟩ := Pipeline.run_append e1
    have := a1.symm.trans f1
    cases this
    exact a2
  have c4 := c3.sync Whole.asyncOf f3 hrest
  have hcalls : Pipeline.calls (Whole.syncActs (Live.rest las) ++ Whole.syncActs (ls ++ mid)) = Whole.calls (Live.rest las) ++ Whole.calls (ls ++ mid) := by
    rw [Pipeline.calls, List.filterMap_append]
    show Pipeline.calls _ ++ Pipeline.calls _ = _
    rw [Whole.calls_sync, Whole.calls_sync]
  rw [← hcalls] at h8
  refine ⟨o, f, Whole.syncActs (Live.rest las), Whole.syncActs (ls ++ mid), xs, xs', more, hw, ?_, ?_, (Whole.calls_sync _).trans h11, h8, ?_, ?_, las ++ (ls ++ mid).map .run, tl, h12, ?_⟩
  · intro shapes hsh
    refine ⟨h.running.resource, hw.only, hsh, ?_, ?_, f1, c4⟩
    · intro c hc
      refine h.running.typed c ?_
      rw [h8]
      exact List.mem_append_left _ hc
    · have h10 : (Pipeline.calls (measured (acts ++ after))).length < 2 ^ 32 := Nat.lt_of_le_of_lt (List.length_filterMap_le ..) h.few
      rw [h8, List.length_append] at h10
      omega
  · rw [f3.s, m5.state]
  · intro D get
    rw [← h4]
    refine (j2.points_each get _ _).symm.trans (Whole.sent_same_each get _ _ (hap.sync_length.trans hap.length.symm).symm ?_)
    obtain ⟨o', ho, hos⟩ := Whole.viewed_only w hv
    intro t pl ps e1 e2
    exact hap.sync e1 e2 ho (hos.trans hs)
  · obtain ⟨front, order, q, hfr, hqu⟩ := h10
    obtain ⟨x1, xa1, i1, -, i3⟩ := f3.run Whole.asyncOf n4
    have hsp : Whole.syncActs mid = Whole.syncActs front ++ [.export q] := by
      rw [hfr, Whole.syncActs_append]
      rfl
    refine ⟨Whole.syncActs ls, Whole.syncActs front, q, x1, by rw [Whole.syncActs_append, hsp], ?_, i1, ?_⟩
    · intro a ha q' hq'
      obtain ⟨b, hb, hb'⟩ := List.mem_filterMap.1 ha
      have hb2 := hqu b hb
      rw [hq'] at hb'
      cases b with
      | collect order q => cases hb2
      | call i as n => cases hb'
      | sched a => cases hb'
      | cb a => cases hb'
    · rw [← hsp]
      refine c1.sync Whole.asyncOf i3 ?_
      rw [Whole.syncActs_append] at hrest
      obtain ⟨y, a1, a2⟩ := Pipeline.run_append hrest
      have := a1.symm.trans i1
      cases this
      exact a2
  · intro hq
    have hr := h1.runs
    rw [← List.append_nil (las ++ _)] at hr
    rw [← h2] at hq
    have hst := Live.OneByOne.static hr hq
    rw [h2, Live.rest_append, Live.rest_run] at hst
    rw [← Whole.syncActs_append]
    exact hst.sync j1.runs

end Verif.Busy

namespace Verif.Busy
open Verif.Attr Verif.Number Verif.Assembly Verif.Aggr Verif.Export Verif.Launched
open Verif.Front (IKind)
open Verif.Views (Tempo)
variable {C G ν : Type} {k : Nat} {sc : Views.Scope} {n : Str} {L : Look C} {p : Provider.Provider C ν} {pipe : Nat} {w : World C G} {o : Pipeline.Out} {f : Views.Leaf C}

/-- Which calls have returned. -/
def Returned {S : Type} (s : Sync.State (List KV) (List KV) Bits S) (i : Nat) : Prop := i < s.nextOp ∧ (s.op i).pc = .done

theorem flatMap_none {α β : Type} {l : List α} {g : α → List β} (h : ∀ a ∈ l, g a = []) : l.flatMap g = [] := by
  rw [List.flatMap_eq_nil_iff]; exact h

theorem returned_eq {e : Outside C G} {t : IKind → Tempo} (hw : Fed w p pipe k sc (view e t) n L o f) {s z : Sync.State (List KV) (List KV) Bits (Cell Bits G)}
    (h : s.nextOp ≤ z.nextOp ∧ ∀ i, i < s.nextOp → (z.op i).obs = (s.op i).obs ∧ (z.op i).attrs = (s.op i).attrs ∧ (z.op i).num = (s.op i).num) (Q : List KV → Prop) :
    Pipeline.returnedOn (setup w p) z (Returned s) o.leaf Q = returnedBy p k n Q s := by
  classical
  obtain ⟨hle, hsame⟩ := h
  unfold Pipeline.returnedOn returnedBy
  rw [List.filter_flatMap]
  obtain ⟨d, hd⟩ := Nat.exists_eq_add_of_le hle
  rw [hd, List.range_add, List.flatMap_append, flatMap_none (l := (List.range d).map _), List.append_nil, List.map_flatMap]
  · generalize hr : List.range s.nextOp = r
    have hb : ∀ i ∈ r, i < s.nextOp := by rw [← hr]; intro i hi; exact List.mem_range.1 hi
    clear hr
    induction r with
    | nil => rfl
    | cons i r ih =>
      rw [List.flatMap_cons, ih (fun j hj => hb j (List.mem_cons_of_mem _ hj)), List.filter_cons]
      have hi := hb i (List.mem_cons_self ..)
      obtain ⟨e1, e2, e3⟩ := hsame i hi
      rw [e1, e2]
      have hc : ((setup w p).leavesOf (s.op i).obs).count o.leaf = if Called p k n (s.op i).obs then 1 else 0 := by
        rw [show ((setup w p).leavesOf (s.op i).obs).count o.leaf = _ from hw.count _]
        split
        · rename_i h1
          exact Nat.le_antisymm (times_le e t sc _) ((called_iff e t sc).2 h1)
        · rename_i h1
          exact Nat.eq_zero_of_not_pos (fun h2 => h1 ((called_iff e t sc).1 h2))
      rw [hc]
      by_cases h1 : Q (s.op i).attrs <;> by_cases h2 : Called p k n (s.op i).obs <;> by_cases h3 : (s.op i).pc = .done <;>
        simp [h1, h2, h3, Returned, hi, e3]
  · intro i hi
    obtain ⟨j, -, rfl⟩ := List.mem_map.1 hi
    rw [List.filter_eq_nil_iff]
    intro a ha
    split at ha
    · rw [List.mem_replicate] at ha
      rw [ha.2]
      exact fun h => absurd (@of_decide_eq_true _ (Classical.propDecidable _) h).1 (by omega)
    · cases ha

end Verif.Busy
