import Verif.Proof.Async
import Verif.Proof.Payload
import Verif.Props.Async
import Verif.Spec.AsyncPipeline

/-!
Helper file: the whole path of observations.
-/

namespace Verif.AsyncPipeline
open Verif Verif.Attr Verif.Number Verif.Export Verif.Async Verif.Pipeline
variable {H : Type} {u : Setup} {R : Reader H}

/-! ### One export -/

/-- The payload is what the conversion promises for these metrics. -/
def Built (u : Setup) (R : Reader H) (q : Times.Seq) (out : Nat → List (List KV × Bits)) (p : Payload) : Prop :=
  AttrsOf R.resource p.resource ∧ Pointwise (ScopeOf true) (metricsOf u R q out).scopes p.scopes

theorem instrumentOf_uniform {q : Times.Seq} {out : Nat → List (List KV × Bits)} {o : Out} (he : ∀ e ∈ out o.leaf, Exportable e.1) :
    Uniform (instrumentOf u q out o) := by
  have hp : ∀ p ∈ (instrumentOf u q out o).points, ∃ e ∈ out o.leaf, p = pointOf u q o e := by
    intro p hp
    obtain ⟨e, h1, h2⟩ := List.mem_map.1 hp
    exact ⟨e, h1, h2.symm⟩
  have hkind : ∀ e e', (pointOf u q o e).agg.dataKind = (pointOf u q o e').agg.dataKind := by
    intro e e'
    unfold pointOf aggOf
    dsimp only
    cases o.shape <;> rfl
  refine ⟨?_, ?_, ?_⟩
  · intro p h1 p' h2
    obtain ⟨e, _, rfl⟩ := hp p h1
    obtain ⟨e', _, rfl⟩ := hp p' h2
    exact hkind e e'
  · intro p h1 p' h2
    obtain ⟨e, _, rfl⟩ := hp p h1
    obtain ⟨e', _, rfl⟩ := hp p' h2
    rfl
  · intro p h1
    obtain ⟨e, h, rfl⟩ := hp p h1
    exact he e h

theorem built_ok {rm : ResourceMap} {res : PMap} (hc : copyAttributes [] R.resource = some res) (ha : AttrsOf R.resource res)
    (hrm : RmOk R.resource res rm) (q : Times.Seq) {out : Nat → List (List KV × Bits)} (he : ∀ l, ∀ e ∈ out l, Exportable e.1) :
    RmOk R.resource res (d2pd R.mapping rm (metricsOf u R q out) true).1 ∧
    ∃ p, (d2pd R.mapping rm (metricsOf u R q out) true).2 = some p ∧ Built u R q out p := by
  have hu : ∀ s ∈ (metricsOf u R q out).scopes, ∀ i ∈ s.instruments, Uniform i := by
    intro s hs i hi
    obtain ⟨sc, _, rfl⟩ := List.mem_map.1 hs
    obtain ⟨o', _, rfl⟩ := List.mem_map.1 hi
    exact instrumentOf_uniform (he _)
  obtain ⟨ss, h1, h2⟩ := mapM_pointwise (f := copyScope R.mapping true) (R := ScopeOf true)
    (fun s hs => copyScope_ok (m := R.mapping) (useExp := true) (hu s hs) (fun e => by cases e))
  obtain ⟨h3, h4⟩ := rm_get hrm hc
  refine ⟨h4, ⟨res, ss⟩, ?_, ha, h2⟩
  unfold d2pd
  have : (metricsOf u R q out).resource = R.resource := rfl
  dsimp only
  rw [this, h3, Option.bind_some, h1]
  rfl

theorem reportPoints_metricsOf {lib : Library} {name : Str} {o : Out} (ho : Only R lib name o) (q : Times.Seq) (out : Nat → List (List KV × Bits)) :
    reportPoints lib name (metricsOf u R q out) = (instrumentOf u q out o).points := by
  have key : reportPoints lib name (metricsOf u R q out) =
      (R.scopes.flatMap (fun sc => (sc.2.filter (fun o => sc.1 = lib ∧ o.name = name)))).flatMap (fun o => (instrumentOf u q out o).points) := by
    unfold reportPoints metricsOf
    rw [List.flatMap_map, List.flatMap_assoc]
    congr 1
    funext sc
    dsimp only
    rw [flatMap_filter_if, flatMap_filter_if, List.flatMap_map]
    by_cases hl : sc.1 = lib
    · rw [if_pos hl]
      congr 1
      funext o'
      by_cases hn : o'.name = name
      · rw [if_pos (show decide (sc.1 = lib ∧ o'.name = name) = true by simpa using ⟨hl, hn⟩)]
        have : (instrumentOf u q out o').name = name := hn
        rw [if_pos this]
        cases hps : (instrumentOf u q out o').points with
        | nil => rfl
        | cons p0 ps => rfl
      · rw [if_neg (show ¬ decide (sc.1 = lib ∧ o'.name = name) = true by simp [hn])]
        have : ¬ (instrumentOf u q out o').name = name := hn
        rw [if_neg this]
        split <;> rfl
    · rw [if_neg hl]
      symm
      refine List.flatMap_eq_nil_iff.2 ?_
      intro o' _
      rw [if_neg (show ¬ decide (sc.1 = lib ∧ o'.name = name) = true by simp [hl])]
  rw [key, ho]
  rw [List.flatMap_cons, List.flatMap_nil, List.append_nil]

theorem aggOf_kind {o : Out} (ho : Agrees u o) (v : Bits) : (aggOf o v).dataKind = o.shape.kind := by
  have := ho.shape
  unfold aggOf
  cases hs : o.shape <;> rw [hs] at this <;> first | rfl | (exfalso; revert this; split <;> simp)

/-- The points of an output metric in the payload are the points collected. -/
theorem built_points {lib : Library} {name : Str} {o : Out} (ho : Only R lib name o) (hag : Agrees u o) {q : Times.Seq}
    {out : Nat → List (List KV × Bits)} (he : ∀ l, ∀ e ∈ out l, Exportable e.1) {p : Payload} (hb : Built u R q out p) :
    Pointwise (fun e d => AttrsOf e.1 d.attrs ∧ NumOf o.num e.2 d.value) (out o.leaf) (pointsIn numbers lib name p) := by
  have hu : ∀ s ∈ (metricsOf u R q out).scopes, ∀ i ∈ s.instruments, Uniform i := by
    intro s hs i hi
    obtain ⟨sc, _, rfl⟩ := List.mem_map.1 hs
    obtain ⟨o', _, rfl⟩ := List.mem_map.1 hi
    exact instrumentOf_uniform (he _)
  have hk : ∀ s ∈ (metricsOf u R q out).scopes, ∀ i ∈ s.instruments, s.library = lib → i.name = name → ∀ p ∈ i.points,
      p.agg.dataKind = .monotonic ∨ p.agg.dataKind = .nonMonotonic ∨ p.agg.dataKind = .gauge := by
    intro s hs i hi hl hn p hp
    obtain ⟨sc, hsc, rfl⟩ := List.mem_map.1 hs
    obtain ⟨o', ho', rfl⟩ := List.mem_map.1 hi
    obtain ⟨e, _, rfl⟩ := List.mem_map.1 hp
    unfold pointOf aggOf
    dsimp only
    cases o'.shape <;> simp [Agg.dataKind]
  have := pointsIn_report extracts_numbers (lib := lib) (name := name) (p := p) hu hk hb.2
  rw [reportPoints_metricsOf ho] at this
  refine pointwise_imp (Pipeline.pointwise_map this) ?_
  intro e d _ h
  refine ⟨h.1, ?_⟩
  refine h.2 _ _ ?_
  show aggOf o e.2 = _ ∨ aggOf o e.2 = _ ∨ aggOf o e.2 = _
  unfold aggOf
  cases o.shape <;> simp

/-! ### Keys -/

/-- Sets made of typed attributes. -/
def FromTyped (u : Setup) (o : Nat) (set : List KV) : Prop := ∃ as, TypedList as ∧ set = u.set o as

theorem truncate_typed {n : Nat} {l : List KV} (h : TypedList l) : TypedList (truncate n l) := by
  unfold truncate
  split
  · exact h
  · intro kv hkv
    obtain ⟨x, hx, rfl⟩ := List.mem_map.1 hkv
    have := h x hx
    dsimp only
    unfold truncVal
    cases hv : x.val <;> rw [hv] at this <;> simp at this ⊢

theorem ovf_exportable : Exportable overflowSet :=
  ⟨newSet_typed overflow_typed, sorted_pairwise (newSet_sorted _)⟩

theorem filt_exportable {o : Nat} {set : List KV} (h : FromTyped u o set) (f : Option (List Str)) : Exportable (applyKeysFilter f set) := by
  obtain ⟨as, h1, rfl⟩ := h
  exact ⟨filter_typed (newSet_typed (truncate_typed (newSet_typed h1))), sorted_pairwise (applyKeysFilter_sorted (newSet_sorted _))⟩

section
variable {s : Async.State (List KV) Bits Bits}

theorem base_ovf {c : Async.Cfg (List KV) Bits Bits} {n l : Nat} {k : List KV} (h : Storage.has (baseAt c s n l) k = true) :
    c.delta l = true ∧ k = c.ovf ∧ Storage.has (prevTable s n l) c.ovf = true := by
  unfold baseAt at h
  split at h
  · rename_i hd
    refine ⟨hd, ?_⟩
    unfold carry at h
    cases hf : Storage.find (prevTable s n l) c.ovf with
    | none => rw [hf] at h; cases h
    | some v =>
      rw [hf] at h
      simp only [Storage.has, List.any_cons, List.any_nil, Bool.or_false, beq_iff_eq] at h
      refine ⟨h.symm, ?_⟩
      rw [has_eq, hf]; rfl
  · cases h

theorem entry_logged {c : Async.Cfg (List KV) Bits Bits} (hi : Async.Inv c s) {n : Nat} (hn : n < s.coll) {e : Async.Entry (List KV) Bits}
    (he : e ∈ s.store n) : ∃ v ∈ s.log, v.coll = n ∧ v.obs = e.obs ∧ v.set = e.set := by
  rcases hi.fresh n e he with h | ⟨h, _⟩
  · cases hl : lastObs s.log n e.obs e.set with
    | none => exact absurd hl h
    | some x => exact Props.lastObs_some hl
  · omega

theorem seen_exportable (hi : Async.Inv (cfg u) s) (hlog : ∀ v ∈ s.log, FromTyped u v.obs v.set) {n l : Nat} (hn : n < s.coll) {k : List KV}
    (hk : Storage.has (s.seen n l) k = true) : Exportable k := by
  have ht := hi.past n l hn
  rcases ht.from_ k hk with h | ⟨e, he, hm⟩
  · rw [(base_ovf h).2.1]; exact ovf_exportable
  · rcases ht.own e he k hm with h | h
    · obtain ⟨v, hv, _, h1, h2⟩ := entry_logged hi hn he
      rw [h, ← h2]
      exact filt_exportable (hlog v hv) _
    · rw [h.1]; exact ovf_exportable

theorem out_sub_seen (hi : Async.Inv (cfg u) s) {n l : Nat} (hn : n < s.coll) {e : List KV × Bits} (he : e ∈ s.out n l) :
    Storage.has (s.seen n l) e.1 = true := by
  rw [hi.out n l hn] at he
  have hmem : ∀ e' ∈ s.seen n l, Storage.has (s.seen n l) e'.1 = true := by
    intro e' h
    unfold Storage.has
    rw [List.any_eq_true]
    exact ⟨e', h, by simp⟩
  split at he
  · unfold deltaPoints at he
    obtain ⟨e', h1, h2⟩ := List.mem_filterMap.1 he
    have : e'.1 = e.1 := by
      split at h2
      · cases h2; rfl
      · split at h2
        · cases h2; rfl
        · cases h2
    rw [← this]
    exact hmem e' h1
  · exact hmem e he

end

/-! ### Runs -/

/-- What is known after the actions `acts`. -/
structure AInv (u : Setup) (R : Reader H) (res : PMap) (acts : List Act) (x : Sys) : Prop where
  quiet : Async.Quiet (cfg u) [] x.s
  ops : ∀ i, i < x.s.nextOp → TypedList (x.s.op i).set
  log : ∀ v ∈ x.s.log, FromTyped u v.obs v.set
  rm : RmOk R.resource res x.rm
  colls : (collections acts).length = x.s.coll
  count : x.sent.length = x.s.coll
  sent : ∀ n q p, (collections acts)[n]? = some q → x.sent[n]? = some p → Built u R q (x.s.out n) p

theorem collections_snoc (acts : List Act) (a : Act) : collections (acts ++ [a]) = collections acts ++ collections [a] := List.filterMap_append

theorem AInv.initial {res : PMap} : AInv u R res [] (AsyncPipeline.initial u) where
  quiet := .init
  ops := by intro i hi; cases hi
  log := by intro v hv; cases hv
  rm := by intro i hi; cases hi
  colls := rfl
  count := rfl
  sent := by intro n q p h; cases h

/-- Steps of callbacks: what was reported stays, and new observations are typed. -/
theorem cb_step {s s' : Async.State (List KV) Bits Bits} {a : Async.Action (List KV) Bits} (hf : isFinish a = false)
    (hs : Async.step (cfg u) s a = some s') (ht : ∀ cb o as v, a = .observe cb o as v → TypedList as)
    (hops : ∀ i, i < s.nextOp → TypedList (s.op i).set) (hlog : ∀ v ∈ s.log, FromTyped u v.obs v.set) :
    s'.coll = s.coll ∧ s'.out = s.out ∧ (∀ i, i < s'.nextOp → TypedList (s'.op i).set) ∧ (∀ v ∈ s'.log, FromTyped u v.obs v.set) := by
  cases a with
  | startCb insts => cases hs; exact ⟨rfl, rfl, hops, hlog⟩
  | endCb id =>
    simp only [Async.step] at hs
    split at hs
    · cases hs; exact ⟨rfl, rfl, hops, hlog⟩
    · cases hs
  | observe cb obs set val =>
    simp only [Async.step] at hs
    split at hs
    · cases hs
      refine ⟨rfl, rfl, ?_, hlog⟩
      intro i hi
      dsimp only at hi ⊢
      rw [upd_apply]
      split
      · exact ht cb obs set val rfl
      · exact hops i (by omega)
    · cases hs
  | finish order => cases hf
  | op i =>
    simp only [Async.step] at hs
    split at hs
    · cases hs
    · rename_i hi
      have hset : ∀ (o : Async.Op (List KV) Bits) (op : Nat → Async.Op (List KV) Bits), op = s.op → o.set = (s.op i).set →
          ∀ j, j < s.nextOp → TypedList ((upd op i o) j).set := by
        intro o op e1 e2 j hj
        rw [upd_apply]
        split
        · rw [e2]; exact hops i (by omega)
        · rw [e1]; exact hops j hj
      split at hs
      · split at hs
        · split at hs <;> cases hs <;> exact ⟨rfl, rfl, hset _ _ rfl rfl, hlog⟩
        · cases hs; exact ⟨rfl, rfl, hset _ _ rfl rfl, hlog⟩
      · obtain ⟨e1, e2, e3, e4, e5⟩ := Props.getOrCreate_frame (cfg u) s (s.cb (s.op i).cb).coll (s.op i).obs ((cfg u).canon (s.op i).obs (s.op i).set)
        cases hs
        refine ⟨?_, ?_, ?_, ?_⟩
        · dsimp only; unfold Async.getOrCreate; split <;> rfl
        · dsimp only; unfold Async.getOrCreate; split <;> rfl
        · dsimp only
          rw [e4]
          exact hset _ _ e1 rfl
        · dsimp only; rw [e3]; exact hlog
      · cases hs
        refine ⟨rfl, rfl, hset _ _ rfl rfl, ?_⟩
        intro v hv
        rcases List.mem_append.1 hv with h | h
        · exact hlog v h
        · rw [List.mem_singleton] at h
          subst h
          exact ⟨_, hops i (by omega), rfl⟩
      · cases hs

theorem AInv.step {res : PMap} {acts : List Act} {x x' : Sys} (h : AInv u R res acts x) (hc : copyAttributes [] R.resource = some res)
    (ha : AttrsOf R.resource res) {a : Act} (ht : ∀ cb o as v, a = .cb (.observe cb o as v) → TypedList as)
    (hq : ∀ order q, a = .collect order q → ¬ InFlight x.s) (hs : AsyncPipeline.step u R x a = some x') :
    AInv u R res (acts ++ [a]) x' := by
  cases a with
  | cb a =>
    simp only [AsyncPipeline.step] at hs
    split at hs
    · cases hs
    · rename_i hf
      cases hst : Async.step (cfg u) x.s a with
      | none => rw [hst] at hs; cases hs
      | some s' =>
        rw [hst] at hs
        cases hs
        have hf' : isFinish a = false := by simpa using hf
        obtain ⟨h1, h2, h3, h4⟩ := cb_step hf' hst (fun cb o as v e => ht cb o as v (by rw [e])) h.ops h.log
        have he : collections (acts ++ [Act.cb a]) = collections acts := by rw [collections_snoc]; exact List.append_nil _
        refine ⟨.step h.quiet hst ?_, h3, h4, h.rm, ?_, ?_, ?_⟩
        · intro order e; rw [e] at hf'; cases hf'
        · rw [he]; dsimp only; rw [h1]; exact h.colls
        · dsimp only; rw [h1]; exact h.count
        · rw [he]; dsimp only; rw [h2]; exact h.sent
  | collect order q =>
    simp only [AsyncPipeline.step] at hs
    cases hst : Async.step (cfg u) x.s (.finish order) with
    | none => rw [hst] at hs; cases hs
    | some s' =>
      rw [hst] at hs
      simp only [Option.map_some, Option.some.injEq] at hs
      have hq' : Async.Quiet (cfg u) [] s' := .step h.quiet hst (fun o' e => hq order q rfl)
      have hi := quiet_inv hq'
      have hfr : s'.coll = x.s.coll + 1 ∧ s'.log = x.s.log ∧ s'.op = x.s.op ∧ s'.nextOp = x.s.nextOp ∧ ∀ n, n < x.s.coll → s'.out n = x.s.out n := by
        simp only [Async.step] at hst
        split at hst
        · cases hst
          exact ⟨rfl, rfl, rfl, rfl, fun n hn => upd_ne _ _ (by omega)⟩
        · cases hst
      obtain ⟨f1, f2, f3, f4, f5⟩ := hfr
      have hlog : ∀ v ∈ s'.log, FromTyped u v.obs v.set := by rw [f2]; exact h.log
      have hex : ∀ l, ∀ e ∈ s'.out x.s.coll l, Exportable e.1 := fun l e he =>
        seen_exportable hi hlog (by omega) (out_sub_seen hi (by omega) he)
      obtain ⟨h1, p, h2, h3⟩ := built_ok (u := u) hc ha h.rm q hex
      rw [h2] at hs
      subst hs
      have he : collections (acts ++ [Act.collect order q]) = collections acts ++ [q] := by rw [collections_snoc]; rfl
      refine ⟨hq', ?_, hlog, h1, ?_, ?_, ?_⟩
      · dsimp only; rw [f3, f4]; exact h.ops
      · rw [he, List.length_append]; dsimp only; rw [f1, h.colls]; rfl
      · dsimp only; rw [List.length_append, f1, h.count]; rfl
      · intro n q' p' hq1 hp1
        rw [he] at hq1
        dsimp only at hp1 ⊢
        rw [List.getElem?_append] at hq1 hp1
        rw [h.colls] at hq1
        rw [h.count] at hp1
        by_cases hn : n < x.s.coll
        · rw [if_pos hn] at hq1 hp1
          rw [f5 n hn]
          exact h.sent n q' p' hq1 hp1
        · rw [if_neg hn] at hq1 hp1
          have hlt : n - x.s.coll = 0 := by
            have := (List.getElem?_eq_some_iff.1 hq1).1
            simp only [List.length_singleton] at this
            omega
          rw [hlt] at hq1 hp1
          cases hq1
          cases hp1
          have : n = x.s.coll := by omega
          rw [this]
          exact h3

theorem AInv.run {res : PMap} {more acts : List Act} {x x' : Sys} (h : AInv u R res acts x)
    (hc : copyAttributes [] R.resource = some res) (ha : AttrsOf R.resource res) (ht : Typed (acts ++ more)) (ho : Orderly u R x more)
    (hs : AsyncPipeline.run u R x more = some x') : AInv u R res (acts ++ more) x' := by
  induction more generalizing acts x with
  | nil => cases hs; rw [List.append_nil]; exact h
  | cons a more ih =>
    rw [AsyncPipeline.run] at hs
    cases hst : AsyncPipeline.step u R x a with
    | none => rw [hst] at hs; cases hs
    | some y =>
      rw [hst] at hs
      have e1 : acts ++ a :: more = (acts ++ [a]) ++ more := by rw [List.append_assoc]; rfl
      have h' := h.step hc ha (a := a)
        (fun cb o as v e => fun kv hkv => ht cb o as v (by rw [e]; exact List.mem_append_right _ List.mem_cons_self) kv hkv) ho.1 hst
      rw [e1] at ht ⊢
      exact ih h' ht (ho.2 y hst) hs

theorem reached {res : PMap} {acts : List Act} {x : Sys} (hc : copyAttributes [] R.resource = some res) (ha : AttrsOf R.resource res)
    (ht : Typed acts) (ho : Orderly u R (AsyncPipeline.initial u) acts) (hs : AsyncPipeline.run u R (AsyncPipeline.initial u) acts = some x) :
    AInv u R res acts x :=
  (AInv.initial (u := u) (R := R) (res := res)).run (acts := []) hc ha ht ho hs

end Verif.AsyncPipeline
