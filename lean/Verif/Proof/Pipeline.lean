import Verif.Proof.SyncCalls
import Verif.Proof.Attr
import Verif.Proof.Export
import Verif.Spec.Pipeline
import Verif.Props.Numbers

/-!
Helper file: from the points collected to the payloads sent.
-/

namespace Verif.Pipeline
open Verif.Attr Verif.Number Verif.Aggr Verif.Export
variable {H : Type}

/-! ### Attributes of points -/

def TypedList (l : List KV) : Prop := ∀ kv ∈ l, kv.val ≠ .invalid

theorem sorted_pairwise {l : List KV} (h : Sorted l) : l.Pairwise (fun x y => x.key ≠ y.key) := by
  induction l with
  | nil => exact .nil
  | cons x xs ih =>
    refine .cons ?_ (ih h.2)
    intro y hy e
    have := h.1 y hy
    rw [e] at this
    exact str_irrefl _ this

theorem newSet_typed {l : List KV} (h : TypedList l) : TypedList (newSet l) := by
  intro kv hkv
  have h1 := get_of_mem (newSet_sorted l) hkv
  rw [get_newSet] at h1
  cases hl : lastValue kv.key l with
  | none => rw [hl] at h1; cases h1
  | some v =>
    rw [hl] at h1
    simp only [Option.map_some, Option.some.injEq] at h1
    unfold lastValue at hl
    cases hf : l.reverse.find? (fun x => x.key == kv.key) with
    | none => rw [hf] at hl; cases hl
    | some y =>
      rw [hf] at hl
      simp only [Option.map_some, Option.some.injEq] at hl
      have hy := h y (List.mem_reverse.1 (List.mem_of_find?_eq_some hf))
      rw [← h1, ← hl]
      cases hv : y.val <;> simp [canonVal]
      exact absurd hv hy

theorem filter_typed {f : Option (List Str)} {l : List KV} (h : TypedList l) : TypedList (applyKeysFilter f l) := by
  unfold applyKeysFilter
  dsimp only
  split
  · exact h
  all_goals exact fun kv hkv => h kv (List.mem_filter.1 hkv).1

theorem key_exportable {S : Type} {farm : Str → UInt64} {u : Front.Setup S} {l : Nat} {k : List KV}
    (h : Sync.KeyFrom (Front.realCfg farm u) TypedList l k) : Exportable k := by
  rcases h with h | ⟨a, ha, h⟩
  · rw [h]
    exact ⟨newSet_typed (l := overflowAttrs) (by intro kv hkv; simp [overflowAttrs] at hkv; rw [hkv]; simp), sorted_pairwise (newSet_sorted _)⟩
  · rw [h]
    exact ⟨filter_typed (newSet_typed ha), sorted_pairwise (applyKeysFilter_sorted (newSet_sorted _))⟩

theorem overflow_typed : TypedList overflowAttrs := by
  intro kv hkv; simp [overflowAttrs] at hkv; rw [hkv]; simp

/-! ### One export -/

/-- The cache after any number of exports with the same resource. -/
def RmOk (res : List KV) (out : PMap) (rm : ResourceMap) : Prop := ∀ i, rm.input = some i → i = res ∧ rm.output = out

theorem rm_get {res : List KV} {out : PMap} {rm : ResourceMap} (h : RmOk res out rm) (hc : copyAttributes [] res = some out) :
    (rm.get res).2 = some out ∧ RmOk res out (rm.get res).1 := by
  unfold ResourceMap.get
  split
  · rename_i hh
    refine ⟨?_, h⟩
    unfold ResourceMap.hit at hh
    cases hi : rm.input with
    | none => rw [hi] at hh; cases hh
    | some i => rw [(h i hi).2]
  · rw [hc]
    refine ⟨rfl, ?_⟩
    intro i hi
    dsimp only [ResourceMap.store] at hi ⊢
    split at hi
    · rename_i hd
      rw [if_pos hd]
      unfold ResourceMap.miss at hi ⊢
      split at hi
      · cases hi
      · rename_i hn
        rw [if_neg hn]
        exact h i hi
    · rename_i hd
      rw [if_neg hd]
      simp only [Option.some.injEq] at hi
      exact ⟨hi.symm, rfl⟩

theorem pointwise_tail {α β : Type} {R : α → β → Prop} {a : α} {b : β} {l : List α} {l' : List β} (h : Pointwise R (a :: l) (b :: l')) :
    R a b ∧ Pointwise R l l' :=
  ⟨h.2 0 a b rfl rfl, by have := h.1; simpa using this, fun i x y hx hy => h.2 (i + 1) x y (by simpa using hx) (by simpa using hy)⟩

theorem pointwise_cons {α β : Type} {R : α → β → Prop} {a : α} {b : β} {l : List α} {l' : List β} (h : R a b) (h' : Pointwise R l l') :
    Pointwise R (a :: l) (b :: l') := by
  refine ⟨by rw [List.length_cons, List.length_cons, h'.1], ?_⟩
  intro i x y hx hy
  cases i with
  | zero => cases hx; cases hy; exact h
  | succ i => exact h'.2 i x y (by simpa using hx) (by simpa using hy)

theorem pointwise_nil {α β : Type} {R : α → β → Prop} : Pointwise R ([] : List α) ([] : List β) := ⟨rfl, by intro i a b h; cases h⟩

/-- Case analysis on related lists. -/
theorem pointwise_ind {α β : Type} {R : α → β → Prop} {P : List α → List β → Prop} (h0 : P [] [])
    (h1 : ∀ a b l l', R a b → Pointwise R l l' → P l l' → P (a :: l) (b :: l')) : ∀ {l l'}, Pointwise R l l' → P l l' := by
  intro l
  induction l with
  | nil =>
    intro l' h
    cases l' with
    | nil => exact h0
    | cons b l' => exact absurd h.1 (by simp)
  | cons a l ih =>
    intro l' h
    cases l' with
    | nil => exact absurd h.1 (by simp)
    | cons b l' =>
      obtain ⟨h2, h3⟩ := pointwise_tail h
      exact h1 a b l l' h2 h3 (ih h3)

theorem pointwise_append {α β : Type} {R : α → β → Prop} {l m : List α} {l' m' : List β} (h : Pointwise R l l') (h2 : Pointwise R m m') :
    Pointwise R (l ++ m) (l' ++ m') :=
  pointwise_ind (P := fun l l' => Pointwise R (l ++ m) (l' ++ m')) h2 (fun _ _ _ _ hr _ ih => pointwise_cons hr ih) h

theorem pointwise_imp {α β : Type} {R R' : α → β → Prop} {l : List α} {l' : List β} (h : Pointwise R l l') (hi : ∀ a b, a ∈ l → R a b → R' a b) :
    Pointwise R' l l' :=
  ⟨h.1, fun i a b ha hb => hi a b (List.mem_of_getElem? ha) (h.2 i a b ha hb)⟩

theorem pointwise_map {α β γ : Type} {R : α → β → Prop} {f : γ → α} {l : List γ} {l' : List β} (h : Pointwise R (l.map f) l') :
    Pointwise (fun a b => R (f a) b) l l' :=
  ⟨by rw [← h.1, List.length_map], fun i a b ha hb => h.2 i (f a) b (by rw [List.getElem?_map, ha]; rfl) hb⟩

theorem pointwise_filterMap {α β γ : Type} {R : α → β → Prop} {l : List α} {l' : List β} (h : Pointwise R l l') (F : α → Option γ) (G : β → Option γ)
    (hFG : ∀ a b, R a b → F a = G b) : l.filterMap F = l'.filterMap G :=
  pointwise_ind (P := fun l l' => l.filterMap F = l'.filterMap G) rfl (fun a b l l' hr _ ih => by
    rw [List.filterMap_cons, List.filterMap_cons, hFG a b hr, ih]) h

/-- A list of lists of related elements. -/
theorem pointwise_flatMap {α β γ δ : Type} {R : α → β → Prop} {Q : γ → δ → Prop} {l : List α} {l' : List β} (h : Pointwise R l l') (F : α → List γ)
    (G : β → List δ) (hFG : ∀ a b, a ∈ l → R a b → Pointwise Q (F a) (G b)) : Pointwise Q (l.flatMap F) (l'.flatMap G) := by
  induction l generalizing l' with
  | nil =>
    cases l' with
    | nil => exact pointwise_nil
    | cons b l' => exact absurd h.1 (by simp)
  | cons a l ih =>
    cases l' with
    | nil => exact absurd h.1 (by simp)
    | cons b l' =>
      obtain ⟨h1, h2⟩ := pointwise_tail h
      rw [List.flatMap_cons, List.flatMap_cons]
      exact pointwise_append (hFG a b List.mem_cons_self h1) (ih h2 (fun x y hx => hFG x y (List.mem_cons_of_mem _ hx)))

/-- What is extracted from a metric are images of the points. -/
def Extracts {D : Type} (get : PData → List D) (Rel : Point → D → Prop) (kinds : DataKind → Prop) : Prop :=
  ∀ kind t ps data, kinds kind → (∀ p ∈ ps, p.agg.dataKind = kind) → DataOf true kind t ps data → Pointwise Rel ps (get data)

/-- An exported number for a point. -/
def NumberRel (p : Point) (d : PNumber) : Prop :=
  AttrsOf p.attrs d.attrs ∧ ∀ k v, p.agg = .monotonic k v ∨ p.agg = .nonMonotonic k v ∨ p.agg = .gauge k v → NumOf k v d.value

theorem extracts_numbers : Extracts numbers NumberRel (fun k => k = .monotonic ∨ k = .nonMonotonic ∨ k = .gauge) := by
  intro kind t ps data hk hall hd
  cases data with
  | sum mono pt ds =>
    obtain ⟨hkind, _, hpw⟩ := hd
    refine pointwise_imp hpw ?_
    intro p d hp h
    refine ⟨h.2.2.1, ?_⟩
    intro k v ha
    rcases ha with ha | ha | ha
    · exact h.2.2.2 k v (.inl ha)
    · exact h.2.2.2 k v (.inr ha)
    · have := hall p hp
      rw [ha] at this
      rcases hkind with ⟨e, _⟩ | ⟨e, _⟩ <;> rw [e] at this <;> cases this
  | gauge ds =>
    obtain ⟨hkind, hpw⟩ := hd
    refine pointwise_imp hpw ?_
    intro p d hp h
    refine ⟨h.2.2.1, ?_⟩
    intro k v ha
    have hg := hall p hp
    rw [hkind] at hg
    rcases ha with ha | ha | ha
    · rw [ha] at hg; cases hg
    · rw [ha] at hg; cases hg
    · exact h.2.2.2 k v ha
  | hist pt ds => rcases hd.1 with ⟨e, _⟩ | e <;> rcases hk with h | h | h <;> rw [h] at e <;> cases e
  | exp pt ds => rcases hk with h | h | h <;> rw [h] at hd <;> cases hd.1

theorem extracts_exp : Extracts expPoints ExpPointOf (fun k => k = .hist) := by
  intro kind t ps data hk hall hd
  subst hk
  cases data with
  | sum mono pt ds => rcases hd.1 with ⟨e, _⟩ | ⟨e, _⟩ <;> cases e
  | gauge ds => cases hd.1
  | hist pt ds => rcases hd.1 with ⟨_, e⟩ | e <;> cases e
  | exp pt ds => exact hd.2.2.2

theorem extracts_mmsc : Extracts histPoints HistPointOf (fun k => k = .mmsc) := by
  intro kind t ps data hk hall hd
  subst hk
  cases data with
  | sum mono pt ds => rcases hd.1 with ⟨e, _⟩ | ⟨e, _⟩ <;> cases e
  | gauge ds => cases hd.1
  | exp pt ds => cases hd.1
  | hist pt ds => exact hd.2.2

theorem metric_points {D : Type} {get : PData → List D} {Rel : Point → D → Prop} {kinds : DataKind → Prop} (hx : Extracts get Rel kinds) {i : Instrument}
    {m : PMetric} (hu : Uniform i) (hne : i.points ≠ []) (hk : ∀ p ∈ i.points, kinds p.agg.dataKind) (h : MetricOf true i m) :
    Pointwise Rel i.points (get m.data) := by
  cases hp : i.points with
  | nil => exact absurd hp hne
  | cons p0 ps =>
    have hm : p0 ∈ i.points := by rw [hp]; exact List.mem_cons_self
    rw [← hp]
    exact hx _ _ _ _ (hk p0 hm) (fun p hp' => hu.kind p hp' p0 hm) (h.2.2.2 p0 hm)

theorem instrumentOf_uniform (toHist : H → ExpHist) (delta : Nat → Bool) (q : Times.Seq) (es : List (Sync.Emit (List KV) (Cell Bits H))) (o : Out)
    (he : ∀ e ∈ es, Exportable e.key) : Uniform (instrumentOf toHist delta q es o) := by
  have hp : ∀ p ∈ (instrumentOf toHist delta q es o).points, ∃ e ∈ es, p = pointOf toHist (delta o.leaf) q o e := by
    intro p hp
    obtain ⟨e, h1, h2⟩ := List.mem_map.1 hp
    exact ⟨e, (List.mem_filter.1 h1).1, h2.symm⟩
  have hkind : ∀ e e' : Sync.Emit (List KV) (Cell Bits H),
      (pointOf toHist (delta o.leaf) q o e).agg.dataKind = (pointOf toHist (delta o.leaf) q o e').agg.dataKind := by
    intro e e'
    unfold pointOf aggOf
    dsimp only
    cases o.shape <;> rfl
  refine ⟨?_, ?_, ?_⟩
  · intro p h1 p' h2
    obtain ⟨e, _, rfl⟩ := hp p h1
    obtain ⟨e', _, rfl⟩ := hp p' h2
    exact hkind e e'
  · intro p h1 p' h2
    obtain ⟨e, _, rfl⟩ := hp p h1
    obtain ⟨e', _, rfl⟩ := hp p' h2
    rfl
  · intro p h1
    obtain ⟨e, h, rfl⟩ := hp p h1
    exact he e h

/-- The points of the metric with a scope and a name, on the side of the report. -/
def reportPoints (lib : Library) (name : Str) (m : Metrics) : List Point :=
  m.scopes.flatMap (fun s => if s.library = lib then
    (s.instruments.filter (fun i => !i.points.isEmpty)).flatMap (fun i => if i.name = name then i.points else []) else [])

theorem flatMap_filter_if {α β : Type} (p : α → Bool) (f : α → List β) (l : List α) :
    (l.filter p).flatMap f = l.flatMap (fun a => if p a then f a else []) := by
  induction l with
  | nil => rfl
  | cons a l ih =>
    rw [List.filter_cons, List.flatMap_cons]
    by_cases h : p a
    · rw [if_pos h, if_pos h, List.flatMap_cons, ih]
    · rw [if_neg h, if_neg h, List.nil_append, ih]

theorem pointsIn_report {D : Type} {get : PData → List D} {Rel : Point → D → Prop} {kinds : DataKind → Prop} (hx : Extracts get Rel kinds)
    {lib : Library} {name : Str} {m : Metrics} {p : Payload} (hu : ∀ s ∈ m.scopes, ∀ i ∈ s.instruments, Uniform i)
    (hk : ∀ s ∈ m.scopes, ∀ i ∈ s.instruments, s.library = lib → i.name = name → ∀ p ∈ i.points, kinds p.agg.dataKind)
    (h : Pointwise (ScopeOf true) m.scopes p.scopes) : Pointwise Rel (reportPoints lib name m) (pointsIn get lib name p) := by
  unfold pointsIn reportPoints
  rw [flatMap_filter_if]
  refine pointwise_flatMap h _ _ ?_
  intro s e hs hse
  by_cases hl : s.library = lib
  · rw [if_pos hl, hse.1, if_pos (by simpa using hl), flatMap_filter_if (fun m : PMetric => _)]
    refine pointwise_flatMap hse.2 _ _ ?_
    intro i pm hi hm
    rw [List.mem_filter] at hi
    by_cases hn : i.name = name
    · rw [if_pos hn, if_pos (by simpa [hm.1] using hn)]
      exact metric_points hx (hu s hs i hi.1) (by simpa using hi.2) (hk s hs i hi.1 hl hn) hm
    · rw [if_neg hn, if_neg (by simpa [hm.1] using hn)]
      exact pointwise_nil
  · rw [if_neg hl, hse.1, if_neg (by simpa using hl)]
    exact pointwise_nil

theorem reportPoints_metricsOf {R : Reader H} {lib : Library} {name : Str} {o : Out} (ho : Only R lib name o) (delta : Nat → Bool) (q : Times.Seq)
    (es : List (Sync.Emit (List KV) (Cell Bits H))) :
    reportPoints lib name (metricsOf R delta q es) = (instrumentOf R.toHist delta q es o).points := by
  have key : reportPoints lib name (metricsOf R delta q es) =
      (R.scopes.flatMap (fun sc => (sc.2.filter (fun o => sc.1 = lib ∧ o.name = name)))).flatMap
        (fun o => (instrumentOf R.toHist delta q es o).points) := by
    unfold reportPoints metricsOf
    rw [List.flatMap_map, List.flatMap_assoc]
    congr 1
    funext sc
    dsimp only
    rw [flatMap_filter_if, flatMap_filter_if, List.flatMap_map]
    by_cases hl : sc.1 = lib
    · rw [if_pos hl]
      congr 1
      funext o'
      by_cases hn : o'.name = name
      · rw [if_pos (show decide (sc.1 = lib ∧ o'.name = name) = true by simpa using ⟨hl, hn⟩)]
        have : (instrumentOf R.toHist delta q es o').name = name := hn
        rw [if_pos this]
        cases hps : (instrumentOf R.toHist delta q es o').points with
        | nil => rfl
        | cons p0 ps => rfl
      · rw [if_neg (show ¬ decide (sc.1 = lib ∧ o'.name = name) = true by simp [hn])]
        have : ¬ (instrumentOf R.toHist delta q es o').name = name := hn
        rw [if_neg this]
        split <;> rfl
    · rw [if_neg hl]
      symm
      refine List.flatMap_eq_nil_iff.2 ?_
      intro o' _
      rw [if_neg (show ¬ decide (sc.1 = lib ∧ o'.name = name) = true by simp [hl])]
  rw [key, ho]
  rw [List.flatMap_cons, List.flatMap_nil, List.append_nil]

/-- The kind of data of an output metric. -/
def Shape.kind : Shape → DataKind
  | .monotonic => .monotonic
  | .nonMonotonic => .nonMonotonic
  | .gauge => .gauge
  | .hist => .hist
  | .mmsc => .mmsc

/-- The points of an output metric of the reader and what is extracted from the payloads. -/
structure Follow (R : Reader H) (lib : Library) (name : Str) (o : Out) {D : Type} (get : PData → List D) (Rel : Point → D → Prop)
    (kinds : DataKind → Prop) : Prop where
  only : Only R lib name o
  extracts : Extracts get Rel kinds
  kind : kinds o.shape.kind

/-- The relation between collected and sent points of an output metric. -/
def EmitRel (R : Reader H) (o : Out) {D : Type} (Rel : Point → D → Prop) (e : Sync.Emit (List KV) (Cell Bits H)) (d : D) : Prop :=
  ∃ delta q, Rel (pointOf R.toHist delta q o e) d

/-- Every export of typed points succeeds, and the metric has the points collected, in order. -/
theorem export_ok {D : Type} {get : PData → List D} {Rel : Point → D → Prop} {kinds : DataKind → Prop} {R : Reader H} {lib : Library} {name : Str}
    {o : Out} (hf : Follow R lib name o get Rel kinds)
    {rm : ResourceMap} {out : PMap} (hc : copyAttributes [] R.resource = some out) (hrm : RmOk R.resource out rm) (delta : Nat → Bool) (q : Times.Seq)
    (es : List (Sync.Emit (List KV) (Cell Bits H))) (he : ∀ e ∈ es, Exportable e.key) :
    RmOk R.resource out (d2pd R.mapping rm (metricsOf R delta q es) true).1 ∧
    ∃ p, (d2pd R.mapping rm (metricsOf R delta q es) true).2 = some p ∧
      Pointwise (EmitRel R o Rel) (es.filter (fun e => e.leaf == o.leaf && e.kept)) (pointsIn get lib name p) := by
  have hu : ∀ s ∈ (metricsOf R delta q es).scopes, ∀ i ∈ s.instruments, Uniform i := by
    intro s hs i hi
    obtain ⟨sc, _, rfl⟩ := List.mem_map.1 hs
    obtain ⟨o', _, rfl⟩ := List.mem_map.1 hi
    exact instrumentOf_uniform _ _ _ _ _ he
  have hk : ∀ s ∈ (metricsOf R delta q es).scopes, ∀ i ∈ s.instruments, s.library = lib → i.name = name → ∀ p ∈ i.points, kinds p.agg.dataKind := by
    intro s hs i hi hl hn p hp
    obtain ⟨sc, hsc, rfl⟩ := List.mem_map.1 hs
    obtain ⟨o', ho', rfl⟩ := List.mem_map.1 hi
    have hmem : o' ∈ R.scopes.flatMap (fun sc => (sc.2.filter (fun o => sc.1 = lib ∧ o.name = name))) :=
      List.mem_flatMap.2 ⟨sc, hsc, List.mem_filter.2 ⟨ho', by simpa using ⟨hl, hn⟩⟩⟩
    rw [hf.only, List.mem_singleton] at hmem
    subst hmem
    obtain ⟨e, _, rfl⟩ := List.mem_map.1 hp
    have := hf.kind
    unfold pointOf aggOf
    dsimp only
    cases hsh : o'.shape <;> rw [hsh] at this <;> exact this
  obtain ⟨ss, h1, h2⟩ := mapM_pointwise (f := copyScope R.mapping true) (R := ScopeOf true)
    (fun s hs => copyScope_ok (m := R.mapping) (useExp := true) (hu s hs) (fun e => by cases e))
  obtain ⟨h3, h4⟩ := rm_get hrm hc
  refine ⟨h4, ⟨out, ss⟩, ?_, ?_⟩
  · unfold d2pd
    have : (metricsOf R delta q es).resource = R.resource := rfl
    dsimp only
    rw [this, h3, Option.bind_some, h1]
    rfl
  · have := pointsIn_report hf.extracts (p := ⟨out, ss⟩) hu hk h2
    rw [reportPoints_metricsOf hf.only] at this
    exact pointwise_imp (pointwise_map this) (fun e d _ h => ⟨_, _, h⟩)

/-! ### Runs -/

section
variable {farm : Str → UInt64} {u : Front.Setup (Cell Bits H)} {R : Reader H}

/-- The calls that start: those whose value passes the range test. -/
def started (acts : List Act) : List (Nat × List KV × Bits) :=
  acts.filterMap (fun a => match a with
    | .call i as n => if Front.rangeTest i.num n i.kind then some (i.id, i.attrs as, n) else none
    | _ => none)

/-- What is known after the actions `acts`. -/
structure Inv (farm : Str → UInt64) (u : Front.Setup (Cell Bits H)) (R : Reader H) (lib : Library) (name : Str) (o : Out) {D : Type}
    (get : PData → List D) (Rel : Point → D → Prop) (out : PMap) (acts : List Act) (x : Sys H) : Prop where
  reach : Sync.Reachable (Front.realCfg farm u) 0 x.s
  calls : Sync.CallsAre x.s (started acts)
  keys : Sync.KeysFrom (Front.realCfg farm u) TypedList x.s
  few : Sync.FewUpdates x.s
  rm : RmOk R.resource out x.rm
  seen : x.seen ≤ x.s.emits.length
  sent : Pointwise (EmitRel R o Rel) ((x.s.emits.reverse.take x.seen).filter (fun e => e.leaf == o.leaf && e.kept)) (sentPoints get lib name x.sent)

theorem reachable_snoc {AL KS N S : Type} [DecidableEq KS] {c : Sync.Cfg AL KS N S} {n0 : N} {s s' : Sync.State AL KS N S} {a : Sync.Action AL N}
    (h : Sync.Reachable c n0 s) (hs : Sync.step c s a = some s') : Sync.Reachable c n0 s' := by
  obtain ⟨acts, h⟩ := h
  refine ⟨acts ++ [a], ?_⟩
  have key : ∀ (acts : List (Sync.Action AL N)) (x : Sync.State AL KS N S), Sync.run c x acts = some s → Sync.run c x (acts ++ [a]) = some s' := by
    intro acts
    induction acts with
    | nil => intro x hx; cases hx; simp only [List.nil_append, Sync.run, hs]; rfl
    | cons b acts ih =>
      intro x hx
      rw [Sync.run] at hx
      rw [List.cons_append, Sync.run]
      cases hb : Sync.step c x b with
      | none => rw [hb] at hx; cases hx
      | some y => rw [hb] at hx; exact ih y hx
  exact key acts _ h

theorem mem_started {acts : List Act} {e : Nat × List KV × Bits} (he : e ∈ started acts) : ∃ i as n, Act.call i as n ∈ acts ∧ e = (i.id, i.attrs as, n) := by
  obtain ⟨a, ha, h⟩ := List.mem_filterMap.1 he
  cases a with
  | call i as n =>
    dsimp only at h
    split at h
    · cases h; exact ⟨i, as, n, ha, rfl⟩
    · cases h
  | sched a => cases h
  | «export» q => cases h

theorem typed_started {acts : List Act} (ht : Typed acts) : ∀ e ∈ started acts, TypedList e.2.1 := by
  intro e he
  obtain ⟨i, as, n, hm, rfl⟩ := mem_started he
  exact ht (i, as, n) (List.mem_filterMap.2 ⟨_, hm, rfl⟩)

theorem callsAre_all {s : Sync.State (List KV) (List KV) Bits (Cell Bits H)} {L : List (Nat × List KV × Bits)} (h : Sync.CallsAre s L)
    {P : List KV → Prop} (hP : ∀ e ∈ L, P e.2.1) : ∀ i, i < s.nextOp → P (s.op i).attrs := by
  intro i hi
  rw [h.1] at hi
  have h1 := h.2 i L[i] (List.getElem?_eq_getElem hi)
  rw [h1.2.1]
  exact hP _ (List.getElem_mem hi)

theorem take_reverse_prepend {α : Type} (pre l : List α) (n : Nat) (h : n ≤ l.length) : (pre ++ l).reverse.take n = l.reverse.take n := by
  rw [List.reverse_append, List.take_append_of_le_length (by simpa using h)]

theorem fresh_eq {x : Sys H} (h : x.seen ≤ x.s.emits.length) : x.s.emits.reverse = x.s.emits.reverse.take x.seen ++ fresh x := by
  unfold fresh
  have h1 : (x.s.emits.take (x.s.emits.length - x.seen)).reverse = x.s.emits.reverse.drop x.seen := by
    rw [List.drop_reverse]
  rw [h1, List.take_append_drop]

theorem Inv.machine {D : Type} {get : PData → List D} {Rel : Point → D → Prop} {lib : Library} {name : Str} {o : Out} {out : PMap} {acts : List Act} {x : Sys H} (h : Inv farm u R lib name o get Rel out acts x)
    {b : Sync.Action (List KV) Bits} {s' : Sync.State (List KV) (List KV) Bits (Cell Bits H)}
    (hs : Sync.step (Front.realCfg farm u) x.s b = some s') {acts' : List Act} (hc : Sync.CallsAre s' (started acts')) (ht : Typed acts') :
    Inv farm u R lib name o get Rel out acts' { x with s := s' } := by
  have hm := Sync.reachable_more h.reach
  have hst := hm.full.inv.step_sound hs
  obtain ⟨pre, hpre⟩ := Sync.emits_grow ⟨[], rfl⟩ hst
  refine ⟨reachable_snoc h.reach hs, hc, h.keys.preserved overflow_typed hm.full.inv.wf hst (callsAre_all hc (typed_started ht)),
    h.few.preserved hm.full.inv.wf hst, h.rm, ?_, ?_⟩
  · dsimp only
    rw [hpre, List.length_append]
    exact Nat.le_trans h.seen (Nat.le_add_left _ _)
  · dsimp only
    rw [hpre, take_reverse_prepend _ _ _ h.seen]
    exact h.sent

theorem started_snoc (acts : List Act) (a : Act) : started (acts ++ [a]) = started acts ++ started [a] := List.filterMap_append

theorem Inv.step {D : Type} {get : PData → List D} {Rel : Point → D → Prop} {kinds : DataKind → Prop} {lib : Library} {name : Str} {o : Out} {out : PMap} {acts : List Act} {x x' : Sys H} (h : Inv farm u R lib name o get Rel out acts x)
    (ho : Follow R lib name o get Rel kinds) (hc : copyAttributes [] R.resource = some out) {a : Act}
    (ht : Typed (acts ++ [a])) (hs : step (Front.realCfg farm u) R x a = some x') : Inv farm u R lib name o get Rel out (acts ++ [a]) x' := by
  cases a with
  | call i as n =>
    simp only [Pipeline.step, Option.some.injEq] at hs
    subst hs
    unfold Front.observe
    dsimp only
    by_cases hr : Front.rangeTest i.num n i.kind = true
    · rw [if_pos hr]
      have hst : Sync.step (Front.realCfg farm u) x.s (.observe i.id (i.attrs as) n) = some _ := rfl
      rw [hst]
      dsimp only
      refine h.machine hst ?_ ht
      have := h.calls.observe hst
      rw [started_snoc]
      have he : started [Act.call i as n] = [(i.id, i.attrs as, n)] := by simp [started, hr]
      rw [he]
      exact this
    · rw [if_neg hr]
      have he : started (acts ++ [Act.call i as n]) = started acts := by
        rw [started_snoc]
        have : started [Act.call i as n] = [] := by simp [started, hr]
        rw [this, List.append_nil]
      refine ⟨h.reach, ?_, h.keys, h.few, h.rm, h.seen, h.sent⟩
      rw [he]
      exact h.calls
  | sched b =>
    simp only [Pipeline.step] at hs
    split at hs
    · cases hs
    · rename_i hb
      cases hst : Sync.step (Front.realCfg farm u) x.s b with
      | none => rw [hst] at hs; cases hs
      | some s' =>
        rw [hst] at hs
        cases hs
        refine h.machine hst ?_ ht
        have he : started (acts ++ [Act.sched b]) = started acts := by
          rw [started_snoc]
          exact List.append_nil _
        rw [he]
        refine h.calls.step (Sync.reachable_more h.reach).full.inv hst ?_
        intro o' x' n' e
        rw [e] at hb
        exact hb rfl
  | «export» q =>
    simp only [Pipeline.step, Option.some.injEq] at hs
    subst hs
    have hex : ∀ e ∈ fresh x, Exportable e.key := by
      intro e he
      have : e ∈ x.s.emits := by
        rw [← List.mem_reverse, fresh_eq h.seen]
        exact List.mem_append_right _ he
      exact key_exportable (h.keys.emits e this)
    obtain ⟨h1, p, h2, h3⟩ := export_ok ho hc h.rm (Front.realCfg farm u).delta q (fresh x) hex
    have he : started (acts ++ [Act.export q]) = started acts := by
      rw [started_snoc]
      exact List.append_nil _
    refine ⟨h.reach, by rw [he]; exact h.calls, h.keys, h.few, h1, Nat.le_refl _, ?_⟩
    dsimp only
    rw [h2]
    have he2 : sentPoints get lib name (x.sent ++ (some p).toList) = sentPoints get lib name x.sent ++ pointsIn get lib name p := by
      unfold sentPoints
      rw [List.flatMap_append, Option.toList_some, List.flatMap_cons, List.flatMap_nil, List.append_nil]
    have hl : x.s.emits.length = x.s.emits.reverse.length := by rw [List.length_reverse]
    rw [he2, hl, List.take_length, fresh_eq h.seen, List.filter_append]
    exact pointwise_append h.sent h3

theorem Inv.run {D : Type} {get : PData → List D} {Rel : Point → D → Prop} {kinds : DataKind → Prop} {lib : Library} {name : Str} {o : Out} {out : PMap} {more acts : List Act} {x x' : Sys H} (h : Inv farm u R lib name o get Rel out acts x)
    (ho : Follow R lib name o get Rel kinds) (hc : copyAttributes [] R.resource = some out)
    (ht : Typed (acts ++ more)) (hs : Pipeline.run (Front.realCfg farm u) R x more = some x') : Inv farm u R lib name o get Rel out (acts ++ more) x' := by
  induction more generalizing acts x with
  | nil => cases hs; rw [List.append_nil]; exact h
  | cons a more ih =>
    rw [Pipeline.run] at hs
    cases ha : Pipeline.step (Front.realCfg farm u) R x a with
    | none => rw [ha] at hs; cases hs
    | some y =>
      rw [ha] at hs
      have ht' : Typed (acts ++ [a]) := by
        intro e he
        refine ht e ?_
        have e1 : acts ++ a :: more = (acts ++ [a]) ++ more := by rw [List.append_assoc]; rfl
        rw [e1]
        unfold Pipeline.calls at he ⊢
        rw [List.filterMap_append]
        exact List.mem_append_left _ he
      have := ih (h.step ho hc ht' ha) (by rw [List.append_assoc]; exact ht) hs
      rw [List.append_assoc] at this
      exact this

theorem Inv.initial {D : Type} {get : PData → List D} {Rel : Point → D → Prop} {lib : Library} {name : Str} {o : Out} {out : PMap} : Inv farm u R lib name o get Rel out [] (Pipeline.initial (Front.realCfg farm u)) where
  reach := ⟨[], rfl⟩
  calls := ⟨rfl, by intro i e he; cases he⟩
  keys := Sync.KeysFrom.initial overflow_typed 0
  few := Sync.FewUpdates.initial 0
  rm := by intro i hi; cases hi
  seen := Nat.le_refl 0
  sent := pointwise_nil

/-! ### The machine inside the pipeline -/

/-- The machine's actions in a run of the system. -/
def proj (acts : List Act) : List (Sync.Action (List KV) Bits) :=
  acts.filterMap (fun a => match a with
    | .call i as n => if Front.rangeTest i.num n i.kind then some (.observe i.id (i.attrs as) n) else none
    | .sched a => some a
    | .export _ => none)

theorem run_proj {c : Sync.Cfg (List KV) (List KV) Bits (Cell Bits H)} {acts : List Act} {x x' : Sys H} (h : Pipeline.run c R x acts = some x') :
    Sync.run c x.s (proj acts) = some x'.s := by
  induction acts generalizing x with
  | nil => cases h; rfl
  | cons a acts ih =>
    rw [Pipeline.run] at h
    cases ha : Pipeline.step c R x a with
    | none => rw [ha] at h; cases h
    | some y =>
      rw [ha] at h
      have hy := ih h
      cases a with
      | call i as n =>
        simp only [Pipeline.step, Option.some.injEq] at ha
        subst ha
        unfold Front.observe at hy
        dsimp only at hy
        by_cases hr : Front.rangeTest i.num n i.kind = true
        · have e : proj (Act.call i as n :: acts) = .observe i.id (i.attrs as) n :: proj acts := by simp [proj, hr]
          rw [e, Sync.run]
          rw [if_pos hr] at hy
          exact hy
        · have e : proj (Act.call i as n :: acts) = proj acts := by simp [proj, hr]
          rw [e]
          rw [if_neg hr] at hy
          exact hy
      | sched b =>
        simp only [Pipeline.step] at ha
        split at ha
        · cases ha
        · cases hst : Sync.step c x.s b with
          | none => rw [hst] at ha; cases ha
          | some s' =>
            rw [hst] at ha
            cases ha
            have e : proj (Act.sched b :: acts) = b :: proj acts := rfl
            rw [e, Sync.run, hst]
            exact hy
      | «export» q =>
        simp only [Pipeline.step, Option.some.injEq] at ha
        subst ha
        exact hy

theorem run_append {c : Sync.Cfg (List KV) (List KV) Bits (Cell Bits H)} {as bs : List Act} {x x' : Sys H}
    (h : Pipeline.run c R x (as ++ bs) = some x') : ∃ y, Pipeline.run c R x as = some y ∧ Pipeline.run c R y bs = some x' := by
  induction as generalizing x with
  | nil => exact ⟨x, rfl, h⟩
  | cons a as ih =>
    rw [List.cons_append, Pipeline.run] at h
    cases ha : Pipeline.step c R x a with
    | none => rw [ha] at h; cases h
    | some y =>
      rw [ha] at h
      obtain ⟨z, h1, h2⟩ := ih h
      exact ⟨z, by rw [Pipeline.run, ha]; exact h1, h2⟩

end

end Verif.Pipeline

namespace Verif.Sync
variable {AL KS N S : Type} [DecidableEq KS] {c : Cfg AL KS N S} {s s' : State AL KS N S}

theorem nextOp_mono {a : Action AL N} (hs : step c s a = some s') : s.nextOp ≤ s'.nextOp := by
  cases a with
  | observe o x n => simp only [step, Option.some.injEq] at hs; rw [← hs]; exact Nat.le_succ _
  | snapshot o => exact Nat.le_of_eq (nextOp_step (by simp) hs).symm
  | collect o => exact Nat.le_of_eq (nextOp_step (by simp) hs).symm
  | op o => exact Nat.le_of_eq (nextOp_step (by simp) hs).symm
  | task t o => exact Nat.le_of_eq (nextOp_step (by simp) hs).symm

theorem nextOp_run {acts : List (Action AL N)} (hm : More c s) (hr : run c s acts = some s') : s.nextOp ≤ s'.nextOp := by
  induction acts generalizing s with
  | nil => cases hr; exact Nat.le_refl _
  | cons a as ih =>
    rw [Sync.run] at hr
    cases hs : step c s a with
    | none => rw [hs] at hr; cases hr
    | some y =>
      rw [hs] at hr
      refine Nat.le_trans ?_ (ih (hm.step hs) hr)
      exact nextOp_mono hs

/-- With few calls the counters do not wrap at any time in a run. -/
theorem FewUpdates.along {acts : List (Action AL N)} {o : Nat} (hm : More c s) (hf : FewUpdates s) (hr : run c s acts = some s')
    (hn : s'.nextOp < c.W) : Along c (NoWrap c o) s acts := by
  induction acts generalizing s with
  | nil => cases hr; exact hf.noWrap hn o
  | cons a as ih =>
    have h0 := nextOp_run hm hr
    rw [Sync.run] at hr
    cases hs : step c s a with
    | none => rw [hs] at hr; cases hr
    | some y =>
      rw [hs] at hr
      refine ⟨hf.noWrap (by omega) o, ?_⟩
      intro y' hy'
      rw [hs] at hy'
      cases hy'
      exact ih (hm.step hs) (hf.preserved hm.full.inv.wf (hm.full.inv.step_sound hs)) hr

/-- If each call on an instrument feeding a delta view is neither in accumulators nor in the view's series, nothing of the view is left in memory. -/
theorem nothing_left (hm : More c s) {l : Nat} (hd : c.delta l = true) (hall : ∀ i, i < s.nextOp → (s.op i).pc = .done)
    (hg : ∀ i, i < s.nextOp → l ∈ c.leavesOf (s.op i).obs → Gone s i ∧
      ∀ h sq, h < s.nextHold → (s.hold h).leaf = l → ¬ (i, sq) ∈ (s.hold h).store.ops) :
    inAccsAll s l = [] ∧ inSeriesAll s l = [] := by
  have hp := view_cons hm hd
  have fed : ∀ x : Nat × Nat, x ∈ appliedAll s l → x.1 < s.nextOp ∧ l ∈ c.leavesOf (s.op x.1).obs := by
    intro x hx
    unfold appliedAll at hx
    obtain ⟨⟨l', k, x'⟩, h1, h2⟩ := List.mem_map.1 hx
    rw [List.mem_filter] at h1
    have hl : l' = l := by simpa using h1.2
    dsimp only at h2
    subst hl h2
    have hlt := applied_lt hm.full.vals.p.prog hm.full.inv.wf (i := x'.1) (sq := x'.2) h1.1
    refine ⟨hlt, ?_⟩
    have hc := hm.full.vals.p.prog x'.1 l'
    rw [done_prog (hall _ hlt)] at hc
    rw [← List.count_pos_iff, ← hc, List.countP_pos_iff]
    exact ⟨_, h1.1, by simp⟩
  constructor
  · rw [List.eq_nil_iff_forall_not_mem]
    intro x hx
    have hf := fed x (hp.mem_iff.2 (List.mem_append_left _ (List.mem_append_right _ hx)))
    obtain ⟨a, h1, h2⟩ := List.mem_flatMap.1 hx
    have ha : a < s.nextAcc := by simpa using (List.mem_filter.1 h1).1
    have := (hg x.1 hf.1 hf.2).1 a x.2 ha
    rcases List.mem_append.1 h2 with h | h
    · exact this.1 h
    · exact this.2 h
  · rw [List.eq_nil_iff_forall_not_mem]
    intro x hx
    have hf := fed x (hp.mem_iff.2 (List.mem_append_right _ hx))
    obtain ⟨e, h1, h2⟩ := List.mem_flatMap.1 hx
    have hok := hm.full.inv.wf.dataOk l e.1 e.2 h1
    exact (hg x.1 hf.1 hf.2).2 e.2 x.2 hok.1 hok.2.1 h2

end Verif.Sync
