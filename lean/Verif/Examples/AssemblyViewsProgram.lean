import Verif.Examples.AssemblyProgram
import Verif.Proof.AssemblyViews

/-!
A program whose instruments are shown through views: two counters as one, with one selected key; a histogram without attributes; a gauge under two names; a counter
twice under one name; a counter with a hint in its description; a counter with a hint which two clauses show under two names.
-/

namespace Verif.Examples.AsmV
open Verif Verif.Attr Verif.Number Verif.Aggr Verif.Export Verif.Pipeline Verif.Assembly Verif.Instruments Verif.Examples Verif.Examples.Asm
open Verif.Examples.Pipe (kvb ops tasks q0)
open Verif.Views (Views AggKind Tempo lit)

/-- The clauses: `m` and `n` are shown as `y`, keeping the attribute `a`; histograms as `x`, keeping no attributes, with this aggregation and configuration; the gauge under
its own name and as `gg`; the counter `d` twice as `dd`; the counter `q` as `qq`, keeping the attribute `a`, and under its own name. -/
def clauses (a : AggKind) : List (Views.Clause Nat) :=
  [{ Props.ViewEx.any with name := lit "m", rename := some (fun _ => lit "y"), keys := some [lit "a"], acfg := ⟨0, 4⟩ },
   { Props.ViewEx.any with name := lit "n", rename := some (fun _ => lit "y"), keys := some [lit "a", lit "a"], acfg := ⟨0, 4⟩ },
   { Props.ViewEx.any with ikind := some .syncHistogram, rename := some (fun _ => lit "x"), keys := some [], agg := a, acfg := ⟨7, 3⟩ },
   { Props.ViewEx.any with name := lit "g", acfg := ⟨0, 4⟩ },
   { Props.ViewEx.any with name := lit "g", rename := some (fun s => s ++ s), acfg := ⟨0, 4⟩ },
   { Props.ViewEx.any with name := lit "d", rename := some (fun s => s ++ s), agg := .nonMonoSum, acfg := ⟨0, 4⟩ },
   { Props.ViewEx.any with name := lit "d", rename := some (fun s => s ++ s), agg := .nonMonoSum, acfg := ⟨0, 4⟩ },
   { Props.ViewEx.any with name := lit "q", rename := some (fun s => s ++ s), keys := some [lit "a"], acfg := ⟨0, 4⟩ },
   { Props.ViewEx.any with name := lit "q", acfg := ⟨0, 4⟩ }]

/-- The reader: counters have this temporality, gauges and histograms the other. -/
def v (t t' : Tempo) (a : AggKind) : Views Nat where
  name := lit "reader"
  clauses := clauses a
  defaults := { agg := Views.standardAgg, tempo := fun k => if k = .syncHistogram ∨ k = .syncGauge then t' else t,
                int64 := fun _ => ⟨0, 4⟩, float64 := fun _ => ⟨0, 4⟩ }
  perfLimit := 4

def cs : List (Provider.Call Nat) :=
  [.meter scA, .instrument 0 (Ctor.int64Counter.desc (lit "m") [] (lit "s")), .instrument 0 (Ctor.int64Counter.desc (lit "n") (lit "B") (lit "s")),
   .instrument 0 (Ctor.float64Histogram.desc (lit "h") [] (lit "s")), .instrument 0 (Ctor.int64Gauge.desc (lit "g") [] []),
   .instrument 0 (Ctor.int64UpDownCounter.desc (lit "d") [] []), .instrument 0 (Ctor.int64Counter.desc (lit "o") (lit "{minmaxsumcount") []),
   .instrument 0 (Ctor.int64Counter.desc (lit "q") (lit "{minmaxsumcount") [])]

def views (t t' : Tempo) (a : AggKind) : List (Views Nat) := [v t t' a]

def p (t t' : Tempo) (a : AggKind) : Provider.Provider Nat Nat := Provider.run Props.ViewEx.x (Provider.new (views t t' a)) cs

def cfg (t t' : Tempo) (a : AggKind) : Sync.Cfg (List KV) (List KV) Bits (Cell Bits (List Bits)) := Front.realCfg (fun _ => 0) (setup w (p t t' a))

def rd (t t' : Tempo) (a : AggKind) : Reader (List Bits) := reader w (p t t' a) 0

def im : Front.Inst := { id := 0, kind := .syncCounter, num := .int64, sizeLimit := 100, proc := none }
def in' : Front.Inst := { id := 2, kind := .syncCounter, num := .int64, sizeLimit := 100, proc := none }
def ih : Front.Inst := { id := 4, kind := .syncHistogram, num := .float64, sizeLimit := 100, proc := none }
def ig : Front.Inst := { id := 6, kind := .syncGauge, num := .int64, sizeLimit := 100, proc := none }
def id' : Front.Inst := { id := 8, kind := .syncUpDownCounter, num := .int64, sizeLimit := 100, proc := none }
def io : Front.Inst := { id := 10, kind := .syncCounter, num := .int64, sizeLimit := 100, proc := none }

def iq : Front.Inst := { id := 12, kind := .syncCounter, num := .int64, sizeLimit := 100, proc := none }

def kab : List KV := [kvb 97 true, kvb 98 true]

/-- Calls on the two counters shown under one name overlap; one call has a negative value. -/
def acts (t t' : Tempo) : List Pipeline.Act :=
  [.call im kab 7, .call in' ka 5] ++ ops 0 9 ++ ops 1 9 ++ [.call im ka (-1)] ++ [.call ih ka one] ++ ops 2 9 ++ [.call ig ka 3] ++ ops 3 12 ++
  [.call id' kb 3] ++ ops 4 12 ++ [.call io ka 100] ++ ops 5 9 ++
  [.sched (.snapshot 0)] ++ tasks 0 8 ++ [.sched (.snapshot 4)] ++ tasks 1 8 ++ [.sched (.collect 0)] ++ tasks 2 (by' t 4 3) ++
  [.sched (.collect 4)] ++ tasks 3 (by' t' 4 3) ++ [.export q0] ++
  [.call in' kab 2] ++ ops 6 9 ++ [.call ih kb two] ++ ops 7 9 ++ [.call ig ka 4] ++ ops 8 9 ++ [.call ig kb 6] ++ ops 9 12 ++ [.call id' kb (-1)] ++ ops 10 9 ++
  [.call iq kab 100] ++ ops 11 12 ++ [.call iq ka 200] ++ ops 12 12

/-- The last collection of all output metrics. -/
def pieces (t t' : Tempo) : List Piece :=
  [⟨true, 0, 4, 3⟩, ⟨true, 2, 5, 14⟩, ⟨true, 4, 6, 9⟩, ⟨true, 6, 7, 20⟩, ⟨true, 8, 8, 11⟩, ⟨true, 10, 9, 8⟩, ⟨true, 12, 10, 20⟩,
   ⟨false, 0, 11, by' t 4 3⟩, ⟨false, 4, 12, by' t' 4 3⟩, ⟨false, 8, 13, by' t' 6 4⟩, ⟨false, 12, 14, by' t' 6 4⟩, ⟨false, 16, 15, by' t 4 3⟩, ⟨false, 20, 16, by' t 4 3⟩,
   ⟨false, 24, 17, by' t 4 3⟩, ⟨false, 28, 18, by' t 6 4⟩]

def coll (t t' : Tempo) : List Pipeline.Act := flat (pieces t t') ++ [.export q0]

def stages (t t' : Tempo) (a : AggKind) : Option Stages :=
  (Pipeline.run (cfg t t' a) (rd t t' a) (initial (cfg t t' a)) (acts t t')).bind fun x => (states (cfg t t' a) (rd t t' a) x (pieces t t')).bind fun r =>
    (Pipeline.step (cfg t t' a) (rd t t' a) r.2 (.export q0)).bind fun x' => some ⟨x, r, x'⟩

/-- The instruments called, and their numbers. -/
def insts : List (Front.Inst × Nat) := [(im, 0), (in', 1), (ih, 2), (ig, 3), (id', 4), (io, 5), (iq, 6)]

/-- The descriptors of the instruments called. -/
def known (t t' : Tempo) (a : AggKind) : Bool :=
  insts.all fun e =>
    match (p t t' a).ordered[0]? with
    | none => false
    | some m => match m.insts[e.2]? with
      | none => false
      | some o => o.desc.kind = e.1.kind && o.desc.num = e.1.num && o.desc.kind.synchronous && e.1.id = instAddr 0 e.2

/-- The instruments. -/
def small (t t' : Tempo) (a : AggKind) : Bool := (p t t' a).ordered.map (fun m => m.insts.length) = [7]

attribute [irreducible] p

theorem known_spec {t t' : Tempo} {a : AggKind} (h : known t t' a = true) {i : Front.Inst} {j : Nat}
    (hi : (i, j) ∈ insts) (hp : i.proc = none) (hs : i.sizeLimit = 100) :
    ∃ k i' m o proc, (p t t' a).ordered[k]? = some m ∧ m.insts[i']? = some o ∧ o.desc.kind.synchronous = true ∧ i = instrument w k i' o proc := by
  unfold known at h
  have h1 := List.all_eq_true.1 h _ hi
  cases hm : (p t t' a).ordered[0]? with
  | none => rw [hm] at h1; cases h1
  | some m =>
    cases ho : m.insts[j]? with
    | none => rw [hm] at h1; dsimp only at h1; rw [ho] at h1; cases h1
    | some o =>
      rw [hm] at h1
      dsimp only at h1
      rw [ho] at h1
      simp only [Bool.and_eq_true, decide_eq_true_eq] at h1
      refine ⟨0, j, m, o, none, hm, ho, h1.1.2, ?_⟩
      cases i
      simp only at hp hs
      subst hp hs
      unfold instrument
      rw [h1.1.1.1, h1.1.1.2, ← h1.2]
      rfl

def called : List (Front.Inst × List KV × Bits) :=
  [(im, kab, 7), (in', ka, 5), (im, ka, -1), (ih, ka, one), (ig, ka, 3), (id', kb, 3), (io, ka, 100), (in', kab, 2), (ih, kb, two), (ig, ka, 4), (ig, kb, 6), (id', kb, -1),
   (iq, kab, 100), (iq, ka, 200)]

theorem calls_acts (t t' : Tempo) : Pipeline.calls (acts t t') = called := by
  unfold acts
  simp only [calls_append, calls_tasks, calls_ops]
  rfl

theorem called_insts : ∀ e ∈ called, ∃ j, (e.1, j) ∈ insts ∧ e.1.proc = none ∧ e.1.sizeLimit = 100 := by
  intro e he
  have : e.1 = im ∨ e.1 = in' ∨ e.1 = ih ∨ e.1 = ig ∨ e.1 = id' ∨ e.1 = io ∨ e.1 = iq := by
    simp only [called, List.mem_cons, List.not_mem_nil, or_false] at he
    rcases he with rfl | rfl | rfl | rfl | rfl | rfl | rfl | rfl | rfl | rfl | rfl | rfl | rfl | rfl <;> simp
  rcases this with h | h | h | h | h | h | h <;> rw [h]
  · exact ⟨0, by simp [insts], rfl, rfl⟩
  · exact ⟨1, by simp [insts], rfl, rfl⟩
  · exact ⟨2, by simp [insts], rfl, rfl⟩
  · exact ⟨3, by simp [insts], rfl, rfl⟩
  · exact ⟨4, by simp [insts], rfl, rfl⟩
  · exact ⟨5, by simp [insts], rfl, rfl⟩
  · exact ⟨6, by simp [insts], rfl, rfl⟩

theorem leavesOf_lt {t t' : Tempo} {a : AggKind} (h : small t t' a = true) {l o : Nat} (hl : l ∈ leavesOf (p t t' a) o) : o ∈ [0, 2, 4, 6, 8, 10, 12] := by
  have h := of_decide_eq_true h
  unfold leavesOf instAt at hl
  cases hm : (p t t' a).ordered[(unpair o).1]? with
  | none => rw [hm] at hl; cases hl
  | some m =>
    cases ho : m.insts[(unpair o).2]? with
    | none => rw [hm, Option.bind_some, ho] at hl; cases hl
    | some i =>
      have h1 : ((p t t' a).ordered.map (fun m => m.insts.length))[(unpair o).1]? = some m.insts.length := by rw [List.getElem?_map, hm]; rfl
      have h2 : (unpair o).2 < m.insts.length := (List.getElem?_eq_some_iff.1 ho).1
      rw [h] at h1
      have h3 : o = pair (unpair o).1 (unpair o).2 := (pair_unpair o).symm
      rw [h3]
      clear h3 hl hm ho
      generalize (unpair o).2 = b at h2 ⊢
      generalize (unpair o).1 = a at h1 ⊢
      match a, h1 with
      | 0, h1 =>
        simp only [List.getElem?_cons_zero, Option.some.injEq] at h1
        rw [← h1] at h2
        match b, h2 with
        | 0, _ | 1, _ | 2, _ | 3, _ | 4, _ | 5, _ | 6, _ => decide
      | _ + 1, h1 => simp at h1

theorem snaps {t t' : Tempo} {o : Nat} (ho : o ∈ [0, 2, 4, 6, 8, 10, 12]) : ∃ q ∈ pieces t t', q.snap = true ∧ q.id = o := by
  simp only [List.mem_cons, List.not_mem_nil, or_false] at ho
  rcases ho with rfl | rfl | rfl | rfl | rfl | rfl | rfl <;> simp [pieces]

/-- Snapshots come first. -/
theorem snap_before {t t' : Tempo} {q : Piece} (hq : q.snap = false) {a b : List Piece} (h : pieces t t' = a ++ q :: b) :
    ∀ q' ∈ pieces t t', q'.snap = true → q' ∈ a := by
  intro q' hq' hs
  have hp : ∀ q'' ∈ b, q''.snap = false := by
    have hw : (pieces t t').Pairwise (fun q q' => q.snap = false → q'.snap = false) := by
      simp [pieces]
    rw [h] at hw
    exact fun q'' hq'' => (List.pairwise_cons.1 (List.pairwise_append.1 hw).2.1).1 q'' hq'' hq
  rw [h] at hq'
  rcases List.mem_append.1 hq' with h1 | h1
  · exact h1
  · rcases List.mem_cons.1 h1 with rfl | h1
    · rw [hq] at hs; cases hs
    · rw [hp _ h1] at hs; cases hs

/-- The output metrics of the reader. -/
def outputs (t t' : Tempo) (a : AggKind) : Bool := ((rd t t' a).scopes.flatMap (·.2)).all (fun o => [0, 4, 8, 12, 16, 20, 24, 28].contains o.leaf)

theorem program {t t' : Tempo} {a : AggKind} {s : Stages} (hs : stages t t' a = some s) (hg : Good s.x s.r) (hk : known t t' a = true) (hm : small t t' a = true)
    (ho : outputs t t' a = true) : Program (fun _ => 0) w (p t t' a) 0 (acts t t') (coll t t') s.x s.x' := by
  unfold stages at hs
  simp only [Option.bind_eq_some_iff, Option.some.injEq] at hs
  obtain ⟨x, h1, r, h2, x', h3, e⟩ := hs
  subst e
  obtain ⟨l, z⟩ := r
  obtain ⟨g1, g2⟩ := hg
  refine ⟨by unfold Exportable; decide, ?_, ?_, by rw [calls_acts]; decide, h1, g1, ?_, ?_⟩
  · intro e he
    rw [calls_acts] at he
    obtain ⟨j, h1, h2, h3⟩ := called_insts e he
    exact known_spec hk h1 h2 h3
  · intro e he
    rw [calls_acts] at he
    have : ∀ e ∈ called, (e.1.attrs e.2.1).all (fun kv => decide (kv.val ≠ .invalid)) = true := by
      decide
    have := this e he
    rw [List.all_eq_true] at this
    exact fun kv hkv => of_decide_eq_true (this kv hkv)
  · intro sc hsc o hout _
    have hleaf := List.all_eq_true.1 ho o (List.mem_flatMap.2 ⟨sc, hsc, hout⟩)
    have : ∃ q ∈ pieces t t', q.snap = false ∧ q.id = o.leaf := by
      simp only [List.contains_eq_mem, List.mem_cons, List.not_mem_nil, or_false, decide_eq_true_eq] at hleaf
      rcases hleaf with e | e | e | e | e | e | e | e <;> rw [e] <;> simp [pieces]
    obtain ⟨q, hq, hqs, hqi⟩ := this
    have hmem : ∃ y, (q, y) ∈ l := by
      rw [← states_pieces h2] at hq
      obtain ⟨⟨q', y⟩, hqy, e⟩ := List.mem_map.1 hq
      cases e
      exact ⟨y, hqy⟩
    obtain ⟨y, hy⟩ := hmem
    obtain ⟨qa, qb, l1, l2, e1, e2, e3, e4⟩ := states_split h2 hy
    obtain ⟨g3, g4⟩ := g2 _ hy hqs
    have hhead : q.acts = .sched (.collect o.leaf) :: tasks q.task q.n := by
      unfold Piece.acts Piece.head
      rw [hqs, hqi]
      rfl
    have hrun : flat (q :: qb) = .sched (.collect o.leaf) :: (tasks q.task q.n ++ flat qb) := by
      show q.acts ++ flat qb = _
      rw [hhead]
      rfl
    refine ⟨flat qa, tasks q.task q.n ++ flat qb, y, z, q0, ?_, states_run e3, hrun ▸ e4, h3, g3, ?_⟩
    · unfold coll
      rw [e1]
      show (List.map Piece.acts (qa ++ q :: qb)).flatten ++ _ = _
      rw [List.map_append, List.flatten_append]
      show (flat qa ++ flat (q :: qb)) ++ _ = _
      rw [hrun]
    · intro i hi
      obtain ⟨qs, hqs1, hqs2, hqs3⟩ := snaps (t := t) (t' := t') (leavesOf_lt hm hi)
      have hin := snap_before hqs e1 qs hqs1 hqs2
      rw [← states_pieces e3] at hin
      obtain ⟨⟨q', y'⟩, hqy, e⟩ := List.mem_map.1 hin
      cases e
      obtain ⟨a', b', l1', l2', e1', e2', e3', e4'⟩ := states_split e3 hqy
      have hq' : q'.acts = .sched (.snapshot i) :: tasks q'.task q'.n := by
        unfold Piece.acts Piece.head
        rw [if_pos hqs2, ← hqs3]
      refine ⟨flat a', tasks q'.task q'.n ++ flat b', y', ?_, states_run e3', g4 _ (by rw [e2]; exact List.mem_append_left _ hqy) hqs2⟩
      rw [e1']
      show (List.map Piece.acts (a' ++ q' :: b')).flatten = _
      rw [List.map_append, List.flatten_append]
      show flat a' ++ (q'.acts ++ flat b') = _
      rw [hq']
      rfl
  · unfold coll
    show List.filterMap _ (flat (pieces t t') ++ _) = []
    rw [List.filterMap_append]
    exact (congrArg (· ++ _) (calls_flat _))

theorem noEmpty (t t' : Tempo) : ∀ e ∈ Pipeline.calls (acts t t'), NoEmptyList (e.1.attrs e.2.1) := by
  intro e he kv hkv
  rw [calls_acts] at he
  have h : ∀ e ∈ called,
      (e.1.attrs e.2.1).all (fun kv => decide (kv.val ≠ .bools [] ∧ kv.val ≠ .ints [] ∧ kv.val ≠ .floats [] ∧ kv.val ≠ .strs [])) = true := by
    decide
  have := h e he
  rw [List.all_eq_true] at this
  exact of_decide_eq_true (this kv hkv)

/-- What is to be evaluated for a program. -/
def evaluated (t t' : Tempo) (a : AggKind) : Bool :=
  known t t' a && small t t' a && outputs t t' a && match stages t t' a with | none => false | some s => decide (Good s.x s.r)

theorem of_evaluated {t t' : Tempo} {a : AggKind} (h : evaluated t t' a = true) :
    ∃ s, Program (fun _ => 0) w (p t t' a) 0 (acts t t') (coll t t') s.x s.x' ∧ stages t t' a = some s := by
  simp only [evaluated, Bool.and_eq_true] at h
  cases hs : stages t t' a with
  | none => rw [hs] at h; exact absurd h.2 (by simp)
  | some s =>
    rw [hs] at h
    exact ⟨s, program hs (of_decide_eq_true h.2) h.1.1.1 h.1.1.2 h.1.2, rfl⟩

/-! ### Evaluating what a user knows -/

section Checks
variable {ν : Type}

/-- Evaluates `ways`. -/
def waysB (v : Views Nat) (sc : Views.Scope) (d : Views.Desc) (n : Str) : List (Option (Views.Clause Nat)) :=
  if v.clauses.any (fun cl => Views.matches cl sc d) then
    (v.clauses.filter (fun cl => Views.matches cl sc d && cl.agg ≠ .drop && cl.newName d.name = n)).map some
  else if v.defaults.agg d.kind ≠ .drop ∧ d.name = n then [none] else []

theorem ways_eq (v : Views Nat) (sc : Views.Scope) (d : Views.Desc) (n : Str) : ways v sc d n = waysB v sc d n := by
  have h : (∃ cl ∈ v.clauses, Views.Applies cl sc d) ↔ v.clauses.any (fun cl => Views.matches cl sc d) = true := by
    simp only [List.any_eq_true, Props.C26_matches_iff]
  unfold ways waysB
  by_cases he : ∃ cl ∈ v.clauses, Views.Applies cl sc d
  · rw [if_pos he, if_pos (h.1 he)]
    congr 1
    refine List.filter_congr fun cl _ => ?_
    rw [Bool.eq_iff_iff]
    simp only [decide_eq_true_eq, Bool.and_eq_true, Props.C26_matches_iff, and_assoc]
  · rw [if_neg he, if_neg (fun h' => he (h.2 h'))]

/-- Evaluates `LooksLike`. -/
def looksB (v : Views Nat) (d : Views.Desc) (way : Option (Views.Clause Nat)) (keys : List Str → List Str) (L : Look Nat) : Bool :=
  d.kind.synchronous = L.sync && (Views.checkKind d.kind (asked v d way)).1 = L.kind && d.num = L.num && d.unit = L.unit &&
    (way.bind (·.keys)).map keys = L.keys && config v d way = L.acfg &&
    L.delta = (decide (v.defaults.tempo d.kind = .delta) && (L.sync || decide (L.kind ≠ .gauge)))

theorem looksB_spec {v : Views Nat} {d : Views.Desc} {way : Option (Views.Clause Nat)} {keys : List Str → List Str} (hk : ∀ ks k, k ∈ keys ks ↔ k ∈ ks) {L : Look Nat}
    (h : looksB v d way keys L = true) : LooksLike v d way L := by
  simp only [looksB, Bool.and_eq_true, decide_eq_true_eq] at h
  obtain ⟨⟨⟨⟨⟨⟨h1, h2⟩, h3⟩, h4⟩, h5⟩, h6⟩, h7⟩ := h
  refine ⟨h1, h2 ▸ Props.resolved_check _ _, h3, h4, ?_, h6, ?_⟩
  · rw [← h5]
    cases way.bind (·.keys) with
    | none => trivial
    | some ks => exact fun k => (hk ks k).symm
  · rw [h7, Bool.and_eq_true, decide_eq_true_eq, Bool.or_eq_true, decide_eq_true_eq]

/-- Evaluates `Viewed`. -/
def viewedB (p : Provider.Provider Nat ν) (k : Nat) (v : Views Nat) (sc : Views.Scope) (n : Str) (ds : List Views.Desc) (L : Look Nat) : Bool :=
  (match p.ordered[k]? with
    | none => false
    | some m => m.scope = sc && m.insts.any (fun o => !(waysB v sc o.desc n).isEmpty)) &&
  ds.all (fun d => (!(v.clauses.any fun cl => Views.matches cl sc d && cl.agg ≠ .drop && n = cl.newName d.name) &&
      (v.clauses.any (fun cl => Views.matches cl sc d) || d.name ≠ n)) ||
    (!(d.desc.contains 123) && (waysB v sc d n).all (fun way => looksB v d way List.eraseDups L)))

theorem viewedB_spec {x : Views.Ext Nat} {views : List (Views Nat)} {cs : List (Provider.Call ν)} {p : Provider.Provider Nat ν} {pipe k : Nat} {v : Views Nat}
    {sc : Views.Scope} {n : Str} {L : Look Nat} (hm : p = Provider.run x (Provider.new views) cs) (hv : views[pipe]? = some v)
    (h : viewedB p k v sc n (requests k cs) L = true) : Viewed x views cs p pipe k v sc n L := by
  unfold viewedB at h
  rw [Bool.and_eq_true] at h
  obtain ⟨h1, h2⟩ := h
  refine ⟨hm, hv, ?_, fun d hd ho => ?_⟩
  · cases hm : p.ordered[k]? with
    | none => rw [hm] at h1; cases h1
    | some m =>
      rw [hm] at h1
      simp only [Bool.and_eq_true, decide_eq_true_eq, List.any_eq_true] at h1
      obtain ⟨h3, o, h4, h5⟩ := h1
      refine ⟨m, o, rfl, h3, h4, fun h6 => ?_⟩
      rw [ways_eq] at h6
      rw [h6] at h5
      cases h5
  · have h3 := List.all_eq_true.1 h2 d hd
    rw [Bool.or_eq_true] at h3
    rcases h3 with h3 | h3
    · exfalso
      simp only [Bool.and_eq_true, Bool.not_eq_true', Bool.or_eq_true, decide_eq_true_eq, ← Bool.not_eq_true] at h3
      rcases ho with ⟨cl, g1, g2, g3, g4⟩ | ⟨g1, g2⟩
      · exact h3.1 (List.any_eq_true.2 ⟨cl, g1, by simp only [Bool.and_eq_true, decide_eq_true_eq]; exact ⟨⟨(Props.C26_matches_iff cl sc d).2 g2, g3⟩, g4⟩⟩)
      · rcases h3.2 with h4 | h4
        · obtain ⟨cl, g3, g4⟩ := List.any_eq_true.1 h4
          exact g1 cl g3 ((Props.C26_matches_iff cl sc d).1 g4)
        · exact h4 g2.symm
    · simp only [Bool.and_eq_true, Bool.not_eq_true', ← Bool.not_eq_true, List.contains_iff_mem] at h3
      refine .inl ⟨Views.NoHint.unhinted x h3.1, fun way hw => ?_⟩
      rw [ways_eq] at hw
      exact looksB_spec (keys := List.eraseDups) (fun _ _ => List.mem_eraseDups) (List.all_eq_true.1 h3.2 way hw)

/-- Evaluates `times`. -/
def timesB (p : Provider.Provider Nat ν) (k : Nat) (v : Views Nat) (sc : Views.Scope) (n : Str) (id : Nat) : Nat :=
  match p.ordered[k]? with
  | none => 0
  | some m => (m.insts.zipIdx.flatMap (fun e => if instAddr k e.2 = id then waysB v sc e.1.desc n else [])).length

theorem times_eq (p : Provider.Provider Nat ν) (k : Nat) (v : Views Nat) (sc : Views.Scope) (n : Str) (id : Nat) : times p k v sc n id = timesB p k v sc n id := by
  unfold times timesB
  cases p.ordered[k]? <;> simp only [ways_eq]

/-- The instruments shown under a name. -/
def fedBy (p : Provider.Provider Nat ν) (k : Nat) (v : Views Nat) (sc : Views.Scope) (n : Str) (ids : List (Nat × Nat)) : Bool :=
  match p.ordered[k]? with
  | none => true
  | some m => m.insts.zipIdx.all (fun e => (waysB v sc e.1.desc n).isEmpty || ids.contains (instAddr k e.2, (waysB v sc e.1.desc n).length))

theorem fedBy_spec {p : Provider.Provider Nat ν} {k : Nat} {v : Views Nat} {sc : Views.Scope} {n : Str} {ids : List (Nat × Nat)} (h : fedBy p k v sc n ids = true) {id : Nat}
    (hid : 0 < times p k v sc n id) : (id, times p k v sc n id) ∈ ids := by
  obtain ⟨m, i, o, h1, h2, h3, h4⟩ := times_pos hid
  subst h3
  unfold fedBy at h
  rw [h1] at h
  have h5 := List.all_eq_true.1 h (o, i) (List.mem_zipIdx_iff_getElem?.2 h2)
  rw [Bool.or_eq_true, List.contains_iff_mem] at h5
  rw [times_addr h1 v sc n h2, ways_eq]
  rcases h5 with h5 | h5
  · rw [ways_eq] at h4
    exact absurd (List.isEmpty_iff.1 h5) h4
  · exact h5

theorem sameSeries_refl (keys : Option (List Str)) (a : List KV) : SameSeries keys a a := fun _ _ _ => rfl

end Checks

/-! ### This program -/

theorem viewed {t t' : Tempo} {a : AggKind} {n : Str} {L : Look Nat} (h : viewedB (p t t' a) 0 (v t t' a) scA n (requests 0 cs) L = true) :
    Viewed Props.ViewEx.x (views t t' a) cs (p t t' a) 0 0 (v t t' a) scA n L :=
  viewedB_spec (by unfold p; rfl) rfl h

/-- How the counter `o` looks, whose description has a hint. -/
def lookO (t : Tempo) : Look Nat where
  sync := true
  kind := .mmsc
  num := .int64
  unit := []
  keys := none
  acfg := ⟨0, 4⟩
  delta := t = .delta

/-- The hint of the counters `o` and `q`. -/
def hint : Views.Hint := { description := [], aggregation := lit "minmaxsumcount", temporality := [], maxSize := 0, limit := 0 }

theorem hintIn_mmsc {d : Views.Desc} (hd : d.desc = lit "{minmaxsumcount") : Views.hintIn Props.ViewEx.x d = some hint := by
  unfold Views.hintIn hint
  rw [hd, if_pos (by decide +kernel)]
  show Props.ViewEx.x.parseHint (lit "{minmaxsumcount") = _
  rw [show lit "{minmaxsumcount" = 123 :: lit "minmaxsumcount" by decide +kernel, show lit "minmaxsumcount" = 109 :: lit "inmaxsumcount" by decide +kernel]
  rfl

/-- What is to be evaluated for a counter with the hint: it is shown under the name `n`, and nothing else is. -/
def hintedB (t t' : Tempo) (a : AggKind) (i n : Str) : Bool :=
  (match (p t t' a).ordered[0]? with
    | none => false
    | some m => m.scope = scA && m.insts.any (fun o => !(waysB (v t t' a) scA o.desc n).isEmpty)) &&
  (requests 0 cs).all (fun d => (!((v t t' a).clauses.any fun cl => Views.matches cl scA d && cl.agg ≠ .drop && n = cl.newName d.name) &&
      ((v t t' a).clauses.any (fun cl => Views.matches cl scA d) || d.name ≠ n)) || d = Ctor.int64Counter.desc i (lit "{minmaxsumcount") [])

theorem hinted_viewed {t t' : Tempo} {a : AggKind} {i n : Str} {L : Look Nat} (h : hintedB t t' a i n = true)
    (hl : (∃ h, Views.hintIn Props.ViewEx.x (Ctor.int64Counter.desc i (lit "{minmaxsumcount") []) = some h ∧
        HintLooks Props.ViewEx.x (v t t' a) scA (Ctor.int64Counter.desc i (lit "{minmaxsumcount") []) h L) ∨
      ClausesLook Props.ViewEx.x (v t t' a) scA (Ctor.int64Counter.desc i (lit "{minmaxsumcount") []) n L) :
    Viewed Props.ViewEx.x (views t t' a) cs (p t t' a) 0 0 (v t t' a) scA n L := by
  unfold hintedB at h
  rw [Bool.and_eq_true] at h
  obtain ⟨h1, h2⟩ := h
  refine ⟨by unfold p; rfl, rfl, ?_, fun d hd ho => .inr ?_⟩
  · cases hm : (p t t' a).ordered[0]? with
    | none => rw [hm] at h1; cases h1
    | some m =>
      rw [hm] at h1
      simp only [Bool.and_eq_true, decide_eq_true_eq, List.any_eq_true] at h1
      obtain ⟨h3, o, h4, h5⟩ := h1
      refine ⟨m, o, rfl, h3, h4, fun h6 => ?_⟩
      rw [ways_eq] at h6
      rw [h6] at h5
      cases h5
  · have h3 := List.all_eq_true.1 h2 d hd
    rw [Bool.or_eq_true, decide_eq_true_eq] at h3
    rcases h3 with h3 | h3
    · exfalso
      simp only [Bool.and_eq_true, Bool.not_eq_true', Bool.or_eq_true, decide_eq_true_eq, ← Bool.not_eq_true] at h3
      rcases ho with ⟨cl, g1, g2, g3, g4⟩ | ⟨g1, g2⟩
      · exact h3.1 (List.any_eq_true.2 ⟨cl, g1, by simp only [Bool.and_eq_true, decide_eq_true_eq]; exact ⟨⟨(Props.C26_matches_iff cl scA d).2 g2, g3⟩, g4⟩⟩)
      · rcases h3.2 with h4 | h4
        · obtain ⟨cl, g3, g4⟩ := List.any_eq_true.1 h4
          exact g1 cl g3 ((Props.C26_matches_iff cl scA d).1 g4)
        · exact h4 g2.symm
    · subst h3
      exact hl

theorem tempo_mmsc (t t' : Tempo) (a : AggKind) (i : Str) : decide (t = .delta) = true ↔
    HintTempo Props.ViewEx.x (v t t' a) (Ctor.int64Counter.desc i (lit "{minmaxsumcount") []) hint .delta ∧ (True ∨ AggKind.mmsc ≠ .gauge) := by
  rw [decide_eq_true_eq]
  constructor
  · exact fun h => ⟨.inr ⟨.inl rfl, h.symm⟩, .inl trivial⟩
  · rintro ⟨⟨h, -⟩ | ⟨-, h⟩, -⟩
    · exact absurd rfl h
    · exact h.symm

theorem asks_mmsc (t t' : Tempo) (a : AggKind) (i : Str) : HintAsks Props.ViewEx.x (v t t' a) (Ctor.int64Counter.desc i (lit "{minmaxsumcount") []) hint .mmsc :=
  .inl (show lit "minmaxsumcount" ≠ [] ∧ (lit "minmaxsumcount", AggKind.mmsc) ∈ Views.aggregationWords by decide +kernel)

theorem implemented_mmsc : Views.Implemented .syncCounter .mmsc := by simp [Views.Implemented, Front.IKind.synchronous]

theorem hinted {t t' : Tempo} {a : AggKind} (h : hintedB t t' a (lit "o") (lit "o") = true)
    (h0 : (!(v t t' a).clauses.any (fun cl => Views.matches cl scA (Ctor.int64Counter.desc (lit "o") (lit "{minmaxsumcount") []))) = true) :
    Viewed Props.ViewEx.x (views t t' a) cs (p t t' a) 0 0 (v t t' a) scA (lit "o") (lookO t) := by
  refine hinted_viewed h (.inl ⟨hint, hintIn_mmsc rfl, fun cl hcl ha => ?_, (show Views.standardAgg .syncCounter ≠ .drop by decide), rfl,
    ⟨asks_mmsc t t' a _, implemented_mmsc⟩, rfl, rfl, rfl, rfl, rfl, ?_⟩)
  · rw [Bool.not_eq_true', ← Bool.not_eq_true] at h0
    exact h0 (List.any_eq_true.2 ⟨cl, hcl, (Props.C26_matches_iff cl _ _).2 ha⟩)
  · exact (tempo_mmsc t t' a _).trans ⟨fun h => ⟨h.1, .inl rfl⟩, fun h => ⟨h.1, .inl trivial⟩⟩

/-- How the counter `q` looks in the clause which shows it as `qq`: the hint counts, and one key is kept. -/
def lookQQ (t : Tempo) : Look Nat := { lookO t with keys := some [lit "a"] }

/-- How the counter `q` looks in the clause which shows it under its own name: the hint was used up by the clause before. -/
def lookQ (t : Tempo) : Look Nat := { lookO t with kind := .monoSum }

/-- The clauses which show the counter `q`. -/
def clausesQ : List (Views.Clause Nat) :=
  [{ Props.ViewEx.any with name := lit "q", rename := some (fun s => s ++ s), keys := some [lit "a"], acfg := ⟨0, 4⟩ },
   { Props.ViewEx.any with name := lit "q", acfg := ⟨0, 4⟩ }]

theorem showing_q (t t' : Tempo) (a : AggKind) :
    showing (v t t' a) scA (Ctor.int64Counter.desc (lit "q") (lit "{minmaxsumcount") []) = clausesQ := by
  have e : showing (v t t' a) scA (Ctor.int64Counter.desc (lit "q") (lit "{minmaxsumcount") []) =
      (clauses a).filter (fun cl => Views.matches cl scA (Ctor.int64Counter.desc (lit "q") (lit "{minmaxsumcount") []) && cl.agg ≠ .drop) := by
    unfold showing
    refine List.filter_congr fun cl _ => ?_
    rw [Bool.eq_iff_iff]
    simp only [decide_eq_true_eq, Bool.and_eq_true, Props.C26_matches_iff]
  rw [e]
  unfold clauses clausesQ
  iterate 2 rw [List.filter_cons_of_neg (by decide +kernel)]
  rw [List.filter_cons_of_neg (by
    rw [Bool.and_eq_true, not_and]
    exact fun h => absurd ((Props.C26_matches_iff _ _ _).1 h) (fun h => by have := h.kind _ rfl; cases this))]
  iterate 4 rw [List.filter_cons_of_neg (by decide +kernel)]
  iterate 2 rw [List.filter_cons_of_pos (by decide +kernel)]
  rfl

theorem clauses_q (t t' : Tempo) (a : AggKind) :
    ∃ cl ∈ (v t t' a).clauses, Views.Applies cl scA (Ctor.int64Counter.desc (lit "q") (lit "{minmaxsumcount") []) := by
  have h : clausesQ.head (by simp [clausesQ]) ∈ showing (v t t' a) scA (Ctor.int64Counter.desc (lit "q") (lit "{minmaxsumcount") []) := by
    rw [showing_q]
    exact List.head_mem _
  classical
  obtain ⟨h1, h2⟩ := List.mem_filter.1 h
  exact ⟨_, h1, (decide_eq_true_iff.1 h2).1⟩

theorem hintFor_q : hintFor Props.ViewEx.x (Ctor.int64Counter.desc (lit "q") (lit "{minmaxsumcount") []) 1 = none := by
  show (Views.hintIn Props.ViewEx.x _).bind _ = none
  rw [hintIn_mmsc rfl]
  rfl

theorem viewed_qq {t t' : Tempo} {a : AggKind} (h : hintedB t t' a (lit "q") (lit "qq") = true) :
    Viewed Props.ViewEx.x (views t t' a) cs (p t t' a) 0 0 (v t t' a) scA (lit "qq") (lookQQ t) := by
  refine hinted_viewed h (.inr ⟨by rw [hintIn_mmsc rfl]; exact Option.some_ne_none _, clauses_q t t' a, ?_, ?_⟩) <;> rw [showing_q]
  · intro i cl hi hn hh
    match i with
    | 0 => rw [hintFor, hintIn_mmsc rfl] at hh; cases hh
    | 1 => cases hi; exact absurd hn (by decide +kernel)
    | _ + 2 => cases hi
  · intro i cl hh hi hn hf
    match i with
    | 0 =>
      rw [hintFor, hintIn_mmsc rfl] at hf
      cases hf
      cases hi
      refine ⟨rfl, asks_mmsc t t' a _, implemented_mmsc, rfl, rfl, fun k => Iff.rfl, fun h => absurd rfl h, fun _ => rfl, fun _ => rfl, ?_⟩
      exact (tempo_mmsc t t' a _).trans ⟨fun h => ⟨h.1, .inl rfl⟩, fun h => ⟨h.1, .inl trivial⟩⟩
    | 1 => cases hi; exact absurd hn (by decide +kernel)
    | _ + 2 => cases hi

theorem viewed_q {t t' : Tempo} {a : AggKind} (h : hintedB t t' a (lit "q") (lit "q") = true) :
    Viewed Props.ViewEx.x (views t t' a) cs (p t t' a) 0 0 (v t t' a) scA (lit "q") (lookQ t) := by
  refine hinted_viewed h (.inr ⟨by rw [hintIn_mmsc rfl]; exact Option.some_ne_none _, clauses_q t t' a, ?_, ?_⟩) <;> rw [showing_q]
  · intro i cl hi hn hh
    match i with
    | 0 => cases hi; exact absurd hn (by decide +kernel)
    | 1 =>
      cases hi
      refine looksB_spec (keys := List.eraseDups) (fun _ _ => List.mem_eraseDups) ?_
      cases t <;> rfl
    | _ + 2 => cases hi
  · intro i cl hh hi hn hf
    match i with
    | 0 => cases hi; exact absurd hn (by decide +kernel)
    | 1 => rw [hintFor_q] at hf; cases hf
    | _ + 2 => cases hi

theorem noNaN : ∀ a ∈ [kab, ka, kb], ¬ HasNaNSlice a := by
  rintro a ha ⟨kv, hkv, xs, hv, _⟩
  simp only [List.mem_cons, List.not_mem_nil, or_false] at ha
  rcases ha with rfl | rfl | rfl <;> simp only [kab, ka, kb, List.mem_cons, List.not_mem_nil, or_false] at hkv
  · rcases hkv with rfl | rfl <;> cases hv
  · subst hkv; cases hv
  · subst hkv; cases hv

theorem few (t t' : Tempo) (a : AggKind) (n : Str) (keys : Option (List Str)) : FewVia w (p t t' a) 0 (v t t' a) scA n keys 4 (acts t t') := by
  refine ⟨fun _ => [kab, ka, kb], [kab, ka, kb], fun _ _ => (by decide : 3 < 4), by decide, ?_, fun id _ b hb => ⟨noNaN b hb, b, hb, sameSeries_refl _ _⟩⟩
  intro e he _
  rw [calls_acts] at he
  have : ∀ e ∈ called, e.1.attrs e.2.1 ∈ [kab, ka, kb] := by
    decide
  exact this e he

theorem few_x (t t' : Tempo) (a : AggKind) (n : Str) : FewVia w (p t t' a) 0 (v t t' a) scA n (some []) 3 (acts t t') := by
  refine ⟨fun _ => [kab, ka, kb], [[]], fun _ _ => (by decide : 3 < 4), by decide, ?_, fun id _ b hb => ⟨noNaN b hb, [], by simp, fun k _ h => absurd (h [] rfl) (by simp)⟩⟩
  intro e he _
  rw [calls_acts] at he
  have : ∀ e ∈ called, e.1.attrs e.2.1 ∈ [kab, ka, kb] := by
    decide
  exact this e he

theorem oneByOne {t t' : Tempo} {a : AggKind} {n : Str} {i : Nat} (h : fedBy (p t t' a) 0 (v t t' a) scA n [(instAddr 0 i, 1)] = true)
    (hb : oneB (cfg t t' a) (rd t t' a) (instAddr 0 i) (initial (cfg t t' a)) (acts t t') = true) :
    OneByOneVia (fun _ => 0) w (p t t' a) 0 0 (v t t' a) scA n (acts t t') := by
  have hc : ∀ id, 0 < times (p t t' a) 0 (v t t' a) scA n id → id = instAddr 0 i := by
    intro id hid
    have := fedBy_spec h hid
    rw [List.mem_singleton] at this
    exact congrArg Prod.fst this
  intro before ci kvs v after y e hr hcall j hj hcj
  exact oneB_spec hb e hr (hc _ hcall) j hj (hc _ hcj)

/-- Something recorded on an instrument with attributes of which `m` remain. -/
theorem recorded {t t' : Tempo} {a : AggKind} {n : Str} {e : Front.Inst × List KV × Bits} {keys : Option (List Str)} {m : PMap} (he : e ∈ called)
    (hr : ¬ Props.Rejected e.1.num e.1.kind e.2.2) (hd : Describes keys (e.1.attrs e.2.1) m) (hc : timesB (p t t' a) 0 (v t t' a) scA n e.1.id ≠ 0) :
    recordedVia (p t t' a) 0 (v t t' a) scA n (fun as => Describes keys as m) (acts t t') ≠ [] := by
  apply List.ne_nil_of_mem (a := e.2.2)
  unfold recordedVia
  rw [calls_acts]
  refine List.mem_flatMap.2 ⟨e, he, ?_⟩
  rw [if_pos ⟨hr, hd⟩, times_eq]
  exact List.mem_replicate.2 ⟨hc, rfl⟩

/-- No attributes remain. -/
theorem describes_nothing (as : List KV) : Describes (some []) as [] :=
  ⟨List.Pairwise.nil, fun k v => ⟨fun h => absurd h (by simp), fun h => absurd (h.2.1 [] rfl) (by simp)⟩⟩

/-- Only the selected attribute remains. -/
theorem describes_kab : Describes (some [lit "a"]) kab ma := by
  refine ⟨by simp [ma], fun k v => ?_⟩
  simp only [ma, List.mem_singleton, Prod.mk.injEq]
  constructor
  · rintro ⟨rfl, rfl⟩
    exact ⟨by decide, fun ks h => (by cases h; decide +kernel), .bool true, (by decide), rfl⟩
  · rintro ⟨-, h0, x, h1, h2⟩
    have hk : k = [97] := by
      have := h0 _ rfl
      rw [List.mem_singleton] at this
      rw [this]
      decide +kernel
    subst hk
    have hl : lastValue [97] kab = some (.bool true) := by decide
    rw [hl, Option.some.injEq] at h1
    subst h1
    refine ⟨rfl, ?_⟩
    match v, h2 with
    | .one (.bool b), h2 => exact congrArg (fun b => PVal.one (.bool b)) h2

/-- The looks. -/
def lookY (t : Tempo) : Look Nat :=
  { sync := true, kind := .monoSum, num := .int64, unit := lit "s", keys := some [lit "a"], acfg := ⟨0, 4⟩, delta := decide (t = .delta) }
def lookX (t' : Tempo) (a : AggKind) : Look Nat :=
  { sync := true, kind := a, num := .float64, unit := lit "s", keys := some [], acfg := ⟨7, 3⟩, delta := decide (t' = .delta) }
def lookG (t' : Tempo) : Look Nat :=
  { sync := true, kind := .gauge, num := .int64, unit := [], keys := none, acfg := ⟨0, 4⟩, delta := decide (t' = .delta) }
def lookD (t : Tempo) : Look Nat :=
  { sync := true, kind := .nonMonoSum, num := .int64, unit := [], keys := none, acfg := ⟨0, 4⟩, delta := decide (t = .delta) }

end Verif.Examples.AsmV
