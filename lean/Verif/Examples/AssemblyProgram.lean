import Verif.Model.Assembly
import Verif.Spec.Assembly
import Verif.Proof.Assembly
import Verif.Examples.PipelineCfg
import Verif.Props.Views

/-!
A program made from constructors: two readers, two meters, five instruments.
-/

namespace Verif.Examples.Asm
open Verif Verif.Attr Verif.Number Verif.Aggr Verif.Export Verif.Pipeline Verif.Assembly Verif.Instruments Verif.Examples
open Verif.Examples.Pipe (kvb ops tasks q0)
open Verif.Views (Views AggKind Tempo lit)


/-- Some addition. -/
def fadd (a b : Bits) : Bits := a + b

def listH : HistOps Bits (List Bits) := { empty := [], update := fun l v => v :: l, mergeFrom := fun a b => b ++ a, count := List.length }

def w : World Nat (List Bits) where
  ignoreColl := false
  instLimit := 4
  periods := 2
  sizeLimit := 100
  resource := [kvb 114 true]
  fadd := fadd
  hist := fun _ _ => listH
  noHist := listH
  toHist := fun n => { sum := 0, count := n.length, min := 0, max := 0, zeroCount := n.length, scale := 0, posOffset := 0, pos := [], negOffset := 0, neg := [] }
  mapping := fun _ => none

/-- The first reader's only clause shows `z` as `y`. -/
def clauses : List (Views.Clause Nat) := [{ Props.ViewEx.any with name := lit "z", rename := some (fun _ => lit "y") }]

/-- The first reader: counters have this temporality, histograms are shown with this aggregation, in the other temporality. -/
def v0 (t t' : Tempo) (a : AggKind) : Views Nat where
  name := lit "first"
  clauses := clauses
  defaults := { agg := fun k => if k = .syncHistogram then a else Views.standardAgg k, tempo := fun k => if k = .syncHistogram then t' else t,
                int64 := fun _ => ⟨0, 4⟩, float64 := fun _ => ⟨0, 4⟩ }
  perfLimit := 4

/-- The second reader drops one of the instruments. -/
def v1 : Views Nat where
  name := lit "second"
  clauses := [{ Props.ViewEx.any with name := lit "n", agg := .drop }]
  defaults := { agg := Views.standardAgg, tempo := Views.standardTempo, int64 := fun _ => ⟨0, 4⟩, float64 := fun _ => ⟨0, 4⟩ }
  perfLimit := 4

def scA : Views.Scope := ⟨lit "a", [], []⟩
def scB : Views.Scope := ⟨lit "b", [], []⟩

/-- The counter is asked for twice, with different descriptions; both meters have one with the same name. -/
def cs : List (Provider.Call Nat) :=
  [.meter scA, .meter scB, .instrument 1 (Ctor.int64Counter.desc (lit "n") [] (lit "s")), .instrument 0 (Ctor.int64Counter.desc (lit "n") (lit "B") (lit "s")),
   .instrument 0 (Ctor.float64Histogram.desc (lit "h") [] (lit "s")), .instrument 0 (Ctor.int64Counter.desc (lit "n") (lit "A") (lit "s")),
   .instrument 0 (Ctor.float64UpDownCounter.desc (lit "z") [] []), .instrument 0 (Ctor.int64Gauge.desc (lit "g") [] [])]

def views (t t' : Tempo) (a : AggKind) : List (Views Nat) := [v0 t t' a, v1]

def p (t t' : Tempo) (a : AggKind) : Provider.Provider Nat Nat := Provider.run Props.ViewEx.x (Provider.new (views t t' a)) cs

def cfg (t t' : Tempo) (a : AggKind) : Sync.Cfg (List KV) (List KV) Bits (Cell Bits (List Bits)) := Front.realCfg (fun _ => 0) (setup w (p t t' a))

def rd (t t' : Tempo) (a : AggKind) : Reader (List Bits) := reader w (p t t' a) 0

def nA : Front.Inst := { id := 0, kind := .syncCounter, num := .int64, sizeLimit := 100, proc := none }
def nA' : Front.Inst := { id := 4, kind := .syncCounter, num := .int64, sizeLimit := 100, proc := none }
def hA : Front.Inst := { id := 2, kind := .syncHistogram, num := .float64, sizeLimit := 100, proc := none }
def gA : Front.Inst := { id := 8, kind := .syncGauge, num := .int64, sizeLimit := 100, proc := none }
def nB : Front.Inst := { id := 1, kind := .syncCounter, num := .int64, sizeLimit := 100, proc := none }

def one : Bits := 0x3ff0000000000000
def two : Bits := 0x4000000000000000

def ka : List KV := [kvb 97 true]
def kb : List KV := [kvb 98 true]

/-- The number of steps of a collection depends on the temporality. -/
def by' (t : Tempo) (n m : Nat) : Nat := if t = .delta then n else m

/-- Calls on the two counters with the same name overlap; one call has a negative value. -/
def acts (t t' : Tempo) : List Pipeline.Act :=
  [.call nA ka 7, .call nA' ka 5] ++ ops 0 9 ++ ops 1 9 ++ [.call nA kb (-1)] ++ [.call nB ka 100] ++ ops 2 9 ++ [.call hA ka one] ++ ops 3 12 ++
  [.call gA ka 3] ++ ops 4 12 ++ [.call gA ka 4] ++ ops 5 9 ++
  [.sched (.snapshot 0)] ++ tasks 0 8 ++ [.sched (.snapshot 2)] ++ tasks 1 11 ++ [.sched (.collect 0)] ++ tasks 2 (by' t 4 3) ++
  [.sched (.collect 4)] ++ tasks 3 (by' t' 4 3) ++ [.export q0] ++
  [.call nA' kb 2] ++ ops 6 9 ++ [.call hA ka two] ++ ops 7 9 ++ [.call hA kb two] ++ ops 8 12 ++ [.call gA ka 6] ++ ops 9 9

/-- A snapshot of an instrument or the collection of an output metric. -/
structure Piece where
  snap : Bool
  id : Nat
  task : Nat
  n : Nat

def Piece.head (q : Piece) : Pipeline.Act := .sched (if q.snap then .snapshot q.id else .collect q.id)
def Piece.acts (q : Piece) : List Pipeline.Act := q.head :: tasks q.task q.n

/-- The last collection of all output metrics of the first reader. -/
def pieces (t t' : Tempo) : List Piece :=
  [⟨true, 0, 4, 3⟩, ⟨true, 2, 5, 20⟩, ⟨true, 4, 6, 14⟩, ⟨true, 6, 7, 2⟩, ⟨true, 8, 8, 11⟩, ⟨true, 1, 9, 8⟩,
   ⟨false, 0, 10, by' t 6 4⟩, ⟨false, 4, 11, by' t' 6 4⟩, ⟨false, 8, 12, 2⟩, ⟨false, 12, 13, by' t 4 3⟩, ⟨false, 1, 14, by' t 4 3⟩]

def flat (ps : List Piece) : List Pipeline.Act := (ps.map Piece.acts).flatten
def coll (t t' : Tempo) : List Pipeline.Act := flat (pieces t t') ++ [.export q0]

variable {c : Sync.Cfg (List KV) (List KV) Bits (Cell Bits (List Bits))} {R : Reader (List Bits)}

/-- The states before each piece, and the last one. -/
def states (c : Sync.Cfg (List KV) (List KV) Bits (Cell Bits (List Bits))) (R : Reader (List Bits)) :
    Sys (List Bits) → List Piece → Option (List (Piece × Sys (List Bits)) × Sys (List Bits))
  | x, [] => some ([], x)
  | x, q :: qs => (Pipeline.run c R x q.acts).bind fun y => (states c R y qs).bind fun r => some ((q, x) :: r.1, r.2)

theorem run_app {as bs : List Pipeline.Act} {x y z : Sys (List Bits)}
    (h1 : Pipeline.run c R x as = some y) (h2 : Pipeline.run c R y bs = some z) : Pipeline.run c R x (as ++ bs) = some z := by
  induction as generalizing x with
  | nil => simp only [Pipeline.run, Option.some.injEq] at h1; subst h1; exact h2
  | cons a as ih =>
    simp only [Pipeline.run, Option.bind_eq_some_iff, List.cons_append] at h1 ⊢
    obtain ⟨x1, h3, h4⟩ := h1
    exact ⟨x1, h3, ih h4⟩

theorem states_run {qs : List Piece} {x z : Sys (List Bits)} {l : List (Piece × Sys (List Bits))} (h : states c R x qs = some (l, z)) :
    Pipeline.run c R x (flat qs) = some z := by
  induction qs generalizing x l with
  | nil =>
    simp only [states, Option.some.injEq, Prod.mk.injEq] at h
    rw [h.2]
    rfl
  | cons q qs ih =>
    simp only [states, Option.bind_eq_some_iff, Option.some.injEq, Prod.mk.injEq] at h
    obtain ⟨y, h1, r, h2, -, h4⟩ := h
    subst h4
    exact run_app h1 (ih (l := r.1) h2)

theorem states_split {qs : List Piece} {x z y : Sys (List Bits)} {l : List (Piece × Sys (List Bits))} {q : Piece} (h : states c R x qs = some (l, z))
    (hq : (q, y) ∈ l) : ∃ a b l1 l2, qs = a ++ q :: b ∧ l = l1 ++ (q, y) :: l2 ∧ states c R x a = some (l1, y) ∧ Pipeline.run c R y (flat (q :: b)) = some z := by
  induction qs generalizing x l with
  | nil =>
    simp only [states, Option.some.injEq, Prod.mk.injEq] at h
    rw [← h.1] at hq
    cases hq
  | cons q' qs ih =>
    have h0 := h
    simp only [states, Option.bind_eq_some_iff, Option.some.injEq, Prod.mk.injEq] at h
    obtain ⟨y', h1, r, h2, h3, h4⟩ := h
    subst h3 h4
    rcases List.mem_cons.1 hq with e | hq
    · cases e
      exact ⟨[], qs, [], r.1, rfl, rfl, rfl, states_run h0⟩
    · obtain ⟨a, b, l1, l2, e1, e2, e3, e4⟩ := ih (l := r.1) h2 hq
      exact ⟨q' :: a, b, (q', x) :: l1, l2, by rw [e1]; rfl, by rw [e2]; rfl, by simp only [states, h1, Option.bind_some, e3], e4⟩

/-- All calls have returned, all snapshots and collections are finished in time. -/
def Good (x : Sys (List Bits)) (r : List (Piece × Sys (List Bits)) × Sys (List Bits)) : Prop :=
  (∀ i, i < x.s.nextOp → (x.s.op i).pc = .done) ∧
    ∀ e ∈ r.1, e.1.snap = false → r.2.s.task e.2.s.nextTask = .done ∧
      ∀ e' ∈ r.1, e'.1.snap = true → e.2.s.task e'.2.s.nextTask = .done

instance (x : Sys (List Bits)) (r : List (Piece × Sys (List Bits)) × Sys (List Bits)) : Decidable (Good x r) := by unfold Good; infer_instance

structure Stages where
  x : Sys (List Bits)
  r : List (Piece × Sys (List Bits)) × Sys (List Bits)
  x' : Sys (List Bits)

def stages (t t' : Tempo) (a : AggKind) : Option Stages :=
  (Pipeline.run (cfg t t' a) (rd t t' a) (initial (cfg t t' a)) (acts t t')).bind fun x => (states (cfg t t' a) (rd t t' a) x (pieces t t')).bind fun r =>
    (Pipeline.step (cfg t t' a) (rd t t' a) r.2 (.export q0)).bind fun x' => some ⟨x, r, x'⟩

/-- The descriptors of the instruments called. -/
def known (t t' : Tempo) (a : AggKind) : Bool :=
  [(nA, 0, 0), (nA', 0, 2), (hA, 0, 1), (gA, 0, 4), (nB, 1, 0)].all fun e =>
    match (p t t' a).ordered[e.2.1]? with
    | none => false
    | some m => match m.insts[e.2.2]? with
      | none => false
      | some o => o.desc.kind = e.1.kind && o.desc.num = e.1.num && o.desc.kind.synchronous && e.1.id = instAddr e.2.1 e.2.2

/-- The instruments. -/
def small (t t' : Tempo) (a : AggKind) : Bool := (p t t' a).ordered.map (fun m => m.insts.length) = [5, 1]

attribute [irreducible] p

theorem known_spec {t t' : Tempo} {a : AggKind} (h : known t t' a = true) {i : Front.Inst} {k j : Nat}
    (hi : (i, k, j) ∈ [(nA, 0, 0), (nA', 0, 2), (hA, 0, 1), (gA, 0, 4), (nB, 1, 0)]) (hp : i.proc = none) (hs : i.sizeLimit = 100) :
    ∃ k i' m o proc, (p t t' a).ordered[k]? = some m ∧ m.insts[i']? = some o ∧ o.desc.kind.synchronous = true ∧ i = instrument w k i' o proc := by
  unfold known at h
  have h1 := List.all_eq_true.1 h _ hi
  cases hm : (p t t' a).ordered[k]? with
  | none => rw [hm] at h1; cases h1
  | some m =>
    cases ho : m.insts[j]? with
    | none => rw [hm] at h1; dsimp only at h1; rw [ho] at h1; cases h1
    | some o =>
      rw [hm] at h1
      dsimp only at h1
      rw [ho] at h1
      simp only [Bool.and_eq_true, decide_eq_true_eq] at h1
      refine ⟨k, j, m, o, none, hm, ho, h1.1.2, ?_⟩
      cases i
      simp only at hp hs
      subst hp hs
      unfold instrument
      rw [h1.1.1.1, h1.1.1.2, ← h1.2]
      rfl

theorem calls_tasks (t n : Nat) : Pipeline.calls (tasks t n) = [] := by
  unfold Pipeline.calls
  rw [List.filterMap_eq_nil_iff]
  intro a ha
  rw [(List.mem_replicate.1 ha).2]

theorem calls_ops (t n : Nat) : Pipeline.calls (ops t n) = [] := by
  unfold Pipeline.calls
  rw [List.filterMap_eq_nil_iff]
  intro a ha
  rw [(List.mem_replicate.1 ha).2]

theorem calls_append (as bs : List Pipeline.Act) : Pipeline.calls (as ++ bs) = Pipeline.calls as ++ Pipeline.calls bs := List.filterMap_append

def called : List (Front.Inst × List KV × Bits) :=
  [(nA, ka, 7), (nA', ka, 5), (nA, kb, -1), (nB, ka, 100), (hA, ka, one), (gA, ka, 3), (gA, ka, 4), (nA', kb, 2), (hA, ka, two), (hA, kb, two), (gA, ka, 6)]

theorem calls_acts (t t' : Tempo) : Pipeline.calls (acts t t') = called := by
  unfold acts
  simp only [calls_append, calls_tasks, calls_ops]
  rfl

theorem calls_flat (qs : List Piece) : Pipeline.calls (flat qs) = [] := by
  induction qs with
  | nil => rfl
  | cons q qs ih =>
    show List.filterMap _ ((q.head :: tasks q.task q.n) ++ flat qs) = []
    rw [List.filterMap_append, List.filterMap_cons_none (by rfl)]
    exact (congrArg (· ++ _) (calls_tasks q.task q.n)).trans ih

theorem leavesOf_lt {t t' : Tempo} {a : AggKind} (h : small t t' a = true) {l o : Nat} (hl : l ∈ leavesOf (p t t' a) o) : o ∈ [0, 2, 4, 6, 8, 1] := by
  have h := of_decide_eq_true h
  unfold leavesOf instAt at hl
  cases hm : (p t t' a).ordered[(unpair o).1]? with
  | none => rw [hm] at hl; cases hl
  | some m =>
    cases ho : m.insts[(unpair o).2]? with
    | none => rw [hm, Option.bind_some, ho] at hl; cases hl
    | some i =>
      have h1 : ((p t t' a).ordered.map (fun m => m.insts.length))[(unpair o).1]? = some m.insts.length := by rw [List.getElem?_map, hm]; rfl
      have h2 : (unpair o).2 < m.insts.length := (List.getElem?_eq_some_iff.1 ho).1
      rw [h] at h1
      have h3 : o = pair (unpair o).1 (unpair o).2 := (pair_unpair o).symm
      rw [h3]
      clear h3 hl hm ho
      generalize (unpair o).2 = b at h2 ⊢
      generalize (unpair o).1 = a at h1 ⊢
      match a, h1 with
      | 0, h1 =>
        simp only [List.getElem?_cons_zero, Option.some.injEq] at h1
        rw [← h1] at h2
        match b, h2 with
        | 0, _ | 1, _ | 2, _ | 3, _ | 4, _ => decide
      | 1, h1 =>
        simp only [List.getElem?_cons_succ, List.getElem?_cons_zero, Option.some.injEq] at h1
        rw [← h1] at h2
        match b, h2 with
        | 0, _ => decide
      | _ + 2, h1 => simp at h1

theorem snaps {t t' : Tempo} {o : Nat} (ho : o ∈ [0, 2, 4, 6, 8, 1]) : ∃ q ∈ pieces t t', q.snap = true ∧ q.id = o := by
  simp only [List.mem_cons, List.not_mem_nil, or_false] at ho
  rcases ho with rfl | rfl | rfl | rfl | rfl | rfl <;> simp [pieces]

/-- Snapshots come first. -/
theorem snap_before {t t' : Tempo} {q : Piece} (hq : q.snap = false) {a b : List Piece} (h : pieces t t' = a ++ q :: b) :
    ∀ q' ∈ pieces t t', q'.snap = true → q' ∈ a := by
  intro q' hq' hs
  have hp : ∀ q'' ∈ b, q''.snap = false := by
    have hw : (pieces t t').Pairwise (fun q q' => q.snap = false → q'.snap = false) := by
      simp [pieces]
    rw [h] at hw
    exact fun q'' hq'' => (List.pairwise_cons.1 (List.pairwise_append.1 hw).2.1).1 q'' hq'' hq
  rw [h] at hq'
  rcases List.mem_append.1 hq' with h1 | h1
  · exact h1
  · rcases List.mem_cons.1 h1 with rfl | h1
    · rw [hq] at hs; cases hs
    · rw [hp _ h1] at hs; cases hs

theorem states_pieces {qs : List Piece} {x z : Sys (List Bits)} {l : List (Piece × Sys (List Bits))} (h : states c R x qs = some (l, z)) : l.map (·.1) = qs := by
  induction qs generalizing x l with
  | nil =>
    simp only [states, Option.some.injEq, Prod.mk.injEq] at h
    rw [← h.1]
    rfl
  | cons q qs ih =>
    simp only [states, Option.bind_eq_some_iff, Option.some.injEq, Prod.mk.injEq] at h
    obtain ⟨y, -, r, h2, h3, h4⟩ := h
    subst h3 h4
    rw [List.map_cons, ih (l := r.1) h2]

/-- The output metrics of the reader. -/
def outputs (t t' : Tempo) (a : AggKind) : Bool := ((rd t t' a).scopes.flatMap (·.2)).all (fun o => [0, 4, 8, 12, 1].contains o.leaf)

theorem program {t t' : Tempo} {a : AggKind} {s : Stages} (hs : stages t t' a = some s) (hg : Good s.x s.r) (hk : known t t' a = true) (hm : small t t' a = true)
    (ho : outputs t t' a = true) : Program (fun _ => 0) w (p t t' a) 0 (acts t t') (coll t t') s.x s.x' := by
  unfold stages at hs
  simp only [Option.bind_eq_some_iff, Option.some.injEq] at hs
  obtain ⟨x, h1, r, h2, x', h3, e⟩ := hs
  subst e
  obtain ⟨l, z⟩ := r
  obtain ⟨g1, g2⟩ := hg
  refine ⟨by unfold Exportable; decide, ?_, ?_, by rw [calls_acts]; decide, h1, g1, ?_, ?_⟩
  · intro e he
    rw [calls_acts] at he
    have : e.1 = nA ∨ e.1 = nA' ∨ e.1 = hA ∨ e.1 = gA ∨ e.1 = nB := by
      simp only [called, List.mem_cons, List.not_mem_nil, or_false] at he
      rcases he with rfl | rfl | rfl | rfl | rfl | rfl | rfl | rfl | rfl | rfl | rfl <;> simp
    rcases this with h | h | h | h | h <;> rw [h]
    · exact known_spec hk (k := 0) (j := 0) (by simp) rfl rfl
    · exact known_spec hk (k := 0) (j := 2) (by simp) rfl rfl
    · exact known_spec hk (k := 0) (j := 1) (by simp) rfl rfl
    · exact known_spec hk (k := 0) (j := 4) (by simp) rfl rfl
    · exact known_spec hk (k := 1) (j := 0) (by simp) rfl rfl
  · intro e he
    rw [calls_acts] at he
    have : ∀ e ∈ called, (e.1.attrs e.2.1).all (fun kv => decide (kv.val ≠ .invalid)) = true := by
      decide
    have := this e he
    rw [List.all_eq_true] at this
    exact fun kv hkv => of_decide_eq_true (this kv hkv)
  · intro sc hsc o hout _
    have hleaf := List.all_eq_true.1 ho o (List.mem_flatMap.2 ⟨sc, hsc, hout⟩)
    have : ∃ q ∈ pieces t t', q.snap = false ∧ q.id = o.leaf := by
      simp only [List.contains_eq_mem, List.mem_cons, List.not_mem_nil, or_false, decide_eq_true_eq] at hleaf
      rcases hleaf with e | e | e | e | e <;> rw [e] <;> simp [pieces]
    obtain ⟨q, hq, hqs, hqi⟩ := this
    have hmem : ∃ y, (q, y) ∈ l := by
      rw [← states_pieces h2] at hq
      obtain ⟨⟨q', y⟩, hqy, e⟩ := List.mem_map.1 hq
      cases e
      exact ⟨y, hqy⟩
    obtain ⟨y, hy⟩ := hmem
    obtain ⟨qa, qb, l1, l2, e1, e2, e3, e4⟩ := states_split h2 hy
    obtain ⟨g3, g4⟩ := g2 _ hy hqs
    have hhead : q.acts = .sched (.collect o.leaf) :: tasks q.task q.n := by
      unfold Piece.acts Piece.head
      rw [hqs, hqi]
      rfl
    have hrun : flat (q :: qb) = .sched (.collect o.leaf) :: (tasks q.task q.n ++ flat qb) := by
      show q.acts ++ flat qb = _
      rw [hhead]
      rfl
    refine ⟨flat qa, tasks q.task q.n ++ flat qb, y, z, q0, ?_, states_run e3, hrun ▸ e4, h3, g3, ?_⟩
    · unfold coll
      rw [e1]
      show (List.map Piece.acts (qa ++ q :: qb)).flatten ++ _ = _
      rw [List.map_append, List.flatten_append]
      show (flat qa ++ flat (q :: qb)) ++ _ = _
      rw [hrun]
    · intro i hi
      obtain ⟨qs, hqs1, hqs2, hqs3⟩ := snaps (t := t) (t' := t') (leavesOf_lt hm hi)
      have hin := snap_before hqs e1 qs hqs1 hqs2
      rw [← states_pieces e3] at hin
      obtain ⟨⟨q', y'⟩, hqy, e⟩ := List.mem_map.1 hin
      cases e
      obtain ⟨a', b', l1', l2', e1', e2', e3', e4'⟩ := states_split e3 hqy
      have hq' : q'.acts = .sched (.snapshot i) :: tasks q'.task q'.n := by
        unfold Piece.acts Piece.head
        rw [if_pos hqs2, ← hqs3]
      refine ⟨flat a', tasks q'.task q'.n ++ flat b', y', ?_, states_run e3', g4 _ (by rw [e2]; exact List.mem_append_left _ hqy) hqs2⟩
      rw [e1']
      show (List.map Piece.acts (a' ++ q' :: b')).flatten = _
      rw [List.map_append, List.flatten_append]
      show flat a' ++ (q'.acts ++ flat b') = _
      rw [hq']
      rfl
  · unfold coll
    show List.filterMap _ (flat (pieces t t') ++ _) = []
    rw [List.filterMap_append]
    exact (congrArg (· ++ _) (calls_flat _))

theorem few (t t' : Tempo) (a : AggKind) (k : Nat) (n : Str) : FewAttributes w (p t t' a) k n 4 (acts t t') := by
  refine ⟨fun _ => [ka, kb], [ka, kb], fun _ _ => (by decide : 2 < 4), by decide, ?_, ?_⟩
  · intro e he _
    rw [calls_acts] at he
    have : ∀ e ∈ called, e.1.attrs e.2.1 ∈ [ka, kb] := by
      decide
    exact this e he
  · intro o _ a ha
    refine ⟨?_, a, ha, fun _ _ _ => rfl⟩
    rintro ⟨kv, hkv, xs, hv, _⟩
    simp only [List.mem_cons, List.not_mem_nil, or_false] at ha
    rcases ha with rfl | rfl <;> simp only [ka, kb, List.mem_cons, List.not_mem_nil, or_false] at hkv <;> rw [hkv] at hv <;> cases hv

theorem noEmpty (t t' : Tempo) : ∀ e ∈ Pipeline.calls (acts t t'), NoEmptyList (e.1.attrs e.2.1) := by
  intro e he kv hkv
  rw [calls_acts] at he
  have h : ∀ e ∈ called,
      (e.1.attrs e.2.1).all (fun kv => decide (kv.val ≠ .bools [] ∧ kv.val ≠ .ints [] ∧ kv.val ≠ .floats [] ∧ kv.val ≠ .strs [])) = true := by
    decide
  have := h e he
  rw [List.all_eq_true] at this
  exact of_decide_eq_true (this kv hkv)

/-- What is to be evaluated for a program. -/
def evaluated (t t' : Tempo) (a : AggKind) : Bool :=
  known t t' a && small t t' a && outputs t t' a && match stages t t' a with | none => false | some s => decide (Good s.x s.r)

theorem of_evaluated {t t' : Tempo} {a : AggKind} (h : evaluated t t' a = true) :
    ∃ s, Program (fun _ => 0) w (p t t' a) 0 (acts t t') (coll t t') s.x s.x' ∧ stages t t' a = some s := by
  simp only [evaluated, Bool.and_eq_true] at h
  cases hs : stages t t' a with
  | none => rw [hs] at h; exact absurd h.2 (by simp)
  | some s =>
    rw [hs] at h
    exact ⟨s, program hs (of_decide_eq_true h.2) h.1.1.1 h.1.1.2 h.1.2, rfl⟩

/-- Evaluates `Plain`. -/
def plainB (cls : List (Views.Clause Nat)) (sc : Views.Scope) (ds : List Views.Desc) (c : Ctor) (n unit : Str) : Bool :=
  ds.all fun d => (d.name ≠ n && !(cls.any fun cl => Views.matches cl sc d && cl.agg ≠ .drop && n = cl.renamed d.name)) ||
    (d = c.desc n d.desc unit && !(d.desc.contains 123) && cls.all fun cl => !(Views.matches cl sc d))

theorem plainB_spec {v : Views Nat} {sc : Views.Scope} {ds : List Views.Desc} {c : Ctor} {n unit : Str} (h : plainB v.clauses sc ds c n unit = true) :
    Plain v sc ds c n unit := by
  intro d hd hn
  have h1 := List.all_eq_true.1 h d hd
  rw [Bool.or_eq_true] at h1
  rcases h1 with h1 | h1
  · simp only [Bool.and_eq_true, Bool.not_eq_true', decide_eq_true_eq, ← Bool.not_eq_true] at h1
    rcases hn with hn | ⟨cl, hcl, g1, g2, g3⟩ | ⟨-, g⟩
    · exact absurd hn h1.1
    · exact absurd (List.any_eq_true.2 ⟨cl, hcl, by simp only [Bool.and_eq_true, decide_eq_true_eq]; exact ⟨⟨(Props.C26_matches_iff cl sc d).2 g1, g2⟩, g3⟩⟩) h1.2
    · exact absurd g.symm h1.1
  · simp only [Bool.and_eq_true, decide_eq_true_eq, Bool.not_eq_true', ← Bool.not_eq_true, List.contains_iff_mem, List.all_eq_true] at h1
    exact ⟨⟨d.desc, h1.1.1⟩, h1.1.2, fun cl hcl g => h1.2 cl hcl ((Props.C26_matches_iff cl sc d).2 g)⟩

/-- Evaluates that the first meter has an instrument with this name. -/
def hasInst (t t' : Tempo) (a : AggKind) (n : Str) : Bool :=
  match (p t t' a).ordered[0]? with
  | none => false
  | some m => m.scope = scA && m.insts.any (fun o => o.desc.name = n)

theorem metric {t t' : Tempo} {a : AggKind} {c : Ctor} {n unit : Str} (hs : c.kinds.2.synchronous = true) (h : hasInst t t' a n = true)
    (hp : plainB clauses scA (requests 0 cs) c n unit = true) (hl : Views.Legal c.kinds.2 ((v0 t t' a).defaults.agg c.kinds.2)) :
    Metric Props.ViewEx.x (views t t' a) cs (p t t' a) 0 0 (v0 t t' a) scA c n unit := by
  refine ⟨by unfold p; rfl, rfl, ?_, hs, plainB_spec hp, hl⟩
  unfold hasInst at h
  cases hm : (p t t' a).ordered[0]? with
  | none => rw [hm] at h; cases h
  | some m =>
    rw [hm] at h
    simp only [Bool.and_eq_true, decide_eq_true_eq, List.any_eq_true] at h
    obtain ⟨h1, o, h2, h3⟩ := h
    exact ⟨m, o, rfl, h1, h2, h3⟩

/-- The counter. -/
theorem metric_n {t t' : Tempo} {a : AggKind} (h : hasInst t t' a (lit "n") = true) :
    Metric Props.ViewEx.x (views t t' a) cs (p t t' a) 0 0 (v0 t t' a) scA .int64Counter (lit "n") (lit "s") :=
  metric rfl h (by decide +kernel) (Or.inl rfl)

/-- The gauge. -/
theorem metric_g {t t' : Tempo} {a : AggKind} (h : hasInst t t' a (lit "g") = true) :
    Metric Props.ViewEx.x (views t t' a) cs (p t t' a) 0 0 (v0 t t' a) scA .int64Gauge (lit "g") [] :=
  metric rfl h (by decide +kernel) rfl

/-- The histogram. -/
theorem metric_h {t t' : Tempo} {a : AggKind} (h : hasInst t t' a (lit "h") = true) (ha : a = .monoSum ∨ a = .nonMonoSum ∨ a = .histogram ∨ a = .mmsc) :
    Metric Props.ViewEx.x (views t t' a) cs (p t t' a) 0 0 (v0 t t' a) scA .float64Histogram (lit "h") (lit "s") :=
  metric rfl h (by decide +kernel) ha

/-- Evaluates `OneByOne` for an instrument along a run. -/
def oneB (c : Sync.Cfg (List KV) (List KV) Bits (Cell Bits (List Bits))) (R : Reader (List Bits)) (id : Nat) : Sys (List Bits) → List Pipeline.Act → Bool
  | _, [] => true
  | s, b :: bs => (match b with | .call i _ _ => i.id != id || (List.range s.s.nextOp).all (fun j => (s.s.op j).obs != id || (s.s.op j).pc == .done) | _ => true) &&
    (match Pipeline.step c R s b with | none => true | some s' => oneB c R id s' bs)

theorem oneB_spec {id : Nat} {bs : List Pipeline.Act} {s0 : Sys (List Bits)} (h : oneB c R id s0 bs = true) {before after : List Pipeline.Act} {i : Front.Inst}
    {kvs : List KV} {n : Bits} {s : Sys (List Bits)} (e : bs = before ++ .call i kvs n :: after) (hr : Pipeline.run c R s0 before = some s) (hi : i.id = id) :
    ∀ j, j < s.s.nextOp → (s.s.op j).obs = id → (s.s.op j).pc = .done := by
  induction before generalizing bs s0 with
  | nil =>
    subst e
    simp only [Pipeline.run, Option.some.injEq] at hr
    subst hr
    simp only [List.nil_append, oneB, Bool.and_eq_true, hi, bne_self_eq_false, Bool.false_or] at h
    intro j hj ho
    have := List.all_eq_true.1 h.1 j (List.mem_range.2 hj)
    simpa [ho] using this
  | cons b before ih =>
    subst e
    simp only [Pipeline.run, Option.bind_eq_some_iff] at hr
    obtain ⟨s1, h1, h2⟩ := hr
    simp only [List.cons_append, oneB, Bool.and_eq_true, h1] at h
    exact ih h.2 rfl h2

/-- Evaluates that the only instrument with this name of the first meter is this one. -/
def onlyInst (t t' : Tempo) (a : AggKind) (n : Str) (i : Nat) : Bool :=
  match (p t t' a).ordered[0]? with
  | none => false
  | some m => m.insts.zipIdx.all (fun e => e.1.desc.name ≠ n || e.2 = i)

theorem oneByOne {t t' : Tempo} {a : AggKind} {n : Str} {i : Nat} (h : onlyInst t t' a n i = true)
    (hb : oneB (cfg t t' a) (rd t t' a) (instAddr 0 i) (initial (cfg t t' a)) (acts t t') = true) : OneByOne (fun _ => 0) w (p t t' a) 0 0 n (acts t t') := by
  have hc : ∀ id, Called (p t t' a) 0 n id → id = instAddr 0 i := by
    rintro id ⟨m, j, o, h1, h2, h3, h4⟩
    unfold onlyInst at h
    rw [h1] at h
    have := List.all_eq_true.1 h (o, j) (List.mem_zipIdx_iff_getElem?.2 h2)
    simp only [h3, ne_eq, not_true_eq_false, decide_false, Bool.false_or, decide_eq_true_eq] at this
    rw [h4, this]
  intro before ci kvs v after y e hr hcall j hj hcj
  exact oneB_spec hb e hr (hc _ hcall) j hj (hc _ hcj)

/-- Something recorded with the attributes `kvs` on an instrument. -/
theorem recorded {t t' : Tempo} {a : AggKind} {n : Str} {e : Front.Inst × List KV × Bits} {m : PMap} (he : e ∈ called)
    (hr : ¬ Props.Rejected e.1.num e.1.kind e.2.2) (hd : Describes none (e.1.attrs e.2.1) m) (hc : Called (p t t' a) 0 n e.1.id) :
    recordedBy (p t t' a) 0 n (fun as => Describes none as m) (acts t t') ≠ [] := by
  apply List.ne_nil_of_mem (a := e.2.2)
  unfold recordedBy
  rw [calls_acts]
  exact List.mem_map.2 ⟨e, List.mem_filter.2 ⟨he, by simp only [decide_eq_true_eq]; exact ⟨hr, hd, hc⟩⟩, rfl⟩

/-- Evaluates `Called`. -/
def isCalled (t t' : Tempo) (a : AggKind) (n : Str) (i : Nat) : Bool :=
  match (p t t' a).ordered[0]? with
  | none => false
  | some m => match m.insts[i]? with
    | none => false
    | some o => o.desc.name = n

theorem isCalled_spec {t t' : Tempo} {a : AggKind} {n : Str} {i : Nat} (h : isCalled t t' a n i = true) : Called (p t t' a) 0 n (instAddr 0 i) := by
  unfold isCalled at h
  cases hm : (p t t' a).ordered[0]? with
  | none => rw [hm] at h; cases h
  | some m =>
    cases ho : m.insts[i]? with
    | none => rw [hm] at h; dsimp only at h; rw [ho] at h; cases h
    | some o =>
      rw [hm] at h
      dsimp only at h
      rw [ho] at h
      exact ⟨m, i, o, hm, ho, of_decide_eq_true h, rfl⟩

/-- The attributes `ka` in a payload. -/
def ma : PMap := [([97], .one (.bool true))]

theorem describes_ka : Describes none ka ma := by
  refine ⟨by simp [ma], fun k v => ?_⟩
  have hl : lastValue k ka = if k = [97] then some (.bool true) else none := by
    unfold lastValue ka kvb
    by_cases h : k = [97]
    · subst h
      decide
    · rw [if_neg h]
      simp [Ne.symm h]
  simp only [ma, List.mem_singleton, Prod.mk.injEq]
  constructor
  · rintro ⟨rfl, rfl⟩
    exact ⟨by decide, fun ks h => (by cases h), .bool true, (by rw [hl, if_pos rfl]), rfl⟩
  · rintro ⟨-, -, x, h1, h2⟩
    rw [hl] at h1
    by_cases h : k = [97]
    · rw [if_pos h, Option.some.injEq] at h1
      subst h1
      refine ⟨h, ?_⟩
      match v, h2 with
      | .one (.bool b), h2 => exact congrArg (fun b => PVal.one (.bool b)) h2
    · rw [if_neg h] at h1
      cases h1

end Verif.Examples.Asm
