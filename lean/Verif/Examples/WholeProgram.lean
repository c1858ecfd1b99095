import Verif.Model.Whole
import Verif.Spec.Whole
import Verif.Proof.Whole
import Verif.Examples.AssemblyViewsProgram

/-!
A program with a counter and an observable counter, shown by one reader.
-/

namespace Verif.Examples.Wh
open Verif Verif.Attr Verif.Number Verif.Aggr Verif.Export Verif.Assembly Verif.Instruments Verif.Examples Verif.Examples.Asm Verif.Examples.AsmV Verif.Whole
open Verif.Examples.Pipe (kvb)
open Verif.Views (Views Tempo lit)

/-- The reader shows `m` as `y`, keeping the attribute `a`. -/
def v (t : Tempo) : Views Nat where
  name := lit "reader"
  clauses := [{ Props.ViewEx.any with name := lit "m", rename := some (fun _ => lit "y"), keys := some [lit "a"], acfg := ⟨0, 4⟩ }]
  defaults := { agg := Views.standardAgg, tempo := fun _ => t, int64 := fun _ => ⟨0, 4⟩, float64 := fun _ => ⟨0, 4⟩ }
  perfLimit := 4

def cs : List (Provider.Call Nat) :=
  [.meter scA, .instrument 0 (Ctor.int64Counter.desc (lit "n") [] (lit "s")), .instrument 0 (Ctor.int64ObservableCounter.desc (lit "m") [] (lit "s"))]

def p (t : Tempo) : Provider.Provider Nat Nat := Provider.run Props.ViewEx.x (Provider.new [v t]) cs

def fsub (a b : Bits) : Bits := a - b

def P (t : Tempo) : Parts (List Bits) := parts (fun _ => 0) Asm.w fsub (p t) 0
def R (t : Tempo) : Pipeline.Reader (List Bits) := reader Asm.w (p t) 0

def n : Front.Inst := { id := 0, kind := .syncCounter, num := .int64, sizeLimit := 100, proc := none }

def ops (i n : Nat) : List Whole.Act := List.replicate n (.sched (.op i))
def tasks (t n : Nat) : List Whole.Act := List.replicate n (.sched (.task t 0))

/-- The callback observes twice; number `i` is its first observation. -/
def sees (cb i : Nat) (a : List KV) (x : Bits) (b : List KV) (y : Bits) : List Whole.Act :=
  .cb (.startCb [2]) :: .cb (.observe cb 2 a x) :: List.replicate 3 (.cb (.op i)) ++ .cb (.observe cb 2 b y) :: List.replicate 3 (.cb (.op (i + 1))) ++ [.cb (.endCb cb)]

def e (set : List KV) (keys : List (Nat × List KV)) (v : Bits) : Async.Entry (List KV) Bits := ⟨2, set, keys, v⟩

/-- The first call on the counter is half done when the callback runs, and goes on while the reader collects. -/
def acts (t : Tempo) : List Whole.Act :=
  [.call n ka 7] ++ ops 0 4 ++ sees 0 0 kab 3 kb 1 ++ [.call n kb 5] ++ ops 1 9 ++ [.sched (.snapshot 0)] ++ tasks 0 4 ++ ops 0 5 ++ tasks 0 10 ++
  [.sched (.collect 0)] ++ tasks 1 (by' t 6 4) ++ [.collect [e kb [(4, [])] 1, e kab [(4, ka)] 3] ⟨1, 1, 2⟩] ++ [.call n ka 2] ++ ops 2 7

def mid1 : List Whole.Act := sees 1 2 kab 10 ka 5
def mid2 : List Whole.Act := tasks 2 9
def mid : List Whole.Act := mid1 ++ .sched (.snapshot 0) :: mid2
def fin (t : Tempo) : List Whole.Act := tasks 3 (by' t 6 4)
def order : List (Async.Entry (List KV) Bits) := [e ka [(4, ka)] 5, e kab [(4, ka)] 10]
def q : Times.Seq := ⟨1, 2, 3⟩

def coll (t : Tempo) : List Whole.Act := mid ++ .sched (.collect 0) :: fin t ++ [.collect order q]

/-- The states between: before and after the last snapshot, before the last export, and at the end. -/
structure Stages where
  x : Sys (List Bits)
  a : Sys (List Bits)
  y : Sys (List Bits)
  z : Sys (List Bits)
  x' : Sys (List Bits)

def stages (t : Tempo) : Option Stages :=
  (Whole.run (P t) (R t) (Whole.initial (P t)) (acts t)).bind fun x => (Whole.run (P t) (R t) x mid1).bind fun a => (Whole.run (P t) (R t) a (.sched (.snapshot 0) :: mid2)).bind fun y =>
    (Whole.run (P t) (R t) y (.sched (.collect 0) :: fin t)).bind fun z => (Whole.step (P t) (R t) z (.collect order q)).bind fun x' => some ⟨x, a, y, z, x'⟩

/-- All calls have returned, the last snapshot and collection are finished in time. -/
def Good (s : Stages) : Prop :=
  (∀ i, i < s.x.sync.nextOp → (s.x.sync.op i).pc = .done) ∧ s.y.sync.task s.a.sync.nextTask = .done ∧ s.z.sync.task s.y.sync.nextTask = .done

instance : DecidablePred Good := fun s => by unfold Good; infer_instance

/-- Evaluates `Orderly`. -/
def orderlyB (P : Parts (List Bits)) (R : Pipeline.Reader (List Bits)) : Sys (List Bits) → List Whole.Act → Bool
  | _, [] => true
  | x, b :: as =>
    (match b with | .collect _ _ => (List.range x.async.nextOp).all (fun i => decide ((x.async.op i).pc ≠ .create) && decide ((x.async.op i).pc ≠ .update)) | _ => true) &&
    match Whole.step P R x b with | none => true | some y => orderlyB P R y as

theorem orderlyB_spec {P : Parts (List Bits)} {R : Pipeline.Reader (List Bits)} {x : Sys (List Bits)} {acts : List Whole.Act} (h : orderlyB P R x acts = true) :
    ∀ before order q after y, acts = before ++ .collect order q :: after → Whole.run P R x before = some y → ¬ Async.InFlight y.async := by
  induction acts generalizing x with
  | nil => intro before order q after y h1 _; simp at h1
  | cons b acts ih =>
    intro before order q after y h1 h2
    unfold orderlyB at h
    rw [Bool.and_eq_true] at h
    cases before with
    | nil =>
      simp only [List.nil_append, List.cons.injEq] at h1
      rw [h1.1] at h
      have h3 := h.1
      simp only [Whole.run, Option.some.injEq] at h2
      subst h2
      rintro ⟨i, hi, hpc⟩
      have h4 := List.all_eq_true.1 h3 i (List.mem_range.2 hi)
      simp only [Bool.and_eq_true, decide_eq_true_eq] at h4
      rcases hpc with hpc | hpc
      · exact h4.1 hpc
      · exact h4.2 hpc
    | cons b' before =>
      simp only [List.cons_append, List.cons.injEq] at h1
      rw [← h1.1] at h2
      simp only [Whole.run, Option.bind_eq_some_iff] at h2
      obtain ⟨z, h3, h4⟩ := h2
      have h5 := h.2
      rw [h3] at h5
      exact ih h5 before order q after y h1.2 h4

/-- The instruments of the provider, and the output metrics. -/
def known (t : Tempo) : Bool :=
  (match (p t).ordered[0]? with
    | none => false
    | some m => match m.insts[0]? with
      | none => false
      | some o => o.desc.kind = .syncCounter && o.desc.num = .int64) &&
  decide ((p t).ordered.map (fun m => m.insts.length) = [2]) && (leavesOf (p t) (pair 0 1)).isEmpty &&
  ((R t).scopes.flatMap (·.2)).all (fun o => !syncLeaf (p t) o.leaf || o.leaf = 0)

attribute [irreducible] p

def called : List (Front.Inst × List KV × Bits) := [(n, ka, 7), (n, kb, 5), (n, ka, 2)]

theorem calls_acts (t : Tempo) : Whole.calls (acts t) = called := by
  unfold acts by'
  split <;> rfl
theorem calls_coll (t : Tempo) : Whole.calls (coll t) = [] := by
  unfold coll fin by'
  split <;> rfl

theorem leaves {t : Tempo} (h : (p t).ordered.map (fun m => m.insts.length) = [2]) (h' : (leavesOf (p t) (pair 0 1)).isEmpty = true) {l o : Nat} (hl : l ∈ leavesOf (p t) o) : o = 0 := by
  have hl0 := hl
  unfold leavesOf instAt at hl
  cases hm : (p t).ordered[(unpair o).1]? with
  | none => rw [hm] at hl; cases hl
  | some m =>
    cases ho : m.insts[(unpair o).2]? with
    | none => rw [hm, Option.bind_some, ho] at hl; cases hl
    | some i =>
      have h1 : ((p t).ordered.map (fun m => m.insts.length))[(unpair o).1]? = some m.insts.length := by rw [List.getElem?_map, hm]; rfl
      have h2 : (unpair o).2 < m.insts.length := (List.getElem?_eq_some_iff.1 ho).1
      rw [h] at h1
      have h3 : o = pair (unpair o).1 (unpair o).2 := (pair_unpair o).symm
      rw [h3] at hl0 ⊢
      clear h3 hl hm ho
      generalize (unpair o).2 = b at h2 hl0 ⊢
      generalize (unpair o).1 = a at h1 hl0 ⊢
      match a, h1 with
      | 0, h1 =>
        simp only [List.getElem?_cons_zero, Option.some.injEq] at h1
        rw [← h1] at h2
        match b, h2 with
        | 0, _ => decide
        | 1, _ => rw [List.isEmpty_iff.1 h'] at hl0; cases hl0
      | _ + 1, h1 => simp at h1

theorem ending {t : Tempo} {s : Stages} (hs : stages t = some s) (hg : Good s) (hk : known t = true) (ho : orderlyB (P t) (R t) (Whole.initial (P t)) (acts t ++ coll t) = true) :
    Ending (fun _ => 0) Asm.w fsub (p t) 0 (acts t) (coll t) s.x s.x' := by
  unfold stages at hs
  simp only [Option.bind_eq_some_iff, Option.some.injEq] at hs
  obtain ⟨x, h1, a, h2, y, h3, z, h4, x', h5, rfl⟩ := hs
  obtain ⟨g1, g2, g3⟩ := hg
  simp only [known, Bool.and_eq_true, decide_eq_true_eq] at hk
  obtain ⟨⟨⟨k1, k2⟩, k3⟩, k4⟩ := hk
  have hmid : Whole.run (P t) (R t) x mid = some y := by
    unfold mid
    rw [Whole.run_append, h2, Option.bind_some, h3]
  have hcoll : Whole.run (P t) (R t) x (coll t) = some x' := by
    unfold coll
    rw [Whole.run_append, Whole.run_append, hmid, Option.bind_some, h4, Option.bind_some]
    simp only [Whole.run, h5, Option.bind_some]
  refine ⟨⟨by unfold Exportable; decide, ?_, ?_, orderlyB_spec ho, ?_⟩, ?_, by rw [calls_acts]; decide, h1, g1, ?_, calls_coll t⟩
  · intro e he
    have : Whole.calls (acts t ++ coll t) = called := by
      unfold Whole.calls
      rw [List.filterMap_append]
      exact (congr (congrArg (· ++ ·) (calls_acts t)) (calls_coll t)).trans (List.append_nil _)
    rw [this] at he
    have hd : ∀ e ∈ called, (e.1.attrs e.2.1).all (fun kv => decide (kv.val ≠ .invalid)) = true := by decide
    exact fun kv hkv => of_decide_eq_true (List.all_eq_true.1 (hd e he) kv hkv)
  · intro cb o as v hm
    have hd : (acts t ++ coll t).all (fun b => match b with | .cb (.observe _ _ as _) => as.all (fun kv => decide (kv.val ≠ .invalid)) | _ => true) = true := by
      unfold acts coll fin by'
      split <;> decide
    have := List.all_eq_true.1 hd _ hm
    exact fun kv hkv => of_decide_eq_true (List.all_eq_true.1 this kv hkv)
  · rw [Whole.run_append]
    have h1' := h1
    unfold P R at h1' hcoll
    rw [h1', Option.bind_some, hcoll]
  · intro e he
    rw [calls_acts] at he
    have hn : e.1 = n := by
      simp only [called, List.mem_cons, List.not_mem_nil, or_false] at he
      rcases he with rfl | rfl | rfl <;> rfl
    rw [hn]
    cases hm : (p t).ordered[0]? with
    | none => rw [hm] at k1; cases k1
    | some m =>
      cases ho : m.insts[0]? with
      | none => rw [hm] at k1; dsimp only at k1; rw [ho] at k1; cases k1
      | some o =>
        rw [hm] at k1
        dsimp only at k1
        rw [ho] at k1
        simp only [Bool.and_eq_true, decide_eq_true_eq] at k1
        refine ⟨0, 0, m, o, none, hm, ho, by rw [k1.1]; rfl, ?_⟩
        unfold instrument n
        rw [k1.1, k1.2]
        rfl
  · intro sc hsc o hout hsy
    have hl := List.all_eq_true.1 k4 o (List.mem_flatMap.2 ⟨sc, hsc, hout⟩)
    rw [hsy] at hl
    have hl : o.leaf = 0 := of_decide_eq_true (by simpa using hl)
    rw [hl]
    refine ⟨⟨mid, fin t, y, z, order, q, rfl, hmid, h4, h5, g3, fun i hi => ?_⟩⟩
    have hi : 0 ∈ leavesOf (p t) i := hi
    rw [leaves k2 k3 hi]
    exact ⟨mid1, mid2, a, rfl, h2, g2⟩

/-- What is to be evaluated for a program. -/
def evaluated (t : Tempo) : Bool :=
  known t && orderlyB (P t) (R t) (Whole.initial (P t)) (acts t ++ coll t) && match stages t with | none => false | some s => decide (Good s)

theorem of_evaluated {t : Tempo} (h : evaluated t = true) : ∃ s, stages t = some s ∧ Ending (fun _ => 0) Asm.w fsub (p t) 0 (acts t) (coll t) s.x s.x' := by
  simp only [evaluated, Bool.and_eq_true] at h
  cases hs : stages t with
  | none => rw [hs] at h; exact absurd h.2 (by simp)
  | some s =>
    rw [hs] at h
    exact ⟨s, rfl, ending hs (of_decide_eq_true h.2) h.1.1 h.1.2⟩

def lookN (t : Tempo) : Look Nat := { sync := true, kind := .monoSum, num := .int64, unit := lit "s", keys := none, acfg := ⟨0, 4⟩, delta := decide (t = .delta) }
def lookY (t : Tempo) : Look Nat :=
  { sync := false, kind := .monoSum, num := .int64, unit := lit "s", keys := some [lit "a"], acfg := ⟨0, 4⟩, delta := decide (t = .delta) }

theorem viewed {t : Tempo} {n : Str} {L : Look Nat} (h : viewedB (p t) 0 (v t) scA n (requests 0 cs) L = true) : Viewed Props.ViewEx.x [v t] cs (p t) 0 0 (v t) scA n L :=
  viewedB_spec (by unfold p; rfl) rfl h

/-- What counted. -/
def seen : List Seen := [(0, 2, kab, 3), (0, 2, kb, 1), (1, 2, kab, 10), (1, 2, ka, 5)]

end Verif.Examples.Wh
