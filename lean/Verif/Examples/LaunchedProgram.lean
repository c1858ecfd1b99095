import Verif.Proof.Launched
import Verif.Examples.LiveProgram

/-!
A program which starts the launcher with a temporality preference, then asks for a counter and, after the first collection, for an observable counter. Descriptions may have
hints.
-/

namespace Verif.Examples.Ln
open Verif Verif.Attr Verif.Number Verif.Aggr Verif.Export Verif.Assembly Verif.Instruments Verif.Launched Verif.Examples
open Verif.Examples.Asm (scA ka kb by' listH)
open Verif.Examples.AsmV (kab)
open Verif.Front (IKind)
open Verif.Views (Views Tempo lit)
open Verif.Launcher (Preference documented)
open Verif.Examples.Wh (ops tasks sees)

/-! ### The launcher -/

def prefText : Preference → Str
  | .cumulative => lit "cumulative"
  | .delta => lit "Delta"
  | .lowmemory => lit "lowMemory"

def opts (a : Preference) : List Launcher.Opt := [.serviceName (lit "svc"), .tempoPref (lit "x"), .tempoPref (prefText a), .resourceAttributes [(lit "zone", lit "here")]]
def lw : Launcher.World := Launcher.exWorld none [] (lit "t")

/-- The configuration of the pipeline. -/
def pc (a : Preference) : Launcher.PipelineConfig :=
  match Launcher.configure Launcher.exExt lw (opts a) with
  | some r => Launcher.metricsConfig r.1
  | none => { endpoint := [], insecure := false, headers := none, resource := [], period := [], propagators := [], builtinsEnabled := false, builtinLibs := [], tempoPref := [] }

theorem launch (a : Preference) : Launch Launcher.exExt lw (opts a) a (pc a) (documented a) := by
  obtain ⟨c, eff, h1, -, -, -, -, -, -, -, -, h2, h3, -, -, -, -, h4, -⟩ := Launcher.C48_last_option_wins Launcher.exExt lw (opts a)
  obtain ⟨c0, hh, -, -, h5⟩ := Launcher.configure_spec Launcher.exExt lw (opts a)
  rw [h1] at h5
  obtain ⟨e1, e2⟩ := Prod.mk.inj (Option.some.inj h5)
  have hpref : Launcher.prefName (Launcher.exExt.lower ((Launcher.lastSet Launcher.tempoPrefOf (opts a)).getD lw.env.tempoPref)) = some a := by
    cases a
    · unfold Launcher.prefName; rw [if_pos (by decide +kernel)]
    · unfold Launcher.prefName; rw [if_neg (by decide +kernel), if_pos (by decide +kernel)]
    · unfold Launcher.prefName; rw [if_neg (by decide +kernel), if_neg (by decide +kernel), if_pos (by decide +kernel)]
  refine ⟨⟨c, eff, 30000000000, Launcher.builtinLoop c.builtinsEnabled c.builtinLibs, h1, ?_⟩, hpref⟩
  have hpc : pc a = Launcher.metricsConfig c := by unfold pc; rw [h1]
  have hspec := Launcher.tempoOptions_spec Launcher.exExt.lower c.tempoPref
  rw [h2, hpref] at hspec
  obtain ⟨t, ht, hd⟩ := hspec
  have htd : t = documented a := funext hd
  rw [htd, ← h2] at ht
  have hen : c.metricsEnabled = true := h3
  have hper : Launcher.reportingPeriod Launcher.exExt c.period = some 30000000000 := by rw [h4]; cases a <;> decide +kernel
  rw [e2, ← e1]
  unfold Launcher.effectsOf
  refine List.mem_append_right _ (List.mem_append_right _ ?_)
  unfold Launcher.setupMetrics
  rw [if_pos hen]
  unfold Launcher.newMetricsPipeline
  rw [show (Launcher.metricsConfig c).period = c.period from rfl, show (Launcher.metricsConfig c).tempoPref = c.tempoPref from rfl, hper, ht, hpc]
  exact List.mem_singleton.2 rfl

/-! ### The program -/

/-- Hints in the descriptions of the instruments. -/
inductive Hinting
  | none | stats | deltas | gauge | sizes | sums | buckets

/-- The description of the first instrument. -/
def Hinting.text : Hinting → Str
  | .none => []
  | .stats => lit "{minmaxsumcount"
  | .deltas => lit "{!monotonic_sum"
  | .gauge => lit "{gauge"
  | .sizes => lit "{!histogram"
  | .sums => lit "{monotonic_sum"
  | .buckets => lit "{histogram"

/-- The description of the observable counter. -/
def Hinting.text' : Hinting → Str
  | .gauge => lit "{gauge"
  | .deltas => lit "{!monotonic_sum"
  | _ => []

/-- Constructor and hint. -/
abbrev Made := Ctor × Hinting

def out : Outside Nat (List Bits) where
  x := Props.ViewEx.x
  zero := 0
  readerName := lit "reader"
  farm := fun _ => 0
  fadd := Asm.fadd
  fsub := Wh.fsub
  hist := fun _ _ => listH
  noHist := listH
  toHist := Asm.w.toHist
  mapping := Asm.w.mapping

def w (a : Preference) : World Nat (List Bits) := world out (pc a)
def vs (a : Preference) : List (Views Nat) := views out (documented a)

def cs (ct : Made) : List (Provider.Call Nat) :=
  [.meter scA, .instrument 0 (ct.1.desc (lit "n") ct.2.text (lit "s")), .instrument 0 (Ctor.int64ObservableCounter.desc (lit "y") ct.2.text' (lit "s"))]

def p (a : Preference) (ct : Made) : Provider.Provider Nat Nat := Provider.run Props.ViewEx.x (Provider.new (vs a)) (cs ct)

def P (a : Preference) (ct : Made) : Whole.Parts (List Bits) := Whole.parts (fun _ => 0) (w a) Wh.fsub (p a ct) 0
def R (a : Preference) (ct : Made) : Pipeline.Reader (List Bits) := reader (w a) (p a ct) 0

def n (ct : Made) : Front.Inst := { id := 0, kind := ct.1.kinds.2, num := ct.1.kinds.1, sizeLimit := 8192, proc := none }
def e (set : List KV) (v : Bits) : Async.Entry (List KV) Bits := ⟨2, set, [(4, set)], v⟩

/-- The temporality of the synchronous instrument. -/
def tempo (a : Preference) (ct : Made) : Tempo :=
  match ct.2 with
  | .deltas | .sizes => .delta
  | _ => documented a ct.1.kinds.2

/-- Up to the first collection. -/
def first (a : Preference) (ct : Made) : List Whole.Act :=
  [.call (n ct) ka 7] ++ ops 0 9 ++ [.call (n ct) kb 5] ++ ops 1 9 ++ [.sched (.snapshot 0)] ++ tasks 0 14 ++ [.sched (.collect 0)] ++ tasks 1 (by' (tempo a ct) 6 4) ++ [.collect [] ⟨1, 1, 2⟩]
def second (ct : Made) : List Whole.Act := [.call (n ct) ka 2] ++ ops 2 7

def acts (a : Preference) (ct : Made) : List (Live.Act Nat) :=
  [.make (.meter scA), .make (.instrument 0 (ct.1.desc (lit "n") ct.2.text (lit "s")))] ++ (first a ct).map .run ++
  [.make (.instrument 0 (Ctor.int64ObservableCounter.desc (lit "y") ct.2.text' (lit "s")))] ++ (second ct).map .run

def mid1 : List Whole.Act := sees 0 0 kab 10 ka 5
def mid2 : List Whole.Act := tasks 2 9
def mid : List Whole.Act := mid1 ++ .sched (.snapshot 0) :: mid2
def fin (a : Preference) (ct : Made) : List Whole.Act := tasks 3 (by' (tempo a ct) 6 4)
def order : List (Async.Entry (List KV) Bits) := [e ka 5, e kab 10]
def q : Times.Seq := ⟨1, 2, 3⟩
def coll (a : Preference) (ct : Made) : List Whole.Act := mid ++ .sched (.collect 0) :: fin a ct ++ [.collect order q]

def initial (a : Preference) (ct : Made) : Live.Sys Nat (List Bits) Nat := Live.initial (fun _ => 0) (w a) Wh.fsub (p a ct) (vs a) 0

/-- The states between: before and after the last snapshot, before the last export, and at the end. -/
structure Stages where
  x : Live.Sys Nat (List Bits) Nat
  a : Whole.Sys (List Bits)
  y : Whole.Sys (List Bits)
  z : Whole.Sys (List Bits)
  x' : Whole.Sys (List Bits)

def Stages.last (s : Stages) : Live.Sys Nat (List Bits) Nat := { s.x with s := s.x' }

def stages (a : Preference) (ct : Made) : Option Stages :=
  (Live.run (fun _ => 0) (w a) Wh.fsub Props.ViewEx.x 0 (initial a ct) (acts a ct)).bind fun x => (Whole.run (P a ct) (R a ct) x.s mid1).bind fun b =>
    (Whole.run (P a ct) (R a ct) b (.sched (.snapshot 0) :: mid2)).bind fun y => (Whole.run (P a ct) (R a ct) y (.sched (.collect 0) :: fin a ct)).bind fun z =>
    (Whole.step (P a ct) (R a ct) z (.collect order q)).bind fun x' => some ⟨x, b, y, z, x'⟩

/-- All calls have returned, the last snapshot and collection are finished in time. -/
def Good (s : Stages) : Prop :=
  (∀ i, i < s.x.s.sync.nextOp → (s.x.s.sync.op i).pc = .done) ∧ s.y.sync.task s.a.sync.nextTask = .done ∧ s.z.sync.task s.y.sync.nextTask = .done

instance : DecidablePred Good := fun s => by unfold Good; infer_instance

/-- Evaluates `Orderly`. -/
def orderlyB (a : Preference) (ct : Made) : Live.Sys Nat (List Bits) Nat → List (Live.Act Nat) → Bool
  | _, [] => true
  | x, b :: as =>
    (match b with
      | .run (.collect _ _) => (List.range x.s.async.nextOp).all (fun i => decide ((x.s.async.op i).pc ≠ .create) && decide ((x.s.async.op i).pc ≠ .update))
      | _ => true) &&
    match Live.step (fun _ => 0) (w a) Wh.fsub Props.ViewEx.x 0 x b with | none => true | some y => orderlyB a ct y as

theorem orderlyB_spec {a : Preference} {ct : Made} {x : Live.Sys Nat (List Bits) Nat} {acts : List (Live.Act Nat)} (h : orderlyB a ct x acts = true) :
    ∀ before order q after y, acts = before ++ .run (.collect order q) :: after → Live.run (fun _ => 0) (w a) Wh.fsub Props.ViewEx.x 0 x before = some y →
      ¬ Async.InFlight y.s.async := by
  induction acts generalizing x with
  | nil => intro before order q after y h1 _; simp at h1
  | cons b acts ih =>
    intro before order q after y h1 h2
    unfold orderlyB at h
    rw [Bool.and_eq_true] at h
    cases before with
    | nil =>
      simp only [List.nil_append, List.cons.injEq] at h1
      rw [h1.1] at h
      have h3 := h.1
      simp only [Live.run, Option.some.injEq] at h2
      subst h2
      rintro ⟨i, hi, hpc⟩
      have h4 := List.all_eq_true.1 h3 i (List.mem_range.2 hi)
      simp only [Bool.and_eq_true, decide_eq_true_eq] at h4
      rcases hpc with hpc | hpc
      · exact h4.1 hpc
      · exact h4.2 hpc
    | cons b' before =>
      simp only [List.cons_append, List.cons.injEq] at h1
      rw [← h1.1] at h2
      simp only [Live.run, Option.bind_eq_some_iff] at h2
      obtain ⟨z, h3, h4⟩ := h2
      have h5 := h.2
      rw [h3] at h5
      exact ih h5 before order q after y h1.2 h4

/-- The instruments of the provider, and the output metrics. -/
def known (a : Preference) (ct : Made) : Bool :=
  (match (p a ct).ordered[0]? with
    | none => false
    | some m => match m.insts[0]? with
      | none => false
      | some o => o.desc.kind = ct.1.kinds.2 && o.desc.num = ct.1.kinds.1) &&
  decide ((p a ct).ordered.map (fun m => m.insts.length) = [2]) && (leavesOf (p a ct) (pair 0 1)).isEmpty &&
  ((R a ct).scopes.flatMap (·.2)).all (fun o => !syncLeaf (p a ct) o.leaf || o.leaf = 0)

attribute [irreducible] p

theorem leaves {a : Preference} {ct : Made} (h : (p a ct).ordered.map (fun m => m.insts.length) = [2]) (h' : (leavesOf (p a ct) (pair 0 1)).isEmpty = true) {l o : Nat} (hl : l ∈ leavesOf (p a ct) o) : o = 0 := by
  have hl0 := hl
  unfold leavesOf instAt at hl
  cases hm : (p a ct).ordered[(unpair o).1]? with
  | none => rw [hm] at hl; cases hl
  | some m =>
    cases ho : m.insts[(unpair o).2]? with
    | none => rw [hm, Option.bind_some, ho] at hl; cases hl
    | some i =>
      have h1 : ((p a ct).ordered.map (fun m => m.insts.length))[(unpair o).1]? = some m.insts.length := by rw [List.getElem?_map, hm]; rfl
      have h2 : (unpair o).2 < m.insts.length := (List.getElem?_eq_some_iff.1 ho).1
      rw [h] at h1
      have h3 : o = pair (unpair o).1 (unpair o).2 := (pair_unpair o).symm
      rw [h3] at hl0 ⊢
      clear h3 hl hm ho
      generalize (unpair o).2 = b at h2 hl0 ⊢
      generalize (unpair o).1 = aa at h1 hl0 ⊢
      match aa, h1 with
      | 0, h1 =>
        simp only [List.getElem?_cons_zero, Option.some.injEq] at h1
        rw [← h1] at h2
        match b, h2 with
        | 0, _ => decide
        | 1, _ => rw [List.isEmpty_iff.1 h'] at hl0; cases hl0
      | _ + 1, h1 => simp at h1

def called (ct : Made) : List (Front.Inst × List KV × Bits) := [(n ct, ka, 7), (n ct, kb, 5), (n ct, ka, 2)]

theorem makes_acts (a : Preference) (ct : Made) : Live.makes (acts a ct) = cs ct := by
  unfold acts first by'
  split <;> rfl
theorem calls_acts (a : Preference) (ct : Made) : Whole.calls (Live.rest (acts a ct)) = called ct := by
  unfold acts first by'
  split <;> rfl
theorem calls_coll (a : Preference) (ct : Made) : Whole.calls (coll a ct) = [] := by
  unfold coll fin by'
  split <;> rfl

theorem exportable (a : Preference) : Exportable (w a).resource := by
  obtain ⟨c, eff, h1, h2, -⟩ := (launch a).spec
  show Exportable (pc a).resource
  rw [h2]
  exact resource_exportable h1

theorem ending {a : Preference} {ct : Made} {s : Stages} (hs : stages a ct = some s) (hg : Good s) (hk : known a ct = true) (hpos : (coll a ct).all (Live.possible (w a) (p a ct)) = true)
    (ho : orderlyB a ct (initial a ct) (acts a ct ++ (coll a ct).map .run) = true) :
    s.last.p = p a ct ∧ Live.Ending (fun _ => 0) (w a) Wh.fsub Props.ViewEx.x (vs a) 0 (acts a ct) (coll a ct) s.x s.last := by
  unfold stages at hs
  simp only [Option.bind_eq_some_iff, Option.some.injEq] at hs
  obtain ⟨x, h1, b, h2, y, h3, z, h4, x', h5, rfl⟩ := hs
  obtain ⟨g1, g2, g3⟩ := hg
  simp only [known, Bool.and_eq_true, decide_eq_true_eq] at hk
  obtain ⟨⟨⟨k1, k2⟩, k3⟩, k4⟩ := hk
  have hx : x.p = p a ct := by
    have := Live.run_prov h1
    rw [makes_acts] at this
    rw [this]
    unfold p
    rfl
  have hmid : Whole.run (P a ct) (R a ct) x.s mid = some y := by
    unfold mid
    rw [Whole.run_append, h2, Option.bind_some, h3]
  have hcoll : Whole.run (P a ct) (R a ct) x.s (coll a ct) = some x' := by
    unfold coll
    rw [Whole.run_append, Whole.run_append, hmid, Option.bind_some, h4, Option.bind_some]
    simp only [Whole.run, h5, Option.bind_some]
  refine ⟨hx, ?_⟩
  have hfill : Live.initial (fun _ => 0) (w a) Wh.fsub (Stages.last ⟨x, b, y, z, x'⟩).p (vs a) 0 = initial a ct := by
    show Live.initial (fun _ => 0) (w a) Wh.fsub x.p (vs a) 0 = _
    rw [hx]
    rfl
  refine ⟨⟨exportable a, ?_, ?_, ?_, ?_⟩, by rw [calls_acts]; exact (by decide : 3 < 2 ^ 32), ?_, g1, ?_, calls_coll a ct⟩
  · intro e he
    have : Whole.calls (Live.rest (acts a ct ++ (coll a ct).map .run)) = called ct := by
      rw [Live.rest_append, Live.rest_run]
      unfold Whole.calls
      rw [List.filterMap_append]
      exact (congr (congrArg (· ++ ·) (calls_acts a ct)) (calls_coll a ct)).trans (List.append_nil _)
    rw [this] at he
    have hd : ∀ e ∈ called ct, (e.1.attrs e.2.1).all (fun kv => decide (kv.val ≠ .invalid)) = true := by rcases ct with ⟨c, h⟩ <;> cases c <;> cases h <;> decide
    exact fun kv hkv => of_decide_eq_true (List.all_eq_true.1 (hd e he) kv hkv)
  · intro cb o as v hm
    have hd : (acts a ct ++ (coll a ct).map Live.Act.run).all (fun b : Live.Act Nat => match b with
        | .run (.cb (.observe _ _ as _)) => as.all (fun kv : KV => decide (kv.val ≠ Val.invalid))
        | _ => true) = true := by
      unfold acts first coll fin by'
      split <;> rcases ct with ⟨c, h⟩ <;> cases c <;> cases h <;> decide
    have := List.all_eq_true.1 hd _ hm
    exact fun kv hkv => of_decide_eq_true (List.all_eq_true.1 this kv hkv)
  · unfold Live.Orderly
    rw [hfill]
    exact orderlyB_spec ho
  · rw [hfill, Live.run_append, h1, Option.bind_some]
    refine Live.run_fixed ?_ ?_
    · rw [hx]
      exact List.all_eq_true.1 hpos
    · rw [hx]
      exact hcoll
  · rw [hfill]
    exact h1
  · intro sc hsc o hout hsy
    dsimp only at hsc hsy ⊢
    rw [hx] at hsc hsy ⊢
    have hl := List.all_eq_true.1 k4 o (List.mem_flatMap.2 ⟨sc, hsc, hout⟩)
    rw [hsy] at hl
    have hl : o.leaf = 0 := of_decide_eq_true (by simpa using hl)
    rw [hl]
    refine ⟨⟨mid, fin a ct, y, z, order, q, rfl, hmid, h4, h5, g3, fun i hi => ?_⟩⟩
    have hi : 0 ∈ leavesOf (p a ct) i := hi
    rw [leaves k2 k3 hi]
    exact ⟨mid1, mid2, b, rfl, h2, g2⟩

/-- What is to be evaluated for a program. -/
def evaluated (a : Preference) (ct : Made) : Bool :=
  known a ct && (coll a ct).all (Live.possible (w a) (p a ct)) && orderlyB a ct (initial a ct) (acts a ct ++ (coll a ct).map .run) &&
    match stages a ct with | none => false | some s => decide (Good s)

theorem of_evaluated {a : Preference} {ct : Made} (h : evaluated a ct = true) :
    ∃ s, stages a ct = some s ∧ s.last.p = p a ct ∧ Live.Ending (fun _ => 0) (w a) Wh.fsub Props.ViewEx.x (vs a) 0 (acts a ct) (coll a ct) s.x s.last := by
  simp only [evaluated, Bool.and_eq_true] at h
  cases hs : stages a ct with
  | none => rw [hs] at h; exact absurd h.2 (by simp)
  | some s =>
    rw [hs] at h
    obtain ⟨e1, e2⟩ := ending hs (of_decide_eq_true h.2) h.1.1.1 h.1.1.2 h.1.2
    exact ⟨s, rfl, e1, e2⟩

/-- What counted. -/
def seen : List Seen := [(1, 2, kab, 10), (1, 2, ka, 5)]

/-- Evaluates that calls do not overlap. -/
def quietB (a : Preference) : Live.Sys Nat (List Bits) Nat → List (Live.Act Nat) → Bool
  | _, [] => true
  | x, b :: as =>
    (match b with
      | .run (.call _ _ _) => (List.range x.s.sync.nextOp).all (fun i => decide ((x.s.sync.op i).pc = .done))
      | _ => true) &&
    match Live.step (fun _ => 0) (w a) Wh.fsub Props.ViewEx.x 0 x b with | none => true | some y => quietB a y as

theorem quietB_spec {a : Preference} {x : Live.Sys Nat (List Bits) Nat} {acts : List (Live.Act Nat)} (h : quietB a x acts = true) :
    ∀ before i kvs b after y, acts = before ++ .run (.call i kvs b) :: after → Live.run (fun _ => 0) (w a) Wh.fsub Props.ViewEx.x 0 x before = some y →
      ∀ j, j < y.s.sync.nextOp → (y.s.sync.op j).pc = .done := by
  induction acts generalizing x with
  | nil => intro before i kvs b after y h1 _; simp at h1
  | cons b acts ih =>
    intro before i kvs b0 after y h1 h2
    unfold quietB at h
    rw [Bool.and_eq_true] at h
    cases before with
    | nil =>
      simp only [List.nil_append, List.cons.injEq] at h1
      rw [h1.1] at h
      have h3 := h.1
      simp only [Live.run, Option.some.injEq] at h2
      subst h2
      intro j hj
      exact of_decide_eq_true (List.all_eq_true.1 h3 j (List.mem_range.2 hj))
    | cons b' before =>
      simp only [List.cons_append, List.cons.injEq] at h1
      rw [← h1.1] at h2
      simp only [Live.run, Option.bind_eq_some_iff] at h2
      obtain ⟨z, h3, h4⟩ := h2
      have h5 := h.2
      rw [h3] at h5
      exact ih h5 before i kvs b0 after y h1.2 h4

theorem oneByOne {a : Preference} {ct : Made} {s : Stages} {k : Nat} {nm : Str} (hp : s.last.p = p a ct) (h : quietB a (initial a ct) (acts a ct) = true) :
    OneByOne out (pc a) (documented a) s.last.p k nm (acts a ct) := by
  intro before i kvs b after y h1 h2 _ j hj _
  rw [hp] at h2
  exact quietB_spec h before i kvs b after y h1 h2 j hj

/-- The provider has an instrument with this name. -/
def hasB (a : Preference) (ct : Made) (nm : Str) : Bool :=
  match (p a ct).ordered[0]? with
  | none => false
  | some m => decide (m.scope = scA) && m.insts.any (fun o => decide (o.desc.name = nm))

theorem named {a : Preference} {ct : Made} {c : Ctor} {s : Stages} {nm : Str} (hp : s.last.p = p a ct) (h : hasB a ct nm = true)
    (hr : ∀ d ∈ requests 0 (cs ct), d.name = nm → d = c.desc nm [] (lit "s")) :
    Named (Live.makes (acts a ct)) s.last.p 0 scA c nm (lit "s") := by
  rw [hp, makes_acts]
  unfold hasB at h
  cases hm : (p a ct).ordered[0]? with
  | none => rw [hm] at h; cases h
  | some m =>
    rw [hm] at h
    simp only [Bool.and_eq_true, decide_eq_true_eq, List.any_eq_true] at h
    obtain ⟨h1, o, ho, h2⟩ := h
    refine ⟨⟨m, o, hm, h1, ho, h2⟩, fun d hd hn => ?_⟩
    have := hr d hd hn
    refine ⟨?_, [], this⟩
    rw [this]
    unfold Views.NoHint
    simp [Ctor.desc]

theorem few {a : Preference} {ct : Made} {s : Stages} {k : Nat} {nm : Str} : Few s.last.p k nm (Whole.syncActs (Live.rest (acts a ct))) := by
  refine ⟨fun _ => [kab, ka, kb], [kab, ka, kb], fun _ _ => (by decide : 3 < 3000), (by decide : 3 < 2000), ?_,
    fun id _ b hb => ⟨AsmV.noNaN b hb, b, hb, AsmV.sameSeries_refl _ _⟩⟩
  intro e he _
  rw [Whole.calls_sync, calls_acts] at he
  have : ∀ e ∈ called ct, e.1.attrs e.2.1 ∈ [kab, ka, kb] := by rcases ct with ⟨c, h⟩ <;> cases c <;> cases h <;> decide
  exact this e he

theorem noEmpty {a : Preference} {ct : Made} : ∀ e ∈ Whole.calls (Live.rest (acts a ct)), Pipeline.NoEmptyList (e.1.attrs e.2.1) := by
  intro e he kv hkv
  rw [calls_acts] at he
  have h : ∀ e ∈ called ct,
      (e.1.attrs e.2.1).all (fun kv => decide (kv.val ≠ .bools [] ∧ kv.val ≠ .ints [] ∧ kv.val ≠ .floats [] ∧ kv.val ≠ .strs [])) = true := by
    rcases ct with ⟨c, h⟩ <;> cases c <;> cases h <;> decide
  exact of_decide_eq_true (List.all_eq_true.1 (h e he) kv hkv)

theorem sets {a : Preference} {ct : Made} {s : Whole.Sys (List Bits)} (h : Whole.seenIn s = seen) :
    (∀ i, FewSets (Called (p a ct) 0 (lit "y")) none 2000 (Whole.seenIn s) i) ∧
      ∀ e ∈ Whole.seenIn s, Called (p a ct) 0 (lit "y") e.2.1 → shown none e.2.2.1 ≠ overflowSet := by
  rw [h]
  have hs : ∀ l : List KV, shown none l = l.filter (fun kv => decide (kv.key ≠ [])) := fun l => by simp [shown]
  refine ⟨fun i => ⟨[ka, kab], (by decide : 2 < 2000), fun e he _ _ => ?_⟩, fun e he _ hov => ?_⟩
  · rw [hs]
    have : ∀ e ∈ seen, e.2.2.1.filter (fun kv => decide (kv.key ≠ [])) ∈ [ka, kab] := by decide
    exact this e he
  · have : ∀ e ∈ seen, ∀ kv ∈ overflowSet, kv ∉ e.2.2.1 := by decide +kernel
    have hne : overflowSet ≠ [] := by decide +kernel
    obtain ⟨kv, hkv⟩ := List.exists_mem_of_ne_nil _ hne
    refine this e he kv hkv ?_
    rw [← hov] at hkv
    exact (List.mem_filter.1 hkv).1

end Verif.Examples.Ln
