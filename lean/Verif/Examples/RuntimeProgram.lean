import Verif.Proof.RuntimeProgram
import Verif.Examples.CountedProgram

/-!
A program which starts the launcher and the runtime instrumentation.
-/

namespace Verif.Examples.Rt
open Verif Verif.Attr Verif.Number Verif.Aggr Verif.Export Verif.Assembly Verif.Instruments Verif.Launched Verif.Examples Verif.Runtime
open Verif.Examples.Asm (scA)
open Verif.Views (lit)
open Verif.Launcher (Preference documented)
open Verif.Examples.Cn (sees alwaysB alwaysB_spec turnB returnedB returnedB_spec)

/-! ### Any program -/

def p (a : Preference) (cs : List (Provider.Call Nat)) : Provider.Provider Nat Nat := Provider.run Props.ViewEx.x (Provider.new (Ln.vs a)) cs

def acts (cs : List (Provider.Call Nat)) (body : List Whole.Act) : List (Live.Act Nat) := cs.map .make ++ body.map .run

def initial (a : Preference) (cs : List (Provider.Call Nat)) : Live.Sys Nat (List Bits) Nat := Live.initial (fun _ => 0) (Ln.w a) Wh.fsub (p a cs) (Ln.vs a) 0

def last (a : Preference) (cs : List (Provider.Call Nat)) (body : List Whole.Act) : Option (Live.Sys Nat (List Bits) Nat) :=
  Live.run (fun _ => 0) (Ln.w a) Wh.fsub Props.ViewEx.x 0 (initial a cs) (acts cs body)

def validB (body : List Whole.Act) : Bool :=
  (Whole.calls body).isEmpty && body.all (fun b : Whole.Act => match b with
    | .cb (.observe _ _ as _) => as.all (fun kv : KV => decide (kv.val ≠ Val.invalid))
    | _ => true)

/-- What is to be evaluated. -/
def evaluated (a : Preference) (cs : List (Provider.Call Nat)) (body : List Whole.Act) : Bool :=
  alwaysB a turnB (initial a cs) (acts cs body) && validB body && match last a cs body with | none => false | some z => returnedB z

theorem makes_acts (cs : List (Provider.Call Nat)) (body : List Whole.Act) : Live.makes (acts cs body) = cs := by
  unfold Live.makes acts
  rw [List.filterMap_append, List.filterMap_map, List.filterMap_map]
  exact (congr (congrArg _ List.filterMap_some) (List.filterMap_eq_nil_iff.2 (fun _ _ => rfl))).trans (List.append_nil _)

theorem rest_acts (cs : List (Provider.Call Nat)) (body : List Whole.Act) : Live.rest (acts cs body) = body := by
  unfold Live.rest acts
  rw [List.filterMap_append, List.filterMap_map, List.filterMap_map]
  exact congr (congrArg HAppend.hAppend (List.filterMap_eq_nil_iff.2 (fun _ _ => rfl))) List.filterMap_some

theorem of_evaluated {a : Preference} {cs : List (Provider.Call Nat)} {body : List Whole.Act} (h : evaluated a cs body = true) :
    ∃ z, last a cs body = some z ∧ z.p = p a cs ∧ Runs Ln.out (Ln.pc a) (documented a) (acts cs body) z ∧ Waits Ln.out (Ln.pc a) (documented a) z.p (acts cs body) ∧
      (∀ k nm, InTurn Ln.out (Ln.pc a) (documented a) z.p k nm (acts cs body)) ∧ ∀ k nm, Finished z.p k nm z := by
  simp only [evaluated, validB, Bool.and_eq_true, List.isEmpty_iff] at h
  obtain ⟨⟨h1, hc, hd⟩, h2⟩ := h
  cases hl : last a cs body with
  | none => rw [hl] at h2; cases h2
  | some z =>
    rw [hl] at h2
    have hz : z.p = p a cs := by have := Live.run_prov hl; rw [makes_acts] at this; exact this
    have hi : Live.initial Ln.out.farm (world Ln.out (Ln.pc a)) Ln.out.fsub z.p (views Ln.out (documented a)) 0 = initial a cs := by rw [hz]; rfl
    have key := alwaysB_spec h1
    refine ⟨z, rfl, hz, ⟨Ln.exportable a, ?_, ?_, ?_, ?_⟩, ?_, ?_, fun k nm i hi _ => returnedB_spec h2 i hi⟩
    · intro e he
      rw [rest_acts, hc] at he
      cases he
    · intro cb o as v hm
      rcases List.mem_append.1 hm with hm | hm
      · obtain ⟨c, -, hc⟩ := List.mem_map.1 hm
        cases hc
      · obtain ⟨c, h3, hc⟩ := List.mem_map.1 hm
        cases hc
        have := List.all_eq_true.1 hd _ h3
        exact fun kv hkv => of_decide_eq_true (List.all_eq_true.1 this kv hkv)
    · intro before order q after y hs hr
      rw [hi] at hr
      have h3 := key before _ after y hs hr
      rintro ⟨i, hi, hpc⟩
      rcases returnedB_spec h3 i hi with h4 | h4 <;> rw [h4] at hpc <;> rcases hpc with hpc | hpc <;> cases hpc
    · rw [hi]
      exact hl
    · intro before cb after y hs hr i hi' _
      rw [hi] at hr
      exact returnedB_spec (key before _ after y hs hr) i hi'
    · intro k nm before cb o as v after y hs hr _ i hi' _
      rw [hi] at hr
      exact returnedB_spec (key before _ after y hs hr) i hi'

/-! ### With runtime metrics -/

def free : Str := lit "/memory/classes/heap/free:bytes"
def objects : Str := lit "/memory/classes/heap/objects:bytes"
def gogc : Str := lit "/gc/gogc:percent"
def mutex : Str := lit "/sync/mutex/wait/total:seconds"

/-- What the runtime offers: two classes of memory and their total, a histogram, a gauge, a counter of floats, and a metric which is not known. -/
def all : List (Str × VKind) :=
  [(free, .uint64), (objects, .uint64), (lit "/memory/classes/total:bytes", .uint64), (lit "/gc/pauses:seconds", .histogram), (gogc, .uint64),
    (lit "/new/metric:things", .uint64), (mutex, .float64)]

def wMem : Want := ⟨.upDown, false, lit "process.runtime.go.memory.usage", lit "By", lit "/memory/classes/*:bytes"⟩
def wGogc : Want := ⟨.gauge, false, lit "process.runtime.go.gc.gogc", lit "{percent}", gogc⟩
def wMutex : Want := ⟨.counter, true, lit "process.runtime.go.sync.mutex.wait.total", lit "s", mutex⟩

def meter (w : Want) : Option Nat := if w = wMem then some 0 else if w = wGogc then some 2 else if w = wMutex then some 4 else none
def isFloat (id : Nat) : Bool := id == 4

def cs : List (Provider.Call Nat) := [.meter scA, .instrument 0 wMem.desc, .instrument 0 wMem.desc, .instrument 0 wGogc.desc, .instrument 0 wMutex.desc]

def aFree : List (Str × Str) := [(lit "class", lit "heap"), (lit "class2", lit "free")]
def aObjects : List (Str × Str) := [(lit "class", lit "heap"), (lit "class2", lit "objects")]

def reg : Reg Nat := ⟨[0, 0, 2, 4], [free, objects, gogc, mutex], [aFree, aObjects, [], []]⟩

/-- The values read. -/
def read (a b c d : Bits) (s : Str) : VKind × Bits :=
  if s = free then (.uint64, a) else if s = objects then (.uint64, b) else if s = gogc then (.uint64, c) else if s = mutex then (.float64, d)
  else if s = lit "/gc/pauses:seconds" then (.histogram, 0) else (.uint64, 7)

def ran (i cb : Nat) (a b c d : Bits) : List Whole.Act :=
  [.cb (.startCb [0, 2, 4])] ++ sees i cb 0 (textAttrs aFree) a 3 ++ sees (i + 1) cb 0 (textAttrs aObjects) b 3 ++ sees (i + 2) cb 2 [] c 3 ++ sees (i + 3) cb 4 [] d 3 ++ [.cb (.endCb cb)]

def en (o l : Nat) (a : List (Str × Str)) (v : Bits) : Async.Entry (List KV) Bits := ⟨o, usedSet (textAttrs a), [(l, usedSet (textAttrs a))], v⟩

/-- The callback runs twice. -/
def body : List Whole.Act :=
  ran 0 0 100 50 75 5 ++ [.collect [en 0 0 aFree 100, en 0 0 aObjects 50, en 2 4 [] 75, en 4 8 [] 5] ⟨1, 1, 2⟩] ++
  ran 4 1 80 50 75 12 ++ [.collect [en 0 0 aFree 80, en 0 0 aObjects 50, en 2 4 [] 75, en 4 8 [] 12] ⟨1, 2, 3⟩]

end Verif.Examples.Rt
