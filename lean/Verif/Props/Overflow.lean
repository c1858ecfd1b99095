import Verif.Props.Room
import Verif.Proof.AsyncPipeline

/-!
C76: what does not fit is marked as overflow. C18 with a measurement processor.
-/

namespace Verif.Props
open Verif Verif.Attr Verif.Number
variable {S : Type} {farm : Str → UInt64} {u : Front.Setup S} {n0 : Bits} {s : Sync.State (List KV) (List KV) Bits S}

/-- The key `otel.metric.overflow`, in bytes. -/
def overflowName : Str :=
  [0x6f, 0x74, 0x65, 0x6c, 0x2e, 0x6d, 0x65, 0x74, 0x72, 0x69, 0x63, 0x2e, 0x6f, 0x76, 0x65, 0x72, 0x66, 0x6c, 0x6f, 0x77]

/-- The documented attribute set `{ otel.metric.overflow=true }`. -/
def Marked (k : List KV) : Prop := k = [⟨overflowName, .bool true⟩]

/-- The view keeps the attribute `otel.metric.overflow`. -/
def KeepsMark (f : Option (List Str)) : Prop := ∀ ks, f = some ks → overflowName ∈ ks

theorem marked_overflowSet : Marked overflowSet := by unfold Marked; decide +kernel

theorem marked_filtered {f : Option (List Str)} (h : KeepsMark f) : Marked (applyKeysFilter f overflowSet) := by
  have e : overflowSet = [⟨overflowName, .bool true⟩] := marked_overflowSet
  unfold Marked
  rw [e]
  cases f with
  | none => decide
  | some ks =>
    have hk : ks.contains overflowName = true := by
      rw [List.contains_iff_mem]; exact h ks rfl
    have hv : (([⟨overflowName, .bool true⟩] : List KV).any fun kv => !isValidAttribute kv) = false := by decide
    unfold applyKeysFilter
    rw [hv]
    simp only [keyFilter, List.filter, hk]

/-- C76 (part). With collision safety on and a view which has no key filter or keeps the overflow key: every measurement in a reported point is
reported with exactly the attributes the view lists of its own, or with exactly `{ otel.metric.overflow=true }`. -/
theorem C76_marked_partial (hr : Sync.Reachable (Front.realCfg farm u) n0 s) (hic : u.ignoreColl = false) (e : Sync.Emit (List KV) S) (he : e ∈ s.emits)
    (hk : KeepsMark (u.keys e.leaf)) (i sq : Nat) (hi : (i, sq) ∈ e.ops) :
    (∀ k, get k e.key = if k ≠ [] ∧ (∀ ks, u.keys e.leaf = some ks → k ∈ ks) then (lastValue k (s.op i).attrs).map canonVal else none) ∨ Marked e.key := by
  rcases C19_reported_attributes hr hic e he i sq hi with h | h | h
  · right; rw [h]; exact marked_overflowSet
  · right; rw [h]; exact marked_filtered hk
  · left; exact h

/-- C76 (asynchronous). Every point of an asynchronous instrument has exactly the attributes which the view lists of an observation of this
collection, or exactly `{ otel.metric.overflow=true }`, whatever the key filter. -/
theorem C76_async {w : AsyncPipeline.Setup} {t : Async.State (List KV) Bits Bits} (hq : Async.Quiet (AsyncPipeline.cfg w) [] t) {n l : Nat}
    (hn : n < t.coll) {e : List KV × Bits} (he : e ∈ t.out n l) :
    (∃ v ∈ t.log, v.coll = n ∧ l ∈ w.leavesOf v.obs ∧ e.1 = applyKeysFilter (w.keys l) v.set) ∨ Marked e.1 := by
  have hi := Async.quiet_inv hq
  have ht := hi.past n l hn
  rcases ht.from_ e.1 (AsyncPipeline.out_sub_seen hi hn he) with h | ⟨en, hen, hm⟩
  · right; rw [(AsyncPipeline.base_ovf h).2.1]; exact marked_overflowSet
  · rcases ht.own en hen e.1 hm with h | h
    · left
      obtain ⟨v, hv, h0, h1, h2⟩ := AsyncPipeline.entry_logged hi hn hen
      refine ⟨v, hv, h0, ?_, by rw [h, ← h2]; rfl⟩
      have hlv := (hi.storeOk n).leaves en hen
      rw [h1]
      show l ∈ (AsyncPipeline.cfg w).leavesOf en.obs
      rw [← hlv]
      exact List.mem_map.2 ⟨(l, e.1), hm, rfl⟩
    · right; rw [h.1]; exact marked_overflowSet

section Example
open Verif.Examples Verif.Examples.Pipe

/-- The program of C73 with a limit of 2 records and, for output metric 0, a view keeping the key `a` only. -/
def tight : Front.Setup (Aggr.Cell Bits Nat) := { su with limit := 2, keys := fun l => if l = 0 then some [[97]] else none }

def tightCfg : Sync.Cfg (List KV) (List KV) Bits (Aggr.Cell Bits Nat) := Front.realCfg (fun _ => 0) tight

/-- C76 (fails). The limit of the instrument applies before the view's key filter, which then removes the mark: a call with attributes
`a=true, b=false`, which the view would show as `a=true`, is reported without any attribute, like a call without attributes. -/
theorem C76_marked_fails : ∃ s, Sync.Reachable (Front.realCfg (fun _ => 0) tight) 0 s ∧ tight.ignoreColl = false ∧
    ∃ e ∈ s.emits, tight.keys e.leaf = some [[97]] ∧ e.key = [] ∧ ∃ sq, (1, sq) ∈ e.ops ∧ (s.op 1).attrs = [kvb 98 false, kvb 97 true] := by
  obtain ⟨s, h1, h2⟩ := exists_of_eval (x := Sync.run tightCfg (Sync.initial tightCfg 0) roomSched)
    (P := fun s => ∃ e ∈ s.emits, e.leaf = 0 ∧ e.key = [] ∧ (∃ p ∈ e.ops, p.1 = 1) ∧ (s.op 1).attrs = [kvb 98 false, kvb 97 true]) (by decide +kernel)
  obtain ⟨e, he, hl, hk, ⟨⟨j, sq⟩, hp, hj⟩, ha⟩ := h2
  have hj : j = 1 := hj
  subst hj
  exact ⟨s, ⟨_, h1⟩, rfl, e, he, by rw [hl]; rfl, hk, sq, hp, ha⟩

/-- C76: with a limit of 2 records and no key filter, the second call is reported as overflow. -/
example : ∃ s, Sync.run (Front.realCfg (fun _ => 0) { su with limit := 2 }) (Sync.initial (Front.realCfg (fun _ => 0) { su with limit := 2 }) 0) roomSched = some s ∧
    (s.emits.map (fun e => (e.leaf, e.key, e.ops.map (·.1))) = [(0, [kvb 97 true], [0]), (0, [⟨overflowName, .bool true⟩], [1])]) :=
  exists_of_eval (by decide +kernel)

/-- C18 (processors). With a measurement processor the list used is what the processor makes of the truncated list. -/
theorem C18_processed {S : Type} (c : Sync.Cfg (List KV) (List KV) Bits S) (s : Sync.State (List KV) (List KV) Bits S) (i : Front.Inst)
    (kvs : List KV) (num : Bits) {f : List KV → List KV} (hp : i.proc = some f) (h : Front.rangeTest i.num num i.kind = true) :
    ((Front.observe c s (some i) kvs num).op s.nextOp).attrs = f (truncate i.sizeLimit kvs) := by
  simp [Front.observe, h, Sync.step, Front.Inst.attrs, hp]

/-- C18 (fails with a processor). What a measurement processor adds (from baggage, say) is not truncated: with a limit of 2 bytes, a processor adding an
attribute of 3 bytes and a call without attributes, the attribute used is longer than the limit. -/
theorem C18_processor_fails : ∃ (i : Front.Inst) (kvs : List KV) (num : Bits), i.sizeLimit = 2 ∧ Front.rangeTest i.num num i.kind = true ∧
    ∀ (s : Sync.State (List KV) (List KV) Bits (Aggr.Cell Bits Nat)), ∃ kv ∈ ((Front.observe sc s (some i) kvs num).op s.nextOp).attrs,
      2 < kv.key.length := by
  refine ⟨{ counter with sizeLimit := 2, proc := some (fun l => l ++ [⟨[97, 98, 99], .bool true⟩]) }, [], 1, rfl, by decide, fun s => ?_⟩
  rw [C18_processed _ _ _ _ _ rfl (by decide)]
  exact ⟨⟨[97, 98, 99], .bool true⟩, by simp [truncate], by decide⟩

end Example

end Verif.Props
