import Verif.Proof.AssemblyViews
import Verif.Proof.AsyncAssembly
import Verif.Spec.AsyncAssemblyViews

/-!
The wiring of asynchronous instruments to the output metrics which views make of them.
-/

namespace Verif.Assembly
open Verif.Attr Verif.Number Verif.Front Verif.Views Verif.Provider Verif.Instruments
variable {C G ν : Type} [DecidableEq C]

/-- What the views and the requests make of a name. -/
structure AsyncFed (w : World C G) (fsub : Bits → Bits → Bits) (p : Provider C ν) (pipe k : Nat) (sc : Scope) (v : Views C) (n : Str) (L : Look C) (o : Pipeline.Out) :
    Prop where
  only : Pipeline.Only (asyncReader w p pipe) (sentScope sc) n o
  agrees : AsyncPipeline.Agrees (asyncSetup w fsub p pipe) o
  count : ∀ id, ((asyncSetup w fsub p pipe).leavesOf id).count o.leaf = times p k v sc n id
  keys : SameKeys ((asyncSetup w fsub p pipe).keys o.leaf) L.keys
  lim : (asyncSetup w fsub p pipe).lim o.leaf = L.acfg.limit
  delta : (asyncSetup w fsub p pipe).delta o.leaf = L.delta
  gauge : (asyncSetup w fsub p pipe).gauge o.leaf = decide (L.kind = .gauge)
  num : o.num = L.num
  unit : o.unit = L.unit
  shape : o.shape = shapeOf L.kind

theorem async_fed (w : World C G) (fsub : Bits → Bits → Bits) {x : Ext C} {views : List (Views C)} {cs : List (Call ν)} {p : Provider C ν} {pipe k : Nat}
    {v : Views C} {sc : Scope} {n : Str} {L : Look C} (h : Viewed x views cs p pipe k v sc n L) (hasy : L.sync = false) :
    ∃ o, AsyncFed w fsub p pipe k sc v n L o := by
  obtain ⟨m, i0, hk, h2, h3, h4⟩ := h.inst
  have ha : Assembled x views cs p := by rw [h.made]; exact assembled x views cs
  subst h2
  obtain ⟨s, j, f, hL⟩ := spotted ha h.reader hk h.alike ⟨i0, h3, h4⟩
  have hat : leafAt p (leafAddr k pipe j) = some f := by
    rw [leafAt_addr, hk]
    simp only [Option.bind_some, hL.comp, hL.leaf]
  have hid := hL.identity
  have hsy : f.desc.kind.synchronous = false := (congrArg Identity.synchronous hid).trans hasy
  have honly := only_at ha hk hL.comp hL.leaf hL.name hL.uniq (fun l => !l.desc.kind.synchronous) (by rw [hsy]; rfl)
  have hmemo : (∃ sc ∈ (asyncReader w p pipe).scopes, outOf (leafAddr k pipe j) f ∈ sc.2) := by
    refine ⟨(libOf m.scope, asyncOutsOf k pipe m), List.mem_map.2 ⟨(m, k), List.mem_zipIdx_iff_getElem?.2 hk, rfl⟩, ?_⟩
    unfold asyncOutsOf
    rw [hL.comp]
    refine List.mem_flatMap.2 ⟨(f, j), List.mem_zipIdx_iff_getElem?.2 hL.leaf, ?_⟩
    simp [hsy]
  refine ⟨outOf (leafAddr k pipe j) f, ?_⟩
  refine { only := honly, agrees := ?_, count := ?_, keys := ?_, lim := ?_, delta := ?_, gauge := ?_, num := ?_, unit := ?_, shape := ?_ }
  · obtain ⟨sc', h1, h2⟩ := hmemo
    exact async_agrees w fsub ha pipe sc' h1 _ h2
  · intro id
    show (asyncLeavesOf p pipe id).count (leafAddr k pipe j) = _
    by_cases hio : ∃ i o, id = instAddr k i ∧ m.insts[i]? = some o
    · obtain ⟨i, o, rfl, hio⟩ := hio
      rw [times_addr hk v m.scope n hio]
      have ho := List.mem_of_getElem? hio
      obtain ⟨ls, a1, a2⟩ := hL.insts o ho
      unfold asyncLeavesOf
      rw [instAt_addr, hk]
      simp only [Option.bind_some, hio, a1, Option.getD_some]
      have hu : (unpair (instAddr k i)).1 = k := by unfold instAddr; rw [unpair_pair]
      rw [hu]
      split
      · rename_i hsyn
        have : ways v m.scope o.desc n = [] := Classical.byContradiction fun hne => by
          rw [(hL.sync o ho hne).trans hasy] at hsyn
          cases hsyn
        rw [this]
        rfl
      · rw [← a2, count_addr]
    · have h0 : times p k v m.scope n id = 0 := by
        refine Nat.eq_zero_of_not_pos fun hpos => hio ?_
        obtain ⟨m', i, o, b1, b2, b3, -⟩ := times_pos hpos
        rw [hk] at b1
        cases b1
        exact ⟨i, o, b3, b2⟩
      rw [h0, List.count_eq_zero]
      intro hm
      unfold asyncLeavesOf at hm
      cases hia : instAt p id with
      | none => rw [hia] at hm; cases hm
      | some o =>
        rw [hia] at hm
        dsimp only at hm
        split at hm
        · cases hm
        · obtain ⟨b, hb, he⟩ := List.mem_map.1 hm
          obtain ⟨e1, -, e3⟩ := leafAddr_inj he
          unfold instAt at hia
          rw [e1, hk] at hia
          simp only [Option.bind_some] at hia
          refine hio ⟨(unpair id).2, o, ?_, hia⟩
          have := pair_unpair id
          rw [e1] at this
          exact this.symm
  · show SameKeys ((leafAt p (leafAddr k pipe j)).bind (·.keys)) L.keys
    rw [hat]
    exact (sameKeys_iff _ _).1 (congrArg Identity.keys hid)
  · show ((leafAt p (leafAddr k pipe j)).map (·.acfg.limit)).getD 0 = _
    rw [hat]
    exact congrArg (fun I => I.acfg.limit) hid
  · show ((leafAt p (leafAddr k pipe j)).map (·.delta)).getD false = _
    rw [hat]; exact hL.delta
  · show ((leafAt p (leafAddr k pipe j)).map (fun f => decide (f.kind = .gauge))).getD false = _
    rw [hat]
    exact congrArg (fun I => decide (I.kind = .gauge)) hid
  · exact congrArg Identity.num hid
  · exact congrArg Identity.unit hid
  · exact congrArg (fun I => shapeOf I.kind) hid

/-! ### Observations -/

theorem shown_same {a b : Option (List Str)} (h : SameKeys a b) : shown a = shown b := by
  funext l
  cases a with
  | none => cases b with
    | none => rfl
    | some b => exact h.elim
  | some a => cases b with
    | none => exact h.elim
    | some b =>
      refine List.filter_congr fun kv _ => ?_
      have := h kv.key
      rw [Bool.eq_iff_iff]
      simp [this]

section
omit [DecidableEq C]
variable {w : World C G} {fsub : Bits → Bits → Bits} {p : Provider C ν} {pipe k : Nat} {sc : Scope} {v : Views C} {n : Str} {L : Look C} {o : Pipeline.Out}

theorem AsyncFed.feeds (h : AsyncFed w fsub p pipe k sc v n L o) (id : Nat) : o.leaf ∈ (asyncSetup w fsub p pipe).leavesOf id ↔ Feeds p k v sc n id := by
  unfold Feeds
  rw [← h.count id, List.count_pos_iff]

theorem AsyncFed.filter (h : AsyncFed w fsub p pipe k sc v n L o) (a : List KV) : applyKeysFilter ((asyncSetup w fsub p pipe).keys o.leaf) a = shown L.keys a := by
  rw [shown_eq, shown_same h.keys]

theorem AsyncFed.once (h : AsyncFed w fsub p pipe k sc v n L o) (ho : ShownOnce p k v sc n) : AsyncPipeline.FedOnce (asyncSetup w fsub p pipe) o.leaf := by
  intro id
  rw [h.count id]
  exact ho id

theorem AsyncFed.observed (h : AsyncFed w fsub p pipe k sc v n L o) (s : AsyncPipeline.Sys) (t : Nat) (a : List KV) :
    AsyncPipeline.Observed (asyncSetup w fsub p pipe) s.s.log o.leaf t a ↔ Shows (Feeds p k v sc n) L.keys (seenIn s) t a := by
  unfold AsyncPipeline.Observed Shows seenIn
  constructor
  · rintro ⟨e, he, h1, h2, h3⟩
    rw [h.filter] at h3
    exact ⟨_, List.mem_map_of_mem he, h1, (h.feeds _).1 h2, h3⟩
  · rintro ⟨e, he, h1, h2, h3⟩
    obtain ⟨e', he', rfl⟩ := List.mem_map.1 he
    exact ⟨e', he', h1, (h.feeds _).2 h2, by rw [h.filter]; exact h3⟩

theorem AsyncFed.values (h : AsyncFed w fsub p pipe k sc v n L o) (s : AsyncPipeline.Sys) (t : Nat) (a : List KV) (ps : List (Nat × List KV × Bits)) :
    AsyncPipeline.Values (asyncSetup w fsub p pipe) s.s.log t o.leaf a ps ↔ LastValues (Feeds p k v sc n) L.keys (seenIn s) t a ps := by
  unfold AsyncPipeline.Values LastValues seenIn
  refine and_congr_right fun _ => ?_
  refine forall_congr' fun id => forall_congr' fun set => forall_congr' fun y => ?_
  rw [h.filter, h.feeds id, lastSeen_log]

theorem AsyncFed.combines (h : AsyncFed w fsub p pipe k sc v n L o) (vals : List Bits) (y : Bits) :
    AsyncPipeline.Combines (asyncSetup w fsub p pipe) o.leaf vals y ↔ Combined w L.kind L.num vals y := by
  unfold AsyncPipeline.Combines Combined
  rw [h.gauge, h.agrees.num, h.num]
  by_cases hg : L.kind = .gauge
  · rw [decide_eq_true hg, if_pos hg]
  · rw [decide_eq_false hg, if_neg hg]
    cases L.num <;> rfl

theorem AsyncFed.amount (h : AsyncFed w fsub p pipe k sc v n L o) (s : AsyncPipeline.Sys) (t : Nat) (a : List KV) (y : Bits) :
    AsyncPipeline.CumAt (asyncSetup w fsub p pipe) s.s.log o.leaf t a y ↔ Amount w (Feeds p k v sc n) L.keys L.kind L.num (seenIn s) t a y := by
  unfold AsyncPipeline.CumAt Amount
  refine exists_congr fun ps => and_congr_right fun _ => ?_
  rw [h.values, h.combines]

theorem AsyncFed.before (h : AsyncFed w fsub p pipe k sc v n L o) (s : AsyncPipeline.Sys) (t : Nat) (a : List KV) (y : Bits) :
    AsyncPipeline.Before (asyncSetup w fsub p pipe) s.s.log o.leaf t a y ↔
      AmountBefore w (Feeds p k v sc n) L.keys L.kind L.num (seenIn s) t a y := by
  unfold AsyncPipeline.Before AmountBefore
  refine exists_congr fun t' => and_congr_right fun _ => h.amount s t' a y

theorem AsyncFed.fits (h : AsyncFed w fsub p pipe k sc v n L o) {s : AsyncPipeline.Sys} {t : Nat}
    (hf : FewSets (Feeds p k v sc n) L.keys L.acfg.limit (seenIn s) t) : AsyncPipeline.FitsIn (asyncSetup w fsub p pipe) s.s.log o.leaf t := by
  obtain ⟨B, h1, h2⟩ := hf
  refine ⟨B, by rw [h.lim]; exact h1, ?_⟩
  intro e he h3 h4
  rw [h.filter]
  exact h2 _ (List.mem_map_of_mem he) h3 ((h.feeds _).1 h4)

end

end Verif.Assembly
