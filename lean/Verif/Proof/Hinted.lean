import Verif.Proof.Launched
import Verif.Spec.Hinted

/-!
The reader of the installed provider shows instruments with hints as these say.
-/

namespace Verif.Launched
open Verif.Attr Verif.Number Verif.Aggr Verif.Assembly Verif.Instruments
open Verif.Front (IKind)
open Verif.Views (Views Tempo NoHint usualAgg readerViews)
open Verif.Provider (Provider Call Meter)
variable {C G ν : Type} [DecidableEq C]
variable {lx : Launcher.Ext} {lw : Launcher.World} {opts : List Launcher.Opt} {pref : Launcher.Preference} {pc : Launcher.PipelineConfig} {t : IKind → Tempo}

theorem sync_promise (c : Ctor) : c.kinds.2.synchronous = true ↔ (Props.promise c).observed = false := by cases c <;> decide

theorem Hints.viewed {e : Outside C G} {cs : List (Call ν)} {p : Provider C ν} {k : Nat} {sc : Views.Scope} {c : Ctor} {n : Str} {L : Look C}
    (hl : Launch lx lw opts pref pc t) (hm : p = Provider.run e.x (Provider.new (views e t)) cs) (h : Hints e pref cs p k sc c n L) :
    Viewed e.x (views e t) cs p 0 k (view e t) sc n L := by
  refine ⟨hm, rfl, ?_, ?_⟩
  · obtain ⟨m, o, h1, h2, h3, h4⟩ := h.inst
    exact ⟨m, o, h1, h2, h3, by rw [ways_view, if_pos h4]; simp⟩
  · intro d hd hout
    have hn : d.name = n := by
      rcases hout with ⟨cl, hcl, -⟩ | ⟨-, h⟩
      · rw [view_clauses] at hcl; cases hcl
      · exact h.symm
    obtain ⟨⟨text, rfl⟩, hh, hhint, hw⟩ := h.hinted d hd hn
    refine .inr (.inl ⟨hh, hhint, ?_⟩)
    have hagg : (view e t).defaults.agg c.kinds.2 = usualAgg c.kinds.2 := view_agg e t _
    have hcfg : config (view e t) (c.desc n text L.unit) none = ⟨e.x.validH e.zero, 2000⟩ := by
      unfold config
      rw [(view_acfg e t _).1, (view_acfg e t _).2]
      simp
    refine ⟨(by rw [view_clauses]; intro _ h; cases h), ?_, ?_, ⟨?_, hw.implemented⟩, ?_, rfl, h.keys, by rw [hcfg]; exact hw.size, by rw [hcfg]; exact hw.limit, ?_⟩
    · show (view e t).defaults.agg c.kinds.2 ≠ .drop
      rw [hagg]
      cases c.kinds.2 <;> simp [usualAgg]
    · rw [Bool.eq_iff_iff]
      exact (sync_promise c).trans hw.sync.symm
    · unfold HintAsks
      show _ ∨ (_ ∧ L.kind = (view e t).defaults.agg c.kinds.2)
      rw [hagg]
      exact hw.kind
    · rw [hw.num]
      cases c <;> rfl
    · rw [hw.delta, and_comm]
      unfold HintTempo
      show _ ↔ (_ ∨ (_ ∧ Tempo.delta = (view e t).defaults.tempo c.kinds.2)) ∧ _
      rw [view_tempo e hl, eq_comm (a := Tempo.delta)]

end Verif.Launched
