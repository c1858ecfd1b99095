import Verif.Spec.Readers

/-!
# C80: a reader serves the provider it was given to first

The machine is `Verif.Model.Readers`, the specification `Verif.Spec.Readers`.
-/

namespace Verif.Props
open Verif.Readers
variable {R V P : Type}

/-! ### Options -/

theorem foldl_apply (opts : List (Opt R V P)) (c : Config R V P) :
    (opts.foldl apply c).readers = c.readers ++ readersOf opts ∧
    (opts.foldl apply c).vopts = c.vopts ++ opts.filterMap (fun o => match o with | .reader _ v => some v | _ => none) ∧
    (opts.foldl apply c).res = ((opts.filterMap (fun o => match o with | .resource r => some r | _ => none)).getLast?).getD c.res ∧
    (opts.foldl apply c).perf = ((opts.filterMap (fun o => match o with | .performance p => some p | _ => none)).getLast?).getD c.perf := by
  induction opts generalizing c with
  | nil => simp [readersOf]
  | cons o opts ih =>
    have h := ih (apply c o)
    cases o <;> simp [apply, readersOf, List.getLast?_cons] at h ⊢ <;> simp [h]

/-- C80. The options of a provider: its readers are those given, in order, each with the views given with it; of several resources, or performance
settings, the last counts. -/
theorem C80_options (dflt : R) (p0 : P) (opts : List (Opt R V P)) :
    (newConfig dflt p0 opts).readers.zip (newConfig dflt p0 opts).vopts = opts.filterMap (fun o => match o with | .reader r v => some (r, v) | _ => none) ∧
    (newConfig dflt p0 opts).readers.length = (newConfig dflt p0 opts).vopts.length ∧
    (newConfig dflt p0 opts).res = ((opts.filterMap (fun o => match o with | .resource r => some r | _ => none)).getLast?).getD dflt ∧
    (newConfig dflt p0 opts).perf = ((opts.filterMap (fun o => match o with | .performance p => some p | _ => none)).getLast?).getD p0 := by
  obtain ⟨h1, h2, h3, h4⟩ := foldl_apply opts ({ res := dflt, readers := [], vopts := [], perf := p0 } : Config R V P)
  have hz : ∀ opts : List (Opt R V P), (readersOf opts).zip (opts.filterMap (fun o => match o with | .reader _ v => some v | _ => none)) =
      opts.filterMap (fun o => match o with | .reader r v => some (r, v) | _ => none) ∧
      (readersOf opts).length = (opts.filterMap (fun o => match o with | .reader _ v => some v | _ => none)).length := by
    intro opts
    induction opts with
    | nil => simp [readersOf]
    | cons o opts ih => cases o <;> simp [readersOf] at ih ⊢ <;> simp [ih]
  refine ⟨?_, ?_, h3, h4⟩
  · unfold newConfig; rw [h1, h2]; simpa using (hz opts).1
  · unfold newConfig; rw [h1, h2]; simpa using (hz opts).2

theorem newConfig_readers (dflt : R) (p0 : P) (opts : List (Opt R V P)) : (newConfig dflt p0 opts).readers = readersOf opts := by
  unfold newConfig; rw [(foldl_apply opts _).1]; rfl

namespace ReadersPf

/-- The part of the invariant about readers, for the uses so far and the providers shut down. -/
structure PI (kind : Nat → Kind) (U : List (Nat × Nat × Nat)) (D : Nat → Prop) (s : State R V P) : Prop where
  prod : ∀ r, (s.reader r).producer = (U.find? (fun u => u.1 == r)).map (·.2)
  loop : ∀ r, (s.reader r).running = true ↔ kind r = .periodic ∧ (∃ u ∈ U, u.1 = r) ∧ ∀ u ∈ U, u.1 = r → ¬ D u.2.1
  count : ∀ r, s.log.count (.refused r) = (U.filter (fun u => u.1 == r)).length - 1
  data : ∀ r w p i, Ev.data r w p i ∈ s.log → (U.find? (fun u => u.1 == r)).map (·.2) = some (p, i)

theorem find_isSome (U : List (Nat × Nat × Nat)) (r : Nat) : (U.find? (fun u => u.1 == r)).isSome ↔ ∃ u ∈ U, u.1 = r := by
  rw [List.find?_isSome]; simp

theorem find_none (U : List (Nat × Nat × Nat)) (r : Nat) : U.find? (fun u => u.1 == r) = none ↔ ∀ u ∈ U, u.1 ≠ r := by
  rw [List.find?_eq_none]; simp

theorem filter_pos (U : List (Nat × Nat × Nat)) (r : Nat) (h : ∃ u ∈ U, u.1 = r) : 0 < (U.filter (fun u => u.1 == r)).length := by
  obtain ⟨u, hu, hr⟩ := h
  exact List.length_pos_of_mem (List.mem_filter.2 ⟨hu, by simp [hr]⟩)

theorem PI.register {kind : Nat → Kind} {U : List (Nat × Nat × Nat)} {D : Nat → Prop} {s : State R V P} (h : PI kind U D s) (r prov pipe : Nat)
    (hD : ¬ D prov) : PI kind (U ++ [(r, prov, pipe)]) D (register kind s r prov pipe) ∧ (register kind s r prov pipe).provs = s.provs := by
  have hp := h.prod r
  cases hf : U.find? (fun u => u.1 == r) with
  | some u =>
    rw [hf] at hp
    have heq : Readers.register kind s r prov pipe = { s with log := s.log ++ [.refused r] } := by
      unfold Readers.register; rw [hp]; rfl
    rw [heq]
    have hex : ∃ u ∈ U, u.1 = r := (find_isSome U r).1 (by rw [hf]; rfl)
    refine ⟨⟨?_, ?_, ?_, ?_⟩, rfl⟩
    · intro x
      rw [List.find?_append]
      by_cases hx : x = r
      · subst hx; rw [hf]; simpa using hp
      · have : (r == x) = false := by simpa using fun e => hx e.symm
        simpa [this] using h.prod x
    · intro x
      by_cases hx : x = r
      · subst hx
        show (s.reader x).running = true ↔ _
        rw [h.loop x]
        constructor
        · rintro ⟨a, b, c⟩
          refine ⟨a, ?_, ?_⟩
          · obtain ⟨u, hu, e⟩ := b; exact ⟨u, List.mem_append_left _ hu, e⟩
          · intro u hu e
            rcases List.mem_append.1 hu with hu | hu
            · exact c u hu e
            · rw [List.mem_singleton.1 hu]; exact hD
        · rintro ⟨a, _, c⟩
          exact ⟨a, hex, fun u hu e => c u (List.mem_append_left _ hu) e⟩
      · show (s.reader x).running = true ↔ _
        rw [h.loop x]
        simp only [List.mem_append, List.mem_singleton]
        constructor
        · rintro ⟨a, ⟨u, hu, e⟩, c⟩
          refine ⟨a, ⟨u, Or.inl hu, e⟩, ?_⟩
          rintro u (hu | rfl) e
          · exact c u hu e
          · exact absurd e.symm hx
        · rintro ⟨a, ⟨u, hu | rfl, e⟩, c⟩
          · exact ⟨a, ⟨u, hu, e⟩, fun u hu e => c u (Or.inl hu) e⟩
          · exact absurd e.symm hx
    · intro x
      simp only [List.count_append, List.filter_append, List.length_append, h.count x]
      by_cases hx : x = r
      · subst hx
        have := filter_pos U x hex
        simp
        omega
      · have hx' : r ≠ x := fun e => hx e.symm
        simp [hx']
    · intro x w p i hm
      simp at hm
      have := h.data x w p i hm
      rw [List.find?_append]
      cases hx : U.find? (fun u => u.1 == x) with
      | none => rw [hx] at this; cases this
      | some v => rw [hx] at this; simpa using this
  | none =>
    rw [hf] at hp
    have heq : Readers.register kind s r prov pipe =
        { s with reader := fun x => if x = r then { producer := some (prov, pipe), running := kind r == .periodic } else s.reader x } := by
      unfold Readers.register; rw [hp]; rfl
    rw [heq]
    have hno := (find_none U r).1 hf
    refine ⟨⟨?_, ?_, ?_, ?_⟩, rfl⟩
    · intro x
      rw [List.find?_append]
      by_cases hx : x = r
      · subst hx; rw [hf]; simp
      · have : (r == x) = false := by simpa using fun e => hx e.symm
        simpa [this, hx] using h.prod x
    · intro x
      by_cases hx : x = r
      · subst hx
        simp only [if_true]
        constructor
        · intro hk
          refine ⟨by simpa using hk, ⟨_, List.mem_append_right _ List.mem_cons_self, rfl⟩, ?_⟩
          intro u hu e
          rcases List.mem_append.1 hu with hu | hu
          · exact absurd e (hno u hu)
          · rw [List.mem_singleton.1 hu]; exact hD
        · rintro ⟨a, -⟩
          simpa using a
      · simp only [if_neg hx]
        rw [h.loop x]
        simp only [List.mem_append, List.mem_singleton]
        constructor
        · rintro ⟨a, ⟨u, hu, e⟩, c⟩
          refine ⟨a, ⟨u, Or.inl hu, e⟩, ?_⟩
          rintro u (hu | rfl) e
          · exact c u hu e
          · exact absurd e.symm hx
        · rintro ⟨a, ⟨u, hu | rfl, e⟩, c⟩
          · exact ⟨a, ⟨u, hu, e⟩, fun u hu e => c u (Or.inl hu) e⟩
          · exact absurd e.symm hx
    · intro x
      simp only [List.filter_append, List.length_append, h.count x]
      by_cases hx : x = r
      · subst hx
        have : U.filter (fun u => u.1 == x) = [] := by
          rw [List.filter_eq_nil_iff]; intro u hu; simpa using hno u hu
        simp [this]
      · have hx' : (r == x) = false := by simpa using fun e => hx e.symm
        simp [hx']
    · intro x w p i hm
      have := h.data x w p i hm
      rw [List.find?_append]
      cases hx : U.find? (fun u => u.1 == x) with
      | none => rw [hx] at this; cases this
      | some v => rw [hx] at this; simpa using this

theorem PI.registerAll {kind : Nat → Kind} {D : Nat → Prop} (prov : Nat) (hD : ¬ D prov) (rs : List Nat) :
    ∀ {U : List (Nat × Nat × Nat)} {s : State R V P} (pipe : Nat), PI kind U D s →
      PI kind (U ++ (rs.zipIdx pipe).map (fun f => (f.1, prov, f.2))) D (registerAll kind prov pipe rs s) ∧
      (registerAll kind prov pipe rs s).provs = s.provs := by
  induction rs with
  | nil => intro U s pipe h; simpa [Readers.registerAll] using h
  | cons r rs ih =>
    intro U s pipe h
    obtain ⟨h1, e1⟩ := h.register r prov pipe hD
    obtain ⟨h2, e2⟩ := ih (pipe + 1) h1
    simp only [Readers.registerAll, List.zipIdx_cons, List.map_cons]
    rw [List.append_assoc] at h2
    exact ⟨h2, e2.trans e1⟩

theorem collect_eq {s : State R V P} {r p i : Nat} (h : (s.reader r).producer = some (p, i)) (w : Why) :
    collect s r w = { s with log := s.log ++ [.data r w p i] } := by
  unfold collect; rw [h]

/-- The events of flushing or shutting down the readers given. -/
def served (kind : Nat → Kind) (f : Nat → Option (Nat × Nat)) (w : Why) (rs : List Nat) : List Ev :=
  rs.filterMap (fun r => if kind r = .periodic then (f r).map (fun u => .data r w u.1 u.2) else none)

theorem flush_eq (kind : Nat → Kind) (rs : List Nat) (s : State R V P) (h : ∀ r ∈ rs, (s.reader r).producer.isSome) :
    rs.foldl (flushReader kind) s = { s with log := s.log ++ served kind (fun r => (s.reader r).producer) .flush rs } := by
  induction rs generalizing s with
  | nil => simp [served]
  | cons r rs ih =>
    rw [List.foldl_cons]
    have hr := h r List.mem_cons_self
    have hrs : ∀ r ∈ rs, (s.reader r).producer.isSome := fun r hr => h r (List.mem_cons_of_mem _ hr)
    cases hp : (s.reader r).producer with
    | none => rw [hp] at hr; cases hr
    | some u =>
      cases hk : kind r with
      | manual =>
        have heq : flushReader kind s r = s := by unfold flushReader; rw [hk]
        rw [heq, ih s hrs]
        simp [served, hk]
      | periodic =>
        have heq : flushReader kind s r = { s with log := s.log ++ [.data r .flush u.1 u.2] } := by
          unfold flushReader; rw [hk]; exact collect_eq (by rw [hp]) _
        rw [heq, ih { s with log := s.log ++ [.data r .flush u.1 u.2] } hrs]
        simp [served, hk, hp]

theorem shut_eq (kind : Nat → Kind) (rs : List Nat) (s : State R V P) (h : ∀ r ∈ rs, (s.reader r).producer.isSome) :
    rs.foldl (shutReader kind) s =
      { s with log := s.log ++ served kind (fun r => (s.reader r).producer) .shutdown rs, reader := fun x => if x ∈ rs ∧ kind x = .periodic then { s.reader x with running := false } else s.reader x } := by
  induction rs generalizing s with
  | nil => simp [served]
  | cons r rs ih =>
    rw [List.foldl_cons]
    have hr := h r List.mem_cons_self
    have hrs : ∀ r ∈ rs, (s.reader r).producer.isSome := fun r hr => h r (List.mem_cons_of_mem _ hr)
    cases hp : (s.reader r).producer with
    | none => rw [hp] at hr; cases hr
    | some u =>
      cases hk : kind r with
      | manual =>
        have heq : shutReader kind s r = s := by unfold shutReader; rw [hk]
        rw [heq, ih s hrs]
        simp only [served, List.filterMap_cons, hk]
        congr 1
        funext x
        by_cases hx : x = r
        · subst hx; simp [hk]
        · simp [hx]
      | periodic =>
        have hprod : ∀ x, ((if x = r then { s.reader r with running := false } else s.reader x : Reader)).producer = (s.reader x).producer := by
          intro x
          by_cases hx : x = r
          · subst hx; simp
          · simp [hx]
        have heq : shutReader kind s r =
            { s with reader := fun x => if x = r then { s.reader r with running := false } else s.reader x, log := s.log ++ [.data r .shutdown u.1 u.2] } := by
          unfold shutReader; rw [hk]; exact collect_eq (by simp [hp]) _
        rw [heq, ih _ (by intro x hx; dsimp only; rw [hprod x]; exact hrs x hx)]
        dsimp only
        simp only [hprod]
        congr 1
        · funext x
          by_cases hx : x = r
          · subst hx; simp [hk]
          · simp [hx]
        · simp [served, hk, hp]

theorem created_snoc (acts : List (Act R V P)) (a : Act R V P) :
    created (acts ++ [a]) = created acts ++ (match a with | .create o => [o] | _ => []) := by
  unfold created; rw [List.filterMap_append]
  cases a <;> simp

theorem uses_create (acts : List (Act R V P)) (o : List (Opt R V P)) :
    uses (acts ++ [.create o]) = uses acts ++ ((readersOf o).zipIdx 0).map (fun f => (f.1, (created acts).length, f.2)) := by
  unfold uses
  rw [created_snoc, List.zipIdx_append, List.flatMap_append]
  simp

theorem uses_other (acts : List (Act R V P)) (a : Act R V P) (h : ∀ o, a ≠ .create o) : uses (acts ++ [a]) = uses acts := by
  unfold uses
  rw [created_snoc]
  cases a with
  | create o => exact absurd rfl (h o)
  | _ => simp

theorem shutDown_snoc (acts : List (Act R V P)) (a : Act R V P) (p : Nat) :
    ShutDown (acts ++ [a]) p ↔ ShutDown acts p ∨ (a = .shutdown p ∧ p < (created acts).length) := by
  constructor
  · rintro ⟨b, c, h, hl⟩
    rcases List.eq_nil_or_concat c with rfl | ⟨c', x, rfl⟩
    · have := List.append_inj' h rfl
      obtain ⟨rfl, h2⟩ := this
      simp at h2
      exact Or.inr ⟨h2, hl⟩
    · left
      rw [List.concat_eq_append, ← List.cons_append, ← List.append_assoc] at h
      exact ⟨b, c', (List.append_inj' h rfl).1, hl⟩
  · rintro (⟨b, c, rfl, hl⟩ | ⟨rfl, hl⟩)
    · exact ⟨b, c ++ [a], by simp, hl⟩
    · exact ⟨acts, [], rfl, hl⟩

theorem uses_lt {acts : List (Act R V P)} {u : Nat × Nat × Nat} (h : u ∈ uses acts) : u.2.1 < (created acts).length := by
  unfold uses at h
  obtain ⟨e, he, hu⟩ := List.mem_flatMap.1 h
  obtain ⟨f, -, rfl⟩ := List.mem_map.1 hu
  have := List.snd_lt_of_mem_zipIdx he
  simpa using this

theorem shutDown_lt {acts : List (Act R V P)} {p : Nat} (h : ShutDown acts p) : p < (created acts).length := by
  obtain ⟨b, c, rfl, hl⟩ := h
  unfold created at hl ⊢
  rw [List.filterMap_append, List.length_append]
  omega

theorem mem_uses {acts : List (Act R V P)} {p : Nat} {o : List (Opt R V P)} (h : (created acts)[p]? = some o) {r : Nat} :
    (∃ i, (r, p, i) ∈ uses acts) ↔ r ∈ readersOf o := by
  constructor
  · rintro ⟨i, hi⟩
    unfold uses at hi
    obtain ⟨e, he, hu⟩ := List.mem_flatMap.1 hi
    obtain ⟨f, hf, hfe⟩ := List.mem_map.1 hu
    cases hfe
    have := List.mem_zipIdx_iff_getElem?.1 he
    rw [h] at this
    cases this
    exact List.fst_mem_of_mem_zipIdx hf
  · intro hr
    obtain ⟨i, hi⟩ := List.getElem?_of_mem hr
    refine ⟨i, ?_⟩
    unfold uses
    refine List.mem_flatMap.2 ⟨(o, p), List.mem_zipIdx_iff_getElem?.2 h, ?_⟩
    exact List.mem_map.2 ⟨(r, i), List.mem_zipIdx_iff_getElem?.2 hi, rfl⟩

/-- The invariant. -/
structure Inv (kind : Nat → Kind) (dflt : R) (p0 : P) (acts : List (Act R V P)) (s : State R V P) : Prop where
  provs : s.provs.map (·.1) = (created acts).map (newConfig dflt p0)
  shut : ∀ p c b, s.provs[p]? = some (c, b) → (b = true ↔ ShutDown acts p)
  pi : PI kind (uses acts) (ShutDown acts) s

theorem PI.congrD {kind : Nat → Kind} {U : List (Nat × Nat × Nat)} {D D' : Nat → Prop} {s : State R V P} (h : PI kind U D s)
    (hd : ∀ u ∈ U, D u.2.1 ↔ D' u.2.1) : PI kind U D' s := by
  refine ⟨h.prod, ?_, h.count, h.data⟩
  intro r
  rw [h.loop r]
  constructor
  · rintro ⟨a, b, c⟩; exact ⟨a, b, fun u hu e hD => c u hu e ((hd u hu).2 hD)⟩
  · rintro ⟨a, b, c⟩; exact ⟨a, b, fun u hu e hD => c u hu e ((hd u hu).1 hD)⟩

/-- More events which are not refusals, of data of the right provider. -/
theorem PI.more {kind : Nat → Kind} {U : List (Nat × Nat × Nat)} {D : Nat → Prop} {s : State R V P} (h : PI kind U D s) (L : List Ev)
    (hr : ∀ r, Ev.refused r ∉ L) (hd : ∀ r w p i, Ev.data r w p i ∈ L → (U.find? (fun u => u.1 == r)).map (·.2) = some (p, i)) :
    PI kind U D { s with log := s.log ++ L } := by
  refine ⟨h.prod, h.loop, ?_, ?_⟩
  · intro r
    simp only [List.count_append, h.count r, List.count_eq_zero.2 (hr r), Nat.add_zero]
  · intro r w p i hm
    rcases List.mem_append.1 hm with hm | hm
    · exact h.data r w p i hm
    · exact hd r w p i hm

theorem served_mem {kind : Nat → Kind} {f : Nat → Option (Nat × Nat)} {w : Why} {rs : List Nat} {e : Ev} (h : e ∈ served kind f w rs) :
    ∃ r p i, e = .data r w p i ∧ f r = some (p, i) := by
  obtain ⟨r, -, he⟩ := List.mem_filterMap.1 h
  by_cases hk : kind r = .periodic
  · rw [if_pos hk] at he
    cases hf : f r with
    | none => rw [hf] at he; cases he
    | some u => rw [hf] at he; exact ⟨r, u.1, u.2, by simpa using he.symm, hf⟩
  · rw [if_neg hk] at he; cases he

variable {kind : Nat → Kind} {dflt : R} {p0 : P}

theorem Inv.lookup {acts : List (Act R V P)} {s : State R V P} (h : Inv kind dflt p0 acts s) (p : Nat) :
    (s.provs[p]?).map (·.1) = ((created acts)[p]?).map (newConfig dflt p0) := by
  rw [← List.getElem?_map, ← List.getElem?_map, h.provs]

theorem Inv.used {acts : List (Act R V P)} {s : State R V P} (h : Inv kind dflt p0 acts s) {p : Nat} {c : Config R V P} {b : Bool}
    (hp : s.provs[p]? = some (c, b)) : ∃ o, (created acts)[p]? = some o ∧ c.readers = readersOf o ∧ ∀ r ∈ c.readers, (s.reader r).producer.isSome := by
  have := h.lookup p
  rw [hp] at this
  cases ho : (created acts)[p]? with
  | none => rw [ho] at this; cases this
  | some o =>
    rw [ho] at this
    have hc : c = newConfig dflt p0 o := by simpa using this
    have hrs : c.readers = readersOf o := by rw [hc, newConfig_readers]
    refine ⟨o, rfl, hrs, ?_⟩
    intro r hr
    obtain ⟨i, hi⟩ := (mem_uses ho).2 (hrs ▸ hr)
    rw [h.pi.prod r, Option.isSome_map]
    exact (find_isSome _ r).2 ⟨_, hi, rfl⟩

theorem Inv.step {acts : List (Act R V P)} {s : State R V P} (h : Inv kind dflt p0 acts s) (a : Act R V P) :
    Inv kind dflt p0 (acts ++ [a]) (Readers.step kind dflt p0 s a) := by
  have hlen : s.provs.length = (created acts).length := by simpa using congrArg List.length h.provs
  cases a with
  | create o =>
    have hD : ¬ ShutDown acts s.provs.length := fun hs => by have := shutDown_lt hs; omega
    have hpi : PI kind (uses acts) (ShutDown acts) { s with provs := s.provs ++ [(newConfig dflt p0 o, false)] } :=
      ⟨h.pi.prod, h.pi.loop, h.pi.count, h.pi.data⟩
    obtain ⟨h1, h2⟩ := hpi.registerAll s.provs.length hD (newConfig dflt p0 o).readers 0
    have hsd : ∀ p, ShutDown (acts ++ [.create o]) p ↔ ShutDown acts p := fun p => by rw [shutDown_snoc]; simp
    refine ⟨?_, ?_, ?_⟩
    · show List.map _ (Readers.registerAll _ _ _ _ _).provs = _
      rw [h2, created_snoc]; simp [h.provs]
    · intro p c b hp
      rw [hsd]
      have hp' : (s.provs ++ [(newConfig dflt p0 o, false)])[p]? = some (c, b) := by rw [← hp]; exact congrArg (·[p]?) h2.symm
      by_cases hl : p < s.provs.length
      · rw [List.getElem?_append_left hl] at hp'
        exact h.shut p c b hp'
      · have hpl := (List.getElem?_eq_some_iff.1 hp').1
        simp at hpl
        have : p = s.provs.length := by omega
        subst this
        simp at hp'
        obtain ⟨-, hb⟩ := hp'
        subst hb
        simpa using hD
    · rw [uses_create, ← hlen]
      rw [newConfig_readers] at h1
      refine PI.congrD ?_ (fun u _ => (hsd u.2.1).symm)
      show PI kind _ _ (Readers.registerAll kind s.provs.length 0 (newConfig dflt p0 o).readers _)
      rw [newConfig_readers]; exact h1
  | flush p =>
    have hsd : ∀ q, ShutDown (acts ++ [.flush p]) q ↔ ShutDown acts q := fun q => by rw [shutDown_snoc]; simp
    have hu : uses (acts ++ [.flush p]) = uses acts := uses_other _ _ (by simp)
    have hc : created (acts ++ [.flush p]) = created acts := by rw [created_snoc]; simp
    simp only [Readers.step]
    cases hp : s.provs[p]? with
    | none =>
      dsimp only
      exact ⟨by rw [hc]; exact h.provs, fun q c b hq => (h.shut q c b hq).trans (hsd q).symm, by rw [hu]; exact h.pi.congrD (fun u _ => (hsd _).symm)⟩
    | some e =>
      dsimp only
      obtain ⟨o, ho, hrs, hsome⟩ := h.used (c := e.1) (b := e.2) hp
      rw [flush_eq kind e.1.readers s hsome]
      refine ⟨by rw [hc]; exact h.provs, fun q c b hq => (h.shut q c b hq).trans (hsd q).symm, ?_⟩
      rw [hu]
      refine PI.congrD ?_ (fun u _ => (hsd u.2.1).symm)
      refine h.pi.more _ ?_ ?_
      · intro r hr; obtain ⟨_, _, _, he, _⟩ := served_mem hr; cases he
      · intro r w q i hr
        obtain ⟨_, _, _, he, hf⟩ := served_mem hr
        cases he
        rw [← h.pi.prod r]; exact hf
  | shutdown p =>
    have hu : uses (acts ++ [.shutdown p]) = uses acts := uses_other _ _ (by simp)
    have hc : created (acts ++ [.shutdown p]) = created acts := by rw [created_snoc]; simp
    simp only [Readers.step]
    cases hp : s.provs[p]? with
    | none =>
      dsimp only
      have hl : ¬ p < (created acts).length := by
        have := List.getElem?_eq_none_iff.1 hp; omega
      have hsd : ∀ q, ShutDown (acts ++ [.shutdown p]) q ↔ ShutDown acts q := fun q => by
        rw [shutDown_snoc]
        constructor
        · rintro (h | ⟨h1, h2⟩)
          · exact h
          · cases h1; exact absurd h2 hl
        · exact Or.inl
      exact ⟨by rw [hc]; exact h.provs, fun q c b hq => (h.shut q c b hq).trans (hsd q).symm, by rw [hu]; exact h.pi.congrD (fun u _ => (hsd _).symm)⟩
    | some e =>
      obtain ⟨c, b⟩ := e
      have hl : p < (created acts).length := by
        have := (List.getElem?_eq_some_iff.1 hp).1; omega
      have hsd : ∀ q, ShutDown (acts ++ [.shutdown p]) q ↔ (ShutDown acts q ∨ q = p) := fun q => by
        rw [shutDown_snoc]
        constructor
        · rintro (h | ⟨h1, h2⟩)
          · exact Or.inl h
          · cases h1; exact Or.inr rfl
        · rintro (h | rfl)
          · exact Or.inl h
          · exact Or.inr ⟨rfl, hl⟩
      cases b with
      | true =>
        dsimp only
        have hs : ShutDown acts p := (h.shut p c true hp).1 rfl
        have hsd' : ∀ q, ShutDown (acts ++ [.shutdown p]) q ↔ ShutDown acts q := fun q => by
          rw [hsd]
          constructor
          · rintro (h | rfl)
            · exact h
            · exact hs
          · exact Or.inl
        refine ⟨by rw [hc]; exact h.provs, fun q c b hq => (h.shut q c b hq).trans (hsd' q).symm, ?_⟩
        rw [hu]
        refine PI.congrD ?_ (fun u _ => (hsd' u.2.1).symm)
        exact h.pi.more _ (by simp) (by simp)
      | false =>
        dsimp only
        obtain ⟨o, ho, hrs, hsome⟩ := h.used hp
        rw [shut_eq kind c.readers { s with provs := s.provs.set p (c, true) } hsome]
        refine ⟨?_, ?_, ?_⟩
        · dsimp only
          rw [hc, ← h.provs, List.map_set]
          apply List.ext_getElem?
          intro q
          rw [List.getElem?_set]
          split
          · subst_vars
            simp [hp]
            have := (List.getElem?_eq_some_iff.1 hp).1
            omega
          · rfl
        · intro q c' b hq
          dsimp only at hq
          rw [List.getElem?_set] at hq
          rw [hsd]
          split at hq
          · rename_i e
            split at hq
            · cases hq; simp [e]
            · cases hq
          · rename_i e
            rw [h.shut q c' b hq]
            constructor
            · exact Or.inl
            · rintro (h | h)
              · exact h
              · exact absurd h.symm e
        · rw [hu]
          refine ⟨?_, ?_, ?_, ?_⟩
          · intro r
            dsimp only
            split
            · exact h.pi.prod r
            · exact h.pi.prod r
          · intro r
            dsimp only
            by_cases hr : r ∈ c.readers ∧ kind r = .periodic
            · rw [if_pos hr]
              constructor
              · intro h; cases h
              · rintro ⟨-, -, hn⟩
                obtain ⟨i, hi⟩ := (mem_uses ho).2 (hrs ▸ hr.1)
                exact absurd ((hsd p).2 (Or.inr rfl)) (hn _ hi rfl)
            · rw [if_neg hr, h.pi.loop r]
              constructor
              · rintro ⟨a, b, d⟩
                refine ⟨a, b, ?_⟩
                rintro ⟨x, q, i⟩ hm e hq
                cases e
                rcases (hsd q).1 hq with hq | hq
                · exact d _ hm rfl hq
                · subst hq
                  exact hr ⟨hrs ▸ (mem_uses ho).1 ⟨i, hm⟩, a⟩
              · rintro ⟨a, b, d⟩
                exact ⟨a, b, fun u hm e hq => d u hm e ((hsd _).2 (Or.inl hq))⟩
          · intro r
            dsimp only
            rw [List.count_append, h.pi.count r, List.count_eq_zero.2]
            · simp
            · intro hm; obtain ⟨_, _, _, he, _⟩ := served_mem hm; cases he
          · intro r w q i hm
            dsimp only at hm
            rcases List.mem_append.1 hm with hm | hm
            · exact h.pi.data r w q i hm
            · obtain ⟨_, _, _, he, hf⟩ := served_mem hm
              cases he
              rw [← h.pi.prod r]; exact hf
  | tick r =>
    have hsd : ∀ q, ShutDown (acts ++ [.tick r]) q ↔ ShutDown acts q := fun q => by rw [shutDown_snoc]; simp
    have hu : uses (acts ++ [.tick r]) = uses acts := uses_other _ _ (by simp)
    have hc : created (acts ++ [.tick r]) = created acts := by rw [created_snoc]; simp
    have base : Inv kind dflt p0 (acts ++ [.tick r]) s :=
      ⟨by rw [hc]; exact h.provs, fun q c b hq => (h.shut q c b hq).trans (hsd q).symm, by rw [hu]; exact h.pi.congrD (fun u _ => (hsd _).symm)⟩
    simp only [Readers.step]
    split
    · unfold collect
      split
      · rename_i q i hq
        exact ⟨base.provs, base.shut, base.pi.more _ (by simp) (by
          intro r' w q' i' hm
          simp at hm
          obtain ⟨rfl, rfl, rfl, rfl⟩ := hm
          rw [← base.pi.prod]; exact hq)⟩
      · exact ⟨base.provs, base.shut, base.pi.more _ (by simp) (by simp)⟩
    · exact base
  | produce r =>
    have hsd : ∀ q, ShutDown (acts ++ [.produce r]) q ↔ ShutDown acts q := fun q => by rw [shutDown_snoc]; simp
    have hu : uses (acts ++ [.produce r]) = uses acts := uses_other _ _ (by simp)
    have hc : created (acts ++ [.produce r]) = created acts := by rw [created_snoc]; simp
    have base : Inv kind dflt p0 (acts ++ [.produce r]) s :=
      ⟨by rw [hc]; exact h.provs, fun q c b hq => (h.shut q c b hq).trans (hsd q).symm, by rw [hu]; exact h.pi.congrD (fun u _ => (hsd _).symm)⟩
    simp only [Readers.step]
    split
    · unfold collect
      split
      · rename_i q i hq
        exact ⟨base.provs, base.shut, base.pi.more _ (by simp) (by
          intro r' w q' i' hm
          simp at hm
          obtain ⟨rfl, rfl, rfl, rfl⟩ := hm
          rw [← base.pi.prod]; exact hq)⟩
      · exact ⟨base.provs, base.shut, base.pi.more _ (by simp) (by simp)⟩
    · exact base

theorem run_snoc (acts : List (Act R V P)) (a : Act R V P) :
    Readers.run kind dflt p0 (acts ++ [a]) = Readers.step kind dflt p0 (Readers.run kind dflt p0 acts) a := by
  unfold Readers.run; rw [List.foldl_append]; rfl

theorem inv_run (kind : Nat → Kind) (dflt : R) (p0 : P) (acts : List (Act R V P)) : Inv kind dflt p0 acts (Readers.run kind dflt p0 acts) := by
  suffices h : ∀ l : List (Act R V P), Inv kind dflt p0 l.reverse (Readers.run kind dflt p0 l.reverse) by simpa using h acts.reverse
  intro l
  induction l with
  | nil =>
    refine ⟨rfl, ?_, ?_⟩
    · intro p c b h; simp [Readers.run, new] at h
    · refine ⟨fun r => rfl, ?_, fun r => rfl, ?_⟩
      · intro r; simp [Readers.run, new, uses, created]
      · intro r w p i h; simp [Readers.run, new] at h
  | cons a l ih =>
    rw [List.reverse_cons, run_snoc]
    exact ih.step a

end ReadersPf

open ReadersPf

/-- C80. Whatever providers are created with whatever readers, and whatever is called: all data a reader ever hands on come from the provider it was given
to first, at the position it had there (so with the views given with it there). -/
theorem C80_first (kind : Nat → Kind) (dflt : R) (p0 : P) (acts : List (Act R V P)) (r : Nat) (w : Why) (p i : Nat)
    (h : .data r w p i ∈ (run kind dflt p0 acts).log) : firstUse acts r = some (p, i) :=
  (inv_run kind dflt p0 acts).pi.data r w p i h

/-- C80. Every use of a reader but the first is reported. -/
theorem C80_reported (kind : Nat → Kind) (dflt : R) (p0 : P) (acts : List (Act R V P)) (r : Nat) :
    (run kind dflt p0 acts).log.count (.refused r) = ((uses acts).filter (fun u => u.1 == r)).length - 1 :=
  (inv_run kind dflt p0 acts).pi.count r

/-- C80. When a tick is due a periodic reader exports the data of its first provider, once, if none of the providers it was given to has been shut down;
otherwise nothing happens. -/
theorem C80_tick (kind : Nat → Kind) (dflt : R) (p0 : P) (acts : List (Act R V P)) (r : Nat) :
    (∀ p i, kind r = .periodic → firstUse acts r = some (p, i) → (∀ q j, (r, q, j) ∈ uses acts → ¬ ShutDown acts q) →
      (run kind dflt p0 (acts ++ [.tick r])).log = (run kind dflt p0 acts).log ++ [.data r .tick p i]) ∧
    (¬ (kind r = .periodic ∧ (∃ q j, (r, q, j) ∈ uses acts) ∧ ∀ q j, (r, q, j) ∈ uses acts → ¬ ShutDown acts q) →
      (run kind dflt p0 (acts ++ [.tick r])).log = (run kind dflt p0 acts).log) := by
  have hi := (inv_run kind dflt p0 acts).pi
  rw [run_snoc]
  refine ⟨?_, ?_⟩
  · intro p i hk hf hs
    have hex : ∃ u ∈ uses acts, u.1 = r := (find_isSome _ r).1 (by
      unfold firstUse at hf
      cases h : (uses acts).find? (fun u => u.1 == r) with
      | none => rw [h] at hf; cases hf
      | some _ => rfl)
    have hrun : ((run kind dflt p0 acts).reader r).running = true :=
      (hi.loop r).2 ⟨hk, hex, fun u hu e => hs u.2.1 u.2.2 (by rw [← e]; exact hu)⟩
    simp only [Readers.step, hrun, if_true]
    rw [collect_eq ((hi.prod r).trans hf)]
  · intro hn
    have hrun : ((run kind dflt p0 acts).reader r).running = false := by
      cases hr : ((run kind dflt p0 acts).reader r).running with
      | false => rfl
      | true =>
        obtain ⟨a, ⟨u, hu, e⟩, c⟩ := (hi.loop r).1 hr
        exact absurd ⟨a, ⟨u.2.1, u.2.2, by rw [← e]; exact hu⟩, fun q j hm => c _ hm rfl⟩ hn
    simp [Readers.step, hrun]

/-- The events when the provider `p` with these options is flushed or shut down (`w`): for each of its periodic readers, in order, the data of the reader's
first provider. -/
def handed (kind : Nat → Kind) (acts : List (Act R V P)) (w : Why) (opts : List (Opt R V P)) : List Ev :=
  (readersOf opts).filterMap (fun r => if kind r = .periodic then (firstUse acts r).map (fun u => .data r w u.1 u.2) else none)

/-- C80. Flushing a provider, and shutting it down for the first time, make each of its periodic readers hand on, in order, the data of the provider it was
given to first. -/
theorem C80_flush (kind : Nat → Kind) (dflt : R) (p0 : P) (acts : List (Act R V P)) (p : Nat) (opts : List (Opt R V P))
    (hp : (created acts)[p]? = some opts) :
    (run kind dflt p0 (acts ++ [.flush p])).log = (run kind dflt p0 acts).log ++ handed kind acts .flush opts ∧
    (¬ ShutDown acts p → (run kind dflt p0 (acts ++ [.shutdown p])).log = (run kind dflt p0 acts).log ++ handed kind acts .shutdown opts) ∧
    (ShutDown acts p → (run kind dflt p0 (acts ++ [.shutdown p])).log = (run kind dflt p0 acts).log ++ [.already p]) := by
  have hi := inv_run kind dflt p0 acts
  have hlook := hi.lookup p
  rw [hp] at hlook
  cases he : (run kind dflt p0 acts).provs[p]? with
  | none => rw [he] at hlook; cases hlook
  | some e =>
    obtain ⟨c, b⟩ := e
    obtain ⟨o, ho, hrs, hsome⟩ := hi.used he
    have heq : o = opts := by rw [hp] at ho; cases ho; rfl
    subst heq
    have hserved : ∀ w, served kind (fun r => ((run kind dflt p0 acts).reader r).producer) w c.readers = handed kind acts w o := by
      intro w; unfold served handed; rw [hrs]
      have : (fun r => ((run kind dflt p0 acts).reader r).producer) = firstUse acts := funext hi.pi.prod
      rw [this]
    have hb := hi.shut p c b he
    rw [run_snoc, run_snoc]
    refine ⟨?_, ?_, ?_⟩
    · simp only [Readers.step, he]
      rw [flush_eq kind c.readers _ hsome, hserved]
    · intro hns
      have : b = false := by
        cases b with
        | false => rfl
        | true => exact absurd (hb.1 rfl) hns
      subst this
      simp only [Readers.step, he]
      rw [shut_eq kind c.readers { run kind dflt p0 acts with provs := (run kind dflt p0 acts).provs.set p (c, true) } hsome]
      dsimp only
      rw [hserved]
    · intro hs
      have : b = true := hb.2 hs
      subst this
      simp only [Readers.step, he]

/-- C80 (for readers used once). If no reader is used twice then every reader serves exactly the provider it was given to: no error is reported; a tick of a
periodic reader exports the data of its provider until that provider is shut down, after which it does nothing; and flushing or shutting down a provider
makes each of its periodic readers hand on, in order, that provider's data for the reader. Missing: readers used twice (`C80_shared_fails`, `C80_twice_fails`). -/
theorem C80_own_partial (kind : Nat → Kind) (dflt : R) (p0 : P) (acts : List (Act R V P)) (hnd : ((uses acts).map (·.1)).Nodup)
    (p : Nat) (opts : List (Opt R V P)) (hp : (created acts)[p]? = some opts) :
    (∀ r, .refused r ∉ (run kind dflt p0 acts).log) ∧
    (∀ r i, (readersOf opts)[i]? = some r → kind r = .periodic →
      (¬ ShutDown acts p → (run kind dflt p0 (acts ++ [.tick r])).log = (run kind dflt p0 acts).log ++ [.data r .tick p i]) ∧
      (ShutDown acts p → (run kind dflt p0 (acts ++ [.tick r])).log = (run kind dflt p0 acts).log)) ∧
    (∀ r i, (readersOf opts)[i]? = some r → kind r = .manual →
      (run kind dflt p0 (acts ++ [.produce r])).log = (run kind dflt p0 acts).log ++ [.data r .produce p i]) ∧
    (run kind dflt p0 (acts ++ [.flush p])).log = (run kind dflt p0 acts).log ++
      (readersOf opts).zipIdx.filterMap (fun f => if kind f.1 = .periodic then some (.data f.1 .flush p f.2) else none) ∧
    (¬ ShutDown acts p → (run kind dflt p0 (acts ++ [.shutdown p])).log = (run kind dflt p0 acts).log ++
      (readersOf opts).zipIdx.filterMap (fun f => if kind f.1 = .periodic then some (.data f.1 .shutdown p f.2) else none)) := by
  have huniq : ∀ u ∈ uses acts, ∀ v ∈ uses acts, u.1 = v.1 → u = v := by
    revert hnd
    generalize uses acts = U
    induction U with
    | nil => intro _ u hu; cases hu
    | cons a U ih =>
      intro hnd u hu v hv e
      rw [List.map_cons, List.nodup_cons] at hnd
      rcases List.mem_cons.1 hu with hu | hu <;> rcases List.mem_cons.1 hv with hv | hv
      · rw [hu, hv]
      · exact absurd (List.mem_map.2 ⟨v, hv, by rw [← e, hu]⟩) hnd.1
      · exact absurd (List.mem_map.2 ⟨u, hu, by rw [e, hv]⟩) hnd.1
      · exact ih hnd.2 u hu v hv e
  have hmem : ∀ r i, (readersOf opts)[i]? = some r → (r, p, i) ∈ uses acts := by
    intro r i hr
    unfold uses
    exact List.mem_flatMap.2 ⟨(opts, p), List.mem_zipIdx_iff_getElem?.2 hp, List.mem_map.2 ⟨(r, i), List.mem_zipIdx_iff_getElem?.2 hr, rfl⟩⟩
  have hfirst : ∀ r i, (readersOf opts)[i]? = some r → firstUse acts r = some (p, i) := by
    intro r i hr
    unfold firstUse
    have hs : ((uses acts).find? (fun u => u.1 == r)).isSome := (find_isSome _ r).2 ⟨_, hmem r i hr, rfl⟩
    cases hf : (uses acts).find? (fun u => u.1 == r) with
    | none => rw [hf] at hs; cases hs
    | some v =>
      have h1 := List.mem_of_find?_eq_some hf
      have h2 := List.find?_some hf
      have := huniq v h1 _ (hmem r i hr) (by simpa using h2)
      rw [this]; rfl
  have hhanded : ∀ w, handed kind acts w opts = (readersOf opts).zipIdx.filterMap (fun f => if kind f.1 = .periodic then some (.data f.1 w p f.2) else none) := by
    intro w
    unfold handed
    have : ∀ (l : List Nat) (k : Nat), (∀ r i, l[i]? = some r → firstUse acts r = some (p, k + i)) →
        l.filterMap (fun r => if kind r = .periodic then (firstUse acts r).map (fun u => Ev.data r w u.1 u.2) else none) =
        (l.zipIdx k).filterMap (fun f => if kind f.1 = .periodic then some (.data f.1 w p f.2) else none) := by
      intro l
      induction l with
      | nil => intro k _; rfl
      | cons r l ih =>
        intro k hk
        have h0 := hk r 0 rfl
        have hl := ih (k + 1) (fun r i hr => by have := hk r (i + 1) (by simpa using hr); rw [this]; congr 2; omega)
        rw [List.filterMap_cons, List.zipIdx_cons, List.filterMap_cons, hl, h0]
        by_cases hkr : kind r = .periodic <;> simp [hkr]
    exact this _ 0 (fun r i hr => by rw [Nat.zero_add]; exact hfirst r i hr)
  refine ⟨?_, ?_, ?_, ?_, ?_⟩
  · intro r
    rw [← List.count_eq_zero, C80_reported]
    have : ((uses acts).filter (fun u => u.1 == r)).length ≤ 1 := by
      have h1 : (((uses acts).map (·.1)).count r) ≤ 1 := List.nodup_iff_count.1 hnd r
      rw [List.count_eq_countP, List.countP_map, List.countP_eq_length_filter] at h1
      exact h1
    omega
  · intro r i hr hk
    refine ⟨fun hs => ?_, fun hs => ?_⟩
    · refine (C80_tick kind dflt p0 acts r).1 p i hk (hfirst r i hr) ?_
      intro q j hm
      have := huniq _ hm _ (hmem r i hr) rfl
      cases this
      exact hs
    · refine (C80_tick kind dflt p0 acts r).2 ?_
      rintro ⟨-, -, h⟩
      exact h p i (hmem r i hr) hs
  · intro r i hr hk
    rw [run_snoc]
    simp only [Readers.step, hk]
    rw [collect_eq (((inv_run kind dflt p0 acts).pi.prod r).trans (hfirst r i hr))]
  · rw [← hhanded]; exact (C80_flush kind dflt p0 acts p opts hp).1
  · intro hs; rw [← hhanded]; exact (C80_flush kind dflt p0 acts p opts hp).2.1 hs

namespace ReadersEx

abbrev RAct := Act Nat Nat Nat
/-- Even readers are periodic, odd ones manual. -/
def kinds (r : Nat) : Kind := if r % 2 = 0 then .periodic else .manual
def acts : List RAct :=
  [.create [.reader 0 10, .resource 7, .reader 1 11], .create [.reader 2 12, .reader 4 13], .tick 0, .shutdown 1, .tick 2]

/-- C80: two providers with four readers; one provider is shut down. -/
example : ((uses acts).map (·.1)).Nodup ∧ (created acts)[1]? = some [.reader 2 12, .reader 4 13] ∧
    (run kinds 0 0 acts).log = [.data 0 .tick 0 0, .data 2 .shutdown 1 0, .data 4 .shutdown 1 1] ∧
    (run kinds 0 0 (acts ++ [.tick 0, .produce 1, .shutdown 0, .tick 0])).log =
      (run kinds 0 0 acts).log ++ [.data 0 .tick 0 0, .data 1 .produce 0 1, .data 0 .shutdown 0 0] := by decide +kernel
example : ShutDown acts 1 := ⟨acts.take 3, [.tick 2], rfl, by decide⟩
/-- C80: a reader used three times. -/
example : (run kinds 0 0 ([.create [.reader 0 10, .reader 0 11], .create [.reader 0 12]] : List RAct)).log = [.refused 0, .refused 0] := by decide +kernel
end ReadersEx

/-- C80 (fails for a reader given to two providers). A periodic reader is given to two providers. Whatever happens after, no data of the second are ever
handed to anyone. Shutting down the second provider stops the reader, though the first was not shut down: after that no tick exports anything, for good
(as long as nobody flushes). -/
theorem C80_shared_fails (dflt : R) (p0 : P) (v v' : V) :
    let two : List (Act R V P) := [.create [.reader 0 v], .create [.reader 0 v']]
    (∀ more r w i, .data r w 1 i ∉ (run ReadersEx.kinds dflt p0 (two ++ more)).log) ∧
    (run ReadersEx.kinds dflt p0 (two ++ [.tick 0])).log = [.refused 0, .data 0 .tick 0 0] ∧
    (∀ n, (run ReadersEx.kinds dflt p0 (two ++ .shutdown 1 :: List.replicate n (.tick 0))).log = [.refused 0, .data 0 .shutdown 0 0]) := by
  intro two
  refine ⟨?_, rfl, ?_⟩
  · intro more r w i hm
    have hf := C80_first _ _ _ _ _ _ _ _ hm
    have hu : ∃ rest, uses (two ++ more) = [(0, 0, 0), (0, 1, 0)] ++ rest ∧ ∀ u ∈ rest, 2 ≤ u.2.1 := by
      refine ⟨(created more).zipIdx 2 |>.flatMap (fun e => (readersOf e.1).zipIdx.map (fun f => (f.1, e.2, f.2))), ?_, ?_⟩
      · have : created (two ++ more) = created two ++ created more := List.filterMap_append
        unfold uses
        rw [this, List.zipIdx_append, List.flatMap_append]
        rfl
      · intro u hu
        obtain ⟨e, he, hu⟩ := List.mem_flatMap.1 hu
        obtain ⟨f, -, rfl⟩ := List.mem_map.1 hu
        exact List.le_snd_of_mem_zipIdx he
    obtain ⟨rest, hu, hrest⟩ := hu
    unfold firstUse at hf
    rw [hu] at hf
    by_cases hr : r = 0
    · subst hr; cases hf
    · have : (0 == r) = false := by simpa using fun e => hr e.symm
      simp only [List.cons_append, List.nil_append, List.find?_cons, this] at hf
      cases hg : rest.find? (fun u => u.1 == r) with
      | none => rw [hg] at hf; cases hf
      | some u =>
        rw [hg] at hf
        have h2 := hrest u (List.mem_of_find?_eq_some hg)
        have h1 : u.2 = (1, i) := by simpa using hf
        rw [h1] at h2
        exact absurd h2 (by simp)
  · intro n
    induction n with
    | zero => rfl
    | succ n ih =>
      rw [List.replicate_succ', ← List.cons_append, ← List.append_assoc, run_snoc]
      rw [← run_snoc, (C80_tick ReadersEx.kinds dflt p0 _ 0).2, ih]
      rintro ⟨-, -, h⟩
      refine h 1 0 ?_ ⟨two, List.replicate n (.tick 0), rfl, (by simp [created, two])⟩
      unfold uses created
      rw [List.filterMap_append, List.filterMap_cons]
      simp only [List.zipIdx_append, List.flatMap_append]
      exact List.mem_append_left _ (by simp [readersOf])

/-- C80 (fails for a reader given twice to one provider, with different views). The second views are never used, and every flush, and the shutdown, exports twice. -/
theorem C80_twice_fails (dflt : R) (p0 : P) (v v' : V) :
    let twice : List (Act R V P) := [.create [.reader 0 v, .reader 0 v']]
    (run ReadersEx.kinds dflt p0 (twice ++ [.flush 0])).log = [.refused 0, .data 0 .flush 0 0, .data 0 .flush 0 0] ∧
    (run ReadersEx.kinds dflt p0 (twice ++ [.shutdown 0])).log = [.refused 0, .data 0 .shutdown 0 0, .data 0 .shutdown 0 0] := ⟨rfl, rfl⟩

end Verif.Props
