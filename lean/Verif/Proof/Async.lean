import Verif.Spec.Async

/-! Helper file: invariants of the asynchronous machine. -/

namespace Verif.Async
open Verif

variable {K N S : Type} [DecidableEq K] [DecidableEq N]
set_option linter.unusedSectionVars false

/-! ### Tables -/

section
omit [DecidableEq N]

theorem find_nil (k : K) : Storage.find ([] : Storage.Table K S) k = none := rfl

theorem find_cons (e : K × S) (t : Storage.Table K S) (k : K) :
    Storage.find (e :: t) k = if e.1 = k then some e.2 else Storage.find t k := by
  unfold Storage.find
  by_cases h : e.1 = k <;> simp [h]

theorem has_eq (t : Storage.Table K S) (k : K) : Storage.has t k = (Storage.find t k).isSome := by
  induction t with
  | nil => rfl
  | cons e t ih =>
    rw [find_cons]
    unfold Storage.has at *
    by_cases h : e.1 = k <;> simp [h, ih]

theorem mem_of_find {t : Storage.Table K S} {k : K} {v : S} (h : Storage.find t k = some v) : (k, v) ∈ t := by
  induction t with
  | nil => cases h
  | cons e t ih =>
    rw [find_cons] at h
    split at h
    · rename_i hk; cases h; rw [← hk]; exact List.mem_cons_self
    · exact List.mem_cons_of_mem _ (ih h)

theorem find_of_mem {t : Storage.Table K S} {k : K} {v : S} (hn : (t.map (·.1)).Nodup) (h : (k, v) ∈ t) :
    Storage.find t k = some v := by
  induction t with
  | nil => cases h
  | cons e t ih =>
    rw [List.map_cons, List.nodup_cons] at hn
    rw [find_cons]
    rcases List.mem_cons.1 h with h | h
    · rw [← h]; simp
    · have : e.1 ≠ k := fun hk => hn.1 (by rw [hk]; exact List.mem_map_of_mem (f := (·.1)) h)
      rw [if_neg this]; exact ih hn.2 h

theorem find_modify (t : Storage.Table K S) (k k' : K) (f : S → S) :
    Storage.find (modify t k f) k' = if k' = k then (Storage.find t k').map f else Storage.find t k' := by
  induction t with
  | nil => simp [modify, find_nil]
  | cons e t ih =>
    have : modify (e :: t) k f = (if e.1 = k then (e.1, f e.2) else e) :: modify t k f := rfl
    rw [this, find_cons, find_cons, ih]
    by_cases h1 : e.1 = k <;> by_cases h2 : e.1 = k' <;> by_cases h3 : k' = k <;> simp_all

theorem modify_keys (t : Storage.Table K S) (k : K) (f : S → S) : (modify t k f).map (·.1) = t.map (·.1) := by
  unfold modify
  rw [List.map_map]
  apply List.map_congr_left
  intro e _
  simp only [Function.comp]
  split <;> rfl

/-- The values that the snapshot applies to series `k` of view `l`, in order. -/
def hits (l : Nat) (k : K) (es : List (Entry K N)) : List N :=
  es.flatMap (fun e => (e.keys.filter (fun p => decide (p = (l, k)))).map (fun _ => e.cur))

theorem snap1_find (c : Cfg K N S) (l : Nat) (cur : N) (ps : List (Nat × K)) (t : Storage.Table K S) (k : K) :
    Storage.find (ps.foldl (fun t p => if p.1 = l then modify t p.2 (fun x => (c.agg l).upd x cur) else t) t) k =
      (Storage.find t k).map (fun v => ((ps.filter (fun p => decide (p = (l, k)))).map (fun _ => cur)).foldl (c.agg l).upd v) := by
  induction ps generalizing t with
  | nil => simp
  | cons p ps ih =>
    rw [List.foldl_cons, ih]
    obtain ⟨pl, pk⟩ := p
    by_cases h1 : pl = l
    · rw [if_pos h1, find_modify]
      by_cases h2 : k = pk
      · subst h1; subst h2
        simp [Function.comp_def]
      · have : ¬ ((pl, pk) = (l, k)) := fun e => h2 (by cases e; rfl)
        simp [h2, this]
    · have : ¬ ((pl, pk) = (l, k)) := fun e => h1 (by cases e; rfl)
      rw [if_neg h1]; simp [this]

theorem find_snap (c : Cfg K N S) (l : Nat) (order : List (Entry K N)) (t : Storage.Table K S) (k : K) :
    Storage.find (snap c l t order) k = (Storage.find t k).map (fun v => (hits l k order).foldl (c.agg l).upd v) := by
  unfold snap
  induction order generalizing t with
  | nil => simp [hits]
  | cons e es ih =>
    rw [List.foldl_cons, ih, snap1_find]
    simp only [hits, List.flatMap_cons, List.foldl_append, Option.map_map, Function.comp_def]

theorem snap_keys (c : Cfg K N S) (l : Nat) (order : List (Entry K N)) (t : Storage.Table K S) :
    (snap c l t order).map (·.1) = t.map (·.1) := by
  unfold snap
  induction order generalizing t with
  | nil => rfl
  | cons e es ih =>
    rw [List.foldl_cons, ih]
    generalize e.keys = ps
    induction ps generalizing t with
    | nil => rfl
    | cons p ps ihp =>
      rw [List.foldl_cons, ihp]
      split
      · exact modify_keys _ _ _
      · rfl

theorem hits_perm {l : Nat} {k : K} {es es' : List (Entry K N)} (h : es.Perm es') : (hits l k es).Perm (hits l k es') :=
  List.Perm.flatMap_right _ h

/-! ### Creating accumulators -/

/-- What creating accumulators does to one table: nothing is lost, new entries are initial and have a reference. -/
structure Grows (init : S) (lim : Nat) (t t' : Storage.Table K S) (new : K → Prop) : Prop where
  keep : ∀ e, e ∈ t → e ∈ t'
  fresh : ∀ k v, (k, v) ∈ t' → (k, v) ∈ t ∨ (v = init ∧ Storage.find t k = none ∧ new k)
  nodup : (t.map (·.1)).Nodup → (t'.map (·.1)).Nodup
  len : t.length ≤ t'.length

theorem Grows.refl {init : S} {lim : Nat} {t : Storage.Table K S} {new : K → Prop} : Grows init lim t t new :=
  ⟨fun _ h => h, fun _ _ h => Or.inl h, fun h => h, Nat.le_refl _⟩

theorem resolve_cases (lim : Nat) (ovf : K) (t : Storage.Table K S) (k : K) :
    (Storage.resolveKey lim ovf t k = k) ∨
    (Storage.resolveKey lim ovf t k = ovf ∧ ((t.length = lim ∧ Storage.has t ovf = true) ∨ (t.length + 1 = lim ∧ Storage.has t ovf = false))) := by
  unfold Storage.resolveKey
  grind

/-- Cardinality: never above the limit, and full only with an overflow entry. -/
def LenOk (lim : Nat) (ovf : K) (t : Storage.Table K S) : Prop :=
  t.length ≤ lim ∧ (t.length = lim → Storage.has t ovf = true)

theorem newAcc_len (c : Cfg K N S) (l : Nat) (t : Storage.Table K S) (set : K) (h : LenOk (c.lim l) c.ovf t) :
    LenOk (c.lim l) c.ovf (newAcc c l t set).2 ∧ (t.length = c.lim l → (newAcc c l t set).2 = t) ∧
    ((newAcc c l t set).1 ≠ c.filt l set →
      (newAcc c l t set).2.length = c.lim l ∧ Storage.has (newAcc c l t set).2 (c.filt l set) = false) := by
  unfold LenOk at *
  obtain ⟨h1, h2⟩ := h
  unfold newAcc Storage.getOrCreate
  dsimp only
  have hr : ∀ k, Storage.resolveKey (c.lim l) c.ovf t (c.filt l set) = k →
      (Storage.has t k = true ∧ (k ≠ c.filt l set → t.length = c.lim l ∧ Storage.has t (c.filt l set) = false)) ∨
      (Storage.has t k = false ∧ t.length < c.lim l ∧ (t.length + 1 = c.lim l → k = c.ovf ∨ Storage.has t c.ovf = true) ∧
        (k ≠ c.filt l set → t.length + 1 = c.lim l ∧ Storage.has t (c.filt l set) = false)) := by
    intro k hk
    unfold Storage.resolveKey at hk
    grind
  have hr := hr _ rfl
  generalize Storage.resolveKey (c.lim l) c.ovf t (c.filt l set) = k at *
  cases hf : Storage.find t k with
  | some v =>
    dsimp only
    rcases hr with ⟨a, b⟩ | ⟨a, _⟩
    · exact ⟨⟨h1, h2⟩, fun _ => rfl, fun hne => b hne⟩
    · rw [has_eq, hf] at a; cases a
  | none =>
    dsimp only
    rcases hr with ⟨a, b⟩ | ⟨a, b, d, e⟩
    · rw [has_eq, hf] at a; cases a
    · refine ⟨⟨by simp only [List.length_cons]; omega, ?_⟩, fun h => by omega, ?_⟩
      · intro hlen
        simp only [List.length_cons] at hlen
        rw [has_eq, find_cons]
        rcases d hlen with d | d
        · rw [if_pos d]; rfl
        · split
          · rfl
          · rw [← has_eq]; exact d
      · intro hne
        obtain ⟨e1, e2⟩ := e hne
        refine ⟨by simp only [List.length_cons]; omega, ?_⟩
        rw [has_eq, find_cons, if_neg hne, ← has_eq]; exact e2

theorem newAcc_spec (c : Cfg K N S) (l : Nat) (t : Storage.Table K S) (set : K) :
    Grows (c.agg l).init (c.lim l) t (newAcc c l t set).2 (fun k => k = (newAcc c l t set).1) ∧
    Storage.has (newAcc c l t set).2 (newAcc c l t set).1 = true ∧
    ((newAcc c l t set).1 = c.filt l set ∨ ((newAcc c l t set).1 = c.ovf ∧ c.lim l ≤ (newAcc c l t set).2.length)) := by
  have hr := resolve_cases (c.lim l) c.ovf t (c.filt l set)
  unfold newAcc Storage.getOrCreate
  dsimp only
  generalize Storage.resolveKey (c.lim l) c.ovf t (c.filt l set) = k at *
  cases hf : Storage.find t k with
  | some v =>
    dsimp only
    refine ⟨Grows.refl, ?_, ?_⟩
    · rw [has_eq, hf]; rfl
    · rcases hr with h | ⟨h1, h2⟩
      · exact Or.inl h
      · right; refine ⟨h1, ?_⟩
        rcases h2 with h2 | h2
        · omega
        · rw [has_eq, ← h1, hf] at h2; simp at h2
  | none =>
    dsimp only
    refine ⟨⟨fun e h => List.mem_cons_of_mem _ h, ?_, ?_, by simp⟩, ?_, ?_⟩
    · intro k' v h
      rcases List.mem_cons.1 h with h | h
      · cases h; exact Or.inr ⟨rfl, hf, rfl⟩
      · exact Or.inl h
    · intro hn
      rw [List.map_cons, List.nodup_cons]
      refine ⟨?_, hn⟩
      intro hm
      obtain ⟨e, he, hk⟩ := List.mem_map.1 hm
      have : (k, e.2) ∈ t := by have hk' : e.1 = k := hk; rw [← hk']; exact he
      rw [find_of_mem hn this] at hf; cases hf
    · rw [has_eq, find_cons]; simp
    · rcases hr with h | ⟨h1, h2⟩
      · exact Or.inl h
      · right; refine ⟨h1, ?_⟩
        rcases h2 with h2 | h2
        · rw [has_eq, ← h1, hf] at h2; simp at h2
        · simp only [List.length_cons]; omega

theorem Grows.trans {init : S} {lim : Nat} {t1 t2 t3 : Storage.Table K S} {n1 n2 : K → Prop} (h1 : Grows init lim t1 t2 n1)
    (h2 : Grows init lim t2 t3 n2) : Grows init lim t1 t3 (fun k => n1 k ∨ n2 k) where
  keep := fun e h => h2.keep e (h1.keep e h)
  fresh := by
    intro k v h
    rcases h2.fresh k v h with h | ⟨a, b, d⟩
    · rcases h1.fresh k v h with h | ⟨a, b, d⟩
      · exact Or.inl h
      · exact Or.inr ⟨a, b, Or.inl d⟩
    · refine Or.inr ⟨a, ?_, Or.inr d⟩
      cases hf : Storage.find t1 k with
      | none => rfl
      | some w =>
        have := h1.keep _ (mem_of_find hf)
        have hh : Storage.has t2 k = true := by
          unfold Storage.has; rw [List.any_eq_true]; exact ⟨_, this, by simp⟩
        rw [has_eq, b] at hh; cases hh
  nodup := fun h => h2.nodup (h1.nodup h)
  len := Nat.le_trans h1.len h2.len

theorem Grows.mono {init : S} {lim : Nat} {t t' : Storage.Table K S} {n1 n2 : K → Prop} (h : Grows init lim t t' n1)
    (hi : ∀ k, n1 k → n2 k) : Grows init lim t t' n2 :=
  ⟨h.keep, fun k v hm => (h.fresh k v hm).imp id (fun ⟨a, b, d⟩ => ⟨a, b, hi k d⟩), h.nodup, h.len⟩

theorem Grows.has {init : S} {lim : Nat} {t t' : Storage.Table K S} {n : K → Prop} (h : Grows init lim t t' n) {k : K}
    (hk : Storage.has t k = true) : Storage.has t' k = true := by
  unfold Storage.has at *
  rw [List.any_eq_true] at *
  obtain ⟨e, he, hek⟩ := hk
  exact ⟨e, h.keep e he, hek⟩

structure Created (c : Cfg K N S) (set : K) (ls : List Nat) (v v' : Nat → View K S) (keys : List (Nat × K)) : Prop where
  leaves : keys.map (·.1) = ls
  prior : ∀ l, (v' l).prior = (v l).prior
  grows : ∀ l, Grows (c.agg l).init (c.lim l) (v l).data (v' l).data (fun k => (l, k) ∈ keys)
  hasKey : ∀ l k, (l, k) ∈ keys → Storage.has (v' l).data k = true
  own : ∀ l k, (l, k) ∈ keys → k = c.filt l set ∨ (k = c.ovf ∧ c.lim l ≤ (v' l).data.length)
  len : ∀ l, 1 ≤ c.lim l → LenOk (c.lim l) c.ovf (v l).data →
    LenOk (c.lim l) c.ovf (v' l).data ∧ ((v l).data.length = c.lim l → (v' l).data = (v l).data) ∧
    (∀ k, (l, k) ∈ keys → k ≠ c.filt l set → (v' l).data.length = c.lim l ∧ Storage.has (v' l).data (c.filt l set) = false)

theorem newAccs_spec (c : Cfg K N S) (set : K) (ls : List Nat) (v : Nat → View K S) :
    Created c set ls v (newAccs c set ls v).2 (newAccs c set ls v).1 := by
  induction ls generalizing v with
  | nil => exact ⟨rfl, fun _ => rfl, fun _ => Grows.refl, fun _ _ h => (by cases h), fun _ _ h => (by cases h),
      fun _ _ h => ⟨h, fun _ => rfl, fun _ hm => (by cases hm)⟩⟩
  | cons l ls ih =>
    obtain ⟨g, hh, ho⟩ := newAcc_spec c l (v l).data set
    have hln := newAcc_len c l (v l).data set
    have r := ih (upd v l { v l with data := (newAcc c l (v l).data set).2 })
    unfold newAccs
    dsimp only
    generalize hk : (newAcc c l (v l).data set).1 = k0 at *
    generalize ht : (newAcc c l (v l).data set).2 = t0 at *
    generalize newAccs c set ls (upd v l { v l with data := t0 }) = q at *
    refine ⟨by simp [r.leaves], ?_, ?_, ?_, ?_, ?_⟩
    · intro l'
      rw [r.prior l', upd_apply]
      split
      · rename_i e; rw [e]
      · rfl
    · intro l'
      have g2 := r.grows l'
      by_cases e : l' = l
      · subst e
        simp only [upd_same] at g2
        exact (g.trans g2).mono (fun k h => h.elim (fun h => by rw [h]; exact List.mem_cons_self) (fun h => List.mem_cons_of_mem _ h))
      · rw [upd_ne _ _ e] at g2
        exact g2.mono (fun k h => List.mem_cons_of_mem _ h)
    · intro l' k' h
      rcases List.mem_cons.1 h with h | h
      · cases h
        have g2 := r.grows l
        simp only [upd_same] at g2
        exact g2.has hh
      · exact r.hasKey _ _ h
    · intro l' k' h
      rcases List.mem_cons.1 h with h | h
      · cases h
        have g2 := r.grows l
        simp only [upd_same] at g2
        rcases ho with ho | ⟨h1, h2⟩
        · exact Or.inl ho
        · exact Or.inr ⟨h1, Nat.le_trans h2 g2.len⟩
      · exact r.own _ _ h
    · intro l' h1 h2
      by_cases e : l' = l
      · subst e
        have r1 := r.len l' h1
        simp only [upd_same] at r1
        obtain ⟨a1, a2, a3⟩ := hln h2
        obtain ⟨b1, b2, b3⟩ := r1 a1
        refine ⟨b1, ?_, ?_⟩
        · intro hlen
          have := a2 hlen
          rw [b2 (by rw [this]; exact hlen), this]
        · intro k hk hne
          rcases List.mem_cons.1 hk with hk | hk
          · cases hk
            obtain ⟨c1, c2⟩ := a3 hne
            have := b2 c1
            rw [this]; exact ⟨c1, c2⟩
          · exact b3 k hk hne
      · have r1 := r.len l' h1
        rw [upd_ne _ _ e] at r1
        obtain ⟨b1, b2, b3⟩ := r1 h2
        refine ⟨b1, b2, ?_⟩
        intro k hk hne
        rcases List.mem_cons.1 hk with hk | hk
        · cases hk; exact absurd rfl e
        · exact b3 k hk hne

end

/-! ### The invariant -/

/-- Table of the view at the end of the collection before `n`. -/
def prevTable (s : State K N S) (n l : Nat) : Storage.Table K S := match n with | 0 => [] | n + 1 => s.seen n l

/-- Table of the view at the beginning of collection `n`. -/
def baseAt (c : Cfg K N S) (s : State K N S) (n l : Nat) : Storage.Table K S :=
  if c.delta l then carry c.ovf (prevTable s n l) else []

def Matches (e : Entry K N) (o : Nat) (set : K) : Prop := e.obs = o ∧ e.set = set

/-- Entries of a store against the log. -/
structure StoreOk (c : Cfg K N S) (s : State K N S) (n : Nat) : Prop where
  distinct : (s.store n).Pairwise (fun e e' => ¬ Matches e' e.obs e.set)
  cur : ∀ e ∈ s.store n, e.cur = (lastObs s.log n e.obs e.set).getD c.zero
  leaves : ∀ e ∈ s.store n, e.keys.map (·.1) = c.leavesOf e.obs
  logged : ∀ v ∈ s.log, v.coll = n → ∃ e ∈ s.store n, Matches e v.obs v.set

/-- Table `t` of view `l` in collection `n` against the store. -/
structure TableOk (c : Cfg K N S) (s : State K N S) (n l : Nat) (t : Storage.Table K S) : Prop where
  nodup : (t.map (·.1)).Nodup
  hasKey : ∀ e ∈ s.store n, ∀ k, (l, k) ∈ e.keys → Storage.has t k = true
  own : ∀ e ∈ s.store n, ∀ k, (l, k) ∈ e.keys → k = c.filt l e.set ∨ (k = c.ovf ∧ c.lim l ≤ t.length)
  base : ∀ k, Storage.has (baseAt c s n l) k = true → Storage.has t k = true
  len : 1 ≤ c.lim l → LenOk (c.lim l) c.ovf t
  routed : 1 ≤ c.lim l → ∀ e ∈ s.store n, ∀ k, (l, k) ∈ e.keys → k ≠ c.filt l e.set → t.length = c.lim l ∧ Storage.has t (c.filt l e.set) = false
  from_ : ∀ k, Storage.has t k = true → Storage.has (baseAt c s n l) k = true ∨ ∃ e ∈ s.store n, (l, k) ∈ e.keys

/-- The initial value of a series in collection `n`. -/
def startVal (c : Cfg K N S) (s : State K N S) (n l : Nat) (k : K) : S :=
  (Storage.find (baseAt c s n l) k).getD (c.agg l).init

structure Inv (c : Cfg K N S) (s : State K N S) : Prop where
  cbColl : ∀ i, i < s.nextCb → (s.cb i).coll ≤ s.coll ∧ ((s.cb i).coll < s.coll → (s.cb i).live = false)
  opCb : ∀ i, i < s.nextOp → (s.op i).cb < s.nextCb
  flight : ∀ i, i < s.nextOp → ((s.op i).pc = .create ∨ (s.op i).pc = .update) → (s.cb (s.op i).cb).coll = s.coll
  storeFut : ∀ n, s.coll < n → s.store n = []
  logColl : ∀ v ∈ s.log, v.coll ≤ s.coll
  updEntry : ∀ i, i < s.nextOp → (s.op i).pc = .update →
    ∃ e ∈ s.store s.coll, Matches e (s.op i).obs (c.canon (s.op i).obs (s.op i).set)
  fresh : ∀ n, ∀ e ∈ s.store n, lastObs s.log n e.obs e.set ≠ none ∨
    (n = s.coll ∧ ∃ i, i < s.nextOp ∧ (s.op i).pc = .update ∧ Matches e (s.op i).obs (c.canon (s.op i).obs (s.op i).set))
  storeOk : ∀ n, StoreOk c s n
  table : ∀ l, TableOk c s s.coll l (s.view l).data
  value : ∀ l k v, Storage.find (s.view l).data k = some v → v = startVal c s s.coll l k
  prior : ∀ l, c.delta l = true → (s.view l).prior = prevTable s s.coll l
  past : ∀ n l, n < s.coll → TableOk c s n l (s.seen n l)
  pastVal : ∀ n l k v, n < s.coll → Storage.find (s.seen n l) k = some v →
    ∃ order : List (Entry K N), order.Perm (s.store n) ∧ v = (hits l k order).foldl (c.agg l).upd (startVal c s n l k)
  out : ∀ n l, n < s.coll → s.out n l = if c.delta l then deltaPoints (c.agg l) (prevTable s n l) (s.seen n l) else s.seen n l

theorem StoreOk.congr {c : Cfg K N S} {s s' : State K N S} {n : Nat} (h : StoreOk c s n) (h1 : s'.store n = s.store n)
    (h2 : s'.log = s.log) : StoreOk c s' n := by
  obtain ⟨a, b, d, e⟩ := h
  exact ⟨by rw [h1]; exact a, by rw [h1, h2]; exact b, by rw [h1]; exact d, by rw [h1, h2]; exact e⟩

theorem baseAt_congr {c : Cfg K N S} {s s' : State K N S} {n l : Nat} (h2 : ∀ m, m < n → s'.seen m = s.seen m) :
    baseAt c s' n l = baseAt c s n l := by
  unfold baseAt prevTable
  cases n with
  | zero => rfl
  | succ n => simp only [h2 n (Nat.lt_succ_self n)]

theorem startVal_congr {c : Cfg K N S} {s s' : State K N S} {n l : Nat} (h2 : ∀ m, m < n → s'.seen m = s.seen m) (k : K) :
    startVal c s' n l k = startVal c s n l k := by
  unfold startVal; rw [baseAt_congr h2]

theorem TableOk.congr {c : Cfg K N S} {s s' : State K N S} {n l : Nat} {t : Storage.Table K S} (h : TableOk c s n l t)
    (h1 : s'.store n = s.store n) (h2 : ∀ m, m < n → s'.seen m = s.seen m) : TableOk c s' n l t := by
  obtain ⟨a, b, d, e, x, y, f⟩ := h
  have hb := baseAt_congr (c := c) (l := l) h2
  exact ⟨a, by rw [h1]; exact b, by rw [h1]; exact d, by rw [hb]; exact e, x, by rw [h1]; exact y, by rw [hb, h1]; exact f⟩

/-- Steps that change neither views, stores, output nor log. -/
theorem Inv.frame {c : Cfg K N S} {s s' : State K N S} (h : Inv c s) (e1 : s'.view = s.view) (e2 : s'.coll = s.coll)
    (e3 : s'.store = s.store) (e4 : s'.out = s.out) (e5 : s'.seen = s.seen) (e6 : s'.log = s.log)
    (hcb : ∀ i, i < s'.nextCb → (s'.cb i).coll ≤ s'.coll ∧ ((s'.cb i).coll < s'.coll → (s'.cb i).live = false))
    (hop : ∀ i, i < s'.nextOp → (s'.op i).cb < s'.nextCb)
    (hfl : ∀ i, i < s'.nextOp → ((s'.op i).pc = .create ∨ (s'.op i).pc = .update) → (s'.cb (s'.op i).cb).coll = s'.coll)
    (hu : ∀ i, (i < s'.nextOp ∧ (s'.op i).pc = .update) ↔ (i < s.nextOp ∧ (s.op i).pc = .update))
    (hsame : ∀ i, i < s.nextOp → (s.op i).pc = .update → s'.op i = s.op i) : Inv c s' where
  cbColl := hcb
  opCb := hop
  flight := hfl
  storeFut := by rw [e2, e3]; exact h.storeFut
  logColl := by rw [e2, e6]; exact h.logColl
  updEntry := by
    intro i hi hp
    have := (hu i).1 ⟨hi, hp⟩
    rw [e2, e3, hsame i this.1 this.2]
    exact h.updEntry i this.1 this.2
  fresh := by
    intro n e he
    rw [e3] at he
    rcases h.fresh n e he with h1 | ⟨h1, i, h2, h3, h4⟩
    · left; rw [e6]; exact h1
    · right; rw [e2]; refine ⟨h1, i, ((hu i).2 ⟨h2, h3⟩).1, ((hu i).2 ⟨h2, h3⟩).2, ?_⟩
      rw [hsame i h2 h3]; exact h4
  storeOk := fun n => (h.storeOk n).congr (by rw [e3]) e6
  table := fun l => by
    rw [e1, e2]
    exact (h.table l).congr (by rw [e3]) (fun m _ => by rw [e5])
  value := by
    intro l k v hf
    rw [e1] at hf
    rw [h.value l k v hf, e2]
    exact (startVal_congr (fun m _ => by rw [e5]) k).symm
  prior := by
    intro l hd
    rw [e1, e2, h.prior l hd]
    unfold prevTable; rw [e5]
  past := by
    intro n l hn
    rw [e5]
    exact (h.past n l (by rw [← e2]; exact hn)).congr (by rw [e3]) (fun m _ => by rw [e5])
  pastVal := by
    intro n l k v hn hf
    rw [e5] at hf
    obtain ⟨vs, h1, h2⟩ := h.pastVal n l k v (by rw [← e2]; exact hn) hf
    refine ⟨vs, by rw [e3]; exact h1, ?_⟩
    rw [h2, startVal_congr (fun m _ => by rw [e5]) k]
  out := by
    intro n l hn
    rw [e4, e5, h.out n l (by rw [← e2]; exact hn)]
    unfold prevTable; rw [e5]

theorem Inv.init (c : Cfg K N S) (k0 : K) : Inv c (initial c k0) := by
  have hb : ∀ n l, baseAt c (initial c k0) n l = [] := by
    intro n l; unfold baseAt prevTable carry initial; cases n <;> simp [find_nil]
  refine ⟨?_, ?_, ?_, ?_, ?_, ?_, ?_, ?_, ?_, ?_, ?_, ?_, ?_, ?_⟩
  all_goals try (simp [initial]; done)
  · intro n; refine ⟨?_, ?_, ?_, ?_⟩ <;> simp [initial]
  · intro l; refine ⟨?_, ?_, ?_, ?_, ?_, ?_, ?_⟩
    · simp [initial]
    · simp [initial]
    · simp [initial]
    · intro k; rw [hb]; simp [Storage.has]
    · intro hl; exact ⟨Nat.zero_le _, fun h => by simp [initial] at h; omega⟩
    · simp [initial]
    · intro k; simp [initial, Storage.has]
  · intro l k v; simp [initial, find_nil]
  · intro l _; rfl

theorem lastObs_append (log : List (Ev K N)) (v : Ev K N) (n o : Nat) (set : K) :
    lastObs (log ++ [v]) n o set = if v.coll = n ∧ v.obs = o ∧ v.set = set then some v.val else lastObs log n o set := by
  unfold lastObs
  rw [List.reverse_append]
  simp only [List.reverse_cons, List.reverse_nil, List.nil_append, List.singleton_append, List.find?_cons]
  by_cases h : v.coll = n ∧ v.obs = o ∧ v.set = set
  · simp [h]
  · rw [if_neg h]
    have : (v.coll == n && v.obs == o && v.set == set) = false := by
      simp only [Bool.and_eq_false_iff, beq_eq_false_iff_ne]
      grind
    simp [this]

theorem find_grows {init : S} {lim : Nat} {t t' : Storage.Table K S} {new : K → Prop} (g : Grows init lim t t' new)
    (hn : (t.map (·.1)).Nodup) {k : K} {v : S} (h : Storage.find t' k = some v) :
    Storage.find t k = some v ∨ (v = init ∧ Storage.find t k = none) := by
  rcases g.fresh k v (mem_of_find h) with h | ⟨a, b, _⟩
  · exact Or.inl (find_of_mem hn h)
  · exact Or.inr ⟨a, b⟩

/-- `getOrCreate` by an observation of the current collection. -/
theorem Inv.create {c : Cfg K N S} {s : State K N S} (h : Inv c s) {i : Nat} (hi : i < s.nextOp) (hp : (s.op i).pc = .create) :
    Inv c { getOrCreate c s (s.cb (s.op i).cb).coll (s.op i).obs (c.canon (s.op i).obs (s.op i).set) with
      op := upd s.op i { s.op i with pc := .update } } := by
  have hc := h.flight i hi (Or.inl hp)
  rw [hc]
  generalize hset : c.canon (s.op i).obs (s.op i).set = set
  unfold getOrCreate
  split
  · -- found
    rename_i hany
    rw [List.any_eq_true] at hany
    obtain ⟨e, he, hm⟩ := hany
    have hm : Matches e (s.op i).obs set := by simpa [Matches] using hm
    constructor
    · exact h.cbColl
    · intro j hj
      simp only [upd_apply]; split
      · rename_i e; subst e; exact h.opCb j hj
      · exact h.opCb j hj
    · intro j hj
      simp only [upd_apply]; split
      · rename_i e; subst e; intro _; exact hc
      · exact h.flight j hj
    · exact h.storeFut
    · exact h.logColl
    · intro j hj
      simp only [upd_apply]; split
      · rename_i e1; subst e1; intro _; exact ⟨e, he, by rw [hset]; exact hm⟩
      · exact h.updEntry j hj
    · intro n e he
      rcases h.fresh n e he with h1 | ⟨h1, j, h2, h3, h4⟩
      · exact Or.inl h1
      · right
        have : j ≠ i := fun e => by rw [e, hp] at h3; cases h3
        exact ⟨h1, j, h2, by simp only [upd_apply, if_neg this]; exact h3, by simp only [upd_apply, if_neg this]; exact h4⟩
    · exact fun n => (h.storeOk n).congr rfl rfl
    · exact fun l => (h.table l).congr rfl (fun _ _ => rfl)
    · exact h.value
    · exact h.prior
    · exact fun n l hn => (h.past n l hn).congr rfl (fun _ _ => rfl)
    · exact h.pastVal
    · exact h.out
  · rename_i hany
    have hno : ∀ e ∈ s.store s.coll, ¬ Matches e (s.op i).obs set := by
      intro e he hm
      apply hany
      rw [List.any_eq_true]
      exact ⟨e, he, by simpa [Matches] using hm⟩
    have cr := newAccs_spec c set (c.leavesOf (s.op i).obs) s.view
    dsimp only
    generalize newAccs c set (c.leavesOf (s.op i).obs) s.view = r at *
    have hnolog : ∀ v ∈ s.log, ¬ (v.coll = s.coll ∧ v.obs = (s.op i).obs ∧ v.set = set) := by
      rintro v hv ⟨h1, h2, h3⟩
      obtain ⟨e, he, hm⟩ := (h.storeOk s.coll).logged v hv h1
      exact hno e he ⟨hm.1.trans h2, hm.2.trans h3⟩
    have hlast : lastObs s.log s.coll (s.op i).obs set = none := by
      unfold lastObs
      rw [Option.map_eq_none_iff, List.find?_eq_none]
      intro v hv
      have := hnolog v (List.mem_reverse.1 hv)
      simp only [Bool.and_eq_true, beq_iff_eq]
      grind
    constructor
    · exact h.cbColl
    · intro j hj
      simp only [upd_apply]; split
      · rename_i e; subst e; exact h.opCb j hj
      · exact h.opCb j hj
    · intro j hj
      simp only [upd_apply]; split
      · rename_i e; subst e; intro _; exact hc
      · exact h.flight j hj
    · intro n hn
      have : n ≠ s.coll := fun e => by rw [e] at hn; exact Nat.lt_irrefl _ hn
      simp only [upd_ne _ _ this]
      exact h.storeFut n hn
    · exact h.logColl
    · intro j hj
      simp only [upd_same]
      by_cases e1 : j = i
      · subst e1
        simp only [upd_same]
        intro _
        exact ⟨_, List.mem_append_right _ (List.mem_singleton.2 rfl), by rw [hset]; exact ⟨rfl, rfl⟩⟩
      · simp only [upd_ne _ _ e1]
        intro h1
        obtain ⟨e, he, hm⟩ := h.updEntry j hj h1
        exact ⟨e, List.mem_append_left _ he, hm⟩
    · intro n e he
      have old : e ∈ s.store n → _ := h.fresh n e
      have lift : e ∈ s.store n → lastObs s.log n e.obs e.set ≠ none ∨ (n = s.coll ∧ ∃ j, j < s.nextOp ∧
          ((upd s.op i { s.op i with pc := .update }) j).pc = .update ∧
          Matches e ((upd s.op i { s.op i with pc := .update }) j).obs
            (c.canon ((upd s.op i { s.op i with pc := .update }) j).obs ((upd s.op i { s.op i with pc := .update }) j).set)) := by
        intro he
        rcases old he with h1 | ⟨h1, j, h2, h3, h4⟩
        · exact Or.inl h1
        · right
          have : j ≠ i := fun e => by rw [e, hp] at h3; cases h3
          exact ⟨h1, j, h2, by simp only [upd_apply, if_neg this]; exact h3, by simp only [upd_apply, if_neg this]; exact h4⟩
      by_cases hn : n = s.coll
      · subst hn
        simp only [upd_same] at he
        rcases List.mem_append.1 he with he | he
        · exact lift he
        · rw [List.mem_singleton] at he
          right
          refine ⟨rfl, i, hi, by simp, ?_⟩
          subst he
          simp only [upd_same]
          rw [hset]; exact ⟨rfl, rfl⟩
      · simp only [upd_ne _ _ hn] at he
        exact lift he
    · intro n
      by_cases hn : n = s.coll
      · subst hn
        obtain ⟨a, b, d, e⟩ := h.storeOk s.coll
        refine ⟨?_, ?_, ?_, ?_⟩
        · simp only [upd_same]
          rw [List.pairwise_append]
          refine ⟨a, List.pairwise_singleton _ _, ?_⟩
          intro x hx y hy
          rw [List.mem_singleton] at hy
          subst hy
          rintro ⟨h1, h2⟩
          exact hno x hx ⟨h1.symm, h2.symm⟩
        · simp only [upd_same]
          intro x hx
          rcases List.mem_append.1 hx with hx | hx
          · exact b x hx
          · rw [List.mem_singleton] at hx
            subst hx
            simp [hlast]
        · simp only [upd_same]
          intro x hx
          rcases List.mem_append.1 hx with hx | hx
          · exact d x hx
          · rw [List.mem_singleton] at hx
            subst hx
            exact cr.leaves
        · intro v hv hvc
          obtain ⟨x, hx, hm⟩ := e v hv hvc
          simp only [upd_same]
          exact ⟨x, List.mem_append_left _ hx, hm⟩
      · exact (h.storeOk n).congr (by simp only [upd_ne _ _ hn]) rfl
    · intro l
      obtain ⟨a, b, d, e, xl, yl, f⟩ := h.table l
      have g := cr.grows l
      refine ⟨g.nodup a, ?_, ?_, ?_, fun h1 => (cr.len l h1 (xl h1)).1, ?_, ?_⟩
      · simp only [upd_same]
        intro x hx k hk
        rcases List.mem_append.1 hx with hx | hx
        · exact g.has (b x hx k hk)
        · rw [List.mem_singleton] at hx
          subst hx
          exact cr.hasKey l k hk
      · simp only [upd_same]
        intro x hx k hk
        rcases List.mem_append.1 hx with hx | hx
        · rcases d x hx k hk with h1 | ⟨h1, h2⟩
          · exact Or.inl h1
          · exact Or.inr ⟨h1, Nat.le_trans h2 g.len⟩
        · rw [List.mem_singleton] at hx
          subst hx
          exact cr.own l k hk
      · intro k hk
        exact g.has (e k hk)
      · simp only [upd_same]
        intro h1 x hx k hk hne
        obtain ⟨c1, c2, c3⟩ := cr.len l h1 (xl h1)
        rcases List.mem_append.1 hx with hx | hx
        · obtain ⟨d1, d2⟩ := yl h1 x hx k hk hne
          have := c2 d1
          rw [this]; exact ⟨d1, d2⟩
        · rw [List.mem_singleton] at hx
          subst hx
          exact c3 k hk hne
      · intro k hk
        simp only [upd_same]
        rw [has_eq, Option.isSome_iff_exists] at hk
        obtain ⟨v, hv⟩ := hk
        rcases g.fresh k v (mem_of_find hv) with h1 | ⟨_, _, h3⟩
        · have : Storage.has (s.view l).data k = true := by
            unfold Storage.has; rw [List.any_eq_true]; exact ⟨_, h1, by simp⟩
          rcases f k this with h2 | ⟨x, hx, hk⟩
          · exact Or.inl h2
          · exact Or.inr ⟨x, List.mem_append_left _ hx, hk⟩
        · exact Or.inr ⟨_, List.mem_append_right _ (List.mem_singleton.2 rfl), h3⟩
    · intro l k v hv
      rcases find_grows (cr.grows l) (h.table l).nodup hv with h1 | ⟨h1, h2⟩
      · exact h.value l k v h1
      · rw [h1]
        have hb : Storage.find (baseAt c s s.coll l) k = none := by
          cases hb : Storage.find (baseAt c s s.coll l) k with
          | none => rfl
          | some w =>
            have := (h.table l).base k (by rw [has_eq, hb]; rfl)
            rw [has_eq, h2] at this; cases this
        have : startVal c s s.coll l k = (c.agg l).init := by unfold startVal; rw [hb]; rfl
        exact this.symm
    · intro l hd
      rw [cr.prior l]
      exact h.prior l hd
    · intro n l hn
      have : n ≠ s.coll := by have : n < s.coll := hn; omega
      exact (h.past n l hn).congr (by simp only [upd_ne _ _ this]) (fun _ _ => rfl)
    · intro n l k v hn hf
      have : n ≠ s.coll := by have : n < s.coll := hn; omega
      simp only [upd_ne _ _ this]
      exact h.pastVal n l k v hn hf
    · exact h.out

theorem mem_setCur {es : List (Entry K N)} {o : Nat} {set : K} {v : N} {x : Entry K N} (h : x ∈ setCur es o set v) :
    ∃ e ∈ es, x.obs = e.obs ∧ x.set = e.set ∧ x.keys = e.keys ∧ x.cur = if e.obs = o ∧ e.set = set then v else e.cur := by
  unfold setCur at h
  obtain ⟨e, he, rfl⟩ := List.mem_map.1 h
  refine ⟨e, he, ?_⟩
  split <;> simp

theorem setCur_mem {es : List (Entry K N)} (o : Nat) (set : K) (v : N) {e : Entry K N} (h : e ∈ es) :
    ∃ x ∈ setCur es o set v, x.obs = e.obs ∧ x.set = e.set ∧ x.keys = e.keys := by
  refine ⟨_, List.mem_map_of_mem h, ?_⟩
  split <;> simp

/-- The update by an observation of the current collection. -/
theorem Inv.update {c : Cfg K N S} {s : State K N S} (h : Inv c s) {i : Nat} (hi : i < s.nextOp) (hp : (s.op i).pc = .update) :
    Inv c { s with
      store := upd s.store (s.cb (s.op i).cb).coll
        (setCur (s.store (s.cb (s.op i).cb).coll) (s.op i).obs (c.canon (s.op i).obs (s.op i).set) (s.op i).val)
      op := upd s.op i { s.op i with pc := .done }
      log := s.log ++ [{ coll := (s.cb (s.op i).cb).coll, op := i, obs := (s.op i).obs, set := c.canon (s.op i).obs (s.op i).set,
                         val := (s.op i).val }] } := by
  have hc := h.flight i hi (Or.inr hp)
  have hue := h.updEntry i hi hp
  rw [hc]
  generalize hset : c.canon (s.op i).obs (s.op i).set = set at *
  constructor
  · exact h.cbColl
  · intro j hj
    simp only [upd_apply]; split
    · rename_i e; subst e; exact h.opCb j hj
    · exact h.opCb j hj
  · intro j hj
    simp only [upd_apply]; split
    · intro h1; simp at h1
    · exact h.flight j hj
  · intro n hn
    have : n ≠ s.coll := fun e => by rw [e] at hn; exact Nat.lt_irrefl _ hn
    simp only [upd_ne _ _ this]
    exact h.storeFut n hn
  · intro v hv
    rcases List.mem_append.1 hv with hv | hv
    · exact h.logColl v hv
    · rw [List.mem_singleton] at hv; rw [hv]; exact Nat.le_refl _
  · intro j hj
    simp only [upd_same]
    by_cases e1 : j = i
    · subst e1; simp
    · simp only [upd_ne _ _ e1]
      intro h1
      obtain ⟨e, he, hm⟩ := h.updEntry j hj h1
      obtain ⟨x, hx, h2, h3, _⟩ := setCur_mem (s.op i).obs set (s.op i).val he
      exact ⟨x, hx, h2.trans hm.1, h3.trans hm.2⟩
  · intro n e he
    rw [lastObs_append]
    by_cases hn : n = s.coll
    · subst hn
      simp only [upd_same] at he
      obtain ⟨x, hx, h1, h2, _, _⟩ := mem_setCur he
      by_cases hm : Matches x (s.op i).obs set
      · left
        rw [if_pos ⟨rfl, by rw [h1]; exact hm.1.symm, by rw [h2]; exact hm.2.symm⟩]
        simp
      · rw [if_neg (by rintro ⟨_, h3, h4⟩; exact hm ⟨by rw [← h1]; exact h3.symm, by rw [← h2]; exact h4.symm⟩)]
        rcases h.fresh _ x hx with h3 | ⟨h3, j, h4, h5, h6⟩
        · left; rw [h1, h2]; exact h3
        · right
          have : j ≠ i := fun e => by subst e; rw [hset] at h6; exact hm h6
          refine ⟨rfl, j, h4, by simp only [upd_apply, if_neg this]; exact h5, ?_⟩
          simp only [upd_apply, if_neg this]
          exact ⟨h1.trans h6.1, h2.trans h6.2⟩
    · simp only [upd_ne _ _ hn] at he
      rw [if_neg (by rintro ⟨h3, _⟩; exact hn h3.symm)]
      rcases h.fresh n e he with h1 | ⟨h1, _⟩
      · exact Or.inl h1
      · exact absurd h1 hn
  · intro n
    by_cases hn : n = s.coll
    · subst hn
      obtain ⟨a, b, d, e⟩ := h.storeOk s.coll
      refine ⟨?_, ?_, ?_, ?_⟩
      · simp only [upd_same]
        unfold setCur
        rw [List.pairwise_map]
        refine a.imp ?_
        intro x y hxy
        unfold Matches at *
        split <;> split <;> exact hxy
      · simp only [upd_same]
        intro x hx
        obtain ⟨y, hy, h1, h2, _, h4⟩ := mem_setCur hx
        rw [lastObs_append, h1, h2, h4]
        by_cases hm : y.obs = (s.op i).obs ∧ y.set = set
        · rw [if_pos hm, if_pos ⟨rfl, hm.1.symm, hm.2.symm⟩]; rfl
        · rw [if_neg hm, if_neg (by rintro ⟨_, h5, h6⟩; exact hm ⟨h5.symm, h6.symm⟩)]
          exact b y hy
      · simp only [upd_same]
        intro x hx
        obtain ⟨y, hy, h1, h2, h3, h4⟩ := mem_setCur hx
        rw [h1, h3]; exact d y hy
      · simp only [upd_same]
        intro v hv hvc
        rcases List.mem_append.1 hv with hv | hv
        · obtain ⟨y, hy, hm⟩ := e v hv hvc
          obtain ⟨x, hx, h2, h3, _⟩ := setCur_mem (s.op i).obs set (s.op i).val hy
          exact ⟨x, hx, h2.trans hm.1, h3.trans hm.2⟩
        · rw [List.mem_singleton] at hv
          subst hv
          obtain ⟨y, hy, hm⟩ := hue
          obtain ⟨x, hx, h2, h3, _⟩ := setCur_mem (s.op i).obs set (s.op i).val hy
          exact ⟨x, hx, h2.trans hm.1, h3.trans hm.2⟩
    · obtain ⟨a, b, d, e⟩ := h.storeOk n
      refine ⟨?_, ?_, ?_, ?_⟩
      · simp only [upd_ne _ _ hn]; exact a
      · simp only [upd_ne _ _ hn]
        intro x hx
        rw [lastObs_append, if_neg (by rintro ⟨h3, _⟩; exact hn h3.symm)]
        exact b x hx
      · simp only [upd_ne _ _ hn]; exact d
      · simp only [upd_ne _ _ hn]
        intro v hv hvc
        rcases List.mem_append.1 hv with hv | hv
        · exact e v hv hvc
        · rw [List.mem_singleton] at hv; subst hv; exact absurd hvc.symm hn
  · intro l
    obtain ⟨a, b, d, e, xl, yl, f⟩ := h.table l
    refine ⟨a, ?_, ?_, e, xl, ?_, ?_⟩
    · simp only [upd_same]
      intro x hx k hk
      obtain ⟨y, hy, h1, h2, h3, h4⟩ := mem_setCur hx
      exact b y hy k (h3 ▸ hk)
    · simp only [upd_same]
      intro x hx k hk
      obtain ⟨y, hy, h1, h2, h3, h4⟩ := mem_setCur hx
      rw [h2]
      exact d y hy k (h3 ▸ hk)
    · simp only [upd_same]
      intro h1 x hx k hk hne
      obtain ⟨y, hy, h1', h2, h3, h4⟩ := mem_setCur hx
      rw [h2] at hne ⊢
      exact yl h1 y hy k (h3 ▸ hk) hne
    · intro k hk
      simp only [upd_same]
      rcases f k hk with h1 | ⟨y, hy, hk⟩
      · exact Or.inl h1
      · obtain ⟨x, hx, h2, h3, h4⟩ := setCur_mem (s.op i).obs set (s.op i).val hy
        exact Or.inr ⟨x, hx, h4 ▸ hk⟩
  · exact h.value
  · exact h.prior
  · intro n l hn
    have : n ≠ s.coll := by have : n < s.coll := hn; omega
    exact (h.past n l hn).congr (by simp only [upd_ne _ _ this]) (fun _ _ => rfl)
  · intro n l k v hn hf
    have : n ≠ s.coll := by have : n < s.coll := hn; omega
    simp only [upd_ne _ _ this]
    exact h.pastVal n l k v hn hf
  · exact h.out

theorem has_snap (c : Cfg K N S) (l : Nat) (order : List (Entry K N)) (t : Storage.Table K S) (k : K) :
    Storage.has (snap c l t order) k = Storage.has t k := by
  rw [has_eq, has_eq, find_snap, Option.isSome_map]

theorem Inv.finish {c : Cfg K N S} {s s' : State K N S} (h : Inv c s) {order : List (Entry K N)}
    (hq : ¬ InFlight s) (hs : step c s (.finish order) = some s') : Inv c s' := by
  simp only [step] at hs
  split at hs
  · rename_i hg
    obtain ⟨hlive, hperm⟩ := hg
    rw [List.isPerm_iff] at hperm
    cases hs
    have hdead : ∀ i, i < s.nextCb → (s.cb i).coll = s.coll → (s.cb i).live = false := by
      intro i hi hc
      unfold noneLive at hlive
      rw [List.all_eq_true] at hlive
      have := hlive i (List.mem_range.2 hi)
      simpa [hc] using this
    have hseen : ∀ n, n < s.coll → ∀ m, m < n → upd s.seen s.coll (fun l => snap c l (s.view l).data order) m = s.seen m := by
      intro n hn m hm
      rw [upd_ne _ _ (by omega)]
    have hseen' : ∀ m, m < s.coll → upd s.seen s.coll (fun l => snap c l (s.view l).data order) m = s.seen m := by
      intro m hm
      rw [upd_ne _ _ (by omega)]
    constructor
    · intro i hi
      obtain ⟨h1, h2⟩ := h.cbColl i hi
      refine ⟨by dsimp only; omega, ?_⟩
      intro h3
      by_cases hc : (s.cb i).coll = s.coll
      · exact hdead i hi hc
      · exact h2 (by omega)
    · exact h.opCb
    · intro i hi hp
      exact absurd ⟨i, hi, hp⟩ hq
    · intro n hn
      exact h.storeFut n (by dsimp only at hn; omega)
    · intro v hv
      have := h.logColl v hv
      dsimp only; omega
    · intro i hi hp
      exact absurd ⟨i, hi, Or.inr hp⟩ hq
    · intro n e he
      rcases h.fresh n e he with h1 | ⟨_, i, h2, h3, _⟩
      · exact Or.inl h1
      · exact absurd ⟨i, h2, Or.inr h3⟩ hq
    · exact fun n => (h.storeOk n).congr rfl rfl
    · intro l
      have hb : baseAt c { s with
          view := fun l => (collect c l (s.view l) (snap c l (s.view l).data order)).2
          out := upd s.out s.coll (fun l => (collect c l (s.view l) (snap c l (s.view l).data order)).1)
          seen := upd s.seen s.coll (fun l => snap c l (s.view l).data order)
          coll := s.coll + 1 } (s.coll + 1) l = (collect c l (s.view l) (snap c l (s.view l).data order)).2.data := by
        unfold baseAt prevTable collect
        simp only [upd_same]
        split <;> rfl
      have hst : s.store (s.coll + 1) = [] := h.storeFut _ (Nat.lt_succ_self _)
      refine ⟨?_, ?_, ?_, ?_, ?_, ?_, ?_⟩
      · unfold collect carry
        dsimp only
        split
        · split <;> simp
        · simp
      · intro e he; dsimp only at he; rw [hst] at he; cases he
      · intro e he; dsimp only at he; rw [hst] at he; cases he
      · intro k hk; rw [hb] at hk; exact hk
      · intro h1
        unfold collect carry LenOk
        dsimp only
        split
        · split
          · simp; omega
          · simp [Storage.has]; omega
        · simp; omega
      · intro _ e he; dsimp only at he; rw [hst] at he; cases he
      · intro k hk; left; rw [hb]; exact hk
    · intro l k v hv
      unfold startVal baseAt prevTable
      unfold collect at hv
      dsimp only at *
      simp only [upd_same]
      split at hv
      · rename_i hd
        rw [if_pos hd]
        dsimp only at hv
        rw [hv]; rfl
      · rename_i hd
        cases hv
    · intro l hd
      unfold prevTable collect
      simp only [upd_same, hd, if_true]
    · intro n l hn
      by_cases hn' : n = s.coll
      · subst hn'
        obtain ⟨a, b, d, e, xl, yl, f⟩ := h.table l
        have hlen : (snap c l (s.view l).data order).length = (s.view l).data.length := by
          have := congrArg List.length (snap_keys c l order (s.view l).data)
          simpa using this
        simp only [upd_same]
        refine ⟨?_, ?_, ?_, ?_, ?_, ?_, ?_⟩
        · rw [snap_keys]; exact a
        · intro x hx k hk; rw [has_snap]; exact b x hx k hk
        · intro x hx k hk; rw [hlen]; exact d x hx k hk
        · intro k hk
          rw [has_snap]
          apply e k
          rw [baseAt_congr (s := s) (fun m hm => hseen' m hm)] at hk
          exact hk
        · intro h1
          unfold LenOk
          rw [hlen, has_snap]; exact xl h1
        · intro h1 x hx k hk hne
          rw [hlen, has_snap]; exact yl h1 x hx k hk hne
        · intro k hk
          rw [has_snap] at hk
          rw [baseAt_congr (s := s) (fun m hm => hseen' m hm)]
          exact f k hk
      · have hlt : n < s.coll := by dsimp only at hn; omega
        simp only [upd_ne _ _ hn']
        exact (h.past n l hlt).congr rfl (fun m hm => hseen n hlt m hm)
    · intro n l k v hn hf
      by_cases hn' : n = s.coll
      · subst hn'
        simp only [upd_same] at hf
        rw [find_snap] at hf
        rw [startVal_congr (s := s) (fun m hm => hseen' m hm)]
        cases hd : Storage.find (s.view l).data k with
        | none => rw [hd] at hf; cases hf
        | some w =>
          rw [hd] at hf
          simp only [Option.map_some, Option.some.injEq] at hf
          refine ⟨order, hperm, ?_⟩
          rw [← hf, h.value l k w hd]
      · have hlt : n < s.coll := by dsimp only at hn; omega
        simp only [upd_ne _ _ hn'] at hf
        rw [startVal_congr (s := s) (fun m hm => hseen n hlt m hm)]
        exact h.pastVal n l k v hlt hf
    · intro n l hn
      by_cases hn' : n = s.coll
      · subst hn'
        simp only [upd_same]
        unfold collect
        by_cases hd : c.delta l = true
        · simp only [hd, if_true]
          rw [h.prior l hd]
          congr 1
          unfold prevTable
          cases hc : s.coll with
          | zero => rfl
          | succ m => simp only; rw [upd_ne _ _ (by omega)]
        · simp only [hd]
          rfl
      · have hlt : n < s.coll := by dsimp only at hn; omega
        simp only [upd_ne _ _ hn']
        rw [h.out n l hlt]
        congr 2
        unfold prevTable
        cases hc : n with
        | zero => rfl
        | succ m => simp only; rw [upd_ne _ _ (by omega)]
  · cases hs

theorem Inv.step {c : Cfg K N S} {s s' : State K N S} (h : Inv c s) {a : Action K N} (hs : step c s a = some s')
    (hq : ∀ order, a = .finish order → ¬ InFlight s) : Inv c s' := by
  cases a with
  | startCb insts =>
    simp only [Async.step, Option.some.injEq] at hs
    subst hs
    refine h.frame rfl rfl rfl rfl rfl rfl ?_ ?_ ?_ (fun _ => Iff.rfl) (fun _ _ _ => rfl)
    · intro i hi
      simp only [upd_apply]
      split
      · exact ⟨Nat.le_refl _, fun h => absurd h (Nat.lt_irrefl _)⟩
      · rename_i hne; exact h.cbColl i (by dsimp only at hi; omega)
    · intro i hi
      have := h.opCb i hi
      dsimp only; omega
    · intro i hi hp
      have := h.opCb i hi
      show (upd s.cb s.nextCb _ (s.op i).cb).coll = s.coll
      rw [upd_ne _ _ (by omega)]
      exact h.flight i hi hp
  | endCb id =>
    simp only [Async.step] at hs
    split at hs
    · cases hs
      refine h.frame rfl rfl rfl rfl rfl rfl ?_ h.opCb ?_ (fun _ => Iff.rfl) (fun _ _ _ => rfl)
      · intro i hi
        simp only [upd_apply]
        split
        · rename_i e; subst e; exact ⟨(h.cbColl i hi).1, fun _ => rfl⟩
        · exact h.cbColl i hi
      · intro i hi hp
        simp only [upd_apply]
        split
        · rename_i e; rw [← e]; exact h.flight i hi hp
        · exact h.flight i hi hp
    · cases hs
  | observe cb obs set val =>
    simp only [Async.step] at hs
    split at hs
    · rename_i hcb
      cases hs
      refine h.frame rfl rfl rfl rfl rfl rfl h.cbColl ?_ ?_ ?_ ?_
      · intro i hi
        simp only [upd_apply]
        split
        · exact hcb
        · exact h.opCb i (by dsimp only at hi; omega)
      · intro i hi
        simp only [upd_apply]
        split
        · intro hp; simp at hp
        · intro hp; exact h.flight i (by dsimp only at hi; omega) hp
      · intro i
        simp only [upd_apply]
        split
        · rename_i e; subst e; simp
        · constructor
          · rintro ⟨h1, h2⟩; exact ⟨by omega, h2⟩
          · rintro ⟨h1, h2⟩; exact ⟨by omega, h2⟩
      · intro i hi hp
        exact upd_ne _ _ (by omega)
    · cases hs
  | op i =>
    simp only [Async.step] at hs
    split at hs
    · cases hs
    · rename_i hi
      have hi : i < s.nextOp := by omega
      have chg : ∀ pc : Pc, (s.op i).pc = .check → (pc = .create → (s.cb (s.op i).cb).live = true) → pc ≠ .update →
          Inv c { s with op := upd s.op i { s.op i with pc := pc } } := by
        intro pc hck hlive hnu
        refine h.frame rfl rfl rfl rfl rfl rfl h.cbColl ?_ ?_ ?_ ?_
        · intro j hj
          simp only [upd_apply]
          split
          · rename_i e; subst e; exact h.opCb j hj
          · exact h.opCb j hj
        · intro j hj
          simp only [upd_apply]
          split
          · rename_i e; subst e
            intro hp
            have hpc : pc = .create := hp.elim id (fun h => absurd h hnu)
            have hcb := h.cbColl _ (h.opCb j hj)
            have := hlive hpc
            have : ¬ (s.cb (s.op j).cb).coll < s.coll := fun hlt => by rw [hcb.2 hlt] at this; cases this
            show (s.cb (s.op j).cb).coll = s.coll
            omega
          · exact h.flight j hj
        · intro j
          simp only [upd_apply]
          split
          · rename_i e; subst e
            constructor
            · rintro ⟨_, h2⟩; exact absurd h2 hnu
            · rintro ⟨_, h2⟩; rw [hck] at h2; cases h2
          · exact Iff.rfl
        · intro j hj hp
          have hne : j ≠ i := by intro e; subst e; rw [hck] at hp; cases hp
          exact upd_ne _ _ hne
      split at hs
      · rename_i hck
        split at hs
        · rename_i hl
          simp only [Bool.and_eq_true] at hl
          split at hs
          · cases hs; exact chg .rejected hck (fun h => by cases h) (by simp)
          · cases hs; exact chg .create hck (fun _ => hl.1.1) (by simp)
        · cases hs; exact chg .rejected hck (fun h => by cases h) (by simp)
      · rename_i hp
        simp only [Option.some.injEq] at hs
        have := h.create hi hp
        have e : (getOrCreate c s (s.cb (s.op i).cb).coll (s.op i).obs (c.canon (s.op i).obs (s.op i).set)).op = s.op := by
          unfold getOrCreate; split <;> rfl
        rw [e] at hs
        rw [← hs]
        exact this
      · rename_i hp
        cases hs
        exact h.update hi hp
      · cases hs
  | finish order => exact h.finish (hq order rfl) hs

theorem quiet_inv {c : Cfg K N S} {k0 : K} {s : State K N S} (h : Quiet c k0 s) : Inv c s := by
  induction h with
  | init => exact Inv.init c k0
  | step _ hs hq ih => exact ih.step hs hq

end Verif.Async
