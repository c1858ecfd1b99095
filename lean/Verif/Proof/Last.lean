import Verif.Spec.Last

namespace Verif

theorem lastSet_snoc {α β : Type} (f : α → Option β) (l : List α) (a : α) :
    lastSet f (l ++ [a]) = (f a).or (lastSet f l) := by
  simp only [lastSet, List.filterMap_append]
  cases h : f a with
  | none => simp [h]
  | some b => simp [h]

theorem list_snoc_ind {α : Type} {P : List α → Prop} (h0 : P []) (h1 : ∀ l a, P l → P (l ++ [a])) (l : List α) : P l := by
  have : ∀ n (l : List α), l.length = n → P l := by
    intro n
    induction n with
    | zero => intro l hl; rw [List.length_eq_zero_iff] at hl; subst hl; exact h0
    | succ n ih =>
      intro l hl
      have hne : l ≠ [] := by intro e; subst e; cases hl
      rw [← List.dropLast_concat_getLast hne]
      exact h1 _ _ (ih _ (by simp [hl]))
  exact this _ l rfl

/-- A field that each option either sets or leaves alone has the value set last. -/
theorem foldl_lastSet {σ α β : Type} (get : σ → β) (set : α → Option β) (app : σ → α → σ)
    (h : ∀ s a, get (app s a) = (set a).getD (get s)) (s : σ) (l : List α) :
    get (l.foldl app s) = (lastSet set l).getD (get s) := by
  induction l using list_snoc_ind with
  | h0 => rfl
  | h1 l a ih =>
    rw [List.foldl_append, List.foldl_cons, List.foldl_nil, h, ih, lastSet_snoc]
    cases set a <;> rfl

end Verif
