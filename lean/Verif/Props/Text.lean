import Verif.Props.Attributes

/-!
# C69: truncated text
-/

namespace Verif.Props
open Verif.Attr

/-- The UTF-8 bytes of a text. -/
def utf8 (t : List Char) : Str := t.flatMap String.utf8EncodeChar

/-- Valid UTF-8. -/
def ValidText (s : Str) : Prop := ∃ t, s = utf8 t

theorem encode_length (c : Char) : 1 ≤ (String.utf8EncodeChar c).length ∧ (String.utf8EncodeChar c).length ≤ 4 := by
  rw [String.length_utf8EncodeChar]
  exact ⟨Char.utf8Size_pos c, Char.utf8Size_le_four c⟩

/-- **C69** (part). Truncation keeps a prefix of whole characters, followed by at most three bytes, the beginning of the next
character. -/
theorem C69_prefix_partial (L : Nat) (t : List Char) :
    ∃ (whole : List Char) (piece : Str), whole <+: t ∧ truncStr L (utf8 t) = utf8 whole ++ piece ∧ piece.length ≤ 3 ∧
      (piece ≠ [] → ∃ c, (whole ++ [c]) <+: t ∧ piece <+: String.utf8EncodeChar c ∧ piece ≠ String.utf8EncodeChar c) := by
  have ht : truncStr L (utf8 t) = (utf8 t).take L := by
    unfold truncStr
    split
    · rfl
    · rw [List.take_of_length_le (by omega)]
  rw [ht]
  clear ht
  induction t generalizing L with
  | nil => exact ⟨[], [], List.prefix_refl _, by simp [utf8], by simp, by simp⟩
  | cons c cs ih =>
    have hl := encode_length c
    have e : utf8 (c :: cs) = String.utf8EncodeChar c ++ utf8 cs := by simp [utf8]
    by_cases h : (String.utf8EncodeChar c).length ≤ L
    · obtain ⟨w, p, h1, h2, h3, h4⟩ := ih (L - (String.utf8EncodeChar c).length)
      refine ⟨c :: w, p, ?_, ?_, h3, ?_⟩
      · exact (List.prefix_append_right_inj [c]).2 h1
      · rw [e, List.take_append, List.take_of_length_le h, h2]
        simp [utf8]
      · intro hp
        obtain ⟨d, h5, h6⟩ := h4 hp
        exact ⟨d, (List.prefix_append_right_inj [c]).2 h5, h6⟩
    · refine ⟨[], (String.utf8EncodeChar c).take L, List.nil_prefix, ?_, ?_, ?_⟩
      · rw [e, List.take_append_of_le_length (by omega)]; simp [utf8]
      · rw [List.length_take]; omega
      · intro _
        refine ⟨c, ⟨cs, rfl⟩, List.take_prefix _ _, ?_⟩
        intro hh
        have := congrArg List.length hh
        rw [List.length_take] at this
        omega

/-- **C69** (part). Text that needs no cut stays as it is, and text of one-byte characters stays valid. -/
theorem C69_valid_partial (L : Nat) (t : List Char) (h : (utf8 t).length ≤ L ∨ ∀ c ∈ t, (String.utf8EncodeChar c).length = 1) :
    ValidText (truncStr L (utf8 t)) := by
  rcases h with h | h
  · exact ⟨t, (truncStr_spec L _).2.2 h⟩
  · obtain ⟨w, p, h1, h2, h3, h4⟩ := C69_prefix_partial L t
    by_cases hp : p = []
    · exact ⟨w, by rw [h2, hp, List.append_nil]⟩
    · obtain ⟨c, h5, h6, h7⟩ := h4 hp
      have hc : c ∈ t := h5.subset (by simp)
      have hlen := h6.length_le
      have := h c hc
      cases p with
      | nil => exact absurd rfl hp
      | cons x xs =>
        exfalso
        apply h7
        exact h6.eq_of_length (by rw [this] at hlen ⊢; simp at hlen ⊢; omega)

/-- **C69** (fails). A value that is valid text can be cut inside a character, which leaves bytes that are not valid text. -/
theorem C69_valid_fails : ∃ (L : Nat) (kv : KV), (∃ t, kv.val = .str (utf8 t)) ∧
    ∀ kv' ∈ truncate L [kv], ∀ s, kv'.val = .str s → ¬ ValidText s := by
  refine ⟨1, ⟨[107], .str (utf8 ['é'])⟩, ⟨_, rfl⟩, ?_⟩
  intro kv' h s hs
  have e : truncate 1 [⟨[107], .str (utf8 ['é'])⟩] = [⟨[107], .str [195]⟩] := by decide +kernel
  rw [e, List.mem_singleton] at h
  subst h
  cases hs
  rintro ⟨t, ht⟩
  cases t with
  | nil => simp [utf8] at ht
  | cons c cs =>
    have hl := encode_length c
    have e : utf8 (c :: cs) = String.utf8EncodeChar c ++ utf8 cs := by simp [utf8]
    rw [e] at ht
    have h1 : (String.utf8EncodeChar c).length = 1 := by
      have := congrArg List.length ht
      simp only [List.length_cons, List.length_nil, List.length_append] at this
      omega
    rw [String.length_utf8EncodeChar] at h1
    have h2 : String.utf8EncodeChar c = [195] := by
      cases hx : String.utf8EncodeChar c with
      | nil => rw [hx] at hl; simp at hl
      | cons a as =>
        rw [hx] at ht
        simp only [List.cons_append, List.cons.injEq] at ht
        have h3 := ht.2
        have := List.append_eq_nil_iff.1 h3.symm
        rw [← ht.1, this.1]
    have h4 := h2
    unfold String.utf8EncodeChar at h4
    dsimp only at h4
    split at h4
    · rename_i hv
      simp only [List.cons.injEq, and_true] at h4
      have := congrArg UInt8.toNat h4
      rw [UInt8.toNat_ofNat'] at this
      have h195 : (195 : UInt8).toNat = 195 := rfl
      rw [h195] at this
      omega
    · split at h4
      · simp at h4
      · split at h4 <;> simp at h4

/-- C69: a cut between characters and one inside; the euro sign has three bytes. -/
example : truncStr 4 (utf8 ['a', '€', 'b']) = utf8 ['a', '€'] ∧ truncStr 3 (utf8 ['a', '€', 'b']) = utf8 ['a'] ++ [226, 130] := by
  decide +kernel

end Verif.Props
