import Verif.Core.StringCompare
/-
C37: strings are ordered by code points.

octaspire_string_compare compares the UTF-8 octets with strcmp.  For strings of Unicode scalar
values without U+0000 this is the dictionary order of code points, hence a total order in which
only identical strings are equal.  With U+0000 it is not: the C strings end there.
-/
namespace Dern.Props
open Dern Dern.Spec

/-- the order of strings is the dictionary order of their code points -/
theorem c37_code_point_order_partial (s t : Text) (hs : ∀ c ∈ s, PrintCh c) (ht : ∀ c ∈ t, PrintCh c) :
    stringCompare s t = some (sign (lexCmp s t)) := stringCompare_eq s t hs ht

/-- only equal strings compare as equal; this is also what octaspire_string_is_equal says -/
theorem c37_equal_partial (s t : Text) (hs : ∀ c ∈ s, PrintCh c) (ht : ∀ c ∈ t, PrintCh c) :
    (stringCompare s t = some 0 ↔ s = t) ∧ (stringIsEqual s t = true ↔ s = t) := by
  refine ⟨?_, stringIsEqual_iff s t⟩
  rw [stringCompare_eq s t hs ht]
  constructor
  · intro h
    apply lexCmp_eq
    cases hc : lexCmp s t <;> rw [hc] at h <;> simp [sign] at h ⊢
  · rintro rfl; rw [lexCmp_refl]; rfl

/-- antisymmetry and transitivity -/
theorem c37_order_partial :
    (∀ s t : Text, (∀ c ∈ s, PrintCh c) → (∀ c ∈ t, PrintCh c) →
      ∃ d, stringCompare s t = some d ∧ stringCompare t s = some (-d)) ∧
    (∀ s t u : Text, (∀ c ∈ s, PrintCh c) → (∀ c ∈ t, PrintCh c) → (∀ c ∈ u, PrintCh c) →
      stringCompare s t = some (-1) → stringCompare t u = some (-1) →
      stringCompare s u = some (-1)) := by
  constructor
  · intro s t hs ht
    refine ⟨_, stringCompare_eq s t hs ht, ?_⟩
    rw [stringCompare_eq t s ht hs, lexCmp_swap s t]
    cases lexCmp s t <;> rfl
  · intro s t u hs ht hu h1 h2
    rw [stringCompare_eq s t hs ht] at h1
    rw [stringCompare_eq t u ht hu] at h2
    rw [stringCompare_eq s u hs hu]
    have lt : ∀ {o : Ordering}, some (sign o) = some (-1) → o = .lt := by
      intro o h; cases o <;> simp [sign] at h; rfl
    rw [lexCmp_trans s t u (lt h1) (lt h2)]; rfl

/-- For every string: octaspire_string_is_equal is identity of the code points. -/
theorem c37_is_equal (s t : Text) : stringIsEqual s t = true ↔ s = t := stringIsEqual_iff s t

/-- U+0000 ends the comparison: "a", "a\0b" and "a\0c" compare as equal although they differ. -/
theorem c37_nul_hides_the_rest :
    stringCompare (txt "a") [97, 0, 98] = some 0 ∧ stringCompare [97, 0, 98] [97, 0, 99] = some 0 ∧
    stringIsEqual [97, 0, 98] [97, 0, 99] = false := by decide

/-- in every octet length: € (3 octets) before 😀 (4), ß (2) before €, z (1) before ß -/
example : stringCompare (txt "z") (txt "ß") = some (-1) ∧ stringCompare (txt "ß") (txt "€") = some (-1) ∧
    stringCompare (txt "€") (txt "😀") = some (-1) ∧ stringCompare (txt "ab") (txt "a") = some 1 ∧
    (∀ c ∈ txt "zß€😀", PrintCh c) := by decide

end Dern.Props
