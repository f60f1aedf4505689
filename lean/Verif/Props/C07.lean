import Verif.Dern.PrintLemmas
/-
C07  Printed strings read back.

Full statement: reading the readable printed form of any string gives the same string.  The code
violates it: brackets and bars are printed as they are, without any escape
(`c07_bracket_does_not_read_back`, `c07_bar_does_not_read_back`).
-/
namespace Dern.Props
open Dern

/-- Missing from the full statement: strings that contain ']' or '|'.  `rest`, what follows the
printed string, is empty or starts with a delimiter. -/
theorem c07_string_roundtrip_partial (ct : Ctype) (hct : ct.C) (g : RealLit → Text) (s : Text)
    (hs : ∀ c ∈ s, Spec.Utf8.IsScalar c ∧ c ≠ 0)
    (h1 : ']'.toNat ∉ s) (h2 : '|'.toNat ∉ s) (rest : Text)
    (hr : rest = [] ∨ ∃ c cs, rest = c :: cs ∧ isDelimiter ct c = true) :
    ∃ p, printTree g (.str s) = some p ∧ lex ct (p ++ rest) = (.tok (.string s), rest) := by
  refine ⟨91 :: s ++ [93], ?_, ?_⟩
  · rw [printTree, fmtS_eq _ s _ (by simp [txt]; exact printCh_of_lt (by decide) (by decide)) hs
      (by simp [txt]; exact printCh_of_lt (by decide) (by decide))]
    simp [txt]
  · have := lex_stringLit ct hct s rest hs h1 h2 hr
    simpa using this

/-- The string `a]b` is printed as `[a]b]`, which is an error to read. -/
theorem c07_bracket_does_not_read_back (g : RealLit → Text) :
    printTree g (.str (txt "a]b")) = some (txt "[a]b]") ∧
    lex asciiCtype (txt "[a]b]") =
      (.tok (.error "After last ']' of string there must be dern delimiter"), txt "b]") := by
  refine ⟨?_, by decide⟩
  rw [printTree]; decide

/-- The string `a|newline|b` (11 characters) is printed so that it reads back as another string,
silently: `a`, a newline, `b`. -/
theorem c07_bar_does_not_read_back (g : RealLit → Text) :
    printTree g (.str (txt "a|newline|b")) = some (txt "[a|newline|b]") ∧
    lex asciiCtype (txt "[a|newline|b]") = (.tok (.string [97, 10, 98]), []) := by
  refine ⟨?_, by decide⟩
  rw [printTree]; decide

example : (∀ c ∈ txt "a[b é", Spec.Utf8.IsScalar c ∧ c ≠ 0) ∧ ']'.toNat ∉ txt "a[b é" ∧
    '|'.toNat ∉ txt "a[b é" := by decide

end Dern.Props
