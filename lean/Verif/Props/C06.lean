import Verif.Dern.PrintLemmas
/-
C06  Printed integers read back.

Full statement: reading the readable printed form of an integer gives the same integer, for every
32-bit integer.  The code violates it for -2^31 (`c06_int_min_does_not_read_back`).
-/
namespace Dern.Props
open Dern

/-- Missing from the full statement: -2^31.  Whatever follows the printed integer stays unread. -/
theorem c06_integer_roundtrip_partial (ct : Ctype) (hct : ct.C) (g : RealLit → Text) (i : Int)
    (h1 : -2 ^ 31 < i) (h2 : i < 2 ^ 31) (rest : Text) :
    ∃ s, printTree g (.int i) = some s ∧ lex ct (s ++ rest) = (.tok (.integer i), rest) := by
  refine ⟨_, by rw [printTree], ?_⟩
  exact lex_printInt ct hct i (by omega) (by omega) rest

/-- The smallest integer is printed, but reading that text is undefined behaviour. -/
theorem c06_int_min_does_not_read_back (g : RealLit → Text) :
    ∃ s, printTree g (.int (-2 ^ 31)) = some s ∧ lex asciiCtype s = (.ub, []) := by
  refine ⟨txt "{D-2147483648}", ?_, by decide⟩
  simp [printTree, printInt, decDigits, txt]

example : printTree (fun _ => []) (.int (-305)) = some (txt "{D-305}") := by
  simp [printTree, printInt, decDigits, txt]

end Dern.Props
