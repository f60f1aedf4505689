import Verif.Dern.PrintLemmas
/-
C08  Printed characters read back.

Full statement: reading the readable printed form of any character value gives the same
character.  The code violates it for one value: reading `|00|` gives a character value that holds
no character (`c08_nul_is_read_as_empty`) and does not read back (`c08_empty_does_not_read_back`).
-/
namespace Dern.Props
open Dern

/-- Missing from the full statement: the empty character value.  Whatever follows the printed
character stays unread. -/
theorem c08_character_roundtrip_partial (ct : Ctype) (hct : ct.C) (g : RealLit → Text) (c : Ch)
    (hs : Spec.Utf8.IsScalar c) (h0 : c ≠ 0) (rest : Text) :
    ∃ p, printTree g (.chr [c]) = some p ∧ lex ct (p ++ rest) = (.tok (.character [c]), rest) := by
  have hc : PrintCh c := ⟨hs, h0⟩
  by_cases h1 : c = 124
  · subst h1
    refine ⟨txt "|bar|", by rw [printTree]; rfl, ?_⟩
    exact lex_charLit ct hct (txt "bar") rest (by decide)
  by_cases h2 : c = 10
  · subst h2
    refine ⟨txt "|newline|", by rw [printTree]; rfl, ?_⟩
    exact lex_charLit ct hct (txt "newline") rest (by decide)
  by_cases h3 : c = 9
  · subst h3
    refine ⟨txt "|tab|", by rw [printTree]; rfl, ?_⟩
    exact lex_charLit ct hct (txt "tab") rest (by decide)
  · refine ⟨[124, c, 124], ?_, ?_⟩
    · rw [printTree]
      simp only [isCString1, beq_iff_eq, List.cons.injEq, and_true, if_neg h1, if_neg h2, if_neg h3]
      rw [fmtS_eq _ [c] _ (by simp [txt]; exact printCh_of_lt (by decide) (by decide)) (by simpa using hc)
        (by simp [txt]; exact printCh_of_lt (by decide) (by decide))]
      simp [txt]
    · have := lex_charLit ct hct [c] rest (by simp; exact fun e => h1 e.symm)
      rw [charToken_one c hc] at this
      simpa using this

/-- The character U+0000, written `|00|`, is silently read as an empty character. -/
theorem c08_nul_is_read_as_empty : lex asciiCtype (txt "|00|") = (.tok (.character []), []) := by decide

/-- The empty character so obtained does not read back. -/
theorem c08_empty_does_not_read_back (g : RealLit → Text) :
    printTree g (.chr []) = some (txt "||") ∧
    lex asciiCtype (txt "||") = (.tok (.error "Character cannot be empty: ||"), []) := by
  refine ⟨?_, by decide⟩
  rw [printTree]; decide

example : printTree (fun _ => []) (.chr [0x20AC]) = some (txt "|€|") ∧
    lex asciiCtype (txt "|€| x") = (.tok (.character [0x20AC]), txt " x") := by
  refine ⟨?_, by decide⟩
  rw [printTree]; decide

end Dern.Props
