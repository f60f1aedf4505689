import Verif.Dern.PrintLemmas
/-
C09  Whitespace and comments are insignificant in front of a token.
-/
namespace Dern.Props
open Dern

/-- Specification: a gap is any sequence of whitespace characters, comments from ';' to the end of
the line, and comments from '#!' to the next '!#'. -/
inductive Gap (ct : Ctype) : Text → Prop
  | empty : Gap ct []
  | space {c g} : ct.isspace c = true → Gap ct g → Gap ct (c :: g)
  | line {body g} : '\n'.toNat ∉ body → Gap ct g → Gap ct (';'.toNat :: body ++ '\n'.toNat :: g)
  | block {body g} : ¬ ['!'.toNat, '#'.toNat] <:+: body → Gap ct g →
      Gap ct ('#'.toNat :: '!'.toNat :: body ++ '!'.toNat :: '#'.toNat :: g)

theorem c09_aux_noClose (body : Text) (h : ¬ ['!'.toNat, '#'.toNat] <:+: body) : NoClose body := by
  induction body with
  | nil => trivial
  | cons c cs ih =>
    refine ⟨?_, ih (fun h' => h (h'.trans (List.suffix_cons _ _).isInfix))⟩
    rintro ⟨rfl, h2⟩
    cases cs with
    | nil => simp at h2
    | cons d ds =>
      simp at h2; subst h2
      exact h ⟨[], ds, by simp⟩

/-- Putting a gap in front of a text changes neither the token read nor what is left unread. -/
theorem c09_gap_insignificant (ct : Ctype) (hct : ct.C) (g t : Text) (hg : Gap ct g) :
    lex ct (g ++ t) = lex ct t := by
  have key : skipTrivia ct (g ++ t) = skipTrivia ct t := by
    induction hg with
    | empty => rfl
    | space h _ ih => rw [List.cons_append, skipTrivia_space ct _ _ h, ih]
    | @line body g h _ ih =>
      have := skipTrivia_lineComment ct hct body (g ++ t) h
      rw [← ih, ← this]; simp
    | @block body g h _ ih =>
      have := skipTrivia_multiline ct hct body (g ++ t) (c09_aux_noClose body h)
      rw [← ih, ← this]; simp
  unfold lex; rw [key]

/-- A text that is only a gap has no token: the end of the input is reported. -/
theorem c09_only_gap_is_end (ct : Ctype) (hct : ct.C) (g : Text) (hg : Gap ct g) :
    lex ct g = (.null, []) := by
  have := c09_gap_insignificant ct hct g [] hg
  rw [List.append_nil] at this; rw [this]; rfl

/-- A comment that is not closed asks for more input. -/
theorem c09_unclosed_comment : lex asciiCtype (txt " #! a ! b") =
    (.tok (.moreInput "Multiline comment that is not closed with !#"), []) := by rfl

example : Gap asciiCtype (32 :: (';'.toNat :: txt "a" ++ '\n'.toNat ::
    ('#'.toNat :: '!'.toNat :: txt " ; ! !" ++ '!'.toNat :: '#'.toNat :: [9]))) :=
  .space rfl (.line (by decide) (.block (by decide) (.space rfl .empty)))
example : lex asciiCtype (txt " ;a\n#! ; ! !!#\t(b") = (.tok .lparen, txt "b") := by decide

end Dern.Props
