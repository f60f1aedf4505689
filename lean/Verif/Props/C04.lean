import Verif.Dern.LexerLemmas
/-
C04  Tokenising always makes progress.

Asking for the next token never moves backwards, every token that is no error token consumes at
least one character; so a text is tokenised into at most as many tokens as it has characters.
An error token may consume nothing (`c04_error_token_may_stay`); the reader stops at an error
token.  All this holds whatever the ctype.h functions answer.
-/
namespace Dern.Props
open Dern

/-- What is left unread after reading a token is the text without some prefix. -/
theorem c04_never_backwards (ct : Ctype) (t : Text) : ∃ consumed, t = consumed ++ (lex ct t).2 := by
  obtain ⟨p, h⟩ := lex_suffix ct t
  exact ⟨p, h.symm⟩

/-- A token that is no error consumes a character at least. -/
theorem c04_progress (ct : Ctype) (t r : Text) (k : Token)
    (h : lex ct t = (.tok k, r)) (hk : ∀ msg, k ≠ .error msg) : r.length < t.length := by
  have := lex_progress ct t (by rw [h]; cases k <;> simp_all [LexOut.isGoodTok])
  rwa [h] at this

/-- `Reads ct t ks r`: reading from `t` token after token, none of them an error, gives the tokens
`ks` and leaves `r` unread. -/
inductive Reads (ct : Ctype) : Text → List Token → Text → Prop
  | done (t) : Reads ct t [] t
  | token {t r' r k ks} : lex ct t = (.tok k, r') → (∀ msg, k ≠ .error msg) → Reads ct r' ks r →
      Reads ct t (k :: ks) r

/-- Every tokenisation has at most as many tokens as characters were consumed. -/
theorem c04_bounded (ct : Ctype) (t r : Text) (ks : List Token) (h : Reads ct t ks r) :
    ks.length + r.length ≤ t.length := by
  induction h with
  | done t => simp
  | token h1 h2 _ ih =>
    have := c04_progress ct _ _ _ h1 h2
    simp; omega

/-- So there is no endless tokenisation: no infinite sequence of unread rests, each obtained by
reading a token that is no error. -/
theorem c04_terminates (ct : Ctype) (rest : Nat → Text) (k : Nat → Token) :
    ¬ ∀ n, lex ct (rest n) = (.tok (k n), rest (n + 1)) ∧ ∀ msg, k n ≠ .error msg := by
  intro h
  have hlen : ∀ n, (rest n).length + n ≤ (rest 0).length := by
    intro n
    induction n with
    | zero => simp
    | succ n ih =>
      have := c04_progress ct _ _ _ (h n).1 (h n).2
      omega
  have := hlen ((rest 0).length + 1)
  omega

/-- Every text is tokenised completely up to its end, the first error token, or a stop of the
program: repeated reading reaches a state in which the next read gives no further token. -/
theorem c04_complete (ct : Ctype) (t : Text) :
    ∃ ks r, Reads ct t ks r ∧ ks.length ≤ t.length ∧
      ∀ k, (lex ct r).1 = .tok k → ∃ msg, k = .error msg := by
  induction hn : t.length using Nat.strongRecOn generalizing t with
  | _ n ih =>
    match h : lex ct t with
    | (.tok k, r') =>
      by_cases hk : ∃ msg, k = .error msg
      · exact ⟨[], t, .done t, by simp, by rw [h]; intro k' hk'; cases hk'; exact hk⟩
      · have hk' : ∀ msg, k ≠ .error msg := fun m hm => hk ⟨m, hm⟩
        have hlt := c04_progress ct t r' k h hk'
        obtain ⟨ks, r, h1, h2, h3⟩ := ih r'.length (by omega) r' rfl
        exact ⟨k :: ks, r, .token h hk' h1, by simp; omega, h3⟩
    | (.null, r') => exact ⟨[], t, .done t, by simp, by rw [h]; simp⟩
    | (.abort, r') => exact ⟨[], t, .done t, by simp, by rw [h]; simp⟩
    | (.ub, r') => exact ⟨[], t, .done t, by simp, by rw [h]; simp⟩

/-- An error token may leave the input where it is. -/
theorem c04_error_token_may_stay :
    lex asciiCtype (txt "]") = (.tok (.error "Symbol cannot be empty"), txt "]") := by decide

-- a non-trivial text is tokenised to its end
example : Reads asciiCtype (txt "(f {D+12}) ; c") [.lparen, .symbol (txt "f"), .integer 12, .rparen]
    (txt " ; c") := by
  refine .token (r' := txt "f {D+12}) ; c") (by decide) (by simp) ?_
  refine .token (r' := txt " {D+12}) ; c") (by decide) (by simp) ?_
  refine .token (r' := txt ") ; c") (by decide) (by simp) ?_
  refine .token (r' := txt " ; c") (by decide) (by simp) (.done _)

end Dern.Props
