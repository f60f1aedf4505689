import Verif.Dern.PrintLemmas
/-
C05  Integer literals denote their value.

Full statement: `{B+ds}` and `{B-ds}` (B one of X, D, O, B; ds digits of that base, whitespace
allowed in between) are read as the signed positional value of ds, for every value representable
as a 32-bit integer.  The code violates it for -2^31 (`c05_int_min_literal_undefined`) and for
literals of more than 256 digits, e.g. with leading zeros (`c05_too_many_digits_abort`).
-/
namespace Dern.Props
open Dern Dern.Spec.Numeral

/-- Missing from the full statement: the value -2^31, and literals with more than 256 digits.
`body` is what is between the sign and the closing brace, `rest` is the text after the literal. -/
theorem c05_integer_literal_partial (ct : Ctype) (hct : ct.C) (base : Nat) (letter sign : Char)
    (body rest : Text)
    (hl : BaseLetter base letter) (hs : sign = '+' ∨ sign = '-')
    (hb : ∀ c ∈ body, ct.isspace c = true ∨ IsDigit base c)
    (hlen : (body.filter (fun c => !ct.isspace c)).length ≤ 256)
    (hv : value base (body.filter (fun c => !ct.isspace c)) ≤ 2147483647) :
    lex ct ('{'.toNat :: letter.toNat :: sign.toNat :: body ++ '}'.toNat :: rest) =
      (.tok (.integer (if sign = '-' then - (value base (body.filter (fun c => !ct.isspace c)) : Int)
        else value base (body.filter (fun c => !ct.isspace c)))), rest) :=
  lex_number ct hct base letter sign body rest hl hs hb hlen hv

/-- helper for the next theorem -/
theorem c05_aux_abort (ct : Ctype) (hc : ct.C) (base : Nat) (neg : Bool) :
    ∀ (body : Text) (inside : Bool) (s : NumState) (rest : Text),
      (∀ c ∈ body, ct.isspace c = true ∨ IsDigit base c) →
      256 < s.digits.length + (body.filter (fun c => !ct.isspace c)).length →
      s.digits.length ≤ 256 →
      (numLoop ct base neg inside s (body ++ rest)).1 = .abort := by
  intro body
  induction body with
  | nil => intro inside s rest _ h1 h2; simp at h1; omega
  | cons c cs ih =>
    intro inside s rest hb h1 h2
    have hcs : ∀ x ∈ cs, ct.isspace x = true ∨ IsDigit base x := fun x hx => hb x (by simp [hx])
    by_cases hsp : ct.isspace c = true
    · have := ih true s rest hcs (by simpa [hsp] using h1) h2
      simpa [numLoop, hsp] using this
    · have hdig : IsDigit base c := (hb c (by simp)).resolve_left hsp
      have hsp' : ct.isspace c = false := by simpa using hsp
      have hx := isDigit_xdigit hdig
      have hx' : ct.isxdigit c = true := by rw [hc.xdigit c (isDigit_lt hdig)]; exact hx
      have hr := isDigit_range hdig
      have hne : c ≠ 46 := by unfold xdigitC at hx; simp at hx; comega
      by_cases h256 : s.digits.length = 256
      · have : numDigit base s c = .error .abort := by
          unfold numDigit; rw [if_pos (by omega)]
        simp [numLoop, hsp', hx', hne, this]
      · have hnd : numDigit base s c = .ok ⟨s.charsRead + 1, s.dotRead,
            if s.dotRead then s.frac + 1 else s.frac, c, c :: s.digits⟩ := by
          unfold numDigit
          rw [if_neg (by omega), if_neg (by intro h; exact h.2 (hr.1 h.1)),
            if_neg (by intro h; exact h.2 (hr.2.1 h.1)), if_neg (by intro h; exact h.2 (hr.2.2 h.1)),
            if_neg (by simp [hx])]
        have := ih false ⟨s.charsRead + 1, s.dotRead,
            if s.dotRead then s.frac + 1 else s.frac, c, c :: s.digits⟩ rest hcs
            (by simp [hsp'] at h1 ⊢; omega) (by simp; omega)
        simp only [List.cons_append, numLoop, hsp', hx', hnd, if_neg hne]
        simpa using this

/-- Any literal of more than 256 digits stops the program, whatever its value. -/
theorem c05_too_many_digits_abort (ct : Ctype) (hct : ct.C) (base : Nat) (letter sign : Char)
    (body rest : Text)
    (hl : BaseLetter base letter) (hs : sign = '+' ∨ sign = '-')
    (hb : ∀ c ∈ body, ct.isspace c = true ∨ IsDigit base c)
    (hlen : 256 < (body.filter (fun c => !ct.isspace c)).length) :
    (lex ct ('{'.toNat :: letter.toNat :: sign.toNat :: body ++ rest)).1 = .abort := by
  have h123 : ct.isspace 123 = false := by rw [hct.space 123 (by decide)]; decide
  have := c05_aux_abort ct hct base (sign == '-') body false
    { charsRead := 0, dotRead := false, frac := 0, prevChar := 0, digits := [] } rest hb
    (by simpa using hlen) (by simp)
  show (lex ct (123 :: letter.toNat :: sign.toNat :: body ++ rest)).1 = .abort
  rw [List.cons_append, lex_start ct _ _ h123 (by decide) (by decide)]
  have e : ∀ t, popTokenAt ct (123 :: t) = popNumber ct (123 :: t) := by intro t; simp [popTokenAt]
  rw [e, List.cons_append, List.cons_append, popNumber_eq ct base letter sign hl hs]
  exact this

/-- The literal of the smallest integer is undefined behaviour: 2147483648.0 is converted to
`int32_t`. -/
theorem c05_int_min_literal_undefined :
    lex asciiCtype (txt "{D-2147483648}") = (.ub, []) := by decide

/-- Values that are not representable are not refused: 2^32 + 1 is read as 1. -/
theorem c05_out_of_range_wraps :
    lex asciiCtype (txt "{D+4294967297}") = (.tok (.integer 1), []) := by decide

/-- The closing brace may be missing at the end of the input. -/
theorem c05_unclosed_accepted : lex asciiCtype (txt "{D+12") = (.tok (.integer 12), []) := by decide

-- the hypotheses are met by literals of every base
example : lex asciiCtype (txt "{X-7F ff} b") = (.tok (.integer (-0x7FFF)), txt " b") := by decide
example : (∀ c ∈ txt "7F ff", asciiCtype.isspace c = true ∨ IsDigit 16 c) ∧
    value 16 ((txt "7F ff").filter (fun c => !asciiCtype.isspace c)) = 0x7FFF := by
  refine ⟨?_, by decide⟩
  intro c hc
  simp [txt] at hc
  rcases hc with rfl | rfl | rfl | rfl
  · exact .inr ⟨7, by decide⟩
  · exact .inr ⟨15, by decide⟩
  · exact .inl (by decide)
  · exact .inr ⟨15, by decide⟩
example : asciiCtype.C := ⟨fun _ _ => rfl, fun _ _ => rfl, fun _ _ => rfl⟩

end Dern.Props
