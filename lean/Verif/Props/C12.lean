import Verif.Dern.ReadBack
/-
C12  Quote sugar: parsing 'x gives (quote x), parsing `x gives x with the symbol template in front
(or (template x) for an x that is no vector); anything that goes wrong with x is passed on.
-/
namespace Dern.Props
open Dern

theorem c12_aux_quote (ct : Ctype) (hct : ct.C) (t : Text) :
    lex ct ('\''.toNat :: t) = (.tok .quote, t) := by
  show lex ct (39 :: t) = _
  rw [lex_start ct 39 _ (by rw [hct.space 39 (by decide)]; decide) (by decide) (by decide)]
  simp [popTokenAt]

theorem c12_aux_backquote (ct : Ctype) (hct : ct.C) (t : Text) :
    lex ct ('`'.toNat :: t) = (.tok .backQuote, t) := by
  show lex ct (96 :: t) = _
  rw [lex_start ct 96 _ (by rw [hct.space 96 (by decide)]; decide) (by decide) (by decide)]
  simp [popTokenAt]

/-- 'x is (quote x), and what is left unread is what is left unread after x. -/
theorem c12_quote (ct : Ctype) (hct : ct.C) (t r : Text) (v : Tree) (h : parse ct t = (.val v, r)) :
    parse ct ('\''.toNat :: t) = (.val (.vec [.sym (txt "quote"), v]), r) := by
  rw [parse_eq, c12_aux_quote ct hct]; simp only
  rw [parseK_eq]; simp only [h]

/-- `x for a vector x: the symbol template is put in front of its elements. -/
theorem c12_backquote_vector (ct : Ctype) (hct : ct.C) (t r : Text) (es : List Tree)
    (h : parse ct t = (.val (.vec es), r)) :
    parse ct ('`'.toNat :: t) = (.val (.vec (.sym (txt "template") :: es)), r) := by
  rw [parse_eq, c12_aux_backquote ct hct]; simp only
  rw [parseK_eq]; simp only [h]; rfl

/-- `x for any other value: (template x). -/
theorem c12_backquote_other (ct : Ctype) (hct : ct.C) (t r : Text) (v : Tree)
    (h : parse ct t = (.val v, r)) (hv : ∀ es, v ≠ .vec es) :
    parse ct ('`'.toNat :: t) = (.val (.vec [.sym (txt "template"), v]), r) := by
  rw [parse_eq, c12_aux_backquote ct hct]; simp only
  rw [parseK_eq]; simp only [h]
  cases v <;> first | rfl | exact absurd rfl (hv _)

/-- If x is no value (an error, the end of the input, ...), 'x and `x are the same as x. -/
theorem c12_failure_passed_on (ct : Ctype) (hct : ct.C) (t : Text)
    (h : ∀ v, (parse ct t).1 ≠ .val v) :
    parse ct ('\''.toNat :: t) = parse ct t ∧ parse ct ('`'.toNat :: t) = parse ct t := by
  constructor
  · rw [parse_eq ct ('\''.toNat :: t), c12_aux_quote ct hct]; simp only
    rw [parseK_eq]
    rcases hp : parse ct t with ⟨o, r⟩
    rw [hp] at h
    cases o <;> simp_all
  · rw [parse_eq ct ('`'.toNat :: t), c12_aux_backquote ct hct]; simp only
    rw [parseK_eq]
    rcases hp : parse ct t with ⟨o, r⟩
    rw [hp] at h
    cases o <;> simp_all

/-- The sugar nests: ''x is (quote (quote x)). -/
theorem c12_nested (ct : Ctype) (hct : ct.C) (t r : Text) (v : Tree) (h : parse ct t = (.val v, r)) :
    parse ct ('\''.toNat :: '\''.toNat :: t) =
      (.val (.vec [.sym (txt "quote"), .vec [.sym (txt "quote"), v]]), r) :=
  c12_quote ct hct _ r _ (c12_quote ct hct t r v h)

-- the hypotheses are met: '(a) is parsed
example : ∃ t r es, parse asciiCtype t = (.val (.vec es), r) ∧ es ≠ [] := by
  have h : Readable asciiCtype (fun _ => []) (.vec [.nil]) := .vec _ (by simp; exact .nil)
  obtain ⟨s, _, _, h3⟩ := readsBack asciiCtype ⟨fun _ _ => rfl, fun _ _ => rfl, fun _ _ => rfl⟩ _ _ h
  exact ⟨s ++ [], [], _, h3 [] (.inl rfl), by simp⟩

end Dern.Props
