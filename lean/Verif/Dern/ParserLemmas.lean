import Verif.Dern.Parser
import Verif.Dern.LexerLemmas
/- The fuel of the parser model is always enough. -/
namespace Dern

theorem parse_mono (ct : Ctype) : ∀ n : Nat,
    (∀ k t, (parseTok ct n k t).1 ≠ .oof → parseTok ct (n + 1) k t = parseTok ct n k t) ∧
    (∀ acc t, (parseList ct n acc t).1 ≠ .oof → parseList ct (n + 1) acc t = parseList ct n acc t) ∧
    (∀ t, (parseNext ct n t).1 ≠ .oof → parseNext ct (n + 1) t = parseNext ct n t) := by
  intro n
  induction n with
  | zero => refine ⟨?_, ?_, ?_⟩ <;> intros <;> simp_all [parseTok, parseList, parseNext]
  | succ n ih =>
    obtain ⟨ih1, ih2, ih3⟩ := ih
    refine ⟨?_, ?_, ?_⟩
    · intro k t h
      rw [parseTok.eq_def] at h; rw [parseTok.eq_def, parseTok.eq_def ct (n + 1)]
      cases k <;> simp only at h ⊢
      case lparen => exact ih2 _ _ h
      all_goals
        have h3 := ih3 t
        rcases hp : parseNext ct n t with ⟨o, r⟩
        rw [hp] at h h3
        cases o <;> simp_all
    · intro acc t h
      rw [parseList.eq_def] at h; rw [parseList.eq_def, parseList.eq_def ct (n + 1)]
      simp only at h ⊢
      rcases hl : lex ct t with ⟨o, r⟩
      rw [hl] at h
      cases o with
      | tok k =>
        have h1 := ih1 k r
        rcases hp : parseTok ct n k r with ⟨o, r'⟩
        rw [hp] at h1
        cases k <;> simp only [hp] at h ⊢ <;> cases o <;> simp_all
      | null => rfl
      | abort => rfl
      | ub => rfl
    · intro t h
      rw [parseNext.eq_def] at h; rw [parseNext.eq_def, parseNext.eq_def ct (n + 1)]
      simp only at h ⊢
      rcases hl : lex ct t with ⟨o, r⟩
      rw [hl] at h
      cases o with
      | tok k => exact ih1 k r h
      | null => rfl
      | abort => rfl
      | ub => rfl

theorem parseNext_fuel (ct : Ctype) (t : Text) (n m : Nat) (h : (parseNext ct n t).1 ≠ .oof)
    (hm : n ≤ m) : parseNext ct m t = parseNext ct n t := by
  induction hm with
  | refl => rfl
  | @step m hm ih => rw [(parse_mono ct m).2.2 t (by rw [ih]; exact h), ih]

theorem parseTok_fuel (ct : Ctype) (k : Token) (t : Text) (n m : Nat) (h : (parseTok ct n k t).1 ≠ .oof)
    (hm : n ≤ m) : parseTok ct m k t = parseTok ct n k t := by
  induction hm with
  | refl => rfl
  | @step m hm ih => rw [(parse_mono ct m).1 k t (by rw [ih]; exact h), ih]

theorem parseList_fuel (ct : Ctype) (acc : List Tree) (t : Text) (n m : Nat)
    (h : (parseList ct n acc t).1 ≠ .oof)
    (hm : n ≤ m) : parseList ct m acc t = parseList ct n acc t := by
  induction hm with
  | refl => rfl
  | @step m hm ih => rw [(parse_mono ct m).2.1 acc t (by rw [ih]; exact h), ih]

theorem textValue_ne_oof (f : Text → Tree) (s : Text) : textValue f s ≠ .oof := by
  unfold textValue; split <;> simp

/-- the rest after parsing is no longer than the text -/
theorem parse_len (ct : Ctype) : ∀ n : Nat,
    (∀ k t, (parseTok ct n k t).2.length ≤ t.length) ∧
    (∀ acc t, (parseList ct n acc t).2.length ≤ t.length) ∧
    (∀ t, (parseNext ct n t).2.length ≤ t.length) := by
  intro n
  induction n with
  | zero => refine ⟨?_, ?_, ?_⟩ <;> intros <;> simp [parseTok, parseList, parseNext]
  | succ n ih =>
    obtain ⟨ih1, ih2, ih3⟩ := ih
    refine ⟨?_, ?_, ?_⟩
    · intro k t
      rw [parseTok.eq_def]
      cases k <;> simp only
      case lparen => exact ih2 _ _
      case quote => have h3 := ih3 t; split <;> simp_all
      case backQuote => have h3 := ih3 t; split <;> simp_all
      all_goals exact Nat.le_refl _
    · intro acc t
      rw [parseList.eq_def]
      simp only
      have hs := (lex_suffix ct t).length_le
      rcases hl : lex ct t with ⟨o, r⟩
      rw [hl] at hs; simp only at hs
      cases o with
      | tok k =>
        have h1 := ih1 k r
        rcases hp : parseTok ct n k r with ⟨o, r'⟩
        rw [hp] at h1; simp only at h1
        have h2 := fun v => ih2 (acc ++ [v]) r'
        cases k <;> simp only [hp] <;> (try exact hs) <;> cases o <;> simp only <;> (try omega) <;>
          (rename_i v; have := h2 v; omega)
      | null => exact hs
      | abort => exact hs
      | ub => exact hs
    · intro t
      rw [parseNext.eq_def]
      simp only
      have hs := (lex_suffix ct t).length_le
      rcases hl : lex ct t with ⟨o, r⟩
      rw [hl] at hs; simp only at hs
      cases o with
      | tok k => have := ih1 k r; simp only; omega
      | null => exact hs
      | abort => exact hs
      | ub => exact hs

theorem parse_enough (ct : Ctype) : ∀ n : Nat,
    (∀ k t, 2 * t.length + 3 ≤ n → (parseTok ct n k t).1 ≠ .oof) ∧
    (∀ acc t, 2 * t.length + 2 ≤ n → (parseList ct n acc t).1 ≠ .oof) ∧
    (∀ t, 2 * t.length + 2 ≤ n → (parseNext ct n t).1 ≠ .oof) := by
  intro n
  induction n with
  | zero => refine ⟨?_, ?_, ?_⟩ <;> intros <;> omega
  | succ n ih =>
    obtain ⟨ih1, ih2, ih3⟩ := ih
    refine ⟨?_, ?_, ?_⟩
    · intro k t hn
      rw [parseTok.eq_def]
      have h3 := ih3 t (by omega)
      cases k <;> simp only
      case lparen => exact ih2 _ _ (by omega)
      case quote => split <;> simp_all
      case backQuote => split <;> simp_all
      all_goals simp [parseAtom, textValue_ne_oof]
    · intro acc t hn
      rw [parseList.eq_def]
      simp only
      rcases hl : lex ct t with ⟨o, r⟩
      cases o with
      | tok k =>
        by_cases hk : ∃ msg, k = .error msg
        · obtain ⟨msg, rfl⟩ := hk; simp
        · have hs : r.length < t.length := by
            have := lex_progress ct t (by rw [hl]; cases k <;> simp_all [LexOut.isGoodTok])
            rwa [hl] at this
          have h1 := ih1 k r (by omega)
          have hlen := (parse_len ct n).1 k r
          rcases hp : parseTok ct n k r with ⟨o, r'⟩
          rw [hp] at h1 hlen; simp only at h1 hlen
          have h2 := fun v => ih2 (acc ++ [v]) r' (by omega)
          cases k <;> simp only [hp] <;> (try simp) <;> cases o <;> simp_all
      | null => simp
      | abort => simp
      | ub => simp
    · intro t hn
      rw [parseNext.eq_def]
      simp only
      rcases hl : lex ct t with ⟨o, r⟩
      cases o with
      | tok k =>
        by_cases hk : ∃ msg, k = .error msg
        · obtain ⟨msg, rfl⟩ := hk
          cases n with
          | zero => omega
          | succ n => simp [parseTok, parseAtom]
        · have hs : r.length < t.length := by
            have := lex_progress ct t (by rw [hl]; cases k <;> simp_all [LexOut.isGoodTok])
            rwa [hl] at this
          exact ih1 k r (by omega)
      | null => simp
      | abort => simp
      | ub => simp

/-- `parse` never runs out of fuel -/
theorem parse_no_oof (ct : Ctype) (t : Text) : (parse ct t).1 ≠ .oof :=
  (parse_enough ct _).2.2 t (by omega)

/-- any fuel that is enough gives the same result -/
theorem parseNext_eq_parse (ct : Ctype) (t : Text) (n : Nat) (h : (parseNext ct n t).1 ≠ .oof) :
    parseNext ct n t = parse ct t := by
  unfold parse
  rcases Nat.le_total n (2 * t.length + 3) with h' | h'
  · exact (parseNext_fuel ct t _ _ h h').symm
  · exact parseNext_fuel ct t _ _ (parse_no_oof ct t) h'

end Dern
