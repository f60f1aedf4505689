import Verif.Dern.ReadBack
import Verif.Props.C04
/-
C11  Truncated lists are rejected.

`c11_value_is_balanced`: whenever the parser returns a value, the tokens it consumed are balanced
in parentheses.  `c11_truncated_is_error`: when the text starts with a left parenthesis and ends
(without lexical error) before the balancing right one, the parser returns an error value.
-/
namespace Dern.Props
open Dern

/-- Specification: nesting depth after a sequence of tokens -/
def depth : List Token → Int
  | [] => 0
  | .lparen :: ks => 1 + depth ks
  | .rparen :: ks => -1 + depth ks
  | _ :: ks => depth ks

/-- every right parenthesis closes a left one, and all are closed -/
def Balanced (ks : List Token) : Prop := depth ks = 0 ∧ ∀ p, p <+: ks → 0 ≤ depth p

theorem c11_aux_depth_append (a b : List Token) : depth (a ++ b) = depth a + depth b := by
  induction a with
  | nil => simp [depth]
  | cons k ks ih => cases k <;> simp [depth, ih] <;> omega

theorem c11_aux_prefix_append {a b p : List Token} (h : p <+: a ++ b) :
    p <+: a ∨ ∃ q, p = a ++ q ∧ q <+: b := by
  obtain ⟨s, hs⟩ := h
  rcases List.append_eq_append_iff.1 hs with ⟨c, h1, h2⟩ | ⟨c, h1, h2⟩
  · exact .inl ⟨c, h1.symm⟩
  · exact .inr ⟨c, h1, ⟨s, h2.symm⟩⟩

theorem c11_aux_balanced_append {a b : List Token} (ha : Balanced a) (hb : Balanced b) :
    Balanced (a ++ b) := by
  refine ⟨by rw [c11_aux_depth_append, ha.1, hb.1]; rfl, ?_⟩
  intro p hp
  rcases c11_aux_prefix_append hp with h | ⟨q, rfl, h⟩
  · exact ha.2 p h
  · rw [c11_aux_depth_append, ha.1]; have := hb.2 q h; omega

theorem c11_aux_balanced_nil : Balanced [] := ⟨rfl, by intro p hp; simp at hp; subst hp; simp [depth]⟩

theorem c11_aux_balanced_cons {k : Token} {ks : List Token} (hk : depth [k] = 0) (h : Balanced ks) :
    Balanced (k :: ks) := by
  refine c11_aux_balanced_append (a := [k]) ⟨hk, ?_⟩ h
  intro p hp
  rcases List.prefix_cons_iff.1 hp with rfl | ⟨q, rfl, hq⟩
  · simp [depth]
  · simp at hq; subst hq; omega

theorem c11_aux_balanced_wrap {ks : List Token} (h : Balanced ks) :
    Balanced (.lparen :: (ks ++ [.rparen])) := by
  refine ⟨by simp [depth, c11_aux_depth_append, h.1], ?_⟩
  intro p hp
  rcases List.prefix_cons_iff.1 hp with rfl | ⟨q, rfl, hq⟩
  · simp [depth]
  · rcases c11_aux_prefix_append hq with h' | ⟨q', rfl, h'⟩
    · have := h.2 q h'; simp [depth]; omega
    · rcases List.prefix_cons_iff.1 h' with rfl | ⟨q'', rfl, hq''⟩
      · simp [depth, h.1]
      · simp at hq''; subst hq''; simp [depth, c11_aux_depth_append, h.1]

theorem c11_aux_reads_append {ct : Ctype} {t r r' : Text} {a b : List Token} (h1 : Reads ct t a r)
    (h2 : Reads ct r b r') : Reads ct t (a ++ b) r' := by
  induction h1 with
  | done t => exact h2
  | token hl hk _ ih => exact .token hl hk (ih h2)

/-- the three parts of the parser, by induction on the length of the text -/
theorem c11_aux_main (ct : Ctype) : ∀ (n : Nat) (t : Text), t.length = n →
    (∀ v r, parse ct t = (.val v, r) → ∃ ks, Reads ct t ks r ∧ Balanced ks ∧ ks ≠ []) ∧
    (∀ acc v r, parseL ct acc t = (.val v, r) →
      ∃ ks, Reads ct t (ks ++ [.rparen]) r ∧ Balanced ks) ∧
    (∀ k v r, parseK ct k t = (.val v, r) → ∃ ks, Reads ct t ks r ∧ Balanced (k :: ks) ∧
      ∀ msg, k ≠ .error msg) := by
  intro n
  induction n using Nat.strongRecOn with
  | _ n ih =>
    intro t hn
    have hlt : ∀ k r, lex ct t = (.tok k, r) → (∀ msg, k ≠ .error msg) → r.length < n := by
      intro k r h hk
      have := c04_progress ct t r k h hk; omega
    have hP : ∀ v r, parse ct t = (.val v, r) → ∃ ks, Reads ct t ks r ∧ Balanced ks ∧ ks ≠ [] := by
      intro v r h
      rw [parse_eq] at h
      rcases hl : lex ct t with ⟨o, r'⟩
      rw [hl] at h
      cases o with
      | tok k =>
        simp only at h
        by_cases hk : ∃ msg, k = .error msg
        · obtain ⟨msg, rfl⟩ := hk; rw [parseAtom_error_only] at h; simp at h
        · have hk' : ∀ msg, k ≠ .error msg := fun m e => hk ⟨m, e⟩
          obtain ⟨ks, h1, h2, _⟩ := (ih _ (hlt k r' hl hk') r' rfl).2.2 k v r h
          exact ⟨k :: ks, .token hl hk' h1, h2, by simp⟩
      | null => simp at h
      | abort => simp at h
      | ub => simp at h
    have hL : ∀ acc v r, parseL ct acc t = (.val v, r) →
      ∃ ks, Reads ct t (ks ++ [.rparen]) r ∧ Balanced ks := by
      intro acc v r h
      rw [parseL_eq] at h
      rcases hl : lex ct t with ⟨o, r'⟩
      rw [hl] at h
      cases o with
      | tok k =>
        by_cases hr : k = .rparen
        · subst hr
          simp only [Prod.mk.injEq] at h
          refine ⟨[], ?_, c11_aux_balanced_nil⟩
          rw [← h.2]
          exact .token hl (by simp) (.done _)
        · by_cases hk : ∃ msg, k = .error msg
          · obtain ⟨msg, rfl⟩ := hk; simp at h
          · have hk' : ∀ msg, k ≠ .error msg := fun m e => hk ⟨m, e⟩
            have hlt' := hlt k r' hl hk'
            have h' : contL ct acc (parseK ct k r') = (.val v, r) := by
              rw [← parseL_tok ct acc t r' k hl hr hk', parseL_eq, hl]; exact h
            rcases hp : parseK ct k r' with ⟨o, r2⟩
            rw [hp] at h'
            cases o with
            | val w =>
              simp only [contL] at h'
              obtain ⟨ks1, a1, a2, _⟩ := (ih _ hlt' r' rfl).2.2 k w r2 hp
              have hb := c04_bounded ct _ _ _ a1
              obtain ⟨ks2, b1, b2⟩ := (ih r2.length (by omega) r2 rfl).2.1 _ v r h'
              refine ⟨(k :: ks1) ++ ks2, ?_, c11_aux_balanced_append a2 b2⟩
              have := c11_aux_reads_append (.token hl hk' a1) b1
              simpa using this
            | null => simp [contL] at h'
            | err m => simp [contL] at h'
            | abort => simp [contL] at h'
            | ub => simp [contL] at h'
            | oof => simp [contL] at h'
      | null => simp at h
      | abort => simp at h
      | ub => simp at h
    refine ⟨hP, hL, ?_⟩
    intro k v r h
    rw [parseK_eq] at h
    have atom : ∀ {k : Token}, depth [k] = 0 → (parseAtom k, t) = (ParseOut.val v, r) →
        (∀ msg, k ≠ .error msg) →
        ∃ ks, Reads ct t ks r ∧ Balanced (k :: ks) ∧ ∀ msg, k ≠ .error msg := by
      intro k hd he hk
      simp only [Prod.mk.injEq] at he
      exact ⟨[], he.2 ▸ .done t, c11_aux_balanced_cons hd c11_aux_balanced_nil, hk⟩
    cases k with
    | lparen =>
      simp only at h
      obtain ⟨ks, h1, h2⟩ := hL [] v r h
      exact ⟨_, h1, c11_aux_balanced_wrap h2, by simp⟩
    | quote =>
      simp only at h
      rcases hp : parse ct t with ⟨o, r'⟩
      rw [hp] at h
      cases o <;> simp at h
      obtain ⟨ks, h1, h2, _⟩ := hP _ _ hp
      exact ⟨ks, h.2 ▸ h1, c11_aux_balanced_cons rfl h2, by simp⟩
    | backQuote =>
      simp only at h
      rcases hp : parse ct t with ⟨o, r'⟩
      rw [hp] at h
      cases o <;> simp at h
      obtain ⟨ks, h1, h2, _⟩ := hP _ _ hp
      exact ⟨ks, h.2 ▸ h1, c11_aux_balanced_cons rfl h2, by simp⟩
    | rparen => simp [parseAtom] at h
    | error m => simp [parseAtom] at h
    | moreInput m => simp [parseAtom] at h
    | true_ => exact atom rfl h (by simp)
    | false_ => exact atom rfl h (by simp)
    | nil_ => exact atom rfl h (by simp)
    | integer i => exact atom rfl h (by simp)
    | real x => exact atom rfl h (by simp)
    | character s => exact atom rfl h (by simp)
    | string s => exact atom rfl h (by simp)
    | symbol s => exact atom rfl h (by simp)
    | semver a b c => exact atom rfl h (by simp)

/-- Whenever parsing gives a value, the tokens consumed for it are balanced. -/
theorem c11_value_is_balanced (ct : Ctype) (t r : Text) (v : Tree)
    (h : parse ct t = (.val v, r)) : ∃ ks, Reads ct t ks r ∧ Balanced ks := by
  obtain ⟨ks, h1, h2, _⟩ := (c11_aux_main ct _ t rfl).1 v r h
  exact ⟨ks, h1, h2⟩

/-- reading tokens is deterministic: of two readings, one extends the other -/
theorem c11_aux_reads_split {ct : Ctype} {t r r' : Text} {a b : List Token} (h1 : Reads ct t a r)
    (h2 : Reads ct t b r') (hend : (lex ct r').1 = .null) : ∃ c, b = a ++ c ∧ Reads ct r c r' := by
  induction h1 generalizing b with
  | done t => exact ⟨b, rfl, h2⟩
  | token hl hk _ ih =>
    cases h2 with
    | done => rw [hl] at hend; simp at hend
    | token hl' _ h2' =>
      rw [hl] at hl'
      simp only [Prod.mk.injEq, LexOut.tok.injEq] at hl'
      obtain ⟨rfl, rfl⟩ := hl'
      obtain ⟨c, rfl, hc⟩ := ih h2'
      exact ⟨c, rfl, hc⟩

/-- a text all of whose tokens can be read never makes the parser abort -/
theorem c11_aux_safe (ct : Ctype) : ∀ (n : Nat) (t : Text), t.length = n → ∀ ks e, Reads ct t ks e →
    (lex ct e).1 = .null →
    ((parse ct t).1 ≠ .abort ∧ (parse ct t).1 ≠ .ub) ∧
    (∀ acc, (parseL ct acc t).1 ≠ .abort ∧ (parseL ct acc t).1 ≠ .ub) ∧
    (∀ k : Token, k.clean → (parseK ct k t).1 ≠ .abort ∧ (parseK ct k t).1 ≠ .ub) := by
  intro n
  induction n using Nat.strongRecOn with
  | _ n ih =>
    intro t hn ks e hr he
    -- the token at the start of `t`
    have first : (∃ r, lex ct t = (.null, r)) ∨ ∃ k r ks', lex ct t = (.tok k, r) ∧ k.clean ∧
        Reads ct r ks' e ∧ r.length < n := by
      cases hr with
      | done =>
        rcases hl : lex ct t with ⟨o, r⟩
        rw [hl] at he; simp only at he; subst he
        exact .inl ⟨r, rfl⟩
      | token hl hk hr' =>
        have := lex_clean ct t
        rw [hl] at this
        exact .inr ⟨_, _, _, hl, this, hr', by have := c04_progress ct _ _ _ hl hk; omega⟩
    have hP : (parse ct t).1 ≠ .abort ∧ (parse ct t).1 ≠ .ub := by
      rw [parse_eq]
      rcases first with ⟨r, hl⟩ | ⟨k, r, ks', hl, hc, hr', hlt⟩
      · simp [hl]
      · rw [hl]; exact (ih _ hlt r rfl ks' e hr' he).2.2 k hc
    have hL : ∀ acc, (parseL ct acc t).1 ≠ .abort ∧ (parseL ct acc t).1 ≠ .ub := by
      intro acc
      rw [parseL_eq]
      rcases first with ⟨r, hl⟩ | ⟨k, r, ks', hl, hc, hr', hlt⟩
      · simp [hl]
      · rw [hl]
        have hK := (ih _ hlt r rfl ks' e hr' he).2.2 k hc
        rcases hp : parseK ct k r with ⟨o, r2⟩
        rw [hp] at hK
        have hcont : ∀ v, o = .val v → (parseL ct (acc ++ [v]) r2).1 ≠ .abort ∧
            (parseL ct (acc ++ [v]) r2).1 ≠ .ub := by
          rintro v rfl
          obtain ⟨ks1, a1, _⟩ := (c11_aux_main ct _ r rfl).2.2 k v r2 hp
          obtain ⟨c, _, hc2⟩ := c11_aux_reads_split a1 hr' he
          have hb := c04_bounded ct _ _ _ a1
          exact (ih r2.length (by omega) r2 rfl c e hc2 he).2.1 _
        by_cases h1 : k = .rparen
        · subst h1; simp
        by_cases h2 : ∃ msg, k = .error msg
        · obtain ⟨msg, rfl⟩ := h2; simp
        have h2' : ∀ msg, k ≠ .error msg := fun m e => h2 ⟨m, e⟩
        rw [← hl, ← parseL_eq, parseL_tok ct acc t r k hl h1 h2', hp]
        cases o with
        | val v => exact hcont v rfl
        | _ => simp_all [contL]
    refine ⟨hP, hL, ?_⟩
    intro k hk
    rw [parseK_eq]
    cases k <;> first
      | exact hL []
      | (simp [parseAtom]; done)
      | (simp [parseAtom, textValue_eq _ _ hk]; done)
      | (clear ih first hL; rcases hp : parse ct t with ⟨o, r⟩; rw [hp] at hP; cases o <;> simp_all)

/-- The elements of a list that is never closed: the loop ends with an error. -/
theorem c11_aux_open (ct : Ctype) : ∀ (n : Nat) (t : Text), t.length = n → ∀ ks e, Reads ct t ks e →
    (lex ct e).1 = .null → (∀ p, p <+: ks → 0 ≤ depth p) →
    ∀ acc, ∃ msg r, parseL ct acc t = (.err msg, r) := by
  intro n
  intro t hn ks e hr he hopen acc
  have hsafe := (c11_aux_safe ct _ t rfl ks e hr he).2.1 acc
  have hoof := (parse_enough ct (2 * t.length + 2)).2.1 acc t (Nat.le_refl _)
  have hnull : (parseL ct acc t).1 ≠ .null := by
    -- the list loop never returns the null pointer
    clear hsafe hoof hopen he hr hn
    induction hm : t.length using Nat.strongRecOn generalizing t acc with
    | _ m ih =>
      rw [parseL_eq]
      have hsuf := (lex_suffix ct t).length_le
      rcases hl : lex ct t with ⟨o, r⟩
      rw [hl] at hsuf; simp only at hsuf
      cases o with
      | tok k =>
        by_cases h1 : k = .rparen
        · subst h1; simp
        by_cases h2 : ∃ msg, k = .error msg
        · obtain ⟨msg, rfl⟩ := h2; simp
        have h2' : ∀ msg, k ≠ .error msg := fun m e => h2 ⟨m, e⟩
        rw [← hl, ← parseL_eq, parseL_tok ct acc t r k hl h1 h2']
        have hlen := (parse_len ct (2 * r.length + 3)).1 k r
        change (parseK ct k r).2.length ≤ r.length at hlen
        have hlt := c04_progress ct _ _ _ hl h2'
        rcases hp : parseK ct k r with ⟨o, r2⟩
        rw [hp] at hlen; simp only at hlen
        cases o with
        | val v => exact ih r2.length (by omega) r2 _ rfl
        | _ => simp [contL]
      | null => simp
      | abort => simp
      | ub => simp
  rcases hp : parseL ct acc t with ⟨o, r⟩
  rw [hp] at hsafe hnull
  have hoof' : o ≠ .oof := by unfold parseL at hp; rw [hp] at hoof; exact hoof
  cases o with
  | err m => exact ⟨m, r, rfl⟩
  | val v =>
    exfalso
    obtain ⟨ks', h1, h2⟩ := (c11_aux_main ct _ t rfl).2.1 acc v r hp
    obtain ⟨c, hc, _⟩ := c11_aux_reads_split h1 hr he
    have := hopen (ks' ++ [.rparen]) ⟨c, hc.symm⟩
    rw [c11_aux_depth_append, h2.1] at this
    simp [depth] at this
  | null => simp at hnull
  | abort => simp at hsafe
  | ub => simp at hsafe
  | oof => simp at hoof'

/-- If the text starts with a left parenthesis, all its tokens `ks` can be read to its end, and no
right parenthesis among them closes the first left one, the parser returns an error value. -/
theorem c11_truncated_is_error (ct : Ctype) (t e : Text) (ks : List Token)
    (hr : Reads ct t (.lparen :: ks) e) (hend : (lex ct e).1 = .null)
    (hopen : ∀ p, p <+: ks → 0 < depth (.lparen :: p)) :
    ∃ msg, (parse ct t).1 = .err msg := by
  cases hr with
  | token hl hk hr' =>
    rw [parse_eq, hl]
    simp only
    rw [parseK_eq]
    simp only
    obtain ⟨msg, r, h⟩ := c11_aux_open ct _ _ rfl ks e hr' hend (by
      intro p hp; have := hopen p hp; simp [depth] at this; omega) []
    exact ⟨msg, by rw [h]⟩

/-- and, for any text whose tokens can be read to its end: parsing neither aborts nor runs into
undefined behaviour. -/
theorem c11_parser_safe (ct : Ctype) (t e : Text) (ks : List Token) (hr : Reads ct t ks e)
    (hend : (lex ct e).1 = .null) : (parse ct t).1 ≠ .abort ∧ (parse ct t).1 ≠ .ub :=
  (c11_aux_safe ct _ t rfl ks e hr hend).1

-- the hypotheses are met
example : ∃ ks e, Reads asciiCtype (txt "(a (b) ") (.lparen :: ks) e ∧ (lex asciiCtype e).1 = .null ∧
    depth (.lparen :: ks) = 1 := by
  refine ⟨[.symbol (txt "a"), .lparen, .symbol (txt "b"), .rparen], txt " ", ?_, by decide, by decide⟩
  refine .token (r' := txt "a (b) ") (by decide) (by simp) ?_
  refine .token (r' := txt " (b) ") (by decide) (by simp) ?_
  refine .token (r' := txt "b) ") (by decide) (by simp) ?_
  refine .token (r' := txt ") ") (by decide) (by simp) ?_
  refine .token (r' := txt " ") (by decide) (by simp) (.done _)
example : (match parse asciiCtype (txt "(a (b) ") with | (.err _, _) => true | _ => false) = true := by
  decide +kernel

end Dern.Props
