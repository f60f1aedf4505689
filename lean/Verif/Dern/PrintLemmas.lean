import Verif.Dern.LexerRead
import Verif.Dern.Tree
/- The printed form of atoms, and how it is read. -/
namespace Dern
open Spec.Numeral

theorem decDigits_digit (n : Nat) : ∀ c ∈ decDigits n, 48 ≤ c ∧ c ≤ 57 := by
  induction n using Nat.strongRecOn with
  | _ n ih =>
    intro c hc
    rw [decDigits] at hc
    split at hc
    · simp at hc; subst hc; comega
    · simp only [List.mem_append, List.mem_singleton] at hc
      rcases hc with h | h
      · exact ih (n / 10) (by omega) c h
      · subst h; comega

theorem isDigit10 {c : Nat} (h : 48 ≤ c ∧ c ≤ 57) : IsDigit 10 c := by
  refine ⟨c - 48, ?_, by omega⟩
  simp [digitValue, h]

theorem value_append (base : Nat) (l : List Nat) (c : Nat) :
    value base (l ++ [c]) = value base l * base + (digitValue c).getD 0 := by
  simp [value]

theorem value_decDigits (n : Nat) : value 10 (decDigits n) = n := by
  induction n using Nat.strongRecOn with
  | _ n ih =>
    rw [decDigits]
    split
    · next h => simp [value, digitValue, show 48 + n ≤ 57 by omega]
    · next h =>
      rw [value_append, ih (n / 10) (by omega)]
      have : digitValue (48 + n % 10) = some (n % 10) := by
        simp [digitValue]; omega
      rw [this]; simp; omega

theorem decDigits_length (n : Nat) : ∀ k, n < 10 ^ (k + 1) → (decDigits n).length ≤ k + 1 := by
  induction n using Nat.strongRecOn with
  | _ n ih =>
    intro k hk
    rw [decDigits]
    split
    · simp
    · next h =>
      cases k with
      | zero => simp at hk; omega
      | succ k =>
        have := ih (n / 10) (by omega) k (by rw [Nat.pow_succ] at hk; omega)
        simp; omega

theorem decDigits_ne_nil (n : Nat) : decDigits n ≠ [] := by
  rw [decDigits]; split <;> simp

theorem digit_notspace (ct : Ctype) (hc : ct.C) {c : Nat} (h : 48 ≤ c ∧ c ≤ 57) : ct.isspace c = false := by
  rw [hc.space c (by comega)]
  unfold spaceC; simp; comega

theorem filter_digits (ct : Ctype) (hc : ct.C) (n : Nat) :
    (decDigits n).filter (fun c => !ct.isspace c) = decDigits n := by
  rw [List.filter_eq_self]
  intro c h
  simp [digit_notspace ct hc (decDigits_digit n c h)]

/-- the printed form of an integer is read as that integer, unless it is -2^31 -/
theorem lex_printInt (ct : Ctype) (hc : ct.C) (i : Int) (h1 : -2147483648 < i) (h2 : i ≤ 2147483647)
    (rest : Text) :
    lex ct ((if 0 ≤ i then txt "{D+" else txt "{D") ++ printInt i ++ txt "}" ++ rest) =
      (.tok (.integer i), rest) := by
  have hb : ∀ c ∈ decDigits i.natAbs, ct.isspace c = true ∨ IsDigit 10 c :=
    fun c h => .inr (isDigit10 (decDigits_digit _ c h))
  have hf := filter_digits ct hc i.natAbs
  have hv := value_decDigits i.natAbs
  have hl := decDigits_length i.natAbs 9 (by omega)
  by_cases hi : 0 ≤ i
  · have := lex_number ct hc 10 'D' '+' (decDigits i.natAbs) rest .dec (.inl rfl) hb
      (by rw [hf]; omega) (by rw [hf]; exact Nat.le_trans (Nat.le_of_eq hv) (by omega))
    rw [hf] at this
    have e : (if 0 ≤ i then txt "{D+" else txt "{D") ++ printInt i ++ txt "}" ++ rest
        = 123 :: 'D'.toNat :: '+'.toNat :: decDigits i.natAbs ++ 125 :: rest := by
      simp [printInt, hi, txt, show ¬ i < 0 by omega]
    rw [e, this]
    simp
    have : (value 10 (decDigits i.natAbs) : Int) = i.natAbs := congrArg _ hv
    exact this.trans (by omega)
  · have := lex_number ct hc 10 'D' '-' (decDigits i.natAbs) rest .dec (.inr rfl) hb
      (by rw [hf]; omega) (by rw [hf]; exact Nat.le_trans (Nat.le_of_eq hv) (by omega))
    rw [hf] at this
    have e : (if 0 ≤ i then txt "{D+" else txt "{D") ++ printInt i ++ txt "}" ++ rest
        = 123 :: 'D'.toNat :: '-'.toNat :: decDigits i.natAbs ++ 125 :: rest := by
      simp [printInt, hi, txt, show i < 0 by omega]
    rw [e, this]
    simp
    have : (value 10 (decDigits i.natAbs) : Int) = i.natAbs := congrArg _ hv
    have h3 : (-(value 10 (decDigits i.natAbs) : Int)) = - (i.natAbs : Int) := congrArg _ this
    exact h3.trans (by omega)

/-! ### strings -/

theorem octetsOf_append (s t : Text) (h : ∀ c ∈ s, PrintCh c) :
    octetsOf (s ++ t) = octetsOf s ++ octetsOf t := by
  induction s with
  | nil => simp [octetsOf]
  | cons c cs ih =>
    obtain ⟨e, h1, _⟩ := encode_ch (h c (by simp))
    simp [octetsOf, ih (fun x hx => h x (by simp [hx])), h1]

theorem fmtS_eq (p s q : Text) (hp : ∀ c ∈ p, PrintCh c) (hs : ∀ c ∈ s, PrintCh c)
    (hq : ∀ c ∈ q, PrintCh c) : fmtS p s q = some (p ++ s ++ q) := by
  unfold fmtS inputText
  rw [getCString_eq s hs, getCString_eq p hp, getCString_eq q hq]
  simp only [Option.bind_eq_bind, Option.bind_some]
  have h0 : ∀ c ∈ p ++ s, PrintCh c := by
    intro c h
    rcases List.mem_append.1 h with h | h
    · exact hp c h
    · exact hs c h
  rw [← octetsOf_append _ _ hp, ← octetsOf_append _ _ h0]
  have h : ∀ c ∈ p ++ s ++ q, PrintCh c := by
    intro c h
    simp only [List.mem_append] at h
    rcases h with (h | h) | h
    · exact hp c h
    · exact hs c h
    · exact hq c h
  rw [fromBuffer_octets _ h]
  simp only [Option.map_some]
  rw [map_back _ h]

theorem printCh_of_lt {c : Nat} (h : 0 < c) (h' : c < 128) : PrintCh c :=
  ⟨by unfold Spec.Utf8.IsScalar; omega, by comega⟩

/-- reading the characters of a string up to the closing bracket -/
theorem stringLoop_body (ct : Ctype) (rest : Text) : ∀ (s : Text) (fuel : Nat) (acc : Text),
    93 ∉ s → 124 ∉ s → s.length < fuel →
    stringLoop ct fuel acc (s ++ 93 :: rest) = stringEnd ct (acc ++ s) rest := by
  intro s
  induction s with
  | nil =>
    intro fuel acc _ _ hf
    cases fuel with
    | zero => omega
    | succ f => simp [stringLoop]
  | cons c cs ih =>
    intro fuel acc h1 h2 hf
    cases fuel with
    | zero => omega
    | succ f =>
      simp only [List.mem_cons, not_or] at h1 h2
      have e1 : ¬ c = 93 := fun e => h1.1 e.symm
      have e2 : ¬ c = 124 := fun e => h2.1 e.symm
      simp only [List.cons_append, stringLoop, if_neg e1, if_neg e2]
      rw [ih f _ h1.2 h2.2 (by simpa using hf)]
      simp

/-- `rest` is empty or starts with a delimiter -/
def DelimStart (ct : Ctype) (rest : Text) : Prop :=
  rest = [] ∨ ∃ c cs, rest = c :: cs ∧ isDelimiter ct c = true

theorem lex_stringLit (ct : Ctype) (hc : ct.C) (s rest : Text) (hs : ∀ c ∈ s, PrintCh c)
    (h1 : 93 ∉ s) (h2 : 124 ∉ s) (hr : DelimStart ct rest) :
    lex ct (91 :: s ++ 93 :: rest) = (.tok (.string s), rest) := by
  have h91 : ct.isspace 91 = false := by rw [hc.space 91 (by decide)]; decide
  rw [List.cons_append, lex_start ct _ _ h91 (by decide) (by decide)]
  have e : popTokenAt ct (91 :: (s ++ 93 :: rest)) = popString ct (91 :: (s ++ 93 :: rest)) := by
    simp [popTokenAt]
  rw [e]
  simp only [popString, if_true]
  rw [stringLoop_body ct rest s _ [] h1 h2 (by simp; omega)]
  have hk : textToken .string s = .tok (.string s) := by simp [textToken, recode_eq s hs]
  unfold stringEnd
  rcases hr with rfl | ⟨c, cs, rfl, hd⟩
  · simp [hk]
  · simp [hk, hd]

/-! ### characters -/

theorem charContent_append (s rest : Text) (h : 124 ∉ s) :
    charContent (s ++ 124 :: rest) = (some s, rest) := by
  induction s with
  | nil => simp [charContent]
  | cons c cs ih =>
    simp only [List.mem_cons, not_or] at h
    have e : ¬ c = 124 := fun e => h.1 e.symm
    simp [charContent, e, ih h.2]

theorem lex_charLit (ct : Ctype) (hc : ct.C) (s rest : Text) (h : 124 ∉ s) :
    lex ct (124 :: s ++ 124 :: rest) = (charToken s, rest) := by
  have h124 : ct.isspace 124 = false := by rw [hc.space 124 (by decide)]; decide
  rw [List.cons_append, lex_start ct _ _ h124 (by decide) (by decide)]
  simp [popTokenAt, popCharacter, charContent_append s rest h]

theorem charToken_one (c : Ch) (h : PrintCh c) : charToken [c] = .tok (.character [c]) := by
  simp [charToken, textToken, recode_eq [c] (by simpa using h)]

/-! ### symbols -/

theorem symbolChars_body (ct : Ctype) (s rest : Text) (hs : ∀ c ∈ s, isDelimiter ct c = false)
    (hr : DelimStart ct rest) : symbolChars ct (s ++ rest) = (s, rest) := by
  induction s with
  | nil =>
    rcases hr with rfl | ⟨c, cs, rfl, hd⟩
    · rfl
    · simp [symbolChars, hd]
  | cons c cs ih =>
    simp only [List.mem_cons, forall_eq_or_imp] at hs
    simp [symbolChars, hs.1, ih hs.2]

/-- texts that are the name of a symbol: they are read as a symbol -/
structure SymbolName (ct : Ctype) (s : Text) : Prop where
  printable : ∀ c ∈ s, PrintCh c
  nodelim : ∀ c ∈ s, isDelimiter ct c = false
  notword : s ≠ txt "true" ∧ s ≠ txt "false" ∧ s ≠ txt "nil"
  start : ∃ c cs, s = c :: cs ∧ c ≠ 96 ∧ c ≠ 123 ∧ ¬ (48 ≤ c ∧ c ≤ 57) ∧ c ≠ 59 ∧
    ¬ (c = 35 ∧ cs.head? = some 33)

theorem skipTrivia_symbol (ct : Ctype) (c : Ch) (cs : Text) (hs : ct.isspace c = false)
    (h1 : c ≠ 59) (h2 : ¬ (c = 35 ∧ cs.head? = some 33)) : skipTrivia ct (c :: cs) = .start (c :: cs) := by
  simp only [skipTrivia, skipTriviaFuel, popWhitespace, hs]
  simp only [Bool.false_eq_true, if_false, if_neg h1]
  by_cases hc : c = 35
  · subst hc
    simp only [if_true]
    cases cs with
    | nil => rfl
    | cons d ds =>
      simp at h2
      simp [h2]
  · simp [hc]

theorem lex_symbol (ct : Ctype) (hc : ct.C) (s rest : Text) (h : SymbolName ct s) (hr : DelimStart ct rest) :
    lex ct (s ++ rest) = (.tok (.symbol s), rest) := by
  obtain ⟨c, cs, rfl, h1, h2, h3, h4, h5⟩ := h.start
  have hd := h.nodelim c (by simp)
  unfold isDelimiter at hd
  simp only [Bool.or_eq_false_iff, beq_eq_false_iff_ne] at hd
  obtain ⟨⟨⟨⟨⟨⟨⟨d0, d1⟩, d2⟩, d3⟩, d4⟩, d5⟩, d6⟩, d7⟩ := hd
  have h5' : ¬ (c = 35 ∧ (cs ++ rest).head? = some 33) := by
    rintro ⟨a, b⟩
    cases cs with
    | nil =>
      rcases hr with rfl | ⟨e, es, rfl, he⟩
      · simp at b
      · simp at b; subst b
        have : isDelimiter ct 33 = false := by
          unfold isDelimiter; rw [hc.space 33 (by decide)]; decide
        rw [this] at he; cases he
    | cons d ds => exact h5 ⟨a, by simpa using b⟩
  unfold lex
  rw [List.cons_append, skipTrivia_symbol ct c _ d0 h4 h5']
  have e : popTokenAt ct (c :: (cs ++ rest)) = popSymbol ct (c :: cs ++ rest) := by
    simp only [popTokenAt, if_neg d4, if_neg d5, if_neg d6, if_neg h1, if_neg h2, if_neg h3,
      if_neg d2, if_neg d1]
    rfl
  simp only [e]
  unfold popSymbol
  rw [symbolChars_body ct _ _ h.nodelim hr]
  simp [h.notword, textToken, recode_eq _ h.printable]

end Dern
