import Verif.Dern.LexerLemmas
import Verif.Spec.Numeral
import Verif.Core.TextLemmas
/- How particular texts are read by the lexer. -/
namespace Dern
open Spec.Numeral

/-- omega, seeing through `Ch` -/
macro "comega" : tactic => `(tactic| ((try simp only [Ch] at *); omega))

theorem skipTrivia_start (ct : Ctype) (c : Ch) (cs : Text) (hs : ct.isspace c = false)
    (h1 : c ≠ 59) (h2 : c ≠ 35) : skipTrivia ct (c :: cs) = .start (c :: cs) := by
  simp [skipTrivia, skipTriviaFuel, popWhitespace, hs, h1, h2]

theorem lex_start (ct : Ctype) (c : Ch) (cs : Text) (hs : ct.isspace c = false)
    (h1 : c ≠ 59) (h2 : c ≠ 35) : lex ct (c :: cs) = popTokenAt ct (c :: cs) := by
  simp [lex, skipTrivia_start ct c cs hs h1 h2]

theorem skipTrivia_space (ct : Ctype) (c : Ch) (cs : Text) (hs : ct.isspace c = true) :
    skipTrivia ct (c :: cs) = skipTrivia ct cs := by
  unfold skipTrivia
  rw [skipTriviaFuel_fuel ct (cs.length + 1) (cs.length + 2) cs (by omega) (by omega)]
  simp [skipTriviaFuel, popWhitespace, hs]

theorem lex_space (ct : Ctype) (c : Ch) (cs : Text) (hs : ct.isspace c = true) :
    lex ct (c :: cs) = lex ct cs := by
  simp [lex, skipTrivia_space ct c cs hs]

theorem popRestOfLine_append (body rest : Text) (h : 10 ∉ body) :
    popRestOfLine (body ++ 10 :: rest) = rest := by
  induction body with
  | nil => simp [popRestOfLine]
  | cons c cs ih =>
    simp at h
    have hne : c ≠ 10 := fun e => h.1 e.symm
    simp [popRestOfLine, hne, ih h.2]

theorem skipTrivia_lineComment (ct : Ctype) (hc : ct.C) (body rest : Text) (h : 10 ∉ body) :
    skipTrivia ct (59 :: body ++ 10 :: rest) = skipTrivia ct rest := by
  unfold skipTrivia
  rw [skipTriviaFuel_fuel ct (rest.length + 1) ((59 :: body ++ 10 :: rest).length) rest
    (by omega) (by simp; omega)]
  have h59 : ct.isspace 59 = false := by rw [hc.space 59 (by decide)]; decide
  have := popRestOfLine_append (59 :: body) rest (by simp [h])
  simp [skipTriviaFuel, popWhitespace, h59]
  simp at this; rw [this]

/-- a text without the closing mark !# -/
def NoClose : Text → Prop
  | [] => True
  | c :: cs => ¬ (c = 33 ∧ cs.head? = some 35) ∧ NoClose cs

theorem multilineLoop_append (body rest : Text) (h : NoClose body) :
    multilineLoop (body ++ 33 :: 35 :: rest) = (none, rest) := by
  induction body with
  | nil => simp [multilineLoop]
  | cons c cs ih =>
    obtain ⟨h1, h2⟩ := h
    rw [List.cons_append, multilineLoop.eq_def]
    simp only
    by_cases hc : c = 33
    · subst hc
      simp only [if_true]
      cases cs with
      | nil => simp [multilineLoop]
      | cons d ds =>
        simp at h1
        simpa [h1] using ih h2
    · rw [if_neg hc]; exact ih h2

theorem skipTrivia_multiline (ct : Ctype) (hc : ct.C) (body rest : Text) (h : NoClose body) :
    skipTrivia ct (35 :: 33 :: body ++ 33 :: 35 :: rest) = skipTrivia ct rest := by
  unfold skipTrivia
  rw [skipTriviaFuel_fuel ct (rest.length + 1) ((35 :: 33 :: body ++ 33 :: 35 :: rest).length) rest
    (by omega) (by simp; omega)]
  have h35 : ct.isspace 35 = false := by rw [hc.space 35 (by decide)]; decide
  have := multilineLoop_append body rest h
  simp [skipTriviaFuel, popWhitespace, h35, this]

/-! ### numbers -/

/-- value of digits, last first -/
def valLE (base : Nat) : List Ch → Nat
  | [] => 0
  | c :: cs => digitVal c + base * valLE base cs

theorem valLE_append (base : Nat) (l : List Ch) (c : Ch) :
    valLE base (l ++ [c]) = valLE base l + base ^ l.length * digitVal c := by
  induction l with
  | nil => simp [valLE]
  | cons d ds ih => simp [valLE, ih, Nat.mul_add, Nat.pow_succ]; grind

theorem digitVal_eq (c d : Nat) (h : digitValue c = some d) : digitVal c = d := by
  unfold digitValue at h
  unfold digitVal
  simp at h
  (repeat' split at h) <;> simp at h <;> (repeat' split) <;> comega

theorem value_eq (base : Nat) (ds : List Ch) (h : ∀ c ∈ ds, IsDigit base c) :
    value base ds = valLE base ds.reverse := by
  have key : ∀ (ds : List Ch) (acc : Nat), (∀ c ∈ ds, IsDigit base c) →
      ds.foldl (fun v c => v * base + (digitValue c).getD 0) acc
        = acc * base ^ ds.length + valLE base ds.reverse := by
    intro ds
    induction ds with
    | nil => intro acc _; simp [valLE]
    | cons c cs ih =>
      intro acc h
      obtain ⟨d, hd, _⟩ := h c (by simp)
      simp only [List.foldl_cons, List.reverse_cons]
      rw [ih _ (fun x hx => h x (by simp [hx])), valLE_append, digitVal_eq c d hd]
      simp [hd, Nat.pow_succ]; grind
  simpa [value] using key ds 0 h

theorem sumDigits_eq (base : Nat) (hb : 0 < base) (ds : List Ch) : ∀ (i acc : Nat),
    acc + base ^ i * valLE base ds ≤ 2 ^ 53 →
    sumDigits base ds i acc = some (acc + base ^ i * valLE base ds) := by
  induction ds with
  | nil => intro i acc _; simp [sumDigits, valLE]
  | cons c cs ih =>
    intro i acc h
    simp only [valLE, Nat.mul_add] at h ⊢
    have e : base ^ i * (base * valLE base cs) = base ^ (i + 1) * valLE base cs := by
      rw [Nat.pow_succ, Nat.mul_assoc]
    rw [e] at h ⊢
    have hp : powTerm base i (digitVal c) = some (base ^ i * digitVal c) := by
      unfold powTerm
      split
      · next h0 => simp [h0]
      · rw [if_pos (by omega)]
    simp only [sumDigits, hp, Option.bind_eq_bind, Option.bind_some]
    have hm : (acc + base ^ i * digitVal c) % 2 ^ 64 = acc + base ^ i * digitVal c :=
      Nat.mod_eq_of_lt (by omega)
    rw [hm, ih _ _ (by omega)]
    congr 1; omega

theorem toInt32_small (n : Nat) (h : n ≤ 2147483647) : toInt32 n = n := by
  unfold toInt32
  have : n % 2 ^ 32 = n := Nat.mod_eq_of_lt (by omega)
  simp only [this]; rw [if_pos (by omega)]

theorem isDigit_xdigit {base c : Nat} (h : IsDigit base c) : xdigitC c = true := by
  obtain ⟨d, hd, _⟩ := h
  unfold digitValue at hd; simp at hd
  unfold xdigitC
  (repeat' split at hd) <;> simp at hd <;> simp <;> comega

theorem isDigit_lt {base c : Nat} (h : IsDigit base c) : c < 128 := by
  have := isDigit_xdigit h
  unfold xdigitC at this; simp at this; comega

theorem isDigit_range {base c : Nat} (h : IsDigit base c) :
    (base = 2 → c = 48 ∨ c = 49) ∧ (base = 8 → 48 ≤ c ∧ c ≤ 55) ∧ (base = 10 → 48 ≤ c ∧ c ≤ 57) := by
  obtain ⟨d, hd, hlt⟩ := h
  unfold digitValue at hd; simp at hd
  (repeat' split at hd) <;> simp at hd <;> comega

/-- one pass of the loop over digits and whitespace -/
theorem numLoop_body (ct : Ctype) (hc : ct.C) (base : Nat) (neg : Bool) (rest : Text) :
    ∀ (body : Text) (inside : Bool) (s : NumState),
      (∀ c ∈ body, ct.isspace c = true ∨ IsDigit base c) →
      s.digits.length + (body.filter (fun c => !ct.isspace c)).length ≤ 256 →
      s.dotRead = false → s.prevChar ≠ 46 → s.prevChar ≠ 45 →
      ∃ s', numLoop ct base neg inside s (body ++ 125 :: rest) = (numFinish base neg s', rest) ∧
        s'.digits = (body.filter (fun c => !ct.isspace c)).reverse ++ s.digits ∧
        s'.dotRead = false ∧ s'.prevChar ≠ 46 ∧ s'.prevChar ≠ 45 := by
  intro body
  induction body with
  | nil =>
    intro inside s _ _ hd h1 h2
    refine ⟨s, ?_, by simp, hd, h1, h2⟩
    have hsp : ct.isspace 125 = false := by rw [hc.space 125 (by decide)]; decide
    have hx : ct.isxdigit 125 = false := by rw [hc.xdigit 125 (by decide)]; decide
    simp [numLoop, hsp, hx]
  | cons c cs ih =>
    intro inside s hb hlen hd h1 h2
    have hcs : ∀ x ∈ cs, ct.isspace x = true ∨ IsDigit base x := fun x hx => hb x (by simp [hx])
    by_cases hsp : ct.isspace c = true
    · obtain ⟨s', e1, e2, e3⟩ := ih true s hcs (by simpa [hsp] using hlen) hd h1 h2
      refine ⟨s', ?_, ?_, e3⟩
      · simpa [numLoop, hsp] using e1
      · simpa [hsp] using e2
    · have hdig : IsDigit base c := by
        rcases hb c (by simp) with h | h
        · exact absurd h hsp
        · exact h
      have hsp' : ct.isspace c = false := by simpa using hsp
      have hx := isDigit_xdigit hdig
      have hlt := isDigit_lt hdig
      have hx' : ct.isxdigit c = true := by rw [hc.xdigit c hlt]; exact hx
      have hr := isDigit_range hdig
      have hne : c ≠ 46 ∧ c ≠ 45 := by unfold xdigitC at hx; simp at hx; comega
      have hlen' : s.digits.length + 1 + (cs.filter (fun c => !ct.isspace c)).length ≤ 256 := by
        simp [hsp'] at hlen; omega
      have hnd : numDigit base s c = .ok ⟨s.charsRead + 1, s.dotRead,
          if s.dotRead then s.frac + 1 else s.frac, c, c :: s.digits⟩ := by
        unfold numDigit
        rw [if_neg (by omega), if_neg (by intro h; exact h.2 (hr.1 h.1)),
          if_neg (by intro h; exact h.2 (hr.2.1 h.1)), if_neg (by intro h; exact h.2 (hr.2.2 h.1)),
          if_neg (by simp [hx])]
      obtain ⟨s', e1, e2, e3⟩ := ih false ⟨s.charsRead + 1, s.dotRead,
          if s.dotRead then s.frac + 1 else s.frac, c, c :: s.digits⟩
          hcs (by simpa using hlen') hd hne.1 hne.2
      refine ⟨s', ?_, ?_, e3⟩
      · simp only [List.cons_append, numLoop, hsp', hx', hnd, if_neg hne.1]
        simpa using e1
      · rw [e2]; simp [hsp']

theorem baseOf_letter {base : Nat} {l : Char} (h : BaseLetter base l) :
    baseOf l.toNat = base ∧ [88, 68, 79, 66].contains l.toNat = true ∧ l.toNat < 128 ∧ 0 < base := by
  cases h <;> decide

theorem popNumber_eq (ct : Ctype) (base : Nat) (l sgn : Char) (hl : BaseLetter base l)
    (hs : sgn = '+' ∨ sgn = '-') (t : Text) :
    popNumber ct (123 :: l.toNat :: sgn.toNat :: t) =
      numLoop ct base (sgn == '-') false
          { charsRead := 0, dotRead := false, frac := 0, prevChar := 0, digits := [] } t := by
  rcases hs with rfl | rfl <;> cases hl <;> simp [popNumber, expectOctet, strchr, baseOf] <;> rfl

theorem lex_number (ct : Ctype) (hc : ct.C) (base : Nat) (l sgn : Char) (body rest : Text)
    (hl : BaseLetter base l) (hs : sgn = '+' ∨ sgn = '-')
    (hb : ∀ c ∈ body, ct.isspace c = true ∨ IsDigit base c)
    (hlen : (body.filter (fun c => !ct.isspace c)).length ≤ 256)
    (hv : value base (body.filter (fun c => !ct.isspace c)) ≤ 2147483647) :
    lex ct (123 :: l.toNat :: sgn.toNat :: body ++ 125 :: rest) =
      (.tok (.integer (if sgn = '-' then - (value base (body.filter (fun c => !ct.isspace c)) : Int)
        else value base (body.filter (fun c => !ct.isspace c)))), rest) := by
  have h123 : ct.isspace 123 = false := by rw [hc.space 123 (by decide)]; decide
  have hds : ∀ c ∈ body.filter (fun c => !ct.isspace c), IsDigit base c := by
    intro c h
    simp at h
    rcases hb c h.1 with h' | h'
    · simp [h'] at h
    · exact h'
  have hve := value_eq base _ hds
  have hb0 := (baseOf_letter hl).2.2.2
  obtain ⟨s', e1, e2, e3, e4, e5⟩ := numLoop_body ct hc base (sgn == '-') rest body false
    { charsRead := 0, dotRead := false, frac := 0, prevChar := 0, digits := [] } hb (by simpa using hlen)
    rfl (by simp) (by simp)
  rw [List.cons_append, lex_start ct _ _ h123 (by decide) (by decide)]
  simp only [popTokenAt]
  simp only [show ¬ ((123 : Nat) = 40) by omega, show ¬ ((123 : Nat) = 41) by omega,
    show ¬ ((123 : Nat) = 39) by omega, show ¬ ((123 : Nat) = 96) by omega, if_false, if_true]
  rw [List.cons_append, List.cons_append, popNumber_eq ct base l sgn hl hs, e1]
  congr 1
  simp only [List.append_nil] at e2
  have hsum := sumDigits_eq base hb0 s'.digits 0 0 (by
    simp only [Nat.zero_add, Nat.pow_zero, Nat.one_mul]; rw [e2, ← hve]; exact Nat.le_trans hv (by decide))
  simp only [Nat.zero_add, Nat.pow_zero, Nat.one_mul] at hsum
  rw [e2, ← hve] at hsum
  unfold numFinish
  rw [if_neg e4, if_neg e5, e2, hsum, e3]
  simp only [intLiteral, toInt32_small _ hv]
  rcases hs with rfl | rfl <;> simp [int32Min, int32Max] <;> omega

end Dern
