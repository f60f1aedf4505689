import Verif.Dern.ParserLemmas
import Verif.Dern.PrintLemmas
/- The parser without fuel, and the texts held by tokens. -/
namespace Dern

/-- octaspire_dern_vm_parse_token with enough fuel -/
def parseK (ct : Ctype) (k : Token) (t : Text) : ParseOut × Text := parseTok ct (2 * t.length + 3) k t
/-- the list loop with enough fuel -/
def parseL (ct : Ctype) (acc : List Tree) (t : Text) : ParseOut × Text :=
  parseList ct (2 * t.length + 2) acc t

theorem parseTok_eq (ct : Ctype) (k : Token) (t : Text) (n : Nat) (h : (parseTok ct n k t).1 ≠ .oof) :
    parseTok ct n k t = parseK ct k t := by
  unfold parseK
  rcases Nat.le_total n (2 * t.length + 3) with h' | h'
  · exact (parseTok_fuel ct k t _ _ h h').symm
  · exact parseTok_fuel ct k t _ _ ((parse_enough ct _).1 k t (by omega)) h'

theorem parseTok_enough (ct : Ctype) (k : Token) (t : Text) (n : Nat) (h : 2 * t.length + 3 ≤ n) :
    parseTok ct n k t = parseK ct k t := parseTok_eq ct k t n ((parse_enough ct _).1 k t h)

theorem parseList_enough (ct : Ctype) (acc : List Tree) (t : Text) (n : Nat) (h : 2 * t.length + 2 ≤ n) :
    parseList ct n acc t = parseL ct acc t := by
  unfold parseL
  exact parseList_fuel ct acc t _ _ ((parse_enough ct _).2.1 acc t (by omega)) h

theorem parseNext_enough (ct : Ctype) (t : Text) (n : Nat) (h : 2 * t.length + 2 ≤ n) :
    parseNext ct n t = parse ct t := parseNext_eq_parse ct t n ((parse_enough ct _).2.2 t h)

theorem parseK_eq (ct : Ctype) (k : Token) (t : Text) : parseK ct k t =
    match k with
    | .lparen => parseL ct [] t
    | .quote =>
      match parse ct t with
      | (.val v, r) => (.val (.vec [.sym (txt "quote"), v]), r)
      | o => o
    | .backQuote =>
      match parse ct t with
      | (.val v, r) => (.val (templateOf v), r)
      | o => o
    | k => (parseAtom k, t) := by
  unfold parseK
  rw [parseTok.eq_def]
  cases k <;> simp only
  · exact parseList_enough ct [] t _ (by omega)
  · rw [parseNext_enough ct t _ (by omega)]
    rcases parse ct t with ⟨o, r⟩
    cases o <;> rfl
  · rw [parseNext_enough ct t _ (by omega)]
    rcases parse ct t with ⟨o, r⟩
    cases o <;> rfl

theorem parseAtom_error_only (ct : Ctype) (msg : String) (t : Text) :
    parseK ct (.error msg) t = (.err msg, t) := by
  rw [parseK_eq]; rfl

theorem parse_eq (ct : Ctype) (t : Text) : parse ct t =
    match lex ct t with
    | (.null, r) => (.null, r)
    | (.abort, r) => (.abort, r)
    | (.ub, r) => (.ub, r)
    | (.tok k, r) => parseK ct k r := by
  rw [← parseNext_enough ct t (2 * t.length + 10) (by omega), parseNext.eq_def]
  simp only
  have hs := (lex_suffix ct t).length_le
  rcases hl : lex ct t with ⟨o, r⟩
  rw [hl] at hs
  cases o <;> simp only
  exact parseTok_enough ct _ _ _ (by simp only at hs; omega)

theorem parseL_eq (ct : Ctype) (acc : List Tree) (t : Text) : parseL ct acc t =
    match lex ct t with
    | (.null, r) => (.err balancingError, r)
    | (.abort, r) => (.abort, r)
    | (.ub, r) => (.ub, r)
    | (.tok (.error msg), r) => (.err msg, r)
    | (.tok .rparen, r) => (.val (.vec acc), r)
    | (.tok k, r) =>
      match parseK ct k r with
      | (.null, r) => (.err balancingError, r)
      | (.val v, r) => parseL ct (acc ++ [v]) r
      | o => o := by
  rw [← parseList_enough ct acc t (2 * t.length + 10) (by omega), parseList.eq_def]
  simp only
  have hs := (lex_suffix ct t).length_le
  rcases hl : lex ct t with ⟨o, r⟩
  rw [hl] at hs; simp only at hs
  cases o
  case null => rfl
  case abort => rfl
  case ub => rfl
  rename_i k
  have e : parseTok ct (2 * t.length + 9) k r = parseK ct k r := parseTok_enough ct _ _ _ (by omega)
  have hlen := (parse_len ct (2 * t.length + 9)).1 k r
  rw [e] at hlen
  rcases hp : parseK ct k r with ⟨o, r'⟩
  rw [hp] at hlen e; simp only at hlen
  have e2 := fun v => parseList_enough ct (acc ++ [v]) r' (2 * t.length + 9) (by omega)
  cases k <;> first | rfl | (simp only [e, hp]; cases o <;> simp only [e2])

/-- what the list loop does with a parsed element -/
def contL (ct : Ctype) (acc : List Tree) : ParseOut × Text → ParseOut × Text
  | (.null, r) => (.err balancingError, r)
  | (.val v, r) => parseL ct (acc ++ [v]) r
  | o => o

theorem parseL_tok (ct : Ctype) (acc : List Tree) (t r : Text) (k : Token)
    (h : lex ct t = (.tok k, r)) (h1 : k ≠ .rparen) (h2 : ∀ msg, k ≠ .error msg) :
    parseL ct acc t = contL ct acc (parseK ct k r) := by
  rw [parseL_eq, h]
  rcases hp : parseK ct k r with ⟨o, r'⟩
  cases k <;> first
    | exact absurd rfl h1
    | exact absurd rfl (h2 _)
    | (simp only [hp]; cases o <;> rfl)

/-- one element of a list -/
theorem parseL_step (ct : Ctype) (acc : List Tree) (t r : Text) (v : Tree)
    (h : parse ct t = (.val v, r)) : parseL ct acc t = parseL ct (acc ++ [v]) r := by
  rw [parse_eq] at h
  rw [parseL_eq]
  rcases hl : lex ct t with ⟨o, r'⟩
  rw [hl] at h
  cases o with
  | tok k =>
    simp only at h
    cases k <;> simp only [h] <;> (rw [parseK_eq] at h; simp [parseAtom] at h)
  | null => simp at h
  | abort => simp at h
  | ub => simp at h

/-! ### texts of tokens are printable -/

theorem ensureOctets_shape (s : Text) : ∃ p : Text, (∀ c ∈ p, PrintCh c) ∧
    (ensureOctets s = octetsOf p ∨ ∃ tail, ensureOctets s = octetsOf p ++ 0 :: tail) := by
  induction s with
  | nil => exact ⟨[], by simp, .inr ⟨[], rfl⟩⟩
  | cons c cs ih =>
    simp only [ensureOctets]
    cases he : Utf8.encodeCharacter (BitVec.ofNat 32 c) with
    | none => exact ⟨[], by simp, .inl rfl⟩
    | some e =>
      have hsc : Spec.Utf8.IsScalar (BitVec.ofNat 32 c).toNat := by
        rcases Classical.em (Spec.Utf8.IsScalar (BitVec.ofNat 32 c).toNat) with h | h
        · exact h
        · rw [Utf8.encode_refuses _ h] at he; cases he
      by_cases h0 : (BitVec.ofNat 32 c).toNat = 0
      · refine ⟨[], by simp, .inr ⟨ensureOctets cs, ?_⟩⟩
        have h00 : BitVec.ofNat 32 c = 0#32 := BitVec.eq_of_toNat_eq (by simpa using h0)
        rw [h00] at he
        have : e.toList = [0] := by
          have h1 : Utf8.encodeCharacter (0#32) = some e := he
          have h2 : (Utf8.encodeCharacter (0#32)).map (·.toList) = some [0] := by decide
          rw [h1] at h2; simpa using h2
        simp [this, octetsOf]
      · obtain ⟨p, hp, hcase⟩ := ih
        refine ⟨(BitVec.ofNat 32 c).toNat :: p, ?_, ?_⟩
        · intro x hx
          rcases List.mem_cons.1 hx with rfl | hx
          · exact ⟨hsc, h0⟩
          · exact hp x hx
        · have hh : BitVec.ofNat 32 (BitVec.ofNat 32 c).toNat = BitVec.ofNat 32 c := by
            rw [BitVec.ofNat_toNat]; simp
          have ho : octetsOf ((BitVec.ofNat 32 c).toNat :: p) = e.toList ++ octetsOf p := by
            rw [octetsOf, hh, he]
          rw [ho]
          rcases hcase with h | ⟨tail, h⟩
          · exact .inl (by simp [h])
          · exact .inr ⟨tail, by simp [h]⟩

theorem takeWhile_stop (l tail : List Utf8.Octet) (h : ∀ o ∈ l, o ≠ 0) :
    (l ++ 0 :: tail).takeWhile (· ≠ 0) = l := by
  induction l with
  | nil => simp
  | cons a l ih =>
    have ha := h a (by simp)
    simp at ha
    simp [ha, ih (fun o ho => h o (by simp [ho]))]
    simpa using ih (fun o ho => h o (by simp [ho]))

theorem getCString_shape (s : Text) (o : List Utf8.Octet) (h : getCString s = some o) :
    ∃ p : Text, (∀ c ∈ p, PrintCh c) ∧ o = octetsOf p := by
  obtain ⟨p, hp, hcase⟩ := ensureOctets_shape s
  unfold getCString at h
  simp only at h
  split at h
  · simp at h; exact ⟨[], by simp, by rw [h]; rfl⟩
  · next hne =>
    split at h
    · next hlast =>
      simp at h
      rcases hcase with hc | ⟨tail, hc⟩
      · exfalso
        rw [hc] at hlast
        have := List.mem_of_getLast? hlast
        exact octetsOf_ne_zero p hp 0 this rfl
      · refine ⟨p, hp, ?_⟩
        rw [← h, hc]
        have := takeWhile_stop (octetsOf p) tail (octetsOf_ne_zero p hp)
        simpa using this
    · simp at h

theorem recode_clean (s s' : Text) (h : recode s = some s') : ∀ c ∈ s', PrintCh c := by
  unfold recode at h
  cases hg : getCString s with
  | none => simp [hg] at h
  | some o =>
    obtain ⟨p, hp, rfl⟩ := getCString_shape s o hg
    simp only [hg, Option.bind_eq_bind, Option.bind_some, stringNewVerified, fromBuffer_octets p hp,
      map_back p hp] at h
    simp at h; subst h; exact hp

theorem textToken_clean {f : Text → Token} {s : Text} {k : Token} (h : textToken f s = .tok k) :
    ∃ s', k = f s' ∧ ∀ c ∈ s', PrintCh c := by
  unfold textToken at h
  split at h
  · simp at h
  · next s' hs => simp at h; exact ⟨s', h.symm, recode_clean s s' hs⟩

/-- the token holds no unprintable text -/
def Token.clean : Token → Prop
  | .string s => ∀ c ∈ s, PrintCh c
  | .character s => ∀ c ∈ s, PrintCh c
  | .symbol s => ∀ c ∈ s, PrintCh c
  | _ => True

def LexOut.clean : LexOut → Prop
  | .tok k => k.clean
  | _ => True

theorem textToken_clean' {f : Text → Token} (hf : ∀ s, (∀ c ∈ s, PrintCh c) → (f s).clean) (s : Text) :
    (textToken f s).clean := by
  cases h : textToken f s with
  | tok k => obtain ⟨s', rfl, h'⟩ := textToken_clean h; exact hf s' h'
  | null => trivial
  | abort => trivial
  | ub => trivial

theorem charToken_clean (s : Text) : (charToken s).clean := by
  have hf : ∀ s, (∀ c ∈ s, PrintCh c) → (Token.character s).clean := fun s h => h
  unfold charToken
  (repeat' split) <;> first | exact textToken_clean' hf _ | trivial

theorem stringEnd_clean (ct : Ctype) (s t : Text) : (stringEnd ct s t).1.clean := by
  have hf : ∀ s, (∀ c ∈ s, PrintCh c) → (Token.string s).clean := fun s h => h
  unfold stringEnd
  (repeat' split) <;> first | exact textToken_clean' hf _ | trivial

theorem stringLoop_clean (ct : Ctype) : ∀ (n : Nat) (acc t : Text), (stringLoop ct n acc t).1.clean := by
  intro n
  induction n with
  | zero => intro acc t; trivial
  | succ n ih =>
    intro acc t
    rw [stringLoop.eq_def]
    simp only
    (repeat' split) <;> first | exact ih _ _ | exact stringEnd_clean _ _ _ | trivial

theorem popCharacter_clean (t : Text) : (popCharacter t).1.clean := by
  unfold popCharacter
  (repeat' split) <;> first | exact charToken_clean _ | trivial

theorem popSymbol_clean (ct : Ctype) (t : Text) : (popSymbol ct t).1.clean := by
  have hf : ∀ s, (∀ c ∈ s, PrintCh c) → (Token.symbol s).clean := fun s h => h
  unfold popSymbol
  simp only
  (repeat' split) <;> first | exact textToken_clean' hf _ | trivial

theorem expectOctet_err {s : String} {e : List Nat} {t r : Text} {k : Token}
    (h : expectOctet s e t = (.error k, r)) : k.clean := by
  unfold expectOctet at h
  (repeat' split at h) <;> simp at h <;> (rw [← h.1]; trivial)

theorem numFinish_clean (b : Nat) (n : Bool) (s : NumState) : (numFinish b n s).clean := by
  unfold numFinish intLiteral
  simp only
  (repeat' split) <;> trivial

theorem numLoop_clean (ct : Ctype) (b : Nat) (n : Bool) (t : Text) : ∀ (i : Bool) (s : NumState),
    (numLoop ct b n i s t).1.clean := by
  induction t with
  | nil =>
    intro i s; simp only [numLoop]
    split
    · trivial
    · exact numFinish_clean _ _ _
  | cons c cs ih =>
    intro i s
    simp only [numLoop]
    split
    · exact ih _ _
    split
    · split
      · trivial
      split
      · trivial
      · exact ih _ _
    split
    · split
      · next o ho =>
        unfold numDigit at ho
        (repeat' split at ho) <;> simp at ho <;> (rw [← ho]; trivial)
      · exact ih _ _
    split
    · exact numFinish_clean _ _ _
    · trivial

theorem popNumber_clean (ct : Ctype) (t : Text) : (popNumber ct t).1.clean := by
  unfold popNumber
  split
  · next h => exact expectOctet_err h
  · split
    · next h => exact expectOctet_err h
    · split
      · next h => exact expectOctet_err h
      · exact numLoop_clean _ _ _ _ _ _

theorem popSemver_clean (ct : Ctype) (t : Text) : (popSemver ct t).1.clean := by
  unfold popSemver
  (repeat' split) <;> first | trivial | (rename_i h; exact expectOctet_err h)

theorem lex_clean (ct : Ctype) (t : Text) : (lex ct t).1.clean := by
  unfold lex
  split
  · trivial
  · trivial
  · unfold popTokenAt
    (repeat' split) <;> first
      | trivial
      | exact popNumber_clean _ _
      | exact popSemver_clean _ _
      | (unfold popString; (repeat' split) <;> first | exact stringLoop_clean _ _ _ _ | trivial)
      | exact popCharacter_clean _
      | exact popSymbol_clean _ _

theorem textValue_eq (f : Text → Tree) (s : Text) (h : ∀ c ∈ s, PrintCh c) :
    textValue f s = .val (f s) := by
  unfold textValue inputText
  rw [getCString_eq s h]
  simp only [Option.bind_eq_bind, Option.bind_some, fromBuffer_octets s h, Option.map_some,
    map_back s h]

/-- the parser proper never aborts nor runs into undefined behaviour: if parsing does, the lexer
did at some point -/
theorem parseAtom_safe (k : Token) (h : k.clean) (h1 : k ≠ .lparen) (h2 : k ≠ .quote)
    (h3 : k ≠ .backQuote) :
    (∃ v, parseAtom k = .val v) ∨ (∃ m, parseAtom k = .err m) ∨ parseAtom k = .null := by
  cases k <;> simp_all [parseAtom, Token.clean, textValue_eq]

end Dern
