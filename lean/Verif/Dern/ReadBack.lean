import Verif.Dern.ParserEq
/- Reading back what was printed. -/
namespace Dern
open Spec.Numeral

/-- `rest` is empty or starts with an ASCII delimiter -/
def Follow (ct : Ctype) (rest : Text) : Prop :=
  rest = [] ∨ ∃ c cs, rest = c :: cs ∧ c < 128 ∧ isDelimiter ct c = true

theorem Follow.delim {ct : Ctype} {rest : Text} (h : Follow ct rest) : DelimStart ct rest := by
  rcases h with h | ⟨c, cs, h, _, hd⟩
  · exact .inl h
  · exact .inr ⟨c, cs, h, hd⟩

theorem semverDigits_body (ct : Ctype) (rest : Text)
    (hr : ∀ c cs, rest = c :: cs → ct.isdigit c = false) : ∀ (s : Text) (ds : List Ch),
    (∀ c ∈ s, ct.isdigit c = true) → ds.length + s.length ≤ 256 →
    semverDigits ct ds (s ++ rest) = (.ok (s.reverse ++ ds), rest) := by
  intro s
  induction s with
  | nil =>
    intro ds _ _
    cases rest with
    | nil => rfl
    | cons c cs => simp [semverDigits, hr c cs rfl]
  | cons c cs ih =>
    intro ds h hl
    simp only [List.length_cons] at hl
    have := ih (c :: ds) (fun x hx => h x (by simp [hx])) (by simp; omega)
    simp [semverDigits, h c (by simp), this, show ¬ 256 ≤ ds.length by omega]

theorem semverValue_dec (n : Nat) (hn : n ≤ 2 ^ 53) : semverValue (decDigits n).reverse = some n := by
  unfold semverValue
  have hall : (decDigits n).reverse.all digitC = true := by
    rw [List.all_eq_true]
    intro c hc
    have := decDigits_digit n c (by simpa using hc)
    simpa [digitC] using this
  rw [if_pos hall]
  have hv : valLE 10 (decDigits n).reverse = n := by
    rw [← value_eq 10 (decDigits n) (fun c h => isDigit10 (decDigits_digit n c h)), value_decDigits]
  have := sumDigits_eq 10 (by decide) (decDigits n).reverse 0 0 (by
    simp only [Nat.zero_add, Nat.pow_zero, Nat.one_mul]; rw [hv]; exact hn)
  simpa [hv] using this

theorem lex_semverLit (ct : Ctype) (hc : ct.C) (a b c : Nat) (ha : a ≤ 2 ^ 53) (hb : b ≤ 2 ^ 53)
    (hcc : c ≤ 2 ^ 53) (rest : Text) (hr : Follow ct rest) :
    lex ct (decDigits a ++ 46 :: decDigits b ++ 46 :: decDigits c ++ rest) =
      (.tok (.semver a b c), rest) := by
  have hdig : ∀ n, ∀ x ∈ decDigits n, ct.isdigit x = true := by
    intro n x hx
    have := decDigits_digit n x hx
    rw [hc.digit x (by comega)]; simpa [digitC] using this
  have h46 : ∀ (t : Text), ∀ x xs, 46 :: t = x :: xs → ct.isdigit x = false := by
    intro t x xs h
    simp only [List.cons.injEq] at h
    rw [← h.1, hc.digit 46 (by decide)]; decide
  have hrest : ∀ x xs, rest = x :: xs → ct.isdigit x = false := by
    rintro x xs rfl
    rcases hr with h | ⟨y, ys, h, hy, hd⟩
    · simp at h
    · simp only [List.cons.injEq] at h
      obtain ⟨rfl, rfl⟩ := h
      rw [hc.digit x hy]
      unfold isDelimiter at hd
      rw [hc.space x hy] at hd
      unfold spaceC at hd; unfold digitC
      simp at hd ⊢; comega
  have hlen : ∀ n, n ≤ 2 ^ 53 → (decDigits n).length ≤ 256 := fun n hn =>
    Nat.le_trans (decDigits_length n 15 (by omega)) (by omega)
  have e1 : decDigits a ++ 46 :: decDigits b ++ 46 :: decDigits c ++ rest
      = decDigits a ++ (46 :: (decDigits b ++ (46 :: (decDigits c ++ rest)))) := by simp
  rw [e1]
  have s1 := semverDigits_body ct (46 :: (decDigits b ++ (46 :: (decDigits c ++ rest)))) (h46 _)
    (decDigits a) [] (hdig a) (by simpa using hlen a ha)
  have s2 := semverDigits_body ct (46 :: (decDigits c ++ rest)) (h46 _)
    (decDigits b) [] (hdig b) (by simpa using hlen b hb)
  have s3 := semverDigits_body ct rest hrest (decDigits c) [] (hdig c) (by simpa using hlen c hcc)
  simp only [List.append_nil] at s1 s2 s3
  have shape : ∀ n, ∃ d ds, (decDigits n).reverse = d :: ds := by
    intro n
    cases h : (decDigits n).reverse with
    | nil => simp at h; exact absurd h (decDigits_ne_nil n)
    | cons d ds => exact ⟨d, ds, rfl⟩
  obtain ⟨d1, ds1, r1⟩ := shape a
  obtain ⟨d2, ds2, r2⟩ := shape b
  obtain ⟨d3, ds3, r3⟩ := shape c
  have v1 := semverValue_dec a ha
  have v2 := semverValue_dec b hb
  have v3 := semverValue_dec c hcc
  rw [r1] at s1 v1; rw [r2] at s2 v2; rw [r3] at s3 v3
  have hps : popSemver ct (decDigits a ++ (46 :: (decDigits b ++ (46 :: (decDigits c ++ rest)))))
      = (.tok (.semver a b c), rest) := by
    unfold popSemver
    rw [s1]
    simp only [expectOctet, strchr, List.contains, List.elem, Nat.reduceMod, beq_self_eq_true,
      Bool.true_or, if_true, s2, s3, v1, v2, v3]
  cases hd : decDigits a with
  | nil => exact absurd hd (decDigits_ne_nil a)
  | cons x xs =>
    have hx := decDigits_digit a x (by simp [hd])
    rw [hd] at hps
    rw [List.cons_append] at hps ⊢
    rw [lex_start ct _ _ (digit_notspace ct hc hx) (by comega) (by comega)]
    unfold popTokenAt
    simp only
    rw [if_neg (by comega), if_neg (by comega), if_neg (by comega), if_neg (by comega),
      if_neg (by comega), if_pos hx]
    exact hps

/-- Trees whose atoms can be read back. -/
inductive Readable (ct : Ctype) (g : RealLit → Text) : Tree → Prop
  | nil : Readable ct g .nil
  | bool (b) : Readable ct g (.bool b)
  | int (i) : -2 ^ 31 < i → i < 2 ^ 31 → Readable ct g (.int i)
  | real (r) (s) : printTree g (.real r) = some s → (∀ c ∈ s, PrintCh c) →
      (∀ rest, lex ct (s ++ rest) = (.tok (.real r), rest)) → Readable ct g (.real r)
  | str (s) : (∀ c ∈ s, PrintCh c) → ']'.toNat ∉ s → '|'.toNat ∉ s → Readable ct g (.str s)
  | chr (c) : PrintCh c → Readable ct g (.chr [c])
  | sym (s) : SymbolName ct s → Readable ct g (.sym s)
  | semver (a b c) : a ≤ 2 ^ 53 → b ≤ 2 ^ 53 → c ≤ 2 ^ 53 → Readable ct g (.semver a b c)
  | vec (es) : (∀ e ∈ es, Readable ct g e) → Readable ct g (.vec es)

/-- the printed form of `t` is printable text, and parsing it gives `t` -/
def ReadsBack (ct : Ctype) (g : RealLit → Text) (t : Tree) : Prop :=
  ∃ s, printTree g t = some s ∧ (∀ c ∈ s, PrintCh c) ∧
    ∀ rest, Follow ct rest → parse ct (s ++ rest) = (.val t, rest)

theorem parse_atom {ct : Ctype} {t r : Text} {k : Token} {v : Tree} (h : lex ct t = (.tok k, r))
    (h1 : k ≠ .lparen) (h2 : k ≠ .quote) (h3 : k ≠ .backQuote) (hv : parseAtom k = .val v) :
    parse ct t = (.val v, r) := by
  rw [parse_eq, h]; simp only
  rw [parseK_eq]
  cases k <;> simp_all

theorem printable_txt (s : String) (h : (txt s).all (fun c => decide (0 < c) && decide (c < 128)) = true) :
    ∀ c ∈ txt s, PrintCh c := by
  intro c hc
  have := List.all_eq_true.1 h c hc
  simp at this
  exact printCh_of_lt (by comega) (by comega)

theorem printable_dec (n : Nat) : ∀ c ∈ decDigits n, PrintCh c := by
  intro c h
  have := decDigits_digit n c h
  exact printCh_of_lt (by comega) (by comega)

theorem all_append {p : Ch → Prop} {s t : Text} (h1 : ∀ c ∈ s, p c) (h2 : ∀ c ∈ t, p c) :
    ∀ c ∈ s ++ t, p c := by
  intro c h
  rcases List.mem_append.1 h with h | h
  · exact h1 c h
  · exact h2 c h

theorem all_cons {p : Ch → Prop} {x : Ch} {t : Text} (h1 : p x) (h2 : ∀ c ∈ t, p c) :
    ∀ c ∈ x :: t, p c := by
  intro c h
  rcases List.mem_cons.1 h with h | h
  · exact h ▸ h1
  · exact h2 c h

theorem word_symbolChars (ct : Ctype) (hc : ct.C) (s rest : Text) (hr : Follow ct rest)
    (h : s.all (fun c => decide (c < 128) && !isDelimiter asciiCtype c) = true) :
    symbolChars ct (s ++ rest) = (s, rest) := by
  apply symbolChars_body ct s rest _ hr.delim
  intro c hcm
  have := List.all_eq_true.1 h c hcm
  simp at this
  have e : isDelimiter ct c = isDelimiter asciiCtype c := by
    unfold isDelimiter; rw [hc.space c this.1]; rfl
  rw [e]; exact this.2

theorem lex_word (ct : Ctype) (hc : ct.C) (c : Ch) (s rest : Text) (hr : Follow ct rest)
    (h : (c :: s).all (fun c => decide (c < 128) && !isDelimiter asciiCtype c) = true)
    (h97 : 97 ≤ c ∧ c ≤ 122) :
    lex ct (c :: s ++ rest) = popSymbol ct (c :: s ++ rest) := by
  have hsp : ct.isspace c = false := by
    rw [hc.space c (by comega)]; unfold spaceC; simp; comega
  rw [List.cons_append, lex_start ct _ _ hsp (by comega) (by comega)]
  unfold popTokenAt
  simp only
  rw [if_neg (by comega), if_neg (by comega), if_neg (by comega), if_neg (by comega),
      if_neg (by comega), if_neg (by comega), if_neg (by comega), if_neg (by comega)]

theorem delim32 (ct : Ctype) (hc : ct.C) : isDelimiter ct 32 = true := by
  unfold isDelimiter; rw [hc.space 32 (by decide)]; decide

theorem delim41 (ct : Ctype) : isDelimiter ct 41 = true := by
  unfold isDelimiter; simp

theorem parseL_rparen (ct : Ctype) (hc : ct.C) (acc : List Tree) (rest : Text) :
    parseL ct acc (41 :: rest) = (.val (.vec acc), rest) := by
  have h : lex ct (41 :: rest) = (.tok .rparen, rest) := by
    rw [lex_start ct 41 _ (by rw [hc.space 41 (by decide)]; decide) (by decide) (by decide)]
    simp [popTokenAt]
  rw [parseL_eq, h]

theorem parseL_space (ct : Ctype) (hc : ct.C) (acc : List Tree) (t : Text) :
    parseL ct acc (32 :: t) = parseL ct acc t := by
  rw [parseL_eq, lex_space ct 32 t (by rw [hc.space 32 (by decide)]; decide), ← parseL_eq]

theorem fmtS_id (s : Text) (h : ∀ c ∈ s, PrintCh c) : fmtS [] s [] = some s := by
  rw [fmtS_eq [] s [] (by simp) h (by simp)]; simp

theorem readsBack_list (ct : Ctype) (hc : ct.C) (g : RealLit → Text) : ∀ (es : List Tree),
    (∀ e ∈ es, ReadsBack ct g e) →
    ∃ s, printTrees g es = some s ∧ (∀ c ∈ s, PrintCh c) ∧
      ∀ acc rest, parseL ct acc (s ++ 41 :: rest) = (.val (.vec (acc ++ es)), rest) := by
  intro es
  induction es with
  | nil =>
    intro _
    refine ⟨[], by rw [printTrees], by simp, ?_⟩
    intro acc rest
    rw [List.nil_append, parseL_rparen ct hc, List.append_nil]
  | cons e es ih =>
    intro h
    obtain ⟨s1, p1, c1, r1⟩ := h e (by simp)
    obtain ⟨s2, p2, c2, r2⟩ := ih (fun x hx => h x (by simp [hx]))
    cases es with
    | nil =>
      refine ⟨s1, by simp [printTrees, p1, fmtS_id s1 c1], c1, ?_⟩
      intro acc rest
      have := r1 (41 :: rest) (.inr ⟨41, rest, rfl, by decide, delim41 ct⟩)
      rw [parseL_step ct acc _ _ _ this, parseL_rparen ct hc]
    | cons u us =>
      refine ⟨s1 ++ 32 :: s2, by simp [printTrees, p1, fmtS_id s1 c1, p2], ?_, ?_⟩
      · exact all_append c1 (all_cons (printCh_of_lt (by decide) (by decide)) c2)
      · intro acc rest
        have := r1 (32 :: (s2 ++ 41 :: rest)) (.inr ⟨32, _, rfl, by decide, delim32 ct hc⟩)
        have e : s1 ++ 32 :: s2 ++ 41 :: rest = s1 ++ 32 :: (s2 ++ 41 :: rest) := by simp
        rw [e, parseL_step ct acc _ _ _ this, parseL_space ct hc, r2]
        simp

theorem readsBack (ct : Ctype) (hc : ct.C) (g : RealLit → Text) (t : Tree) (h : Readable ct g t) :
    ReadsBack ct g t := by
  induction h with
  | nil =>
    refine ⟨txt "nil", by rw [printTree], printable_txt _ (by decide), ?_⟩
    intro rest hr
    have e : lex ct (txt "nil" ++ rest) = (.tok .nil_, rest) := by
      have := lex_word ct hc 110 (txt "il") rest hr (by decide) (by decide)
      rw [show txt "nil" = 110 :: txt "il" from by decide, this]
      unfold popSymbol
      rw [word_symbolChars ct hc _ rest hr (by decide)]
      rfl
    exact parse_atom e (by simp) (by simp) (by simp) rfl
  | bool b =>
    cases b with
    | true =>
      refine ⟨txt "true", by rw [printTree]; simp, printable_txt _ (by decide), ?_⟩
      intro rest hr
      have e : lex ct (txt "true" ++ rest) = (.tok .true_, rest) := by
        have := lex_word ct hc 116 (txt "rue") rest hr (by decide) (by decide)
        rw [show txt "true" = 116 :: txt "rue" from by decide, this]
        unfold popSymbol
        rw [word_symbolChars ct hc _ rest hr (by decide)]
        rfl
      exact parse_atom e (by simp) (by simp) (by simp) rfl
    | false =>
      refine ⟨txt "false", by rw [printTree]; simp, printable_txt _ (by decide), ?_⟩
      intro rest hr
      have e : lex ct (txt "false" ++ rest) = (.tok .false_, rest) := by
        have := lex_word ct hc 102 (txt "alse") rest hr (by decide) (by decide)
        rw [show txt "false" = 102 :: txt "alse" from by decide, this]
        unfold popSymbol
        rw [word_symbolChars ct hc _ rest hr (by decide)]
        rfl
      exact parse_atom e (by simp) (by simp) (by simp) rfl
  | int i h1 h2 =>
    refine ⟨_, by rw [printTree], ?_, ?_⟩
    · refine all_append (all_append ?_ ?_) (printable_txt _ (by decide))
      · split
        · exact printable_txt _ (by decide)
        · exact printable_txt _ (by decide)
      · unfold printInt
        split
        · exact all_cons (printCh_of_lt (by decide) (by decide)) (printable_dec _)
        · exact printable_dec _
    · intro rest _
      exact parse_atom (lex_printInt ct hc i (by omega) (by omega) rest) (by simp) (by simp) (by simp) rfl
  | real r s hp hcl hl =>
    exact ⟨s, hp, hcl, fun rest _ => parse_atom (hl rest) (by simp) (by simp) (by simp) rfl⟩
  | str s hs h1 h2 =>
    refine ⟨91 :: s ++ [93], ?_, ?_, ?_⟩
    · rw [printTree, fmtS_eq _ s _ (printable_txt _ (by decide)) hs (printable_txt _ (by decide))]
      simp [txt]
    · exact all_append (all_cons (printCh_of_lt (by decide) (by decide)) hs)
        (all_cons (printCh_of_lt (by decide) (by decide)) (by simp))
    · intro rest hr
      have := lex_stringLit ct hc s rest hs h1 h2 hr.delim
      have e : 91 :: s ++ [93] ++ rest = 91 :: s ++ 93 :: rest := by simp
      rw [e]
      exact parse_atom this (by simp) (by simp) (by simp) (textValue_eq _ s hs)
  | chr c hcl =>
    have fin : ∀ (s : Text), 124 ∉ s → charToken s = .tok (.character [c]) → ∀ rest,
        parse ct (124 :: s ++ [124] ++ rest) = (.val (.chr [c]), rest) := by
      intro s hs he rest
      have := lex_charLit ct hc s rest hs
      rw [he] at this
      have e : 124 :: s ++ [124] ++ rest = 124 :: s ++ 124 :: rest := by simp
      rw [e]
      exact parse_atom this (by simp) (by simp) (by simp) (textValue_eq _ [c] (by simpa using hcl))
    by_cases h1 : c = 124
    · subst h1
      exact ⟨txt "|bar|", by rw [printTree]; rfl, printable_txt _ (by decide),
        fun rest _ => fin (txt "bar") (by decide) rfl rest⟩
    by_cases h2 : c = 10
    · subst h2
      exact ⟨txt "|newline|", by rw [printTree]; rfl, printable_txt _ (by decide),
        fun rest _ => fin (txt "newline") (by decide) rfl rest⟩
    by_cases h3 : c = 9
    · subst h3
      exact ⟨txt "|tab|", by rw [printTree]; rfl, printable_txt _ (by decide),
        fun rest _ => fin (txt "tab") (by decide) rfl rest⟩
    refine ⟨124 :: [c] ++ [124], ?_, ?_, fun rest _ => fin [c] ?_ (charToken_one c hcl) rest⟩
    · rw [printTree]
      simp only [isCString1, beq_iff_eq, List.cons.injEq, and_true, if_neg h1, if_neg h2, if_neg h3]
      rw [fmtS_eq _ [c] _ (printable_txt _ (by decide)) (by simpa using hcl) (printable_txt _ (by decide))]
      simp [txt]
    · exact all_cons (printCh_of_lt (by decide) (by decide)) (all_cons hcl
        (all_cons (printCh_of_lt (by decide) (by decide)) (by simp)))
    · simp; exact fun e => h1 e.symm
  | sym s h =>
    refine ⟨s, by rw [printTree]; exact fmtS_id s h.printable, h.printable, ?_⟩
    intro rest hr
    exact parse_atom (lex_symbol ct hc s rest h hr.delim) (by simp) (by simp) (by simp)
      (textValue_eq _ s h.printable)
  | semver a b c ha hb hcc =>
    refine ⟨_, by rw [printTree], ?_, ?_⟩
    · exact all_append (all_append (printable_dec a) (all_cons (printCh_of_lt (by decide) (by decide))
        (printable_dec b))) (all_cons (printCh_of_lt (by decide) (by decide)) (printable_dec c))
    · intro rest hr
      exact parse_atom (lex_semverLit ct hc a b c ha hb hcc rest hr) (by simp) (by simp) (by simp) rfl
  | vec es _ ih =>
    obtain ⟨s, p, cl, r⟩ := readsBack_list ct hc g es ih
    refine ⟨40 :: s ++ [41], by simp [printTree, p], ?_, ?_⟩
    · exact all_append (all_cons (printCh_of_lt (by decide) (by decide)) cl)
        (all_cons (printCh_of_lt (by decide) (by decide)) (by simp))
    · intro rest _
      have hl : lex ct (40 :: (s ++ 41 :: rest)) = (.tok .lparen, s ++ 41 :: rest) := by
        rw [lex_start ct 40 _ (by rw [hc.space 40 (by decide)]; decide) (by decide) (by decide)]
        simp [popTokenAt]
      have e : 40 :: s ++ [41] ++ rest = 40 :: (s ++ 41 :: rest) := by simp
      rw [e, parse_eq, hl]
      simp only
      rw [parseK_eq]
      simp only
      rw [r]; simp

end Dern
