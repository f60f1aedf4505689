import Verif.Dern.Lexer
/- Helper lemmas: what each lexer function leaves unread is a suffix; fuel is enough. -/
namespace Dern

theorem popWhitespace_suffix (ct : Ctype) (t : Text) : popWhitespace ct t <:+ t := by
  induction t with
  | nil => simp [popWhitespace]
  | cons c cs ih =>
    simp only [popWhitespace]; split
    · exact ih.trans (List.suffix_cons c cs)
    · exact List.suffix_refl _

theorem popRestOfLine_suffix (t : Text) : popRestOfLine t <:+ t := by
  induction t with
  | nil => simp [popRestOfLine]
  | cons c cs ih =>
    simp only [popRestOfLine]; split
    · exact List.suffix_cons c cs
    · exact ih.trans (List.suffix_cons c cs)

theorem popRestOfLine_lt (c : Ch) (cs : Text) : (popRestOfLine (c :: cs)).length ≤ cs.length := by
  simp only [popRestOfLine]; split
  · exact Nat.le_refl _
  · exact (popRestOfLine_suffix cs).length_le

theorem multilineLoop_suffix (t : Text) : (multilineLoop t).2 <:+ t := by
  fun_induction multilineLoop t with
  | case1 => simp
  | case2 => simp
  | case3 ds => exact (List.suffix_cons _ _).trans (List.suffix_cons _ _)
  | case4 d ds h ih => exact ih.trans (List.suffix_cons _ _)
  | case5 c cs h ih => exact ih.trans (List.suffix_cons _ _)

theorem expectOctet_suffix (s : String) (e : List Nat) (t : Text) : (expectOctet s e t).2 <:+ t := by
  unfold expectOctet; split
  · simp
  · split
    · exact List.suffix_cons _ _
    · exact List.suffix_refl _

theorem expectOctet_ok_lt {s : String} {e : List Nat} {t r : Text} {c : Ch}
    (h : expectOctet s e t = (.ok c, r)) : r.length < t.length := by
  unfold expectOctet at h; split at h
  · simp at h
  · split at h
    · simp at h; rw [← h.2]; simp
    · simp at h

theorem numLoop_suffix (ct : Ctype) (b : Nat) (n : Bool) (t : Text) : ∀ (i : Bool) (s : NumState),
    (numLoop ct b n i s t).2 <:+ t := by
  induction t with
  | nil => intro i s; simp only [numLoop]; split <;> simp
  | cons c cs ih =>
    intro i s
    simp only [numLoop]
    split
    · exact (ih _ _).trans (List.suffix_cons _ _)
    · split
      · split
        · exact List.suffix_refl _
        · split
          · exact List.suffix_refl _
          · exact (ih _ _).trans (List.suffix_cons _ _)
      · split
        · split
          · exact List.suffix_refl _
          · exact (ih _ _).trans (List.suffix_cons _ _)
        · split
          · exact List.suffix_cons _ _
          · exact List.suffix_refl _

theorem popNumber_suffix (ct : Ctype) (t : Text) : (popNumber ct t).2 <:+ t := by
  unfold popNumber
  have h1 := expectOctet_suffix "Number" [123] t
  split
  · next e t1 he => rw [he] at h1; exact h1
  · next e t1 he =>
    rw [he] at h1
    have h2 := expectOctet_suffix "Number" [88, 68, 79, 66] t1
    split
    · next e t2 he2 => rw [he2] at h2; exact h2.trans h1
    · next e t2 he2 =>
      rw [he2] at h2
      have h3 := expectOctet_suffix "Number" [43, 45] t2
      split
      · next e t3 he3 => rw [he3] at h3; exact h3.trans (h2.trans h1)
      · next e t3 he3 =>
        rw [he3] at h3
        exact (numLoop_suffix _ _ _ _ _ _).trans (h3.trans (h2.trans h1))

/-- `o` is an error token -/
def LexOut.isErr : LexOut → Bool
  | .tok (.error _) => true
  | _ => false

/-- `o` is a token, and not an error token -/
def LexOut.isGoodTok : LexOut → Bool
  | .tok (.error _) => false
  | .tok _ => true
  | _ => false

theorem popNumber_lt (ct : Ctype) (t : Text) (h : (popNumber ct t).1.isGoodTok = true) :
    (popNumber ct t).2.length < t.length := by
  unfold popNumber at h ⊢
  split
  · next e t1 he =>
    rw [he] at h; simp only at h
    unfold expectOctet at he
    split at he <;> (try split at he) <;> simp at he <;> rw [← he.1] at h <;> simp [LexOut.isGoodTok] at h
  · next e t1 he =>
    rw [he] at h; simp only at h
    have h1 := expectOctet_ok_lt he
    split
    · next e t2 he2 =>
      have h2 := (expectOctet_suffix "Number" [88, 68, 79, 66] t1).length_le
      rw [he2] at h2; simp only at h2 ⊢; omega
    · next e t2 he2 =>
      have h2 := (expectOctet_suffix "Number" [88, 68, 79, 66] t1).length_le
      rw [he2] at h2; simp only at h2 ⊢
      have h3 := (expectOctet_suffix "Number" [43, 45] t2).length_le
      split
      · next e t3 he3 => rw [he3] at h3; simp only at h3 ⊢; omega
      · next e t3 he3 =>
        rw [he3] at h3; simp only at h3 ⊢
        exact Nat.lt_of_le_of_lt (Nat.le_trans (numLoop_suffix _ _ _ _ _ _).length_le h3) (by omega)

theorem semverDigits_suffix (ct : Ctype) (t : Text) : ∀ ds, (semverDigits ct ds t).2 <:+ t := by
  induction t with
  | nil => intro ds; simp [semverDigits]
  | cons c cs ih =>
    intro ds; simp only [semverDigits]
    split
    · split
      · exact List.suffix_refl _
      · exact (ih _).trans (List.suffix_cons _ _)
    · exact List.suffix_refl _

theorem semverDigits_ok (ct : Ctype) (t : Text) : ∀ ds ds' r,
    semverDigits ct ds t = (.ok ds', r) → ds'.length + r.length = ds.length + t.length := by
  induction t with
  | nil => intro ds ds' r h; simp [semverDigits] at h; simp [h]
  | cons c cs ih =>
    intro ds ds' r h; simp only [semverDigits] at h
    split at h
    · split at h
      · simp at h
      · have := ih _ _ _ h; simp at this ⊢; omega
    · simp at h; simp [h.1, h.2]

theorem popSemver_suffix (ct : Ctype) (t : Text) : (popSemver ct t).2 <:+ t := by
  unfold popSemver
  have h1 := semverDigits_suffix ct t []
  split
  · next t1 he => rw [he] at h1; exact h1
  · next t1 he => rw [he] at h1; exact h1
  · next d ds t1 he =>
    rw [he] at h1
    have h2 := expectOctet_suffix "SemVer: after major component" [46] t1
    split
    · next e t2 he => rw [he] at h2; exact h2.trans h1
    · next e t2 he =>
      rw [he] at h2
      have h3 := semverDigits_suffix ct t2 []
      split
      · next t3 he => rw [he] at h3; exact h3.trans (h2.trans h1)
      · next t3 he => rw [he] at h3; exact h3.trans (h2.trans h1)
      · next d ds t3 he =>
        rw [he] at h3
        have h4 := expectOctet_suffix "SemVer: after minor component" [46] t3
        split
        · next e t4 he => rw [he] at h4; exact h4.trans (h3.trans (h2.trans h1))
        · next e t4 he =>
          rw [he] at h4
          have h5 := semverDigits_suffix ct t4 []
          split
          · next t5 he => rw [he] at h5; exact h5.trans (h4.trans (h3.trans (h2.trans h1)))
          · next t5 he => rw [he] at h5; exact h5.trans (h4.trans (h3.trans (h2.trans h1)))
          · next d ds t5 he =>
            rw [he] at h5
            split <;> exact h5.trans (h4.trans (h3.trans (h2.trans h1)))

theorem charContent_suffix (t : Text) : (charContent t).2 <:+ t := by
  induction t with
  | nil => simp [charContent]
  | cons c cs ih =>
    simp only [charContent]
    split
    · exact List.suffix_cons _ _
    · split <;> next h => rw [h] at ih; exact ih.trans (List.suffix_cons _ _)

theorem charContent_none (t : Text) (r : Text) (h : charContent t = (none, r)) : r = [] := by
  induction t generalizing r with
  | nil => simp [charContent] at h; exact h.symm ▸ rfl
  | cons c cs ih =>
    simp only [charContent] at h
    split at h
    · simp at h
    · split at h
      · next r' h' => simp at h; exact h ▸ ih _ h'
      · simp at h

theorem popCharacter_suffix (t : Text) : (popCharacter t).2 <:+ t := by
  unfold popCharacter; split
  · simp
  · next c cs =>
    have := charContent_suffix cs
    split
    · split <;> next h => rw [h] at this; exact this.trans (List.suffix_cons _ _)
    · exact List.suffix_refl _

theorem popCharacter_lt (cs : Text) : (popCharacter (124 :: cs)).2.length < (124 :: cs).length := by
  have := (charContent_suffix cs).length_le
  unfold popCharacter
  simp only [if_true]
  split <;> next h => rw [h] at this; simp at this ⊢; omega

theorem popCharacter_good_lt (t : Text) (h : (popCharacter t).1.isGoodTok = true) :
    (popCharacter t).2.length < t.length := by
  cases t with
  | nil => simp [popCharacter, LexOut.isGoodTok] at h
  | cons c cs =>
    by_cases hc : c = 124
    · subst hc; exact popCharacter_lt cs
    · simp [popCharacter, hc, LexOut.isGoodTok] at h

theorem stringEnd_suffix (ct : Ctype) (s t : Text) : (stringEnd ct s t).2 <:+ t := by
  unfold stringEnd; split
  · simp
  · split <;> exact List.suffix_refl _

theorem stringLoop_suffix (ct : Ctype) : ∀ (fuel : Nat) (acc t : Text),
    (stringLoop ct fuel acc t).2 <:+ t := by
  intro fuel
  induction fuel with
  | zero => intro acc t; simp [stringLoop]
  | succ n ih =>
    intro acc t
    simp only [stringLoop]
    split
    · simp
    · next c cs =>
      split
      · exact (stringEnd_suffix _ _ _).trans (List.suffix_cons _ _)
      · split
        · have := popCharacter_suffix (c :: cs)
          split <;> next h => rw [h] at this; first | exact this | exact (ih _ _).trans this
        · exact (ih _ _).trans (List.suffix_cons _ _)

/-- the fuel given is enough: more fuel changes nothing -/
theorem stringLoop_fuel (ct : Ctype) : ∀ (f g : Nat) (acc t : Text),
    t.length < f → t.length < g → stringLoop ct f acc t = stringLoop ct g acc t := by
  intro f
  induction f with
  | zero => intro g acc t h; omega
  | succ n ih =>
    intro g acc t hf hg
    cases g with
    | zero => omega
    | succ m =>
      simp only [stringLoop]
      split
      · rfl
      · next c cs =>
        simp at hf hg
        split
        · rfl
        · split
          · next hc =>
            have := popCharacter_lt cs
            rw [← hc] at this
            split <;> (try rfl)
            next d _ r h =>
              rw [h] at this
              simp at this
              exact ih _ _ _ (by omega) (by omega)
          · exact ih _ _ _ (by omega) (by omega)

theorem popString_suffix (ct : Ctype) (t : Text) : (popString ct t).2 <:+ t := by
  unfold popString; split
  · simp
  · split
    · exact (stringLoop_suffix _ _ _ _).trans (List.suffix_cons _ _)
    · exact List.suffix_refl _

theorem symbolChars_append (ct : Ctype) (t : Text) :
    (symbolChars ct t).1 ++ (symbolChars ct t).2 = t := by
  induction t with
  | nil => simp [symbolChars]
  | cons c cs ih =>
    simp only [symbolChars]; split
    · simp
    · simp [ih]

theorem popSymbol_rest (ct : Ctype) (t : Text) : (popSymbol ct t).2 = (symbolChars ct t).2 := by
  unfold popSymbol; simp only; (repeat' split) <;> rfl

theorem popSymbol_suffix (ct : Ctype) (t : Text) : (popSymbol ct t).2 <:+ t := by
  rw [popSymbol_rest]; exact ⟨_, symbolChars_append ct t⟩

theorem popSymbol_lt (ct : Ctype) (t : Text) (h : (popSymbol ct t).1.isGoodTok = true) :
    (popSymbol ct t).2.length < t.length := by
  rw [popSymbol_rest]
  have hne : (symbolChars ct t).1 ≠ [] := by
    intro he
    simp [popSymbol, he, LexOut.isGoodTok] at h
  have := congrArg List.length (symbolChars_append ct t)
  have h2 := List.length_pos_iff.mpr hne
  simp at this; omega

theorem popTokenAt_suffix (ct : Ctype) (t : Text) : (popTokenAt ct t).2 <:+ t := by
  unfold popTokenAt; split
  · simp
  · have a := popNumber_suffix ct
    have b := popSemver_suffix ct
    have c := popString_suffix ct
    have d := popCharacter_suffix
    have e := popSymbol_suffix ct
    (repeat' split) <;> first | exact List.suffix_cons _ _ | exact a _ | exact b _ | exact c _ | exact d _ | exact e _

theorem stringLoop_good_lt (ct : Ctype) : ∀ (fuel : Nat) (acc t : Text),
    (stringLoop ct fuel acc t).1.isGoodTok = true → (stringLoop ct fuel acc t).2.length < t.length := by
  intro fuel acc t h
  cases t with
  | nil => cases fuel <;> simp [stringLoop, LexOut.isGoodTok] at h
  | cons c cs =>
    cases fuel with
    | zero => simp [stringLoop, LexOut.isGoodTok] at h
    | succ n =>
      simp only [stringLoop] at h ⊢
      split
      · exact Nat.lt_succ_of_le (stringEnd_suffix _ _ _).length_le
      · next h93 =>
        rw [if_neg h93] at h
        split
        · next hc =>
          rw [if_pos hc] at h
          have := popCharacter_lt cs
          rw [← hc] at this
          split <;> next h' => rw [h'] at this; first | exact this | exact Nat.lt_of_le_of_lt (stringLoop_suffix _ _ _ _).length_le this
        · exact Nat.lt_succ_of_le (stringLoop_suffix _ _ _ _).length_le

theorem popSemver_lt (ct : Ctype) (t : Text) (h : (popSemver ct t).1.isGoodTok = true) :
    (popSemver ct t).2.length < t.length := by
  have hs := (popSemver_suffix ct t)
  unfold popSemver at h hs ⊢
  split at h
  · simp [LexOut.isGoodTok] at h
  · simp [LexOut.isGoodTok] at h
  · next d ds t1 he =>
    have h1 := semverDigits_ok ct t _ _ _ he
    simp at h1
    have h2 := expectOctet_suffix "SemVer: after major component" [46] t1
    split at h
    · next e t2 he2 => rw [he2] at h2; have := h2.length_le; simp only at this ⊢; omega
    · next e t2 he2 =>
      have h2' := expectOctet_ok_lt he2
      have h3 := (semverDigits_suffix ct t2 []).length_le
      split
      · next t3 he3 => rw [he3] at h3; simp only at h3 ⊢; omega
      · next t3 he3 => rw [he3] at h3; simp only at h3 ⊢; omega
      · next d ds t3 he3 =>
        rw [he3] at h3
        have h4 := (expectOctet_suffix "SemVer: after minor component" [46] t3).length_le
        simp only at h3
        split
        · next e t4 he => rw [he] at h4; simp only at h4 ⊢; omega
        · next e t4 he =>
          rw [he] at h4
          have h5 := (semverDigits_suffix ct t4 []).length_le
          simp only at h4
          split
          · next t5 he => rw [he] at h5; simp only at h5 ⊢; omega
          · next t5 he => rw [he] at h5; simp only at h5 ⊢; omega
          · next d ds t5 he =>
            rw [he] at h5
            simp only at h5
            split <;> simp only <;> omega

theorem popTokenAt_lt (ct : Ctype) (t : Text) (h : (popTokenAt ct t).1.isGoodTok = true) :
    (popTokenAt ct t).2.length < t.length := by
  unfold popTokenAt at h ⊢
  split
  · simp [LexOut.isGoodTok] at h
  · next c cs =>
    simp only at h
    by_cases h1 : c = 40
    · simp [h1]
    rw [if_neg h1] at h ⊢
    by_cases h2 : c = 41
    · simp [h2]
    rw [if_neg h2] at h ⊢
    by_cases h3 : c = 39
    · simp [h3]
    rw [if_neg h3] at h ⊢
    by_cases h4 : c = 96
    · simp [h4]
    rw [if_neg h4] at h ⊢
    by_cases h5 : c = 123
    · rw [if_pos h5] at h ⊢; exact popNumber_lt ct _ h
    rw [if_neg h5] at h ⊢
    by_cases h6 : 48 ≤ c ∧ c ≤ 57
    · rw [if_pos h6] at h ⊢; exact popSemver_lt ct _ h
    rw [if_neg h6] at h ⊢
    by_cases h7 : c = 91
    · rw [if_pos h7] at h ⊢
      simp only [popString, h7, if_true] at h ⊢
      exact Nat.lt_succ_of_lt (stringLoop_good_lt _ _ _ _ h)
    rw [if_neg h7] at h ⊢
    by_cases h8 : c = 124
    · rw [if_pos h8] at h ⊢; exact popCharacter_good_lt _ h
    rw [if_neg h8] at h ⊢
    exact popSymbol_lt ct _ h

/-! ### trivia -/

theorem skipTriviaFuel_fuel (ct : Ctype) : ∀ (f g : Nat) (t : Text), t.length < f → t.length < g →
    skipTriviaFuel ct f t = skipTriviaFuel ct g t := by
  intro f
  induction f with
  | zero => intro g t h; omega
  | succ n ih =>
    intro g t hf hg
    cases g with
    | zero => omega
    | succ m =>
      simp only [skipTriviaFuel]
      have hw := (popWhitespace_suffix ct t).length_le
      split
      · rfl
      · next c cs hcs =>
        rw [hcs] at hw; simp at hw
        split
        · have := popRestOfLine_lt c cs
          exact ih _ _ (by omega) (by omega)
        · split
          · split
            · next d ds =>
              split
              · have := (multilineLoop_suffix ds).length_le
                split
                · next r h => rw [h] at this; simp at this hw; exact ih _ _ (by omega) (by omega)
                · rfl
              · rfl
            · rfl
          · rfl

theorem skipTriviaFuel_shape (ct : Ctype) : ∀ (f : Nat) (t : Text),
    (∀ u, skipTriviaFuel ct f t = .start u → u <:+ t ∧ u ≠ []) ∧
    (∀ m u, skipTriviaFuel ct f t = .more m u → u <:+ t ∧ u.length < t.length) := by
  intro f
  induction f with
  | zero => intro t; simp [skipTriviaFuel]
  | succ n ih =>
    intro t
    simp only [skipTriviaFuel]
    have hw := popWhitespace_suffix ct t
    split
    · simp
    · next c cs hcs =>
      rw [hcs] at hw
      split
      · have h1 := popRestOfLine_suffix (c :: cs)
        have h2 := popRestOfLine_lt c cs
        have := ih (popRestOfLine (c :: cs))
        refine ⟨fun u hu => ⟨(this.1 u hu).1.trans (h1.trans hw), (this.1 u hu).2⟩, fun m u hu => ?_⟩
        have h3 := this.2 m u hu
        have := h1.length_le
        have := hw.length_le
        exact ⟨h3.1.trans (h1.trans hw), by omega⟩
      · split
        · split
          · next d ds =>
            split
            · have h1 := multilineLoop_suffix ds
              split
              · next r h =>
                rw [h] at h1
                have := ih r
                have h4 : r <:+ t := h1.trans ((List.suffix_cons _ _).trans ((List.suffix_cons _ _).trans hw))
                refine ⟨fun u hu => ⟨(this.1 u hu).1.trans h4, (this.1 u hu).2⟩, fun m u hu => ?_⟩
                have h3 := this.2 m u hu
                have := h4.length_le
                exact ⟨h3.1.trans h4, by omega⟩
              · next m r h =>
                rw [h] at h1
                simp only [reduceCtorEq, false_implies, implies_true, true_and, Trivia.more.injEq]
                rintro m' u ⟨_, rfl⟩
                have h4 : r <:+ d :: ds := h1.trans (List.suffix_cons _ _)
                have h5 := (h4.trans (List.suffix_cons _ _)).trans hw
                have := h1.length_le
                have := hw.length_le
                simp at *
                exact ⟨h5, by omega⟩
            · simp only [Trivia.start.injEq, reduceCtorEq, false_implies, implies_true, and_true]
              rintro u rfl; exact ⟨hw, by simp⟩
          · simp only [Trivia.start.injEq, reduceCtorEq, false_implies, implies_true, and_true]
            rintro u rfl; exact ⟨hw, by simp⟩
        · simp only [Trivia.start.injEq, reduceCtorEq, false_implies, implies_true, and_true]
          rintro u rfl; exact ⟨hw, by simp⟩

theorem lex_suffix (ct : Ctype) (t : Text) : (lex ct t).2 <:+ t := by
  have h := skipTriviaFuel_shape ct (t.length + 1) t
  unfold lex skipTrivia
  split
  · simp
  · next m r he => exact (h.2 m r he).1
  · next u he => exact (popTokenAt_suffix ct u).trans (h.1 u he).1

theorem lex_progress (ct : Ctype) (t : Text) (hg : (lex ct t).1.isGoodTok = true) :
    (lex ct t).2.length < t.length := by
  have h := skipTriviaFuel_shape ct (t.length + 1) t
  unfold lex skipTrivia at hg ⊢
  split
  · next he => rw [he] at hg; simp [LexOut.isGoodTok] at hg
  · next m r he => exact (h.2 m r he).2
  · next u he =>
    rw [he] at hg
    exact Nat.lt_of_lt_of_le (popTokenAt_lt ct u hg) (h.1 u he).1.length_le

end Dern
