import Verif.Dern.TokenText
import Verif.Dern.PrintLemmas
import Verif.Props.C77
/-
C81: when tokens are equal, and that the text of a token identifies it.
-/
namespace Dern.Props
open Dern Dern.TokenText
open Dern.Spec (beforeNul)
variable {Real : Type}

/-! ### Specification -/

/-- the same kind of token with the same value; reals are the same if neither is less -/
def SameContent (same : Real → Real → Prop) : Content Real → Content Real → Prop
  | .real x, .real y => same x y
  | a, b => a = b

/-- the same kind of token with the same value at the same place -/
def SameToken (same : Real → Real → Prop) (a b : PlacedToken Real) : Prop :=
  a.line = b.line ∧ a.column = b.column ∧ a.ucsIndex = b.ucsIndex ∧ SameContent same a.content b.content

/-- texts without NUL, and characters that are one character -/
def ContentFits : Content Real → Prop
  | .string s | .symbol s | .error s | .comment s | .moreInput s => ∀ c ∈ s, c ≠ 0
  | .character s => ∃ c, s = [c] ∧ c ≠ 0
  | _ => True

/-! ### Proofs -/

theorem c81_place_aux {a b : Place} : placeIsEqual a b = true ↔ a = b := by
  obtain ⟨x, y⟩ := a
  obtain ⟨z, w⟩ := b
  simp [placeIsEqual]

theorem c81_content_aux (le : Real → Real → Bool) {a b : Content Real} :
    (tag a = tag b ∧ contentIsEqual le a b = true) ↔ SameContent (fun x y => le y x = true ∧ le x y = true) a b := by
  cases a <;> cases b <;> simp [tag, contentIsEqual, SameContent, stringIsEqual_iff, and_assoc]

theorem c81_isEqual_aux (le : Real → Real → Bool) (a b : PlacedToken Real) :
    isEqual le a b = true ↔ placeIsEqual a.line b.line = true ∧ placeIsEqual a.column b.column = true ∧ placeIsEqual a.ucsIndex b.ucsIndex = true ∧
      tag a.content = tag b.content ∧ contentIsEqual le a.content b.content = true := by
  unfold isEqual
  cases placeIsEqual a.line b.line <;> cases placeIsEqual a.column b.column <;> cases placeIsEqual a.ucsIndex b.ucsIndex <;> simp

theorem c81_cut_aux (p : Ch → Prop) : ∀ {s s' x y : Text} {c d : Ch}, (∀ a ∈ s, p a) → (∀ a ∈ s', p a) → ¬ p c → ¬ p d → s ++ c :: x = s' ++ d :: y →
    s = s' ∧ c :: x = d :: y
  | [], [], _, _, _, _, _, _, _, _, h => ⟨rfl, h⟩
  | [], a :: s', _, _, _, _, _, h2, hc, _, h => by
    simp only [List.nil_append, List.cons_append, List.cons.injEq] at h
    exact absurd (h2 a (.head _)) (h.1 ▸ hc)
  | a :: s, [], _, _, _, _, h1, _, _, hd, h => by
    simp only [List.nil_append, List.cons_append, List.cons.injEq] at h
    exact absurd (h1 a (.head _)) (h.1 ▸ hd)
  | a :: s, b :: s', _, _, _, _, h1, h2, hc, hd, h => by
    simp only [List.cons_append, List.cons.injEq] at h
    obtain ⟨e1, e2⟩ := c81_cut_aux p (fun x hx => h1 x (.tail _ hx)) (fun x hx => h2 x (.tail _ hx)) hc hd h.2
    exact ⟨by rw [h.1, e1], e2⟩

theorem c81_dec_inj_aux {m n : Nat} (h : decDigits m = decDigits n) : m = n := by
  rw [← value_decDigits m, h, value_decDigits n]

theorem c81_dec_aux {m n : Nat} {x y : Text} {c d : Ch} (hc : c < 48) (hd : d < 48) (h : decDigits m ++ c :: x = decDigits n ++ d :: y) :
    m = n ∧ c :: x = d :: y := by
  obtain ⟨h1, h2⟩ := c81_cut_aux (fun a => 48 ≤ a) (fun a ha => (decDigits_digit m a ha).1) (fun a ha => (decDigits_digit n a ha).1)
    (Nat.not_le_of_lt hc) (Nat.not_le_of_lt hd) h
  exact ⟨c81_dec_inj_aux h1, h2⟩

theorem c81_dec_cut_aux {p : Text} (hp : p ≠ [] ∧ ∀ c ∈ p.take 1, c < 48) {m n : Nat} {x y : Text} (h : decDigits m ++ (p ++ x) = decDigits n ++ (p ++ y)) :
    m = n ∧ x = y := by
  obtain ⟨h1, h2⟩ := hp
  cases p with
  | nil => exact absurd rfl h1
  | cons c p =>
    have hc := h2 c (by simp)
    obtain ⟨k1, k2⟩ := c81_dec_aux hc hc h
    exact ⟨k1, List.append_cancel_left (List.cons.inj k2).2⟩

theorem c81_int_aux {i j : Int} (h : printInt i = printInt j) : i = j := by
  have neg : ∀ {m n : Nat}, 45 :: decDigits m = decDigits n → False := fun {m n} e => by
    have := (decDigits_digit n 45 (e ▸ .head _)).1
    revert this; decide
  unfold printInt at h
  split at h <;> split at h
  · simp only [List.cons.injEq, true_and] at h
    have := c81_dec_inj_aux h; omega
  · exact (neg h).elim
  · exact (neg h.symm).elim
  · have := c81_dec_inj_aux h; omega

theorem c81_names_aux : (∀ n ∈ tagNames, ∀ c ∈ n, c ≠ 32) ∧ ∀ i < 16, ∀ j < 16, tagNames.getD i [] = tagNames.getD j [] → i = j := by
  decide +kernel

theorem c81_tag_aux (c : Content Real) : tag c < 16 := by cases c <;> simp [tag]

theorem c81_name_aux (c : Content Real) : ∀ x ∈ tagNames.getD (tag c) [], x ≠ 32 := by
  have h : tag c < tagNames.length := c81_tag_aux c
  rw [List.getD_eq_getElem?_getD, List.getElem?_eq_getElem h]
  exact c81_names_aux.1 _ (List.getElem_mem h)

/-- the text of a character between bars -/
def c81Char (s : Text) : Text :=
  if s = txt "|" then txt "bar" else if s = txt "\n" then txt "newline" else if s = txt "\t" then txt "tab" else if s = txt "[" then txt "string-start"
  else if s = txt "]" then txt "string-end" else beforeNul s

theorem c81_char_text_aux (shows : Real → Text) (s : Text) : contentText shows (.character s) = txt "|" ++ c81Char s ++ txt "|" := by
  unfold c81Char
  simp only [contentText]
  split
  · decide
  · split
    · decide
    · split
      · decide
      · split
        · decide
        · split
          · decide
          · rfl

theorem c81_char_aux {s t : Text} (hs : ∃ c, s = [c] ∧ c ≠ 0) (ht : ∃ c, t = [c] ∧ c ≠ 0) (h : c81Char s = c81Char t) : s = t := by
  obtain ⟨c, rfl, hc⟩ := hs
  obtain ⟨d, rfl, hd⟩ := ht
  have ec : beforeNul [c] = [c] := c77_before_aux (by simpa using hc)
  have ed : beforeNul [d] = [d] := c77_before_aux (by simpa using hd)
  unfold c81Char at h
  rw [ec, ed] at h
  repeat' split at h
  all_goals first
    | (rename_i x y; rw [x, y]; done)
    | simp_all [txt]

theorem c81_contentText_aux (shows : Real → Text) {a b : Content Real} (ha : ContentFits a) (hb : ContentFits b) (ht : tag a = tag b) :
    contentText shows a = contentText shows b ↔ SameContent (fun x y => shows x = shows y) a b := by
  cases a <;> cases b <;> first
    | (simp only [tag] at ht; omega)
    | simp only [SameContent, contentText]
    | skip
  case integer i j =>
    simp only [SameContent, contentText, List.append_cancel_left_eq, Content.integer.injEq]
    exact ⟨c81_int_aux, fun e => by rw [e]⟩
  case real x y => simp only [List.append_cancel_left_eq]
  case string s t => simp only [c77_before_aux ha, c77_before_aux hb, List.append_cancel_left_eq, List.append_cancel_right_eq, Content.string.injEq]
  case character s t =>
    show contentText shows (.character s) = contentText shows (.character t) ↔ _
    rw [c81_char_text_aux, c81_char_text_aux]
    simp only [SameContent, List.append_cancel_left_eq, List.append_cancel_right_eq, Content.character.injEq]
    exact ⟨c81_char_aux ha hb, fun e => by rw [e]⟩
  case symbol s t => simp only [c77_before_aux ha, c77_before_aux hb, Content.symbol.injEq]
  case error s t => simp only [c77_before_aux ha, c77_before_aux hb, List.append_cancel_left_eq, Content.error.injEq]
  case moreInput s t => simp only [c77_before_aux ha, c77_before_aux hb, List.append_cancel_left_eq, Content.moreInput.injEq]
  case comment s t => simp only [c77_before_aux ha, c77_before_aux hb, Content.comment.injEq]
  case semver m n o p q r =>
    simp only [Content.semver.injEq]
    constructor
    · intro h
      simp only [List.append_assoc] at h
      obtain ⟨e1, h1⟩ := c81_dec_cut_aux (by decide) h
      obtain ⟨e2, h2⟩ := c81_dec_cut_aux (by decide) h1
      exact ⟨e1, e2, c81_dec_inj_aux h2⟩
    · rintro ⟨rfl, rfl, rfl⟩; rfl

theorem c81_text_aux (shows : Real → Text) (a b : PlacedToken Real) : toText shows a = toText shows b ↔
    a.line = b.line ∧ a.column = b.column ∧ a.ucsIndex = b.ucsIndex ∧ tag a.content = tag b.content ∧ contentText shows a.content = contentText shows b.content := by
  constructor
  · intro h
    obtain ⟨⟨l1, l2⟩, ⟨c1, c2⟩, ⟨u1, u2⟩, x⟩ := a
    obtain ⟨⟨l3, l4⟩, ⟨c3, c4⟩, ⟨u3, u4⟩, y⟩ := b
    simp only [toText, List.append_assoc] at h
    obtain ⟨e1, h1⟩ := c81_dec_cut_aux (by decide) (List.append_cancel_left h)
    obtain ⟨e2, h2⟩ := c81_dec_cut_aux (by decide) h1
    obtain ⟨e3, h3⟩ := c81_dec_cut_aux (by decide) h2
    obtain ⟨e4, h4⟩ := c81_dec_cut_aux (by decide) h3
    obtain ⟨e5, h5⟩ := c81_dec_cut_aux (by decide) h4
    obtain ⟨e6, h6⟩ := c81_dec_cut_aux (by decide) h5
    obtain ⟨e, h7⟩ := c81_cut_aux (fun c => c ≠ 32) (c := 32) (d := 32) (c81_name_aux x) (c81_name_aux y) (by decide) (by decide) h6
    have h8 := List.append_cancel_left (as := txt " value=") h7
    subst e1 e2 e3 e4 e5 e6
    exact ⟨rfl, rfl, rfl, c81_names_aux.2 _ (c81_tag_aux x) _ (c81_tag_aux y) e, h8⟩
  · rintro ⟨h1, h2, h3, h4, h5⟩
    simp only [toText, h1, h2, h3, h4, h5]

theorem c81_same_tag_aux {same : Real → Real → Prop} {a b : Content Real} (h : SameContent same a b) : tag a = tag b := by
  unfold SameContent at h
  split at h
  · rfl
  · rw [h]

/-! ### Theorems -/

/-- Two tokens are equal exactly if they are of the same kind, at the same place, and have the same value. -/
theorem c81_equal (le : Real → Real → Bool) (a b : PlacedToken Real) :
    isEqual le a b = true ↔ SameToken (fun x y => le y x = true ∧ le x y = true) a b := by
  rw [c81_isEqual_aux, c81_place_aux, c81_place_aux, c81_place_aux, c81_content_aux]
  rfl

/-- Equality of tokens is symmetric and transitive, and every token is equal to itself unless it is a real that is not ordered with itself (a NaN). -/
theorem c81_equivalence (le : Real → Real → Bool) (ht : ∀ x y z, le x y = true → le y z = true → le x z = true) :
    (∀ a, isEqual le a a = true ↔ ∀ r, a.content = .real r → le r r = true) ∧ (∀ a b, isEqual le a b = true → isEqual le b a = true) ∧
    ∀ a b c, isEqual le a b = true → isEqual le b c = true → isEqual le a c = true := by
  simp only [c81_equal]
  refine ⟨fun ⟨_, _, _, x⟩ => ?_, fun ⟨_, _, _, x⟩ ⟨_, _, _, y⟩ => ?_, fun ⟨_, _, _, x⟩ ⟨_, _, _, y⟩ ⟨_, _, _, z⟩ => ?_⟩
  · cases x <;> simp [SameToken, SameContent]
  · rintro ⟨h1, h2, h3, h⟩
    refine ⟨h1.symm, h2.symm, h3.symm, ?_⟩
    cases x <;> cases y <;> first | exact ⟨h.2, h.1⟩ | exact Eq.symm h
  · rintro ⟨h1, h2, h3, h⟩ ⟨k1, k2, k3, k⟩
    refine ⟨h1.trans k1, h2.trans k2, h3.trans k3, ?_⟩
    cases x <;> cases y <;> first
      | (cases h; done)
      | (cases h; exact k)
      | (cases z <;> first | exact ⟨ht _ _ _ k.1 h.1, ht _ _ _ h.2 k.2⟩ | (cases k; done))

/-- Two tokens have the same text exactly if they are of the same kind, at the same place, and have the same value; of reals only what is shown. -/
theorem c81_identified (shows : Real → Text) {a b : PlacedToken Real} (ha : ContentFits a.content) (hb : ContentFits b.content) :
    toText shows a = toText shows b ↔ SameToken (fun x y => shows x = shows y) a b := by
  rw [c81_text_aux]
  constructor
  · rintro ⟨h1, h2, h3, h4, h5⟩
    exact ⟨h1, h2, h3, (c81_contentText_aux shows ha hb h4).mp h5⟩
  · rintro ⟨h1, h2, h3, h4⟩
    have := c81_same_tag_aux h4
    exact ⟨h1, h2, h3, this, (c81_contentText_aux shows ha hb this).mpr h4⟩

/-- So tokens without reals are equal exactly if they have the same text. -/
theorem c81_equal_iff_text (le : Real → Real → Bool) (shows : Real → Text) {a b : PlacedToken Real} (ha : ContentFits a.content)
    (hb : ContentFits b.content) (hr : ∀ r, a.content ≠ .real r) : isEqual le a b = true ↔ toText shows a = toText shows b := by
  rw [c81_equal, c81_identified shows ha hb]
  obtain ⟨_, _, _, x⟩ := a
  obtain ⟨_, _, _, y⟩ := b
  simp only [SameToken]
  refine and_congr_right fun _ => and_congr_right fun _ => and_congr_right fun _ => ?_
  cases x <;> first | exact Iff.rfl | exact absurd rfl (hr _) | (cases y <;> exact Iff.rfl)

/-- What does not hold: that texts with a NUL are told apart. -/
theorem c81_nul (shows : Real → Text) (p : Place) :
    toText shows ⟨p, p, p, .string (txt "a")⟩ = toText shows ⟨p, p, p, .string (txt "a" ++ 0 :: txt "b")⟩ := by
  rw [c81_text_aux]
  exact ⟨rfl, rfl, rfl, rfl, by simp only [contentText]; decide⟩

/-! ### Examples -/

example : ContentFits (.string (txt "abc") : Content Nat) := by simp only [ContentFits]; decide

example : ContentFits (.character (txt "|") : Content Nat) := ⟨124, rfl, by decide⟩

example : toText (fun _ : Nat => []) ⟨⟨1, 1⟩, ⟨3, 7⟩, ⟨2, 6⟩, .character (txt "\n")⟩ =
    txt "token: line=1,1 column=3,7 ucsIndex=2,6 type=OCTASPIRE_DERN_LEXER_TOKEN_TAG_CHARACTER value=|newline|" := by decide +kernel

example : toText (fun _ : Nat => []) ⟨⟨1, 1⟩, ⟨3, 7⟩, ⟨2, 6⟩, .integer (-12)⟩ =
    txt "token: line=1,1 column=3,7 ucsIndex=2,6 type=OCTASPIRE_DERN_LEXER_TOKEN_TAG_INTEGER value=integer -12" := by decide +kernel

end Dern.Props
