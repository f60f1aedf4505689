import Verif.Core.Input
import Verif.Spec.Position
/-
C03  Source positions are exact.

Full statement: after reading any number of characters, index, line and column are those of the
next unread character.  This is true as long as there is a next unread character in a text given
at once.  It is false when text is appended after everything was read
(`c03_stale_after_append`): reading the last available character does not move line and column.
-/
namespace Dern.Props
open Dern

theorem c03_aux_col (t : List Nat) (i : Nat) (h : i < t.length) :
    Spec.Position.column t (i + 1) =
      if t[i] = 10 then 1 else Spec.Position.column t i + 1 := by
  unfold Spec.Position.column
  rw [List.take_succ_eq_append_getElem h, List.reverse_append]
  simp only [List.reverse_singleton, List.singleton_append]
  split
  · next e => simp [e]
  · next e => simp [e]; omega

theorem c03_aux_line (t : List Nat) (i : Nat) (h : i < t.length) :
    Spec.Position.line t (i + 1) =
      if t[i] = 10 then Spec.Position.line t i + 1 else Spec.Position.line t i := by
  unfold Spec.Position.line
  rw [List.take_succ_eq_append_getElem h, List.count_append]
  split
  · next e => simp [e]; omega
  · next e => simp [e]

/-- `i` stands at index `n` of `text` with exact line and column -/
def At (text : Text) (n : Nat) (i : Input) : Prop :=
  i.index = n ∧ i.rest = text.drop n ∧
  i.line = Spec.Position.line text n ∧ i.column = Spec.Position.column text n

theorem c03_aux_step (text : Text) (n : Nat) (i : Input) (h : At text n i) (hn : n + 1 < text.length) :
    At text (n + 1) i.pop.1 ∧ i.pop.2 = true := by
  obtain ⟨h1, h2, h3, h4⟩ := h
  have hlt : n < text.length := by omega
  have hr : i.rest = text[n] :: text.drop (n + 1) := by
    rw [h2]; exact List.drop_eq_getElem_cons hlt
  have hne : (text.drop (n + 1)).isEmpty = false := by
    simp [List.isEmpty_eq_false_iff]; omega
  unfold Input.pop
  rw [hr]
  simp only [hne, Bool.false_eq_true, if_false]
  split
  · next e =>
    refine ⟨⟨by simp [h1], rfl, ?_, ?_⟩, rfl⟩
    · rw [c03_aux_line text n hlt, if_pos e, ← h3]
    · rw [c03_aux_col text n hlt, if_pos e]
  · next e =>
    refine ⟨⟨by simp [h1], rfl, ?_, ?_⟩, rfl⟩
    · rw [c03_aux_line text n hlt, if_neg e, ← h3]
    · rw [c03_aux_col text n hlt, if_neg e, ← h4]

theorem c03_aux_last (text : Text) (n : Nat) (i : Input) (h : At text n i) (hn : n + 1 = text.length) :
    i.pop = ({ i with index := n + 1, rest := [] }, true) := by
  obtain ⟨h1, h2, h3, h4⟩ := h
  have hlt : n < text.length := by omega
  have hr : i.rest = text[n] :: text.drop (n + 1) := by
    rw [h2]; exact List.drop_eq_getElem_cons hlt
  have he : text.drop (n + 1) = [] := by simp; omega
  unfold Input.pop
  rw [hr, he]; simp [h1]

theorem advance_succ_out (n : Nat) (i : Input) : i.advance (n + 1) = ((i.advance n).pop).1 := by
  induction n generalizing i with
  | zero => rfl
  | succ n ih => rw [Input.advance, ih]; rfl

/-- Reading `n` characters of a text of more than `n` characters: the position is exactly that of
the next unread character. -/
theorem c03_position_exact (text : Text) (n : Nat) (hn : n < text.length) :
    At text n ((Input.new text).advance n) := by
  induction n with
  | zero => exact ⟨rfl, rfl, rfl, rfl⟩
  | succ n ih =>
    rw [advance_succ_out]
    exact (c03_aux_step text n _ (ih (by omega)) hn).1

/-- Everything read: the index is the length of the text and line and column stay at the last
character (there is no next one). -/
theorem c03_position_at_end (text : Text) (n : Nat) (hn : text.length ≤ n) (h0 : text ≠ []) :
    let i := (Input.new text).advance n
    i.index = text.length ∧ i.rest = [] ∧
    i.line = Spec.Position.line text (text.length - 1) ∧
    i.column = Spec.Position.column text (text.length - 1) := by
  obtain ⟨m, hm⟩ : ∃ m, text.length = m + 1 := by
    cases text with
    | nil => exact absurd rfl h0
    | cons a t => exact ⟨t.length, rfl⟩
  rw [hm] at hn ⊢
  simp only [Nat.add_sub_cancel]
  induction n with
  | zero => omega
  | succ n ih =>
    rw [advance_succ_out]
    by_cases e : m = n
    · subst e
      have hA := c03_position_exact text m (by omega)
      rw [c03_aux_last text m _ hA (by omega)]
      exact ⟨rfl, rfl, hA.2.2.1, hA.2.2.2⟩
    · have := ih (by omega)
      have hp : ((Input.new text).advance n).pop = ((Input.new text).advance n, false) := by
        unfold Input.pop; rw [this.2.1]
      rw [hp]; exact this

/-- what a user of an input can do: read a character, or append text -/
inductive InputOp | pop | push (t : Text)

/-- one operation on the input, and the whole text given so far -/
def inputStep (s : Input × Text) : InputOp → Input × Text
  | .pop => (s.1.pop.1, s.2)
  | .push t => (s.1.pushBack t, s.2 ++ t)

/-- every read in the history left at least one character unread -/
def NeverDrained : Input × Text → List InputOp → Prop
  | _, [] => True
  | s, .pop :: ops => 2 ≤ s.1.rest.length ∧ NeverDrained (inputStep s .pop) ops
  | s, .push t :: ops => NeverDrained (inputStep s (.push t)) ops

theorem line_append (a b : Text) (n : Nat) (h : n ≤ a.length) :
    Spec.Position.line (a ++ b) n = Spec.Position.line a n := by
  unfold Spec.Position.line; rw [List.take_append_of_le_length h]

theorem column_append (a b : Text) (n : Nat) (h : n ≤ a.length) :
    Spec.Position.column (a ++ b) n = Spec.Position.column a n := by
  unfold Spec.Position.column; rw [List.take_append_of_le_length h]

/-- Histories of reads and appends.  Missing from the full statement: histories in which the last
available character is read before more text is appended. -/
theorem c03_position_exact_history_partial (ops : List InputOp) (text : Text)
    (h : NeverDrained (Input.new text, text) ops) :
    let s := ops.foldl inputStep (Input.new text, text)
    At s.2 s.1.index s.1 := by
  suffices H : ∀ (s : Input × Text), s.1.index ≤ s.2.length → At s.2 s.1.index s.1 →
      NeverDrained s ops →
      At (ops.foldl inputStep s).2 (ops.foldl inputStep s).1.index (ops.foldl inputStep s).1 from
    H (Input.new text, text) (by simp [Input.new]) ⟨rfl, rfl, rfl, rfl⟩ h
  clear h
  induction ops with
  | nil => intro s _ h _; exact h
  | cons op ops ih =>
    intro s hl h hd
    cases op with
    | pop =>
      obtain ⟨h2, hd⟩ := hd
      have hlen : s.1.index + 1 < s.2.length := by
        rw [h.2.1] at h2; simp at h2; omega
      have hs := (c03_aux_step s.2 s.1.index s.1 h hlen).1
      apply ih _ _ _ hd
      · change s.1.pop.1.index ≤ s.2.length
        rw [hs.1]; omega
      · change At s.2 s.1.pop.1.index s.1.pop.1
        rw [hs.1]; exact hs
    | push t =>
      apply ih _ _ _ hd
      · change s.1.index ≤ (s.2 ++ t).length
        simp; omega
      · obtain ⟨_, h2, h3, h4⟩ := h
        refine ⟨rfl, ?_, ?_, ?_⟩
        · change s.1.rest ++ t = (s.2 ++ t).drop s.1.index
          rw [h2, List.drop_append_of_le_length hl]
        · change s.1.line = Spec.Position.line (s.2 ++ t) s.1.index
          rw [line_append _ _ _ hl]; exact h3
        · change s.1.column = Spec.Position.column (s.2 ++ t) s.1.index
          rw [column_append _ _ _ hl]; exact h4

/-- The full statement is false: read the only line, a newline, then append "b".  The next unread
character is on line 2, the input still reports line 1. -/
theorem c03_stale_after_append :
    let i := ((Input.new [10]).pop.1).pushBack [98]
    i.index = 1 ∧ i.line = 1 ∧ Spec.Position.line ([10] ++ [98]) 1 = 2 := by decide

-- hypotheses are met
example : At (txt "ab\ncd") 4 ((Input.new (txt "ab\ncd")).advance 4) :=
  c03_position_exact _ 4 (by decide)
example : ((Input.new (txt "ab\ncd")).advance 4).line = 2 ∧
    ((Input.new (txt "ab\ncd")).advance 4).column = 2 := by decide
example : NeverDrained (Input.new (txt "ab"), txt "ab") [.pop, .push (txt "\ncd"), .pop, .pop] := by
  simp [NeverDrained, inputStep, Input.new, Input.pop, Input.pushBack, txt]

end Dern.Props
