import Verif.Core.Levenshtein
import Verif.Spec.Edit
/-
C42: the Levenshtein distance is the edit distance.
-/
namespace Dern.Props
open Dern Dern.Spec

variable {α : Type}

section
variable [DecidableEq α]

/-- the recursive distance, comparing from the front -/
def lev : List α → List α → Nat
  | [], t => t.length
  | s, [] => s.length
  | a :: s, b :: t =>
    if a = b then lev s t else 1 + min (lev s (b :: t)) (min (lev (a :: s) t) (lev s t))
termination_by s t => s.length + t.length

theorem lev_nil_left (t : List α) : lev [] t = t.length := by rw [lev]
theorem lev_nil_right (s : List α) : lev s [] = s.length := by
  cases s with
  | nil => rw [lev]
  | cons a s => rw [lev]; simp
theorem lev_cons (a b : α) (s t : List α) : lev (a :: s) (b :: t) =
    if a = b then lev s t else 1 + min (lev s (b :: t)) (min (lev (a :: s) t) (lev s t)) := by
  rw [lev]

theorem lev_comm (s t : List α) : lev s t = lev t s := by
  suffices H : ∀ n (s t : List α), s.length + t.length ≤ n → lev s t = lev t s from H _ s t (Nat.le_refl _)
  intro n
  induction n with
  | zero =>
    intro s t h
    have : s = [] := List.length_eq_zero_iff.mp (by omega)
    have : t = [] := List.length_eq_zero_iff.mp (by omega)
    simp [*]
  | succ n ih =>
    intro s t h
    cases s with
    | nil => rw [lev_nil_left, lev_nil_right]
    | cons a s =>
      cases t with
      | nil => rw [lev_nil_left, lev_nil_right]
      | cons b t =>
        simp only [List.length_cons] at h
        rw [lev_cons, lev_cons, ih s t (by omega), ih s (b :: t) (by simp; omega),
          ih (a :: s) t (by simp; omega)]
        by_cases e : a = b
        · simp [e]
        · rw [if_neg e, if_neg (Ne.symm e)]
          omega

/-- one character more or less changes the distance by at most one -/
theorem lev_near (a : α) (s t : List α) : lev (a :: s) t ≤ lev s t + 1 ∧ lev s t ≤ lev (a :: s) t + 1 := by
  suffices H : ∀ n (a : α) (s t : List α), s.length + t.length ≤ n →
      lev (a :: s) t ≤ lev s t + 1 ∧ lev s t ≤ lev (a :: s) t + 1 from H _ a s t (Nat.le_refl _)
  intro n
  induction n with
  | zero =>
    intro a s t h
    have : s = [] := List.length_eq_zero_iff.mp (by omega)
    have : t = [] := List.length_eq_zero_iff.mp (by omega)
    subst_vars
    rw [lev_nil_right, lev_nil_right]; simp
  | succ n ih =>
    intro a s t h
    cases t with
    | nil => rw [lev_nil_right, lev_nil_right]; simp; omega
    | cons b t =>
      simp only [List.length_cons] at h
      have h1 := ih b t s (by omega)
      rw [lev_comm (b :: t) s, lev_comm t s] at h1
      have h2 := ih a s t (by omega)
      rw [lev_cons]
      split <;> omega

/-- a common first character does not spread two texts -/
theorem lev_push {u v : List α} (h : ∀ t, lev u t ≤ lev v t + 1) (a : α) :
    ∀ t, lev (a :: u) t ≤ lev (a :: v) t + 1 := by
  intro t
  induction t with
  | nil =>
    have := h []
    rw [lev_nil_right, lev_nil_right] at this ⊢
    simp; omega
  | cons b t ih =>
    have h1 := h t
    have h2 := h (b :: t)
    rw [lev_cons, lev_cons]
    split <;> omega

theorem lev_replace (c d : α) (p : List α) : ∀ t, lev (c :: p) t ≤ lev (d :: p) t + 1 := by
  intro t
  induction t with
  | nil => rw [lev_nil_right, lev_nil_right]; simp
  | cons b t ih =>
    have h1 := lev_near b t p
    rw [lev_comm (b :: t) p, lev_comm t p] at h1
    have h2 := lev_near d p t
    rw [lev_cons, lev_cons]
    by_cases hc : c = b <;> by_cases hd : d = b <;> simp only [hc, hd, if_true, if_false] <;> omega

theorem lev_edit {s u : List α} (h : OneEdit s u) : ∀ t, lev s t ≤ lev u t + 1 := by
  cases h with
  | insert pre post c =>
    induction pre with
    | nil => intro t; exact (lev_near c post t).2
    | cons a pre ih => exact lev_push ih a
  | delete pre post c =>
    induction pre with
    | nil => intro t; exact (lev_near c post t).1
    | cons a pre ih => exact lev_push ih a
  | replace pre post c d =>
    induction pre with
    | nil => exact lev_replace c d post
    | cons a pre ih => exact lev_push ih a

theorem lev_self (s : List α) : lev s s = 0 := by
  induction s with
  | nil => rw [lev_nil_left]; rfl
  | cons a s ih => rw [lev_cons, if_pos rfl, ih]

theorem lev_le {n : Nat} {s t : List α} (h : Edits n s t) : lev s t ≤ n := by
  induction h with
  | none s => rw [lev_self]; exact Nat.le_refl _
  | more h1 _ ih => exact Nat.le_trans (lev_edit h1 _) (by omega)

end

theorem edits_push (a : α) {n : Nat} {s t : List α} (h : Edits n s t) : Edits n (a :: s) (a :: t) := by
  induction h with
  | none s => exact .none _
  | more h1 _ ih =>
    refine .more ?_ ih
    cases h1 with
    | insert pre post c => exact .insert (a :: pre) post c
    | delete pre post c => exact .delete (a :: pre) post c
    | replace pre post c d => exact .replace (a :: pre) post c d

theorem edits_reverse {n : Nat} {s t : List α} (h : Edits n s t) : Edits n s.reverse t.reverse := by
  induction h with
  | none s => exact .none _
  | more h1 _ ih =>
    refine .more ?_ ih
    cases h1 with
    | insert pre post c =>
      have := OneEdit.insert post.reverse pre.reverse c
      simpa using this
    | delete pre post c =>
      have := OneEdit.delete post.reverse pre.reverse c
      simpa using this
    | replace pre post c d =>
      have := OneEdit.replace post.reverse pre.reverse c d
      simpa using this

theorem edits_fill (t : List α) : Edits t.length [] t := by
  induction t with
  | nil => exact .none _
  | cons b t ih =>
    exact .more (.insert [] [] b) (edits_push b ih)

theorem edits_empty (s : List α) : Edits s.length s [] := by
  induction s with
  | nil => exact .none _
  | cons a s ih => exact .more (.delete [] s a) ih

theorem edits_last {n : Nat} {s u t : List α} (h : Edits n s u) (h1 : OneEdit u t) : Edits (n + 1) s t := by
  induction h with
  | none s => exact .more h1 (.none _)
  | more h2 _ ih => exact .more h2 (ih h1)

variable [DecidableEq α] in
theorem edits_lev (s t : List α) : Edits (lev s t) s t := by
  suffices H : ∀ n (s t : List α), s.length + t.length ≤ n → Edits (lev s t) s t from H _ s t (Nat.le_refl _)
  intro n
  induction n with
  | zero =>
    intro s t h
    have : s = [] := List.length_eq_zero_iff.mp (by omega)
    have : t = [] := List.length_eq_zero_iff.mp (by omega)
    subst_vars
    rw [lev_nil_left]; exact .none _
  | succ n ih =>
    intro s t h
    cases s with
    | nil => rw [lev_nil_left]; exact edits_fill t
    | cons a s =>
      cases t with
      | nil => rw [lev_nil_right]; exact edits_empty _
      | cons b t =>
        simp only [List.length_cons] at h
        rw [lev_cons]
        split
        · next e => subst e; exact edits_push a (ih s t (by omega))
        · have h1 := ih s (b :: t) (by simp; omega)
          have h2 := ih (a :: s) t (by simp; omega)
          have h3 := ih s t (by omega)
          have e1 : Edits (lev s (b :: t) + 1) (a :: s) (b :: t) := .more (.delete [] s a) h1
          have e2 : Edits (lev (a :: s) t + 1) (a :: s) (b :: t) := edits_last h2 (.insert [] t b)
          have e3 : Edits (lev s t + 1) (a :: s) (b :: t) := .more (.replace [] s a b) (edits_push b h3)
          rw [Nat.add_comm 1]
          rcases Nat.le_total (lev s (b :: t)) (min (lev (a :: s) t) (lev s t)) with hm | hm
          · rw [Nat.min_eq_left hm]; exact e1
          · rw [Nat.min_eq_right hm]
            rcases Nat.le_total (lev (a :: s) t) (lev s t) with hm | hm
            · rw [Nat.min_eq_left hm]; exact e2
            · rw [Nat.min_eq_right hm]; exact e3

/-! the table -/

theorem c42_min3_aux (a b c : Nat) : min3Int a b c = min a (min b c) := by
  unfold min3Int minInt
  split <;> split <;> omega

/-- what slot (i, j) has to be: the distance of the first `i` characters of one text and the first
`j` of the other, compared from the back -/
def slot (s o : Text) (i j : Nat) : Nat := lev (s.take i).reverse (o.take j).reverse

theorem c42_slot_zero_aux (s o : Text) (j : Nat) (h : j ≤ o.length) : slot s o 0 j = j := by
  simp [slot, lev_nil_left, h]

theorem c42_slot_col_aux (s o : Text) (i : Nat) (h : i ≤ s.length) : slot s o i 0 = i := by
  simp [slot, lev_nil_right, h]

theorem c42_slot_aux (s o : Text) (i j : Nat) (a b : Ch) (hi : s[i]? = some a) (hj : o[j]? = some b) :
    slot s o (i + 1) (j + 1) = if a = b then slot s o i j else
      min3Int (slot s o i (j + 1) + 1) (slot s o (i + 1) j + 1) (slot s o i j + 1) := by
  have h1 : s.take (i + 1) = s.take i ++ [a] := by rw [List.take_add_one, hi]; rfl
  have h2 : o.take (j + 1) = o.take j ++ [b] := by rw [List.take_add_one, hj]; rfl
  simp only [slot, h1, h2, List.reverse_append, List.reverse_singleton, List.singleton_append, lev_cons,
    c42_min3_aux]
  split
  · rfl
  · omega

/-- the shape of the table -/
structure Shape (t : Table) (n m : Nat) : Prop where
  rows : t.length = n + 1
  cols : ∀ row ∈ t, row.length = m + 1

theorem c42_set_aux {t : Table} {n m i j x : Nat} (h : Shape t n m) (hi : i ≤ n) (hj : j ≤ m) :
    ∃ t', setSlot t i j x = some t' ∧ Shape t' n m ∧
      ∀ k l, getSlot t' k l = if k = i ∧ l = j then some x else getSlot t k l := by
  have hil : i < t.length := by have := h.rows; omega
  have hrow : (t[i]).length = m + 1 := h.cols _ (List.getElem_mem hil)
  refine ⟨t.set i (t[i].set j x), by simp [setSlot, List.getElem?_eq_getElem hil], ⟨?_, ?_⟩, ?_⟩
  · simp [h.rows]
  · intro row hr
    rcases List.mem_or_eq_of_mem_set hr with hr | hr
    · exact h.cols row hr
    · rw [hr]; simp [hrow]
  · intro k l
    unfold getSlot
    by_cases hk : k = i
    · subst hk
      rw [List.getElem?_set_self hil, List.getElem?_eq_getElem hil]
      by_cases hl : l = j
      · subst hl
        simp only [and_self, if_true]
        rw [List.getElem?_set_self (by omega)]
      · simp only [hl, and_false, if_false]
        rw [List.getElem?_set_ne (Ne.symm hl)]
    · rw [List.getElem?_set_ne (Ne.symm hk)]
      simp [hk]

/-- slots that are known -/
def Filled (t : Table) (s o : Text) (P : Nat → Nat → Prop) : Prop :=
  Shape t s.length o.length ∧ ∀ i j, i ≤ s.length → j ≤ o.length → P i j → getSlot t i j = some (slot s o i j)

theorem c42_first_aux (s o : Text) : Filled (firstTable s.length o.length) s o fun i j => i = 0 ∨ j = 0 := by
  refine ⟨⟨by simp [firstTable], ?_⟩, ?_⟩
  · intro row hr
    simp only [firstTable, List.mem_map] at hr
    obtain ⟨i, _, rfl⟩ := hr
    split <;> simp
  · intro i j hi hj hp
    have hlt : i < s.length + 1 := by omega
    have hlt2 : j < o.length + 1 := by omega
    simp only [getSlot, firstTable, List.getElem?_map, List.getElem?_range hlt, Option.map_some]
    by_cases h0 : i = 0
    · subst h0
      simp only [if_true]
      rw [List.getElem?_map, List.getElem?_range hlt2, c42_slot_zero_aux s o j hj]
      rfl
    · have : j = 0 := by omega
      subst this
      simp [h0, c42_slot_col_aux s o i hi]

theorem c42_column_aux (s o : Text) (j : Nat) (hj : j + 1 ≤ o.length) : ∀ (n : Nat) (t : Table), n ≤ s.length →
    Filled t s o (fun i l => i = 0 ∨ l ≤ j) →
    ∃ t', fillColumn s o (j + 1) n t = some t' ∧
      Filled t' s o (fun i l => i = 0 ∨ l ≤ j ∨ (l = j + 1 ∧ i ≤ n)) := by
  intro n
  induction n with
  | zero =>
    intro t _ h
    refine ⟨t, rfl, h.1, fun i l hi hl hp => h.2 i l hi hl ?_⟩
    rcases hp with h | h | ⟨_, h⟩
    · exact .inl h
    · exact .inr h
    · exact .inl (by omega)
  | succ n ih =>
    intro t hn h
    obtain ⟨t1, h1, h2⟩ := ih t (by omega) h
    have ha : s[n]? = some s[n] := List.getElem?_eq_getElem (by omega)
    have hb : o[j]? = some o[j] := List.getElem?_eq_getElem (by omega)
    have hx := h2.2 n (j + 1) (by omega) (by omega) (.inr (.inr ⟨rfl, Nat.le_refl _⟩))
    have hy := h2.2 (n + 1) j (by omega) (by omega) (.inr (.inl (Nat.le_refl _)))
    have hz := h2.2 n j (by omega) (by omega) (.inr (.inl (Nat.le_refl _)))
    have hs := c42_slot_aux s o n j _ _ ha hb
    obtain ⟨t2, g1, g2, g3⟩ := c42_set_aux (x := slot s o (n + 1) (j + 1)) h2.1 (i := n + 1) (j := j + 1)
      (by omega) (by omega)
    refine ⟨t2, ?_, g2, ?_⟩
    · simp only [fillColumn, h1, fillSlot, Nat.add_sub_cancel, ha, hb]
      by_cases e : s[n] = o[j]
      · rw [if_pos e] at hs
        simp only [e, if_true, hz, ← hs, g1]
      · rw [if_neg e] at hs
        simp only [e, if_false, hx, hy, hz, ← hs, g1]
    · intro i l hi hl hp
      rw [g3]
      by_cases e : i = n + 1 ∧ l = j + 1
      · rw [if_pos e, e.1, e.2]
      · rw [if_neg e]
        refine h2.2 i l hi hl ?_
        rcases hp with hp | hp | ⟨hp, hq⟩
        · exact .inl hp
        · exact .inr (.inl hp)
        · exact .inr (.inr ⟨hp, by omega⟩)

theorem c42_columns_aux (s o : Text) : ∀ m, m ≤ o.length →
    ∃ t, fillColumns s o m (firstTable s.length o.length) = some t ∧
      Filled t s o (fun i l => i = 0 ∨ l ≤ m) := by
  intro m
  induction m with
  | zero =>
    intro _
    refine ⟨_, rfl, (c42_first_aux s o).1, fun i l hi hl hp => (c42_first_aux s o).2 i l hi hl ?_⟩
    rcases hp with hp | hp
    · exact .inl hp
    · exact .inr (by omega)
  | succ m ih =>
    intro hm
    obtain ⟨t, h1, h2⟩ := ih (by omega)
    obtain ⟨t', g1, g2⟩ := c42_column_aux s o m hm s.length t (Nat.le_refl _) h2
    refine ⟨t', by simp only [fillColumns, h1, g1], g2.1, fun i l hi hl hp => g2.2 i l hi hl ?_⟩
    rcases hp with hp | hp
    · exact .inl hp
    · by_cases h : l ≤ m
      · exact .inr (.inl h)
      · exact .inr (.inr ⟨by omega, hi⟩)

/-- C42.  For all texts the distance function gives a number (it never leaves its table), and this
number is the edit distance: so many insertions, deletions and replacements of single characters
lead from one text to the other, and no fewer do. -/
theorem c42_levenshtein_is_edit_distance (s o : Text) :
    ∃ n, levenshtein s o = some n ∧ EditDistance s o n := by
  obtain ⟨t, h1, h2⟩ := c42_columns_aux s o o.length (Nat.le_refl _)
  have h3 := h2.2 s.length o.length (Nat.le_refl _) (Nat.le_refl _) (.inr (Nat.le_refl _))
  refine ⟨slot s o s.length o.length, by simp only [levenshtein, h1, h3], ?_, ?_⟩
  · have := edits_reverse (edits_lev (s.take s.length).reverse (o.take o.length).reverse)
    simpa [slot] using this
  · intro m hm
    have := lev_le (edits_reverse hm)
    simpa [slot] using this

theorem edits_swap {n : Nat} {s t : List α} (h : Edits n s t) : Edits n t s := by
  induction h with
  | none s => exact .none _
  | more h1 _ ih =>
    refine edits_last ih ?_
    cases h1 with
    | insert pre post c => exact .delete pre post c
    | delete pre post c => exact .insert pre post c
    | replace pre post c d => exact .replace pre post d c

theorem edits_trans {n m : Nat} {s t u : List α} (h : Edits n s t) (g : Edits m t u) : Edits (n + m) s u := by
  induction h with
  | none s => simpa using g
  | more h1 _ ih => rw [Nat.add_right_comm]; exact .more h1 (ih g)

/-- It is a metric: zero exactly for equal texts, the same in both directions, and a detour is
never shorter. -/
theorem c42_metric (s t u : Text) (a b c d : Nat) (hst : levenshtein s t = some a)
    (hts : levenshtein t s = some b) (htu : levenshtein t u = some c) (hsu : levenshtein s u = some d) :
    (a = 0 ↔ s = t) ∧ a = b ∧ d ≤ a + c := by
  have key : ∀ {x y : Text} {n : Nat}, levenshtein x y = some n → EditDistance x y n := by
    intro x y n h
    obtain ⟨k, h1, h2⟩ := c42_levenshtein_is_edit_distance x y
    rw [h] at h1; cases h1; exact h2
  have h1 := key hst
  have h2 := key hts
  have h3 := key htu
  have h4 := key hsu
  refine ⟨⟨fun h => ?_, fun h => ?_⟩, ?_, ?_⟩
  · subst h
    cases h1.1; rfl
  · subst h
    exact Nat.le_zero.mp (h1.2 0 (.none _))
  · exact Nat.le_antisymm (h1.2 b (edits_swap h2.1)) (h2.2 a (edits_swap h1.1))
  · exact h4.2 _ (edits_trans h1.1 h3.1)

example : levenshtein (txt "kitten") (txt "sitting") = some 3 := by decide
example : levenshtein (txt "") (txt "abc") = some 3 := by decide
example : levenshtein (txt "flaw") (txt "lawn") = some 2 := by decide

end Dern.Props
