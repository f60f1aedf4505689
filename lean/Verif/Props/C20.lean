import Verif.Core.ListLemmas
/-
C20: the doubly linked list behaves like a plain sequence.

The one restriction the code forces: octaspire_list_get_at on the *empty* list follows the null
pointer (and aborts) unless the index is 0 or -1 (`c20_get_on_empty_aborts`).
-/
namespace Dern.Props
open Dern Dern.Spec

variable {α : Type}

/-- no operation of the history looks for a node by an index other than 0 and -1 while the list is
empty -/
def NoLookupInEmpty : List α → List (DequeOp α) → Prop
  | _, [] => True
  | s, op :: ops =>
    (match op with | .removeAt i => s ≠ [] ∨ i = 0 ∨ i = -1 | _ => True) ∧
      NoLookupInEmpty (op.apply s).1 ops

theorem c20_step_aux {l : DList α} {as s} (h : l.Inv as s) (op : DequeOp α)
    (hsafe : match op with | .removeAt i => s ≠ [] ∨ i = 0 ∨ i = -1 | _ => True) :
    ∃ l' as', l.apply op = .ok l' ∧ l'.Inv as' (op.apply s).1 ∧
      l'.released = l.released ++ (op.apply s).2 := by
  cases op with
  | pushFront x =>
    obtain ⟨l', h1, h2, h3⟩ := DList.pushFront_ok h x
    exact ⟨l', _, h1, h2, by simp [DequeOp.apply, h3]⟩
  | pushBack x =>
    obtain ⟨l', h1, h2, h3⟩ := DList.pushBack_ok h x
    exact ⟨l', _, h1, h2, by simp [DequeOp.apply, h3]⟩
  | popFront =>
    obtain ⟨l', h1, h2, h3⟩ := DList.popFront_ok h
    exact ⟨l', _, h1, h2, h3⟩
  | popBack =>
    obtain ⟨l', h1, h2, h3⟩ := DList.popBack_ok h
    exact ⟨l', _, h1, h2, h3⟩
  | clear =>
    obtain ⟨l', h1, h2, h3⟩ := DList.clearLoop_ok as.length h rfl
    refine ⟨l', _, ?_, h2, h3⟩
    simp only [DList.apply, DList.clear, h.num, h1]
  | removeAt i =>
    have hg := DList.getAt_ok h i hsafe
    simp only [DList.apply, hg, DequeOp.apply]
    cases hp : position s.length i with
    | none => exact ⟨l, as, rfl, h, by simp⟩
    | some k =>
      have hk : k < as.length := by
        have : k < s.length := by
          unfold position at hp
          split at hp <;> split at hp <;> simp at hp <;> omega
        rw [h.len]; exact this
      have hx : as[k]? = some as[k] := List.getElem?_eq_getElem hk
      simp only [hx]
      obtain ⟨l', h1, h2, h3⟩ := DList.remove_ok h hx
      refine ⟨l', as.eraseIdx k, h1, ?_, h3⟩
      rw [← List.eraseIdx_eq_take_drop_succ]
      exact h2

theorem c20_run_aux : ∀ (ops : List (DequeOp α)) {l : DList α} {as s}, l.Inv as s →
    NoLookupInEmpty s ops →
    ∃ l' as', l.run ops = .ok l' ∧ l'.Inv as' (runDeque s ops).1 ∧
      l'.released = l.released ++ (runDeque s ops).2 := by
  intro ops
  induction ops with
  | nil => intro l as s h _; exact ⟨l, as, rfl, h, by simp [runDeque]⟩
  | cons op ops ih =>
    intro l as s h hs
    obtain ⟨l', as', h1, h2, h3⟩ := c20_step_aux h op hs.1
    obtain ⟨l'', as'', g1, g2, g3⟩ := ih h2 hs.2
    refine ⟨l'', as'', by simp [DList.run, h1, g1], g2, ?_⟩
    rw [g3, h3]; simp [runDeque]

theorem c20_iterate_aux {l : DList α} {as s} (h : l.Inv as s) : ∀ (n j : Nat),
    as.length ≤ j + n → l.iterate n as[j]? = .ok (s.drop j) := by
  intro n
  have hlen := h.len
  induction n with
  | zero =>
    intro j hj
    rw [List.getElem?_eq_none (by omega), List.drop_of_length_le (by omega)]
    rfl
  | succ n ih =>
    intro j hj
    by_cases hjl : j < as.length
    · have hx : as[j]? = some as[j] := List.getElem?_eq_getElem hjl
      have hl := h.links j _ hx
      have hs : s[j]? = some (s[j]'(by omega)) := List.getElem?_eq_getElem (by omega)
      rw [hs] at hl
      simp only [Option.map_some] at hl
      rw [hx]
      simp only [DList.iterate, DList.node, hl, ih (j+1) (by omega)]
      rw [List.drop_eq_getElem_cons (i := j) (by omega)]
    · rw [List.getElem?_eq_none (by omega), List.drop_of_length_le (by omega)]
      rfl

/-- C20.  For every history on a new list that does not search an empty list: no null or
dangling pointer is followed, no check fails; iterating visits exactly the elements of the plain
sequence in order; the length is its length; index `i`/`-i` finds the `i`-th element from the
front/back and other indices find nothing (on a non-empty list); and exactly the elements given back
have been released, each once, in order. -/
theorem c20_list_is_a_sequence (ops : List (DequeOp α)) (hs : NoLookupInEmpty [] ops) :
    ∃ l, DList.new.run ops = .ok l ∧
      l.iterate l.num l.front = .ok (runDeque [] ops).1 ∧
      l.num = (runDeque [] ops).1.length ∧
      (∀ i : Int, (runDeque [] ops).1 ≠ [] ∨ i = 0 ∨ i = -1 →
        l.elemAt i = .ok (match position (runDeque [] ops).1.length i with
          | some k => (runDeque [] ops).1[k]?
          | none => none)) ∧
      l.released = (runDeque [] ops).2 := by
  obtain ⟨l, as, h1, h2, h3⟩ := c20_run_aux ops DList.new_inv hs
  refine ⟨l, h1, ?_, by rw [h2.num, h2.len], ?_, by simpa [DList.new] using h3⟩
  · rw [h2.front, h2.num, c20_iterate_aux h2 _ _ (by omega)]; simp
  · intro i hi
    unfold DList.elemAt
    rw [DList.getAt_ok h2 i hi]
    cases hp : position (runDeque [] ops).1.length i with
    | none => rfl
    | some k =>
      have hk : k < (runDeque [] ops).1.length := by
        unfold position at hp
        split at hp <;> split at hp <;> simp at hp <;> omega
      have hx : as[k]? = some (as[k]'(by rw [h2.len]; exact hk)) :=
        List.getElem?_eq_getElem (by rw [h2.len]; exact hk)
      have hl := h2.links k _ hx
      rw [List.getElem?_eq_getElem hk] at hl
      simp only [Option.map_some] at hl
      simp only [hx, DList.node, hl, List.getElem?_eq_getElem hk]

/-- The excluded case is real: looking up any other index in an empty list aborts the program. -/
theorem c20_get_on_empty_aborts (i : Int) (h0 : i ≠ 0) (h1 : i ≠ -1) :
    (DList.new : DList α).elemAt i = .error .abort := by
  unfold DList.elemAt DList.getAt
  by_cases hi : i < 0
  · rw [if_pos hi]
    obtain ⟨n, hn⟩ : ∃ n, (-(i+1)).toNat = n + 1 := ⟨(-(i+1)).toNat - 1, by omega⟩
    rw [hn]; rfl
  · rw [if_neg hi]
    obtain ⟨n, hn⟩ : ∃ n, i.toNat = n + 1 := ⟨i.toNat - 1, by omega⟩
    rw [hn]; rfl

/-- non-vacuity: a history with both ends, a removal in the middle and pops until empty -/
example : NoLookupInEmpty ([] : List Nat)
    [.pushBack 1, .pushFront 0, .pushBack 2, .removeAt (-2), .popBack, .popFront, .popFront, .removeAt 0]
    ∧ runDeque ([] : List Nat)
    [.pushBack 1, .pushFront 0, .pushBack 2, .removeAt (-2), .popBack, .popFront, .popFront, .removeAt 0,
      .pushBack 9] = ([9], [1, 2, 0]) := by
  refine ⟨?_, rfl⟩
  simp [NoLookupInEmpty, DequeOp.apply, position]

end Dern.Props
