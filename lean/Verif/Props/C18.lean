import Verif.Core.VectorLemmas
/-
C18: the vector behaves like a plain sequence.
-/
namespace Dern.Props
open Dern Dern.Spec

variable {α : Type}

theorem c18_step_aux (g : Growth) (v : Vec α) (s : List α) (op : SeqOp α) (h : v.Inv)
    (hs : v.elems = s.map some) :
    ∃ w, v.apply g op = some (w, (op.apply s).2.1) ∧ w.Inv ∧
      w.elems = (op.apply s).1.map some ∧
      w.released = v.released ++ (op.apply s).2.2.map some := by
  have hl : v.num = s.length := by rw [← Vec.elems_length h, hs]; simp
  have hidx : ∀ i, v.index i = position s.length i := by intro i; rw [Vec.index_eq, hl]
  have hpush : ∀ x, ∃ w, v.pushBack g x = some (w, true) ∧ w.Inv ∧
      w.elems = (s ++ [x]).map some ∧ w.released = v.released := by
    intro x
    obtain ⟨w, h1, h2, h3, h4⟩ := Vec.insertAt_ok g h x v.num (Nat.le_refl _)
    refine ⟨w, h1, h2, ?_, h4⟩
    rw [h3, hs, hl, List.take_of_length_le (by simp), List.drop_of_length_le (by simp)]; simp
  cases op with
  | pushBack x =>
    obtain ⟨w, h1, h2, h3, h4⟩ := hpush x
    exact ⟨w, h1, h2, h3, by simp [SeqOp.apply, h4]⟩
  | pushFront x =>
    by_cases h0 : v.num = 0
    · obtain ⟨w, h1, h2, h3, h4⟩ := hpush x
      have : s = [] := by rw [hl] at h0; exact List.length_eq_zero_iff.mp h0
      subst this
      refine ⟨w, ?_, h2, h3, by simp [SeqOp.apply, h4]⟩
      simp only [Vec.apply, Vec.pushFront, if_pos h0, h1, SeqOp.apply]
    · have hi : v.index 0 = some 0 := by
        rw [hidx]; simp [position, ← hl]; omega
      obtain ⟨w, h1, h2, h3, h4⟩ := Vec.insertBefore_ok g h x 0 hi
      refine ⟨w, ?_, h2, ?_, by simp [SeqOp.apply, h4]⟩
      · simp only [Vec.apply, Vec.pushFront, if_neg h0, h1, SeqOp.apply]
      · rw [h3, hs]; simp [SeqOp.apply]
  | insertBefore x i =>
    simp only [SeqOp.apply, Vec.apply]
    cases hp : position s.length i with
    | none => exact ⟨v, by simp [Vec.insertBefore, hidx, hp], h, hs, by simp⟩
    | some k =>
      obtain ⟨w, h1, h2, h3, h4⟩ := Vec.insertBefore_ok g h x i (by rw [hidx, hp])
      refine ⟨w, h1, h2, ?_, by simp [h4]⟩
      rw [h3, hs]; simp
  | replaceAt i x =>
    simp only [SeqOp.apply, Vec.apply]
    cases hp : position s.length i with
    | none => exact ⟨v, by simp [Vec.replaceAt, hidx, hp], h, hs, by simp⟩
    | some k =>
      have hk := Vec.position_lt hp
      have hkc : k < v.cells.length := by have := h.num_le; omega
      have hinv : ({ v with released := v.released ++ [v.cells[k]] } : Vec α).Inv := ⟨h.pos, h.num_le⟩
      obtain ⟨w, h1, h2, h3, h4⟩ := Vec.insertAt_ok g hinv x k (by show k ≤ v.num; omega)
      refine ⟨w, ?_, h2, ?_, ?_⟩
      · simp only [Vec.replaceAt, hidx, hp, List.getElem?_eq_getElem hkc, h1]
      · rw [h3]; show List.take k v.elems ++ some x :: List.drop (k + 1) v.elems = _
        rw [hs]; simp
      · rw [h4]
        show v.released ++ [v.cells[k]] = _
        have e : v.elems[k]? = (s.map some)[k]? := by rw [hs]
        rw [Vec.elems_get, if_pos (by omega), List.getElem?_eq_getElem hkc] at e
        simp [hk] at e
        rw [e]; simp; rw [List.drop_eq_getElem_cons (by simpa using hk)]; simp
  | replaceOrPushBack x i =>
    simp only [SeqOp.apply, Vec.apply]
    cases hp : position s.length i with
    | none =>
      obtain ⟨w, h1, h2, h3, h4⟩ := hpush x
      exact ⟨w, by simp [Vec.replaceOrPushBack, hidx, hp, h1], h2, h3, by simp [h4]⟩
    | some k =>
      have hk := Vec.position_lt hp
      obtain ⟨w, h1, h2, h3, h4⟩ := Vec.insertAt_ok g h x k (by omega)
      refine ⟨w, by simp [Vec.replaceOrPushBack, hidx, hp, h1], h2, ?_, by simp [h4]⟩
      rw [h3, hs]; simp
  | removeAt i =>
    simp only [SeqOp.apply, Vec.apply]
    cases hp : position s.length i with
    | none => exact ⟨v, by simp [Vec.removeAt, hidx, hp], h, hs, by simp⟩
    | some k =>
      obtain ⟨w, h1, h2, _, h3, h4⟩ := Vec.removeAt_ok h i (by rw [hidx, hp])
      refine ⟨w, h1, h2, ?_, ?_⟩
      · rw [h3, hs]; simp
      · rw [h4, hs]; simp
  | popBack =>
    simp only [SeqOp.apply, Vec.apply, Vec.popBack]
    by_cases h0 : v.num = 0
    · have : s = [] := by rw [hl] at h0; exact List.length_eq_zero_iff.mp h0
      subst this
      exact ⟨v, by simp [h0], h, hs, by simp⟩
    · have hne : s ≠ [] := by intro e; subst e; simp at hl; omega
      have hi : v.index (-1) = some (s.length - 1) := by
        rw [hidx]; unfold position; rw [if_neg (by omega), if_pos (by omega)]; congr 1; omega
      obtain ⟨w, h1, h2, _, h3, h4⟩ := Vec.removeAt_ok h (-1) hi
      refine ⟨w.compact, by simp [h0, h1, hne], Vec.compact_inv h2, ?_, ?_⟩
      · rw [Vec.compact_elems h2, h3, hs, if_neg hne, List.dropLast_eq_take]; simp; omega
      · rw [Vec.compact_released, h4, hs, if_neg hne]
        rw [List.take_of_length_le (by simp; omega)]; simp
  | popFront =>
    simp only [SeqOp.apply, Vec.apply, Vec.popFront]
    by_cases h0 : v.num = 0
    · have : s = [] := by rw [hl] at h0; exact List.length_eq_zero_iff.mp h0
      subst this
      exact ⟨v, by simp [h0], h, hs, by simp⟩
    · obtain ⟨a, t, rfl⟩ : ∃ a t, s = a :: t := by
        cases s with
        | nil => simp at hl; omega
        | cons a t => exact ⟨a, t, rfl⟩
      have hi : v.index 0 = some 0 := by
        rw [hidx]; simp [position]
      obtain ⟨w, h1, h2, _, h3, h4⟩ := Vec.removeAt_ok h 0 hi
      refine ⟨w.compact, by simp [h0, h1], Vec.compact_inv h2, ?_, ?_⟩
      · rw [Vec.compact_elems h2, h3, hs]; simp
      · rw [Vec.compact_released, h4, hs]; simp
  | clear =>
    simp only [SeqOp.apply, Vec.apply, Vec.clear]
    by_cases h0 : v.num = 0
    · have : s = [] := by rw [hl] at h0; exact List.length_eq_zero_iff.mp h0
      subst this
      exact ⟨v, by simp [h0], h, hs, by simp⟩
    · obtain ⟨w, h1, h2, h3, h4⟩ := Vec.clearLoop_ok v.num v h rfl
      refine ⟨w.compact, by simp [h0, h1], Vec.compact_inv h2, ?_, ?_⟩
      · rw [Vec.compact_elems h2]; simp [Vec.elems, h3]
      · rw [Vec.compact_released, h4, hs]; simp
  | swap i j =>
    simp only [SeqOp.apply, Vec.apply]
    cases hp : position s.length i with
    | none => exact ⟨v, by simp [Vec.swap, hidx, hp], h, hs, by simp⟩
    | some a =>
      cases hq : position s.length j with
      | none => exact ⟨v, by simp [Vec.swap, hidx, hp, hq], h, hs, by simp⟩
      | some b =>
        have ha := Vec.position_lt hp
        have hb := Vec.position_lt hq
        have hn := h.num_le
        have hac : a < v.cells.length := by omega
        have hbc : b < v.cells.length := by omega
        have hcell : ∀ k, k < s.length → v.cells[k]? = some s[k]? := by
          intro k hk
          have e : v.elems[k]? = (s.map some)[k]? := by rw [hs]
          rw [Vec.elems_get, if_pos (by omega)] at e
          rw [e]; simp [hk]
        refine ⟨{ v with cells := (v.cells.set a v.cells[b]).set b v.cells[a] }, ?_, ?_, ?_, ?_⟩
        · simp [Vec.swap, hidx, hp, hq, Vec.write, hac, hbc, ha, hb]
        · exact ⟨by simpa using h.pos, by simpa using h.num_le⟩
        · have e1 := hcell a ha
          have e2 := hcell b hb
          rw [List.getElem?_eq_getElem hac, List.getElem?_eq_getElem ha] at e1
          rw [List.getElem?_eq_getElem hbc, List.getElem?_eq_getElem hb] at e2
          simp only [List.getElem?_eq_getElem ha, List.getElem?_eq_getElem hb, List.map_set]
          rw [← hs]
          have e1 := Option.some.inj e1
          have e2 := Option.some.inj e2
          rw [e1, e2]
          simp [Vec.elems, List.take_set]
        · simp [ha, hb]

theorem c18_run_aux (g : Growth) : ∀ (ops : List (SeqOp α)) (v : Vec α) (s : List α), v.Inv →
    v.elems = s.map some →
    ∃ w, v.run g ops = some (w, (runSeq s ops).2.map fun o => (o.1, o.2.map some)) ∧
      w.elems = (runSeq s ops).1.map some ∧ w.Inv := by
  intro ops
  induction ops with
  | nil => intro v s h hs; exact ⟨v, rfl, hs, h⟩
  | cons op ops ih =>
    intro v s h hs
    obtain ⟨w, h1, h2, h3, h4⟩ := c18_step_aux g v s op h hs
    obtain ⟨u, g1, g2, g3⟩ := ih w _ h2 h3
    refine ⟨u, ?_, g2, g3⟩
    simp only [Vec.run, h1, g1, runSeq, List.map_cons, h4, List.drop_left]

theorem c18_new_aux (pre : Nat) : (Vec.new pre : Vec α).Inv := by
  constructor <;> simp [Vec.new]
  split <;> omega

/-- C18.  For every way of growing the block and every history of operations on a new vector:
nothing is accessed outside of the block, the elements are those of the plain sequence, every
operation answers as on the plain sequence, and exactly the elements it gives back there are
passed to the release callback. -/
theorem c18_vector_is_a_sequence (g : Growth) (pre : Nat) (ops : List (SeqOp α)) :
    ∃ v, (Vec.new pre).run g ops =
        some (v, (runSeq [] ops).2.map fun o => (o.1, o.2.map some)) ∧
      v.elems = (runSeq [] ops).1.map some := by
  obtain ⟨v, h1, h2, _⟩ := c18_run_aux g ops (Vec.new pre) [] (c18_new_aux pre)
    (by simp [Vec.elems, Vec.new])
  exact ⟨v, h1, h2⟩

/-- Reading: after every history, index `i ≥ 0` gives element `i`, index `-i` the `i`-th element from
the back, and any other index nothing; again without leaving the block. -/
theorem c18_get (g : Growth) (pre : Nat) (ops : List (SeqOp α)) (i : Int) :
    ∃ v outs, (Vec.new pre).run g ops = some (v, outs) ∧
      v.num = (runSeq [] ops).1.length ∧
      v.getAt i = some (match position (runSeq [] ops).1.length i with
        | some k => (runSeq [] ops).1[k]?.map some
        | none => none) := by
  obtain ⟨v, h1, h2, h⟩ := c18_run_aux g ops (Vec.new pre) [] (c18_new_aux pre) (by simp [Vec.elems, Vec.new])
  have hl : v.num = (runSeq [] ops).1.length := by rw [← Vec.elems_length h, h2]; simp
  refine ⟨v, _, h1, hl, ?_⟩
  unfold Vec.getAt
  rw [Vec.index_eq, hl]
  cases hp : position (runSeq [] ops).1.length i with
  | none => rfl
  | some k =>
    have hk := Vec.position_lt hp
    have e := Vec.elems_get (v := v) k
    rw [if_pos (by omega), h2] at e
    simp only
    rw [← e]; simp [hk]

/-- Writing at an index beyond the end (octaspire_vector_insert_element_at): the old elements stay,
the new one is at that index, which is the last one. -/
theorem c18_insert_beyond (g : Growth) (pre : Nat) (ops : List (SeqOp α)) (x : α) (k : Nat)
    (hk : (runSeq [] ops).1.length ≤ k) :
    ∃ v outs w, (Vec.new pre).run g ops = some (v, outs) ∧ v.insertAt g x k = some (w, true) ∧
      w.num = k + 1 ∧ w.elems.length = k + 1 ∧ w.elems[k]? = some (some x) ∧
      w.elems.take (runSeq [] ops).1.length = (runSeq [] ops).1.map some := by
  obtain ⟨v, h1, h2, h⟩ := c18_run_aux g ops (Vec.new pre) [] (c18_new_aux pre) (by simp [Vec.elems, Vec.new])
  have hl : v.num = (runSeq [] ops).1.length := by rw [← Vec.elems_length h, h2]; simp
  obtain ⟨v', g1, g2, g3, g4, g5, g6⟩ := Vec.growLoop_ok g (k + 1) v k h (by omega)
    (by have := h.pos; omega)
  have hnum : ∀ (w : Vec α), (k : Int) - v.num > 0 → v'.num + (k - v.num) = k := by
    intro _ _; omega
  refine ⟨v, _, { v' with cells := v'.cells.set k (some x), num := k + 1 }, h1, ?_, rfl, ?_, ?_, ?_⟩
  · unfold Vec.insertAt
    rw [g1]
    simp only
    by_cases hc : (k : Int) - v.num > 0
    · simp only [if_pos hc, Vec.write, if_pos g6, hnum v' hc]
      rw [if_pos (Nat.le_refl _)]
    · simp only [if_neg hc, Vec.write, if_pos g6]
      rw [if_pos (by omega)]
      have : v'.num = k := by omega
      rw [this]
  · simp [Vec.elems]; omega
  · simp [Vec.elems, List.getElem?_take, g6]
  · rw [← h2, ← g3, ← hl]
    simp only [Vec.elems, List.take_take]
    rw [Nat.min_eq_left (by omega), List.take_set_of_le (by omega), g4]

/-- But the gap in between is not always blank: writing past the end after a removal brings a
removed (and already released) element back. -/
theorem c18_gap_exposes_removed_element :
    ∃ (ops : List (SeqOp Nat)) (v w : Vec Nat) (outs : List (Bool × List (Option Nat))),
      (Vec.new 4).run Growth.exact ops = some (v, outs) ∧ v.elems = [] ∧
      v.insertAt Growth.exact 9 1 = some (w, true) ∧ w.elems = [some 5, some 9] ∧
      v.released = [some 5] :=
  ⟨[.pushBack 5, .removeAt 0], ⟨[some 5, none, none, none], 0, 4, [some 5]⟩,
    ⟨[some 5, some 9, none, none], 2, 4, [some 5]⟩, _, rfl, rfl, rfl, rfl, rfl⟩

/-- A shallow copy has the same elements and is itself a valid vector: every later history on the
copy behaves as on the plain sequence. -/
theorem c18_shallow_copy (g : Growth) (pre : Nat) (ops ops' : List (SeqOp α)) :
    ∃ v outs w, (Vec.new pre).run g ops = some (v, outs) ∧
      v.shallowCopy.elems = v.elems ∧
      v.shallowCopy.run g ops' = some (w, (runSeq (runSeq [] ops).1 ops').2.map
        fun o => (o.1, o.2.map some)) ∧
      w.elems = (runSeq (runSeq [] ops).1 ops').1.map some := by
  obtain ⟨v, h1, h2, h⟩ := c18_run_aux g ops (Vec.new pre) [] (c18_new_aux pre) (by simp [Vec.elems, Vec.new])
  have he : v.shallowCopy.elems = v.elems := by
    simp only [Vec.shallowCopy, Vec.elems]
    split
    · rename_i h0; simp [h0]
    · rw [List.take_take, Nat.min_self]
  have hi : v.shallowCopy.Inv := by
    have := h.num_le
    constructor <;> simp only [Vec.shallowCopy] <;> split <;> simp <;> omega
  obtain ⟨w, g1, g2, _⟩ := c18_run_aux g ops' v.shallowCopy (runSeq [] ops).1 hi (by rw [he, h2])
  exact ⟨v, _, w, h1, he, g1, g2⟩

/-- non-vacuity: a history with growth, a refused index, removal from both ends and a swap -/
example : (Vec.new 1).run Growth.exact
    [.pushBack 1, .pushBack 2, .pushFront 0, .insertBefore 7 (-1), .removeAt 9, .swap 0 (-1),
      .popFront, .replaceAt 0 5] =
    some (⟨[some 5, some 7, some 0, some 0], 3, 1, [some 2, some 1]⟩,
      [(true, []), (true, []), (true, []), (true, []), (false, []), (true, []), (true, [some 2]),
        (true, [some 1])]) := rfl

end Dern.Props
