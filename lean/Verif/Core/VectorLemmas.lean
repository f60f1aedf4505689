import Verif.Core.Vector
namespace Dern
namespace Vec
variable {α : Type}

structure Inv (v : Vec α) : Prop where
  pos : 1 ≤ v.cells.length
  num_le : v.num ≤ v.cells.length

theorem elems_length {v : Vec α} (h : v.Inv) : v.elems.length = v.num := by
  simp [elems, h.num_le]

theorem elems_get {v : Vec α} (i : Nat) : v.elems[i]? = if i < v.num then v.cells[i]? else none := by
  simp [elems, List.getElem?_take]

theorem index_eq (v : Vec α) (i : Int) : v.index i = Spec.position v.num i := by
  unfold index Spec.position
  by_cases h : 0 ≤ i
  · have : ¬ i < 0 := by omega
    rw [if_neg this, if_pos h]
    by_cases h' : i < v.num
    · rw [if_pos h', if_pos (by omega)]
    · rw [if_neg h', if_neg (by omega)]
  · rw [if_pos (by omega), if_neg h]
    by_cases h' : -(v.num : Int) ≤ i
    · rw [if_pos h', if_pos (by omega)]
    · rw [if_neg h', if_neg (by omega)]

theorem position_lt {n : Nat} {i : Int} {k : Nat} (h : Spec.position n i = some k) : k < n := by
  unfold Spec.position at h
  split at h <;> split at h <;> simp at h <;> omega

theorem compact_inv {v : Vec α} (h : v.Inv) : v.compact.Inv := by
  have h1 := h.pos
  have h2 := h.num_le
  unfold compact
  split; · exact h
  split; · exact h
  split; · exact h
  constructor <;> simp only [List.length_take] <;> split <;> split <;> omega

theorem compact_elems {v : Vec α} (h : v.Inv) : v.compact.elems = v.elems := by
  have h1 := h.pos
  have h2 := h.num_le
  unfold compact
  split; · rfl
  split; · rfl
  split; · rfl
  simp only [elems, List.take_take]
  congr 1
  split <;> split <;> omega

theorem compact_released (v : Vec α) : v.compact.released = v.released := by
  unfold compact; split; · rfl
  split; · rfl
  split <;> rfl

theorem grow_length (g : Growth) {v : Vec α} (h : v.Inv) (w : Nat) :
    (v.grow g w).cells.length = g.next v.cells.length w := by
  have h2 := h.num_le
  have := g.larger v.cells.length w
  simp [grow]; omega

theorem grow_inv (g : Growth) {v : Vec α} (h : v.Inv) (w : Nat) : (v.grow g w).Inv := by
  have h2 := h.num_le
  have := g.larger v.cells.length w
  refine ⟨?_, ?_⟩
  · rw [grow_length g h]; omega
  · rw [grow_length g h]; show v.num ≤ _; omega

theorem grow_elems (g : Growth) {v : Vec α} (h : v.Inv) (w : Nat) : (v.grow g w).elems = v.elems := by
  have h2 := h.num_le
  simp [grow, elems, List.take_append, Nat.min_eq_left h2]

theorem growLoop_ok (g : Growth) : ∀ (fuel : Nat) (v : Vec α) (w : Nat), v.Inv →
    1 ≤ fuel → w + 2 ≤ fuel + v.cells.length →
    ∃ v', growLoop g fuel v w = some v' ∧ v'.Inv ∧ v'.elems = v.elems ∧ v'.num = v.num ∧
      v'.released = v.released ∧ w < v'.cells.length := by
  intro fuel
  induction fuel with
  | zero => intro v w h hf; omega
  | succ fuel ih =>
    intro v w h _ hf
    unfold growLoop
    by_cases hw : w ≥ v.cells.length
    · rw [if_pos hw]
      have := g.larger v.cells.length w
      obtain ⟨v', h1, h2, h3, h4, h5, h6⟩ := ih (v.grow g w) w (grow_inv g h w) (by omega)
        (by rw [grow_length g h]; omega)
      exact ⟨v', h1, h2, by rw [h3, grow_elems g h], h4, h5, h6⟩
    · rw [if_neg hw]; exact ⟨v, rfl, h, rfl, rfl, rfl, by omega⟩

/-- overwriting or appending -/
theorem insertAt_ok (g : Growth) {v : Vec α} (h : v.Inv) (x : α) (k : Nat) (hk : k ≤ v.num) :
    ∃ w, v.insertAt g x k = some (w, true) ∧ w.Inv ∧
      w.elems = v.elems.take k ++ some x :: v.elems.drop (k + 1) ∧ w.released = v.released := by
  obtain ⟨v', h1, h2, h3, h4, h5, h6⟩ := growLoop_ok g (k + 1) v k h (by omega)
    (by have := h.pos; omega)
  unfold insertAt
  rw [h1]
  have hlen := elems_length h
  have hn : ¬ ((k : Int) - v.num > 0) := by omega
  simp only [if_neg hn, write, if_pos h6]
  refine ⟨_, rfl, ?_, ?_, ?_⟩
  · have := h2.num_le; have := h2.pos
    split <;> constructor <;> simp <;> omega
  · rw [← h3]
    have h2' := h2.num_le
    apply List.ext_getElem?
    intro i
    split
    · rename_i hge
      have : k = v'.num := by omega
      subst this
      simp only [elems, List.getElem?_take, List.getElem?_append, List.getElem?_set,
        List.length_take]
      grind
    · simp only [elems, List.getElem?_take, List.getElem?_append, List.getElem?_set,
        List.length_take]
      grind
  · split <;> simp [h5]

theorem removeAt_ok {v : Vec α} (h : v.Inv) (i : Int) {k : Nat} (hi : v.index i = some k) :
    ∃ w, v.removeAt i = some (w, true) ∧ w.Inv ∧ w.num + 1 = v.num ∧
      w.elems = v.elems.take k ++ v.elems.drop (k + 1) ∧
      w.released = v.released ++ (v.elems.drop k).take 1 := by
  have hk := hi
  rw [index_eq] at hk
  have hk := position_lt hk
  have h1 := h.pos
  have h2 := h.num_le
  have hc : k < v.cells.length := by omega
  have hr : [v.cells[k]] = (v.elems.drop k).take 1 := by
    apply List.ext_getElem?
    intro j
    simp only [elems, List.getElem?_take, List.getElem?_drop]
    rcases j with _ | j
    · simp [hk, hc]
    · simp
  unfold removeAt
  simp only [hi, List.getElem?_eq_getElem hc]
  by_cases hkn : k + 1 ≠ v.num
  · rw [if_pos hkn]
    unfold move
    rw [if_pos (by omega)]
    refine ⟨_, rfl, ?_, by simp; omega, ?_, by simp [hr]⟩
    · constructor <;> simp <;> omega
    · apply List.ext_getElem?
      intro j
      simp only [elems, List.getElem?_take, List.getElem?_append, List.getElem?_drop,
        List.length_take, List.length_append, List.length_drop]
      grind
  · rw [if_neg hkn]
    refine ⟨_, rfl, ?_, by simp; omega, ?_, by simp [hr]⟩
    · constructor <;> simp <;> omega
    · apply List.ext_getElem?
      intro j
      simp only [elems, List.getElem?_take, List.getElem?_append, List.getElem?_drop,
        List.length_take]
      grind

theorem insertBefore_ok (g : Growth) {v : Vec α} (h : v.Inv) (x : α) (i : Int) {k : Nat}
    (hi : v.index i = some k) :
    ∃ w, v.insertBefore g x i = some (w, true) ∧ w.Inv ∧
      w.elems = v.elems.take k ++ some x :: v.elems.drop k ∧ w.released = v.released := by
  have hk := hi
  rw [index_eq] at hk
  have hk := position_lt hk
  unfold insertBefore
  simp only [hi]
  obtain ⟨v', e, i1, e1, n1, r1, l1⟩ : ∃ v', (if v.num ≥ v.cells.length then v.grow g 0 else v) = v' ∧
      v'.Inv ∧ v'.elems = v.elems ∧ v'.num = v.num ∧ v'.released = v.released ∧
      v'.num < v'.cells.length := by
    refine ⟨_, rfl, ?_⟩
    split
    · refine ⟨grow_inv g h 0, grow_elems g h 0, rfl, rfl, ?_⟩
      rw [grow_length g h]
      have := g.larger v.cells.length 0
      have := h.num_le
      show v.num < _
      omega
    · exact ⟨h, rfl, rfl, rfl, by omega⟩
  rw [e, ← e1]
  unfold move
  rw [if_pos (by omega)]
  simp only [write]
  rw [if_pos (by simp; omega)]
  refine ⟨_, rfl, ?_, ?_, r1⟩
  · constructor <;> simp <;> omega
  · apply List.ext_getElem?
    intro j
    simp only [elems, List.getElem?_take, List.getElem?_append, List.getElem?_drop, List.getElem?_set,
      List.length_take, List.length_append, List.length_drop]
    grind

theorem clearLoop_ok : ∀ (n : Nat) (v : Vec α), v.Inv → v.num = n →
    ∃ w, clearLoop n v = some (w, true) ∧ w.Inv ∧ w.num = 0 ∧
      w.released = v.released ++ v.elems.reverse := by
  intro n
  induction n with
  | zero =>
    intro v h hn
    refine ⟨v, ?_, h, hn, ?_⟩
    · simp [clearLoop, hn]
    · simp [elems, hn]
  | succ n ih =>
    intro v h hn
    unfold clearLoop
    rw [if_neg (by omega)]
    have hi : v.index (-1) = some n := by
      rw [index_eq]; simp [Spec.position, hn]; omega
    obtain ⟨w, h1, h2, h3, h4, h5⟩ := removeAt_ok h (-1) hi
    rw [h1]
    simp only
    obtain ⟨u, g1, g2, g3, g4⟩ := ih w h2 (by omega)
    refine ⟨u, g1, g2, g3, ?_⟩
    rw [g4, h5, h4]
    have hl := elems_length h
    have h6 : v.elems.drop (n + 1) = [] := by simp; omega
    have h7 : v.elems.drop n = (v.elems.drop n).take 1 := by
      rw [List.take_of_length_le]; simp; omega
    rw [h6, List.append_nil, ← h7, List.append_assoc]
    congr 1
    conv => rhs; rw [← List.take_append_drop n v.elems, List.reverse_append]
    congr 1
    rcases hh : v.elems.drop n with _ | ⟨a, t⟩
    · rfl
    · have : (v.elems.drop n).length = 1 := by simp; omega
      rw [hh] at this
      have : t = [] := by simpa using this
      subst this; rfl

end Vec
end Dern
