import Verif.Core.Permutation
import Verif.Core.HeapMethod
import Verif.Props.C18
import Mathlib.Data.List.Permutation
/-
C43: the permutation iterator passes through every arrangement exactly once.
-/
namespace Dern.Props
open Dern Dern.Spec Equiv

variable {α : Type}

/-- an iterator at work on the list `l`: position `p` of the vector holds the element that was at
`e p` at the start, counter `j` is `d j` -/
structure IterAt (it : PermIter α) (l : List α) (e : Perm Nat) (d : Nat → Nat) (i : Nat) : Prop where
  vi : it.vector.Inv
  ve : ∃ s : List α, it.vector.elems = s.map some ∧ s.length = l.length ∧
    ∀ p, p < l.length → s[p]? = l[e p]?
  ci : it.counts.Inv
  ce : it.counts.elems = ((List.range l.length).map d).map some
  at_i : it.i = i

theorem c43_num_aux {it : PermIter α} {l : List α} {e : Perm Nat} {d : Nat → Nat} {i : Nat}
    (h : IterAt it l e d i) : it.vector.num = l.length ∧ it.counts.num = l.length := by
  obtain ⟨s, h1, h2, _⟩ := h.ve
  exact ⟨by rw [← Vec.elems_length h.vi, h1]; simpa using h2,
    by rw [← Vec.elems_length h.ci, h.ce]; simp⟩

theorem c43_count_aux {it : PermIter α} {l : List α} {e : Perm Nat} {d : Nat → Nat} {i : Nat}
    (h : IterAt it l e d i) (hi : i < l.length) : it.counts.getAt it.i = some (some (some (d i))) := by
  have hn := (c43_num_aux h).2
  have hx : it.counts.index (i : Int) = some i := by
    rw [Vec.index_eq, hn]; simp [position, hi]
  have e := Vec.elems_get (v := it.counts) i
  rw [if_pos (by omega), h.ce] at e
  simp only [h.at_i, Vec.getAt, hx, ← e]
  simp [hi]

theorem c43_setCount_aux (g : Growth) {it : PermIter α} {l : List α} {e : Perm Nat} {d : Nat → Nat} {i : Nat}
    (h : IterAt it l e d i) (hi : i < l.length) (x : Nat) :
    ∃ c, it.counts.replaceAt g it.i x = some (c, true) ∧ c.Inv ∧
      c.elems = ((List.range l.length).map (Function.update d i x)).map some := by
  obtain ⟨w, h1, h2, h3, _⟩ := c18_step_aux g it.counts _ (.replaceAt i x) h.ci h.ce
  have hp : position ((List.range l.length).map d).length (i : Int) = some i := by simp [position, hi]
  simp only [Vec.apply, SeqOp.apply, hp] at h1 h3
  refine ⟨w, by rw [h.at_i]; exact h1, h2, ?_⟩
  rw [h3]
  congr 1
  apply List.ext_getElem?
  intro j
  rcases Nat.lt_trichotomy j i with hj | hj | hj
  · rw [List.getElem?_append_left (by simp; omega)]
    have : j ≠ i := by omega
    have hjl : j < l.length := by omega
    simp [hj, hjl, this, Function.update]
  · subst hj
    rw [List.getElem?_append_right (by simp)]
    simp [hi, Nat.min_eq_left (Nat.le_of_lt hi)]
  · rw [List.getElem?_append_right (by simp; omega)]
    have hlen : (((List.range l.length).map d).take i).length = i := by simp; omega
    obtain ⟨m, rfl⟩ : ∃ m, j = i + 1 + m := ⟨j - (i + 1), by omega⟩
    rw [hlen, show i + 1 + m - i = m + 1 by omega, List.getElem?_cons_succ, List.getElem?_drop]
    simp only [List.getElem?_map, List.getElem?_range]
    by_cases hjl : i + 1 + m < l.length
    · simp [hjl, Function.update, show i + 1 + m ≠ i by omega]
    · simp [hjl]

theorem c43_swap_aux {it : PermIter α} {l : List α} {e : Perm Nat} {d : Nat → Nat} {i : Nat}
    (h : IterAt it l e d i) {a b : Nat} (ha : a < l.length) (hb : b < l.length) (hab : a ≠ b) :
    ∃ v, it.vector.swap (a : Int) b = some (v, true) ∧ v.Inv ∧
      ∃ s : List α, v.elems = s.map some ∧ s.length = l.length ∧
        ∀ p, p < l.length → s[p]? = l[(e * swap a b) p]? := by
  obtain ⟨s, h1, h2, h3⟩ := h.ve
  obtain ⟨w, g1, g2, g3, _⟩ := c18_step_aux Growth.exact it.vector s (.swap a b) h.vi h1
  have hpa : position s.length (a : Int) = some a := by simp [position, ha, h2]
  have hpb : position s.length (b : Int) = some b := by simp [position, hb, h2]
  have ha' : a < s.length := by omega
  have hb' : b < s.length := by omega
  simp only [Vec.apply, SeqOp.apply, hpa, hpb, List.getElem?_eq_getElem ha',
    List.getElem?_eq_getElem hb'] at g1 g3
  refine ⟨w, g1, g2, _, g3, by simp [h2], ?_⟩
  intro p hp
  rw [Perm.mul_apply, swap_apply_def]
  have hpa' := h3 a ha
  have hpb' := h3 b hb
  by_cases h4 : p = b
  · subst h4
    rw [List.getElem?_set_self (by simpa using hb'), if_neg (Ne.symm hab), if_pos rfl, ← hpa',
      List.getElem?_eq_getElem ha']
  · rw [List.getElem?_set_ne (Ne.symm h4)]
    by_cases h5 : p = a
    · subst h5
      rw [List.getElem?_set_self ha', if_pos rfl, ← hpb', List.getElem?_eq_getElem hb']
    · rw [List.getElem?_set_ne (Ne.symm h5), if_neg h5, if_neg h4]
      exact h3 p hp

/-- counters that have run full are set back -/
theorem c43_skip_aux (g : Growth) (l : List α) (e : Perm Nat) (k : Nat) (hk : k ≤ l.length) :
    ∀ (m i : Nat) (it : PermIter α) (d : Nat → Nat) (fuel : Nat), k = i + m → IterAt it l e d i →
    (∀ j, i ≤ j → j < k → d j = j) →
    ∃ it' d', PermIter.nextLoop g (fuel + m) it = PermIter.nextLoop g fuel it' ∧ IterAt it' l e d' k ∧
      (∀ j, i ≤ j → j < k → d' j = 0) ∧ (∀ j, j < i → d' j = d j) ∧ (∀ j, k ≤ j → d' j = d j) := by
  intro m
  induction m with
  | zero =>
    intro i it d fuel h hr hd
    have : k = i := by omega
    subst this
    exact ⟨it, d, rfl, hr, by omega, fun _ _ => rfl, fun _ _ => rfl⟩
  | succ m ih =>
    intro i it d fuel h hr hd
    have hil : i < l.length := by omega
    obtain ⟨n1, n2⟩ := c43_num_aux hr
    obtain ⟨c, g1, g2, g3⟩ := c43_setCount_aux g hr hil 0
    have hr' : IterAt { it with counts := c, i := it.i + 1 } l e (Function.update d i 0) (i + 1) :=
      ⟨hr.vi, hr.ve, g2, g3, by rw [hr.at_i]⟩
    obtain ⟨it', d', f1, f2, f3, f4, f5⟩ := ih (i + 1) _ _ fuel (by omega) hr' (by
      intro j h1 h2
      rw [Function.update_of_ne (by omega)]
      exact hd j (by omega) h2)
    refine ⟨it', d', ?_, f2, ?_, ?_, ?_⟩
    · rw [← f1, ← Nat.add_assoc, PermIter.nextLoop]
      have hlt : it.i < it.vector.num := by rw [hr.at_i, n1]; exact hil
      have hdi : ¬ d i < it.i := by rw [hr.at_i, hd i (Nat.le_refl _) (by omega)]; omega
      simp only [hlt, if_true, c43_count_aux hr hil, Option.getD_some, hdi, if_false, g1]
    · intro j h1 h2
      by_cases hj : j = i
      · rw [hj, f4 i (by omega), Function.update_self]
      · exact f3 j (by omega) h2
    · intro j h1
      rw [f4 j (by omega), Function.update_of_ne (by omega)]
    · intro j h1
      rw [f5 j h1, Function.update_of_ne (by omega)]

/-- one more arrangement -/
theorem c43_next_aux (g : Growth) {it : PermIter α} {l : List α} {e : Perm Nat} {d : Nat → Nat} {k : Nat}
    (h : IterAt it l e d 1) (h1 : 1 ≤ k) (hk : k < l.length) (hd : ∀ j, 1 ≤ j → j < k → d j = j)
    (hlt : d k < k) :
    ∃ it' d', it.next g = some (it', true) ∧ IterAt it' l (e * HeapMethod.move k (d k)) d' 1 ∧
      (∀ j, 1 ≤ j → j < k → d' j = 0) ∧ d' k = d k + 1 ∧ (∀ j, k < j → d' j = d j) := by
  obtain ⟨n1, n2⟩ := c43_num_aux h
  obtain ⟨it1, d1, f1, f2, f3, _, f5⟩ := c43_skip_aux g l e k (by omega) (k - 1) 1 it d (l.length + 1 - (k - 1))
    (by omega) h hd
  rw [Nat.sub_add_cancel (by omega)] at f1
  obtain ⟨m1, m2⟩ := c43_num_aux f2
  have hdk : d1 k = d k := f5 k (Nat.le_refl _)
  obtain ⟨c, c1, c2, c3⟩ := c43_setCount_aux g f2 hk (d1 k + 1)
  have hx : (if k % 2 = 0 then 0 else d k) < k := by split <;> omega
  obtain ⟨v, v1, v2, v3⟩ := c43_swap_aux f2 (a := if k % 2 = 0 then 0 else d k) (b := k) (by omega) hk (by omega)
  refine ⟨{ vector := v, counts := c, i := 1 }, Function.update d1 k (d1 k + 1), ?_, ⟨v2, v3, c2, c3, rfl⟩, ?_, ?_, ?_⟩
  · rw [PermIter.next, if_pos (by omega), n1, f1]
    obtain ⟨f, hf⟩ : ∃ f, l.length + 1 - (k - 1) = f + 1 := ⟨l.length + 1 - (k - 1) - 1, by omega⟩
    rw [hf, PermIter.nextLoop]
    have hl : it1.i < it1.vector.num := by rw [f2.at_i, m1]; exact hk
    have hl2 : d1 k < it1.i := by rw [f2.at_i, hdk]; exact hlt
    have hv : it1.vector.swap (if it1.i % 2 = 0 then 0 else (d1 k : Nat)) it1.i = some (v, true) := by
      rw [f2.at_i, hdk]
      rw [← v1]
      congr 1
      split <;> simp
    simp only [hl, if_true, c43_count_aux f2 hk, Option.getD_some, hl2, c1]
    simp only [hv]
  · intro j hj1 hj2
    rw [Function.update_of_ne (by omega)]; exact f3 j hj1 hj2
  · rw [Function.update_self, hdk]
  · intro j hj
    rw [Function.update_of_ne (by omega)]; exact f5 j (by omega)

/-- a run of successful calls making the given exchanges -/
inductive IterPath (g : Growth) (l : List α) :
    PermIter α → Perm Nat → List (Perm Nat) → PermIter α → Prop where
  | stop {it e d} : IterAt it l e d 1 → IterPath g l it e [] it
  | turn {it e d m it1 ms it2} : IterAt it l e d 1 → it.next g = some (it1, true) →
      IterPath g l it1 (e * m) ms it2 → IterPath g l it e (m :: ms) it2

theorem c43_path_aux {g : Growth} {l : List α} {it it1 it2 : PermIter α} {e : Perm Nat} {ms ns : List (Perm Nat)}
    (h : IterPath g l it e ms it1) (h2 : IterPath g l it1 (e * ms.prod) ns it2) :
    IterPath g l it e (ms ++ ns) it2 := by
  induction h with
  | stop _ => simpa using h2
  | turn h1 h3 _ ih => exact .turn h1 h3 (ih (by simpa [mul_assoc] using h2))

theorem c43_moves_aux (g : Growth) (l : List α) : ∀ (k : Nat) (it : PermIter α) (e : Perm Nat) (d : Nat → Nat),
    k ≤ l.length → IterAt it l e d 1 → (∀ j, 1 ≤ j → j < k → d j = 0) →
    ∃ it' d', IterPath g l it e (HeapMethod.moves k) it' ∧
      IterAt it' l (e * (HeapMethod.moves k).prod) d' 1 ∧
      (∀ j, 1 ≤ j → j < k → d' j = j) ∧ (∀ j, k ≤ j → d' j = d j) := by
  intro k
  induction k with
  | zero =>
    intro it e d _ h _
    exact ⟨it, d, .stop h, by simpa [HeapMethod.moves] using h, by omega, fun _ _ => rfl⟩
  | succ k ih =>
    intro it e d hk h hd
    cases k with
    | zero => exact ⟨it, d, .stop h, by simpa [HeapMethod.moves] using h, by omega, fun _ _ => rfl⟩
    | succ k =>
      suffices H : ∀ c, c ≤ k + 1 → ∃ it' d',
          IterPath g l it e (HeapMethod.rounds (k + 1) (HeapMethod.moves (k + 1)) c) it' ∧
          IterAt it' l (e * (HeapMethod.rounds (k + 1) (HeapMethod.moves (k + 1)) c).prod) d' 1 ∧
          (∀ j, 1 ≤ j → j < k + 1 → d' j = j) ∧ d' (k + 1) = c ∧ (∀ j, k + 2 ≤ j → d' j = d j) by
        obtain ⟨it', d', h1, h2, h3, h4, h5⟩ := H (k + 1) (Nat.le_refl _)
        refine ⟨it', d', h1, h2, ?_, h5⟩
        intro j hj1 hj2
        by_cases hj : j = k + 1
        · rw [hj, h4]
        · exact h3 j hj1 (by omega)
      intro c
      induction c with
      | zero =>
        intro _
        obtain ⟨it', d', h1, h2, h3, h4⟩ := ih it e d (by omega) h (fun j a b => hd j a (by omega))
        exact ⟨it', d', h1, h2, h3, by rw [h4 _ (Nat.le_refl _)]; exact hd _ (by omega) (by omega),
          fun j hj => h4 j (by omega)⟩
      | succ c ihc =>
        intro hc
        obtain ⟨it1, d1, a1, a2, a3, a4, a5⟩ := ihc (by omega)
        obtain ⟨it2, d2, b1, b2, b3, b4, b5⟩ := c43_next_aux g a2 (k := k + 1) (by omega) (by omega) a3 (by omega)
        obtain ⟨it3, d3, c1, c2, c3, c4⟩ := ih it2 _ d2 (by omega) b2 b3
        rw [a4] at b2 c1 c2
        refine ⟨it3, d3, ?_, ?_, c3, ?_, ?_⟩
        · exact c43_path_aux a1 (.turn a2 b1 c1)
        · simpa [HeapMethod.rounds, mul_assoc] using c2
        · rw [c4 _ (Nat.le_refl _), b4, a4]
        · intro j hj
          rw [c4 j (by omega), b5 j (by omega), a5 j hj]

/-- no counter is left: the end -/
theorem c43_end_aux (g : Growth) {it : PermIter α} {l : List α} {e : Perm Nat} {d : Nat → Nat}
    (h : IterAt it l e d 1) (hd : ∀ j, 1 ≤ j → j < l.length → d j = j) :
    ∃ it', it.next g = some (it', false) ∧ it'.next g = some (it', false) ∧
      it'.vector.elems = it.vector.elems := by
  obtain ⟨n1, n2⟩ := c43_num_aux h
  by_cases hl : 1 ≤ l.length
  · obtain ⟨it1, d1, f1, f2, _, _, _⟩ := c43_skip_aux g l e l.length (Nat.le_refl _) (l.length - 1) 1 it d 2
      (by omega) h hd
    rw [show 2 + (l.length - 1) = l.length + 1 by omega] at f1
    obtain ⟨m1, m2⟩ := c43_num_aux f2
    have hnl : ¬ it1.i < it1.vector.num := by rw [f2.at_i, m1]; omega
    refine ⟨it1, ?_, ?_, ?_⟩
    · rw [PermIter.next, if_pos (by omega), n1, f1]
      simp only [PermIter.nextLoop, hnl, if_false]
    · rw [PermIter.next, if_pos (by omega)]
      simp only [PermIter.nextLoop, hnl, if_false]
    · obtain ⟨s, a1, a2, a3⟩ := h.ve
      obtain ⟨t, b1, b2, b3⟩ := f2.ve
      rw [a1, b1]
      congr 1
      apply List.ext_getElem?
      intro j
      by_cases hj : j < l.length
      · rw [b3 j hj, a3 j hj]
      · rw [List.getElem?_eq_none (by omega), List.getElem?_eq_none (by omega)]
  · have hnl : ¬ it.i < it.vector.num := by rw [h.at_i, n1]; omega
    have : it.next g = some (it, false) := by
      rw [PermIter.next, if_pos (by omega)]
      simp only [PermIter.nextLoop, hnl, if_false]
    exact ⟨it, this, this, rfl⟩

/-- the contents of the vector after exchanges -/
def arranged (l : List α) (e : Perm Nat) : List (Option α) := (List.range l.length).map fun p => l[e p]?

theorem c43_arranged_aux {it : PermIter α} {l : List α} {e : Perm Nat} {d : Nat → Nat} {i : Nat}
    (h : IterAt it l e d i) (he : HeapMethod.Low l.length e) : it.vector.elems = arranged l e := by
  obtain ⟨s, a1, a2, a3⟩ := h.ve
  rw [a1, arranged]
  apply List.ext_getElem?
  intro j
  by_cases hj : j < l.length
  · have hej : e j < l.length := by
      by_contra hc
      have h1 := he (e j) (by omega)
      have := e.injective h1
      omega
    rw [List.getElem?_map, a3 j hj, List.getElem?_eq_getElem hej]
    simp [hj, List.getElem?_eq_getElem hej]
  · rw [List.getElem?_eq_none (by simp; omega), List.getElem?_eq_none (by simp; omega)]

theorem c43_collect_aux {g : Growth} {l : List α} {it it' : PermIter α} {e : Perm Nat} {ms : List (Perm Nat)}
    (h : IterPath g l it e ms it') (he : HeapMethod.Low l.length e)
    (hm : ∀ m ∈ ms, HeapMethod.Low l.length m) {fin : PermIter α} (hf : it'.next g = some (fin, false)) :
    it.collect g (ms.length + 1) = some ((HeapMethod.visits e ms).map (arranged l), fin) := by
  induction h with
  | stop h => simp [PermIter.collect, hf, HeapMethod.visits, c43_arranged_aux h he]
  | turn h h1 _ ih =>
    have := ih (HeapMethod.low_mul he (hm _ (by simp))) (fun m hx => hm m (by simp [hx])) hf
    simp only [List.length_cons]
    rw [PermIter.collect, h1]
    simp only [this, HeapMethod.visits, List.map_cons, c43_arranged_aux h he]

theorem c43_zeros_aux (g : Growth) : ∀ (n : Nat) (v : Vec Nat) (m : Nat), v.Inv →
    v.elems = ((List.range m).map fun _ => 0).map some →
    ∃ w, PermIter.zeros g v n = some w ∧ w.Inv ∧
      w.elems = ((List.range (m + n)).map fun _ => 0).map some := by
  intro n
  induction n with
  | zero => intro v m h he; exact ⟨v, rfl, h, he⟩
  | succ n ih =>
    intro v m h he
    obtain ⟨w, h1, h2, h3, _⟩ := c18_step_aux g v _ (.pushBack 0) h he
    simp only [Vec.apply, SeqOp.apply] at h1 h3
    obtain ⟨u, g1, g2, g3⟩ := ih w (m + 1) h2 (by rw [h3, List.range_succ]; simp)
    exact ⟨u, by simp [PermIter.zeros, h1, g1], g2, by rw [g3]; congr 3; omega⟩

/-- the arrangements of positions passed through are all arrangements -/
theorem c43_positions_aux (n : Nat) :
    ((HeapMethod.visits 1 (HeapMethod.moves n)).map fun e : Perm Nat => (List.range n).map e).Perm
      (List.range n).permutations := by
  have hlow := HeapMethod.visits_low (HeapMethod.moves_low n) (e := 1) (fun _ _ => rfl)
  have hnd : ((HeapMethod.visits 1 (HeapMethod.moves n)).map fun e : Perm Nat => (List.range n).map e).Nodup := by
    apply List.Nodup.map_on _ (HeapMethod.moves_nodup n)
    intro e he f hf h
    ext p
    by_cases hp : p < n
    · have := congrArg (fun x : List Nat => x[p]?) h
      simpa [hp] using this
    · rw [hlow e he p (by omega), hlow f hf p (by omega)]
  have hsub : ((HeapMethod.visits 1 (HeapMethod.moves n)).map fun e : Perm Nat => (List.range n).map e) ⊆
      (List.range n).permutations := by
    intro x hx
    obtain ⟨e, he, rfl⟩ := List.mem_map.mp hx
    rw [List.mem_permutations]
    apply (List.perm_ext_iff_of_nodup (List.Nodup.map e.injective List.nodup_range) List.nodup_range).mpr
    intro a
    simp only [List.mem_map, List.mem_range]
    have hl := hlow e he
    constructor
    · rintro ⟨p, hp, rfl⟩
      by_contra hc
      have := e.injective (hl (e p) (by omega))
      omega
    · intro ha
      refine ⟨e.symm a, ?_, by simp⟩
      by_contra hc
      have := hl (e.symm a) (by omega)
      simp at this
      omega
  have hlen : ((HeapMethod.visits 1 (HeapMethod.moves n)).map fun e : Perm Nat => (List.range n).map e).length =
      (List.range n).permutations.length := by
    rw [List.length_map, HeapMethod.visits_length, List.length_permutations, List.length_range]
    cases n with
    | zero => simp [HeapMethod.moves]
    | succ n => exact HeapMethod.moves_length (n + 1) (by omega)
  exact (List.subperm_of_subset hnd hsub).perm_of_length_le (by omega)

/-- C43.  Take any vector with elements `l` and make an iterator over it.  Looking at the vector,
asking for the next arrangement and so on until the answer is no: this takes exactly as many looks
as there are arrangements (n factorial), the contents seen are all arrangements of `l`, each
exactly as often as it occurs among them (`List.permutations`: once if the elements are all
different), and from then on the answer stays no.  Nothing is accessed outside of a block. -/
theorem c43_iterator (g : Growth) (l : List α) (v : Vec α) (hi : v.Inv) (hv : v.elems = l.map some) :
    ∃ it vs fin, PermIter.new g v = some it ∧
      it.collect g l.length.factorial = some (vs, fin) ∧
      vs.Perm (l.permutations.map fun r => r.map some) ∧ fin.next g = some (fin, false) := by
  have hn : v.num = l.length := by rw [← Vec.elems_length hi, hv]; simp
  obtain ⟨c, h1, h2, h3⟩ := c43_zeros_aux g l.length (Vec.new 1) 0 (c18_new_aux 1) (by simp [Vec.elems, Vec.new])
  have h0 : IterAt { vector := v, counts := c, i := 1 } l 1 (fun _ => 0) 1 :=
    ⟨hi, ⟨l, hv, rfl, fun p _ => by simp⟩, h2, by rw [Nat.zero_add] at h3; exact h3, rfl⟩
  obtain ⟨it', d', m1, m2, m3, _⟩ := c43_moves_aux g l l.length _ 1 _ (Nat.le_refl _) h0 (fun _ _ _ => rfl)
  obtain ⟨fin, e1, e2, _⟩ := c43_end_aux g m2 m3
  have hc := c43_collect_aux m1 (fun _ _ => rfl) (HeapMethod.moves_low l.length) e1
  have hlen : (HeapMethod.moves l.length).length + 1 = l.length.factorial := by
    by_cases hl : l.length = 0
    · rw [hl]; rfl
    · exact HeapMethod.moves_length _ (by omega)
  rw [hlen] at hc
  refine ⟨_, _, fin, ?_, hc, ?_, e2⟩
  · simp [PermIter.new, hn, h1]
  · have e : (HeapMethod.visits 1 (HeapMethod.moves l.length)).map (arranged l) =
        ((HeapMethod.visits 1 (HeapMethod.moves l.length)).map
          fun e : Perm Nat => (List.range l.length).map e).map (List.map fun p => l[p]?) := by
      rw [List.map_map]
      apply List.map_congr_left
      intro e _
      simp [arranged, Function.comp_def]
    have hl : l.map some = (List.range l.length).map fun p => l[p]? := by
      apply List.ext_getElem?
      intro j
      by_cases hj : j < l.length
      · simp [hj]
      · simp [hj]
    have hp : (l.permutations.map fun r => r.map some) =
        (List.range l.length).permutations.map (List.map fun p => l[p]?) := by
      have h1 := List.map_permutations some l
      have h2 := List.map_permutations (fun p => l[p]?) (List.range l.length)
      rw [h2, ← hl, ← h1]
    rw [e, hp]
    exact (c43_positions_aux l.length).map _

/-- The same without `List.permutations`: what is seen is exactly what can be obtained by
reordering `l`, and if the elements are all different nothing is seen twice. -/
theorem c43_every_arrangement_once (g : Growth) (l : List α) (v : Vec α) (hi : v.Inv)
    (hv : v.elems = l.map some) :
    ∃ it vs fin, PermIter.new g v = some it ∧ it.collect g l.length.factorial = some (vs, fin) ∧
      vs.length = l.length.factorial ∧ (∀ r, r ∈ vs ↔ ∃ r' : List α, r = r'.map some ∧ r'.Perm l) ∧
      (l.Nodup → vs.Nodup) := by
  obtain ⟨it, vs, fin, h1, h2, h3, _⟩ := c43_iterator g l v hi hv
  refine ⟨it, vs, fin, h1, h2, ?_, ?_, ?_⟩
  · rw [h3.length_eq, List.length_map, List.length_permutations]
  · intro r
    rw [h3.mem_iff, List.mem_map]
    constructor
    · rintro ⟨r', ha, rfl⟩; exact ⟨r', rfl, List.mem_permutations.mp ha⟩
    · rintro ⟨r', rfl, ha⟩; exact ⟨r', List.mem_permutations.mpr ha, rfl⟩
  · intro hnd
    rw [h3.nodup_iff]
    exact List.Nodup.map (List.map_injective_iff.mpr (Option.some_injective _))
      (List.nodup_permutations l hnd)

-- a concrete run
example : ((PermIter.new Growth.exact (⟨[some 1, some 2, some 3, none], 3, 4, []⟩ : Vec Nat)).bind
    (fun it => (it.collect Growth.exact 6).map (·.1))) =
    some [[some 1, some 2, some 3], [some 2, some 1, some 3], [some 3, some 1, some 2],
      [some 1, some 3, some 2], [some 2, some 3, some 1], [some 3, some 2, some 1]] := by decide

end Dern.Props
