import Verif.Props.C13
/-
C14: comparison is a consistent order.

The five comparison functions of values (octaspire_dern_value_is_less_than etc., used by `<`, `<=`,
`==`, `>=`, `>`) on plain data (as in C13, and without hash maps) whose integers are less than 2^31
apart: they always return, agree with one total preorder whose equality is that of C13, and order
numbers by value.

Negative: of two hash maps of equal size with different keys each is greater than the other; a NaN
is equal to every number; far apart integers are undefined behaviour (C13).
-/
namespace Dern.Props
open Dern Dern.Spec

/-- the outcomes of the five comparison functions on `a` and `b`, in the order <, <=, ==, >=, > -/
structure Answers (m : Mem) (a b : Ref) (lt le eq ge gt : Bool) : Prop where
  lt : ∃ n, isLessThan m n a b = .ok lt
  le : ∃ n, isLessOrEqual m n a b = .ok le
  eq : ∃ n, isEqual m n a b = .ok eq
  ge : ∃ n, isGreaterOrEqual m n a b = .ok ge
  gt : ∃ n, isGreaterThan m n a b = .ok gt

/-- as `Comparable` of C13, without hash maps -/
def Ordered (m : Mem) (lo : Int) (r : Ref) (d : Data) : Prop :=
  Denotes m r d ∧ Plain d ∧ InWindow lo d

theorem c14_compare_aux {m : Mem} {lo : Int} {a b : Ref} {da db : Data}
    (ha : Ordered m lo a da) (hb : Ordered m lo b db) :
    ∃ n z, compareRef m n a b = .ok z ∧ Int.sign z = sign (dataCmp da db) := by
  obtain ⟨n0, h⟩ := compareRef_returns ha.1 (.plain ha.2.1) ha.2.2
  obtain ⟨z, hz⟩ := h n0 (Nat.le_refl _) b db hb.1 (.plain hb.2.1) hb.2.2
  exact ⟨n0, z, hz, compareRef_sign m n0 a b da db z ha.1 hb.1 ha.2.1 hb.2.1 hz⟩

theorem c14_map_aux {m : Mem} {n : Nat} {a b : Ref} {f : Int → Bool} {r : Bool}
    (h : (compareRef m n a b).map f = .ok r) : ∃ z, compareRef m n a b = .ok z ∧ f z = r := by
  cases hc : compareRef m n a b with
  | error e => rw [hc] at h; cases h
  | ok z => rw [hc] at h; exact ⟨z, rfl, by cases h; rfl⟩

/-- whatever the values, the outcomes belong together: they are those of one number compared with 0 -/
theorem c14_consistent {m : Mem} {a b : Ref} {lt le eq ge gt : Bool}
    (h : Answers m a b lt le eq ge gt) :
    (lt, le, eq, ge, gt) = (true, true, false, false, false) ∨
    (lt, le, eq, ge, gt) = (false, true, true, true, false) ∨
    (lt, le, eq, ge, gt) = (false, false, false, true, true) := by
  obtain ⟨⟨_, h1⟩, ⟨_, h2⟩, ⟨_, h3⟩, ⟨_, h4⟩, ⟨_, h5⟩⟩ := h
  obtain ⟨z, e1, h1⟩ := c14_map_aux h1
  obtain ⟨z2, e2, h2⟩ := c14_map_aux h2
  obtain ⟨z3, e3, h3⟩ := c14_map_aux h3
  obtain ⟨z4, e4, h4⟩ := c14_map_aux h4
  obtain ⟨z5, e5, h5⟩ := c14_map_aux h5
  cases compareRef_det m e1 e2
  cases compareRef_det m e1 e3
  cases compareRef_det m e1 e4
  cases compareRef_det m e1 e5
  subst h1 h2 h3 h4 h5
  rcases Int.lt_trichotomy z 0 with h | h | h
  · left
    have h1 : z ≤ 0 := by omega
    have h2 : ¬ z = 0 := by omega
    have h3 : ¬ z ≥ 0 := by omega
    have h4 : ¬ z > 0 := by omega
    simp [h, h1, h2, h4]
  · subst h; right; left; rfl
  · right; right
    have h1 : ¬ z ≤ 0 := by omega
    have h2 : ¬ z = 0 := by omega
    have h3 : z ≥ 0 := by omega
    have h4 : ¬ z < 0 := by omega
    simp [h, h2, h3, h4]

theorem c14_of_compare_aux {m : Mem} {n : Nat} {a b : Ref} {z : Int} (h : compareRef m n a b = .ok z) :
    Answers m a b (z < 0) (z ≤ 0) (z == 0) (z ≥ 0) (z > 0) :=
  ⟨⟨n, by unfold isLessThan; rw [h]; rfl⟩, ⟨n, by unfold isLessOrEqual; rw [h]; rfl⟩,
   ⟨n, by unfold isEqual; rw [h]; rfl⟩, ⟨n, by unfold isGreaterOrEqual; rw [h]; rfl⟩,
   ⟨n, by unfold isGreaterThan; rw [h]; rfl⟩⟩

/-- a total preorder -/
structure TotalPreorder {α : Type} (le : α → α → Prop) : Prop where
  refl : ∀ a, le a a
  trans : ∀ a b c, le a b → le b c → le a c
  total : ∀ a b, le a b ∨ le b a

/-- "smaller or equal" of data, before knowing the program -/
def c14_le (a b : Data) : Prop := dataCmp a b ≠ .gt

theorem c14_sames_aux : ∀ (as bs : List Data), as.length = bs.length →
    (∀ a ∈ as, ∀ b ∈ bs, (dataCmp a b = .eq ↔ a.Same b)) →
    (dataCmps as bs = .eq ↔ ∀ (i : Nat) (a b : Data), as[i]? = some a → bs[i]? = some b → a.Same b) := by
  intro as
  induction as with
  | nil => intro bs _ _; simp [dataCmps]
  | cons a as ih =>
    intro bs hl h
    cases bs with
    | nil => simp at hl
    | cons b bs =>
      simp only [dataCmps, then_eq_iff]
      rw [h a (by simp) b (by simp), ih bs (by simpa using hl)
        (fun x hx y hy => h x (by simp [hx]) y (by simp [hy]))]
      constructor
      · rintro ⟨h1, h2⟩ (_ | i) x y hx hy
        · cases hx; cases hy; exact h1
        · exact h2 i x y (by simpa using hx) (by simpa using hy)
      · intro h
        exact ⟨h 0 a b rfl rfl, fun i x y hx hy => h (i + 1) x y (by simpa using hx) (by simpa using hy)⟩

theorem c14_seq_aux {as : List Data} (l : ∀ d ∈ as, Plain d)
    (ih : ∀ d ∈ as, ∀ b, Plain b → (dataCmp d b = .eq ↔ d.Same b)) {a b : Data}
    (ea : elems a = as) (hb : ∀ d ∈ elems b, Plain d) :
    dataCmp a b = .eq ↔ top a b = .eq ∧ ∀ (i : Nat) (x y : Data), as[i]? = some x →
      (elems b)[i]? = some y → x.Same y := by
  rw [dataCmp_eq, then_eq_iff, ea]
  constructor
  · rintro ⟨h1, h2⟩
    have := top_elems h1
    rw [ea] at this
    exact ⟨h1, (c14_sames_aux _ _ this fun x hx y hy => ih x hx y (hb y hy)).mp h2⟩
  · rintro ⟨h1, h2⟩
    have := top_elems h1
    rw [ea] at this
    exact ⟨h1, (c14_sames_aux _ _ this fun x hx y hy => ih x hx y (hb y hy)).mpr h2⟩

theorem c14_plain_elems_aux {b : Data} (h : Plain b) : ∀ d ∈ elems b, Plain d := by
  cases h with
  | vec _ h => exact h
  | queue _ h => exact h
  | list _ h => exact h
  | _ => intro d hd; simp [elems] at hd

theorem c14_same_aux {a : Data} (pa : Plain a) : ∀ b, Plain b → (dataCmp a b = .eq ↔ a.Same b) := by
  induction pa with
  | vec n l ih =>
    intro b pb
    rw [c14_seq_aux l ih rfl (c14_plain_elems_aux pb)]
    constructor
    · rintro ⟨h1, h2⟩
      simp only [top, then_eq_iff, intCmp_eq] at h1
      cases b <;> simp [kind] at h1
      exact .vec (by simpa [within, intCmp_eq] using h1) h2
    · intro h
      cases h with
      | number h3 => simp [Data.number] at h3
      | vec l h => exact ⟨by simp [top, kind, within, intCmp_refl, l], h⟩
  | queue n l ih =>
    intro b pb
    rw [c14_seq_aux l ih rfl (c14_plain_elems_aux pb)]
    constructor
    · rintro ⟨h1, h2⟩
      simp only [top, then_eq_iff, intCmp_eq] at h1
      cases b <;> simp [kind] at h1
      exact .queue (by simpa [within, intCmp_eq] using h1) h2
    · intro h
      cases h with
      | number h3 => simp [Data.number] at h3
      | queue l h => exact ⟨by simp [top, kind, within, intCmp_refl, l], h⟩
  | list n l ih =>
    intro b pb
    rw [c14_seq_aux l ih rfl (c14_plain_elems_aux pb)]
    constructor
    · rintro ⟨h1, h2⟩
      simp only [top, then_eq_iff, intCmp_eq] at h1
      cases b <;> simp [kind] at h1
      exact .list (by simpa [within, intCmp_eq] using h1) h2
    · intro h
      cases h with
      | number h3 => simp [Data.number] at h3
      | list l h => exact ⟨by simp [top, kind, within, intCmp_refl, l], h⟩
  | nil => intro b pb; exact leaf_cmp (by simp [Leaf, dataTag]) .nil pb
  | bool => intro b pb; exact leaf_cmp (by simp [Leaf, dataTag]) .bool pb
  | int => intro b pb; exact leaf_cmp (by simp [Leaf, dataTag]) .int pb
  | real h => intro b pb; exact leaf_cmp (by simp [Leaf, dataTag]) (.real h) pb
  | str h => intro b pb; exact leaf_cmp (by simp [Leaf, dataTag]) (.str h) pb
  | chr h => intro b pb; exact leaf_cmp (by simp [Leaf, dataTag]) (.chr h) pb
  | sym h => intro b pb; exact leaf_cmp (by simp [Leaf, dataTag]) (.sym h) pb
  | err h h' => intro b pb; exact leaf_cmp (by simp [Leaf, dataTag]) (.err h h') pb
  | special => intro b pb; exact leaf_cmp (by simp [Leaf, dataTag]) .special pb
  | builtin => intro b pb; exact leaf_cmp (by simp [Leaf, dataTag]) .builtin pb
  | port => intro b pb; exact leaf_cmp (by simp [Leaf, dataTag]) .port pb
  | semver h => intro b pb; exact leaf_cmp (by simp [Leaf, dataTag]) (.semver h) pb

/-- There is one total preorder of all data which the five functions compute on plain data; data
equivalent in it are the same. -/
theorem c14_total_order_partial : ∃ le : Data → Data → Prop, TotalPreorder le ∧
    (∀ a b, Plain a → Plain b → (le a b ∧ le b a ↔ a.Same b)) ∧
    ∀ (m : Mem) (lo : Int) (a b : Ref) (da db : Data), Ordered m lo a da → Ordered m lo b db →
      ∀ lt le' eq ge gt, Answers m a b lt le' eq ge gt ↔
        ((le' = true ↔ le da db) ∧ (ge = true ↔ le db da) ∧ (lt = true ↔ ¬ le db da) ∧
          (gt = true ↔ ¬ le da db) ∧ (eq = true ↔ da.Same db)) := by
  have same : ∀ a b, Plain a → Plain b → (dataCmp a b = .eq ↔ a.Same b) := by
    intro a b pa pb
    exact c14_same_aux pa b pb
  refine ⟨c14_le, ⟨?_, ?_, ?_⟩, ?_, ?_⟩
  · intro a; unfold c14_le; rw [dataCmp_refl]; nofun
  · intro a b c h1 h2; exact (dataCmp_tri a b c h1 h2).1
  · intro a b
    unfold c14_le
    rw [dataCmp_swap a b]
    cases dataCmp a b <;> simp
  · intro a b pa pb
    rw [← same a b pa pb]
    unfold c14_le
    rw [dataCmp_swap a b]
    cases dataCmp a b <;> simp
  · intro m lo a b da db ha hb lt le' eq ge gt
    obtain ⟨n, z, hz, hs⟩ := c14_compare_aux ha hb
    have hA := c14_of_compare_aux hz
    have e1 := sign_eq_zero hs
    have e2 := sign_neg hs
    have e3 := sign_pos hs
    rw [← same da db ha.2.1 hb.2.1]
    unfold c14_le
    rw [dataCmp_swap da db]
    have key : Answers m a b lt le' eq ge gt ↔ lt = decide (z < 0) ∧ le' = decide (z ≤ 0) ∧
        eq = (z == 0) ∧ ge = decide (z ≥ 0) ∧ gt = decide (z > 0) := by
      constructor
      · intro h
        obtain ⟨⟨_, h1⟩, ⟨_, h2⟩, ⟨_, h3⟩, ⟨_, h4⟩, ⟨_, h5⟩⟩ := h
        obtain ⟨z1, g1, h1⟩ := c14_map_aux h1
        obtain ⟨z2, g2, h2⟩ := c14_map_aux h2
        obtain ⟨z3, g3, h3⟩ := c14_map_aux h3
        obtain ⟨z4, g4, h4⟩ := c14_map_aux h4
        obtain ⟨z5, g5, h5⟩ := c14_map_aux h5
        cases compareRef_det m hz g1
        cases compareRef_det m hz g2
        cases compareRef_det m hz g3
        cases compareRef_det m hz g4
        cases compareRef_det m hz g5
        exact ⟨h1.symm, h2.symm, h3.symm, h4.symm, h5.symm⟩
      · rintro ⟨rfl, rfl, rfl, rfl, rfl⟩; exact hA
    rw [key]
    have b : ∀ (p : Prop) [Decidable p] (r : Bool), (r = decide p) ↔ (r = true ↔ p) := by
      intro p _ r; cases r <;> simp
    have hle : z ≤ 0 ↔ dataCmp da db ≠ .gt := by rw [Ne, ← e3]; omega
    have hge : z ≥ 0 ↔ (dataCmp da db).swap ≠ .gt := by
      have : (dataCmp da db).swap ≠ .gt ↔ dataCmp da db ≠ .lt := by cases dataCmp da db <;> simp
      rw [this, Ne, ← e2]; omega
    have hlt : z < 0 ↔ ¬ (dataCmp da db).swap ≠ .gt := by rw [← hge]; omega
    have hgt : z > 0 ↔ ¬ dataCmp da db ≠ .gt := by rw [← hle]; omega
    have heq : (z == 0) = decide (z = 0) := by by_cases h : z = 0 <;> simp [h]
    rw [heq, b, b, b, b, b, hle, hge, hlt, hgt, e1]
    constructor
    · rintro ⟨h1, h2, h3, h4, h5⟩; exact ⟨h2, h4, h1, h5, h3⟩
    · rintro ⟨h2, h4, h1, h5, h3⟩; exact ⟨h1, h2, h3, h4, h5⟩

/-- numbers, of any two kinds, are compared by value -/
theorem c14_numbers_partial {m : Mem} {lo : Int} {a b : Ref} {da db : Data} {x y : Int}
    (ha : Ordered m lo a da) (hb : Ordered m lo b db) (hx : da.number = some x)
    (hy : db.number = some y) :
    Answers m a b (x < y) (x ≤ y) (x = y) (x ≥ y) (x > y) := by
  obtain ⟨n, z, hz, hs⟩ := c14_compare_aux ha hb
  have hc : dataCmp da db = intCmp x y := by
    cases da <;> simp [Data.number] at hx <;> cases db <;> simp [Data.number] at hy <;>
      simp [dataCmp, top, within, kind, intCmp_refl, Data.number, hx, hy]
  rw [hc] at hs
  have e1 := sign_eq_zero hs
  have e2 := sign_neg hs
  have e3 := sign_pos hs
  have h := c14_of_compare_aux hz
  rw [intCmp_eq] at e1
  have e2' : z < 0 ↔ x < y := by
    rw [e2]; unfold intCmp; by_cases h : x < y
    · simp [h]
    · by_cases h' : y < x <;> simp [h, h']
  have h1 : decide (z < 0) = decide (x < y) := by simp [e2']
  have h2 : decide (z ≤ 0) = decide (x ≤ y) := by
    rw [decide_eq_decide]; omega
  have h3 : (z == 0) = decide (x = y) := by
    by_cases hz0 : z = 0
    · simp [hz0, e1.mp hz0]
    · simp [hz0, mt e1.mpr hz0]
  have h4 : decide (z ≥ 0) = decide (x ≥ y) := by rw [decide_eq_decide]; omega
  have h5 : decide (z > 0) = decide (x > y) := by rw [decide_eq_decide]; omega
  rw [h1, h2, h3, h4, h5] at h
  exact h

/-- integers less than 2^31 apart: as mathematical integers -/
theorem c14_integers {m : Mem} {a b : Ref} {ca cb : Cell} {x y : Int} (ha : m a = some ca)
    (hb : m b = some cb) (hx : ca.obj = .int x) (hy : cb.obj = .int y) (h1 : x - y < 2 ^ 31)
    (h2 : y - x < 2 ^ 31) : Answers m a b (x < y) (x ≤ y) (x = y) (x ≥ y) (x > y) := by
  have oa : Ordered m (min x y) a (.int x) := ⟨.atom ha (by rw [hx]; rfl), .int, .int (by omega) (by omega)⟩
  have ob : Ordered m (min x y) b (.int y) := ⟨.atom hb (by rw [hy]; rfl), .int, .int (by omega) (by omega)⟩
  have h := c14_numbers_partial oa ob rfl rfl
  have le : Dbl.ofInt x ≤ Dbl.ofInt y ↔ x ≤ y := by
    rw [← Int.not_lt, Dbl.ofInt_lt, Int.not_lt]
  have le' : Dbl.ofInt y ≤ Dbl.ofInt x ↔ y ≤ x := by
    rw [← Int.not_lt, Dbl.ofInt_lt, Int.not_lt]
  simpa only [Dbl.ofInt_lt, Dbl.ofInt_inj, le, le', ge_iff_le, gt_iff_lt] using h

/-! ### negative results -/

/-- two hash maps with one entry each and different keys: each is greater than the other -/
theorem c14_hash_maps_not_antisymmetric : ∃ m : Mem,
    Answers m 2 5 false false false true true ∧ Answers m 5 2 false false false true true :=
  ⟨memOf [.int 1, .nil, .hmap 128 [(0, 1)], .int 2, .nil, .hmap 128 [(3, 4)]],
   by constructor <;> exact ⟨3, by decide +kernel⟩, by constructor <;> exact ⟨3, by decide +kernel⟩⟩

/-- 1 < 2, although both are equal to NaN -/
theorem c14_nan : ∃ m : Mem, Answers m 0 1 false true true true false ∧
    Answers m 1 2 false true true true false ∧ Answers m 0 2 true true false false false :=
  ⟨memOf [.int 1, .real nan, .int 2], by constructor <;> exact ⟨1, by decide +kernel⟩,
   by constructor <;> exact ⟨1, by decide +kernel⟩, by constructor <;> exact ⟨1, by decide +kernel⟩⟩

/-! ### the hypotheses can be met -/

/-- a vector of a string and a number: ["a", 1] < ["b", 0.5] -/
example : let m := memOf [.str (txt "a"), .int 1, .vec [0, 1], .str (txt "b"), .real 0x3FE0000000000000,
      .vec [3, 4]]
    Ordered m 0 2 (.vec [.str (txt "a"), .int 1]) ∧
    Ordered m 0 5 (.vec [.str (txt "b"), .real 0x3FE0000000000000]) ∧
    Answers m 2 5 true true false false false := by
  intro m
  have p1 : Printable (txt "a") := by unfold Printable; decide
  have p2 : Printable (txt "b") := by unfold Printable; decide
  refine ⟨⟨.vec (c := { obj := .vec [0, 1], uid := 2 }) rfl rfl rfl ?_, .vec (by decide) ?_, .vec ?_⟩,
    ⟨.vec (c := { obj := .vec [3, 4], uid := 5 }) rfl rfl rfl ?_, .vec (by decide) ?_, .vec ?_⟩, ?_⟩
  · rintro (_ | _ | i) x d hx hd <;> simp at hx hd <;> subst hx hd
    · exact .atom (c := { obj := .str (txt "a"), uid := 0 }) rfl rfl
    · exact .atom (c := { obj := .int 1, uid := 1 }) rfl rfl
  · intro d hd; simp at hd; rcases hd with rfl | rfl
    · exact .str p1
    · exact .int
  · intro d hd; simp at hd; rcases hd with rfl | rfl
    · exact .leaf (by simp) (by simp [Leaf, dataTag])
    · exact .int (by decide) (by decide)
  · rintro (_ | _ | i) x d hx hd <;> simp at hx hd <;> subst hx hd
    · exact .atom (c := { obj := .str (txt "b"), uid := 3 }) rfl rfl
    · exact .atom (c := { obj := .real 0x3FE0000000000000, uid := 4 }) rfl rfl
  · intro d hd; simp at hd; rcases hd with rfl | rfl
    · exact .str p2
    · exact .real (by decide)
  · intro d hd; simp at hd
    rcases hd with rfl | rfl <;> exact .leaf (by simp) (by simp [Leaf, dataTag])
  · constructor <;> exact ⟨3, by decide +kernel⟩

end Dern.Props
