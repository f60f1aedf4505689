import Verif.Dern.CompareTotal
/-
C13: equality is an equivalence.

`Equal m a b true` says that octaspire_dern_value_is_equal, called with the values `a` and `b` in
the memory `m`, returns true.  For regular data (no NaN, texts without U+0000 made of Unicode scalar
values, lengths, line numbers and version numbers below 2^31, hash maps whose keys are nil, booleans,
integers or texts) whose integers are less than 2^31 apart, equality always returns and means that
the data are the same; hence it is an equivalence.  Reflexivity holds for every value.

Negative: a NaN is equal to every number, so equality is not transitive, and comparing two integers
more than 2^31 apart is undefined behaviour.
-/
namespace Dern.Props
open Dern Dern.Spec

/-- octaspire_dern_value_is_equal returns `r` -/
def Equal (m : Mem) (a b : Ref) (r : Bool) : Prop := ∃ n, isEqual m n a b = .ok r

/-- a value that can be compared: its data are regular, and its integers at least `lo` and less than
`lo + 2^31` -/
def Comparable (m : Mem) (lo : Int) (r : Ref) (d : Data) : Prop :=
  Denotes m r d ∧ Regular d ∧ InWindow lo d

theorem c13_equal_aux {m : Mem} {n : Nat} {a b : Ref} {r : Bool} (h : isEqual m n a b = .ok r) :
    ∃ z, compareRef m n a b = .ok z ∧ (r = true ↔ z = 0) := by
  unfold isEqual at h
  cases hc : compareRef m n a b with
  | error e => rw [hc] at h; cases h
  | ok z =>
    rw [hc] at h
    cases h
    exact ⟨z, rfl, by simp⟩

/-- whenever equality of two values with regular data returns, it says whether the data are the
same; no condition on the integers -/
theorem c13_sound_partial {m : Mem} {a b : Ref} {da db : Data} {r : Bool} (ha : Denotes m a da)
    (hb : Denotes m b db) (ra : Regular da) (rb : Regular db) (h : Equal m a b r) :
    r = true ↔ da.Same db := by
  obtain ⟨n, h⟩ := h
  obtain ⟨z, hz, hr⟩ := c13_equal_aux h
  exact hr.trans (compareRef_zero m n a b da db z ha hb ra rb hz)

/-- equality returns true if the data are the same and false otherwise -/
theorem c13_decides_partial {m : Mem} {lo : Int} {a b : Ref} {da db : Data}
    (ha : Comparable m lo a da) (hb : Comparable m lo b db) :
    (Equal m a b true ↔ da.Same db) ∧ (Equal m a b false ↔ ¬ da.Same db) := by
  obtain ⟨n0, h⟩ := compareRef_returns ha.1 ha.2.1 ha.2.2
  obtain ⟨z, hz⟩ := h n0 (Nat.le_refl _) b db hb.1 hb.2.1 hb.2.2
  have eq : Equal m a b (z == 0) := ⟨n0, by unfold isEqual; rw [hz]; rfl⟩
  refine ⟨⟨fun h => (c13_sound_partial ha.1 hb.1 ha.2.1 hb.2.1 h).mp rfl, fun h => ?_⟩,
    ⟨fun h s => ?_, fun h => ?_⟩⟩
  · rwa [(c13_sound_partial ha.1 hb.1 ha.2.1 hb.2.1 eq).mpr h] at eq
  · exact absurd ((c13_sound_partial ha.1 hb.1 ha.2.1 hb.2.1 h).mpr s) (by decide)
  · cases hb' : (z == 0) with
    | true => exact absurd ((c13_sound_partial ha.1 hb.1 ha.2.1 hb.2.1 eq).mp hb') h
    | false => rwa [hb'] at eq

/-- every value is equal to itself -/
theorem c13_reflexive (m : Mem) (a : Ref) : Equal m a a true := ⟨1, by simp [isEqual, compareRef, Except.map]⟩

/-- and to every other value with the same data -/
theorem c13_reflexive_data_partial {m : Mem} {lo : Int} {a b : Ref} {d : Data}
    (ha : Comparable m lo a d) (hb : Comparable m lo b d) : Equal m a b true :=
  (c13_decides_partial ha hb).1.mpr (same_refl ha.2.1)

theorem c13_symmetric_partial {m : Mem} {lo : Int} {a b : Ref} {da db : Data}
    (ha : Comparable m lo a da) (hb : Comparable m lo b db) (r : Bool) :
    Equal m a b r ↔ Equal m b a r := by
  have s : da.Same db ↔ db.Same da :=
    ⟨fun h => same_symm h ha.2.1 hb.2.1, fun h => same_symm h hb.2.1 ha.2.1⟩
  cases r with
  | true => rw [(c13_decides_partial ha hb).1, (c13_decides_partial hb ha).1, s]
  | false => rw [(c13_decides_partial ha hb).2, (c13_decides_partial hb ha).2, s]

theorem c13_transitive_partial {m : Mem} {lo : Int} {a b c : Ref} {da db dc : Data}
    (ha : Comparable m lo a da) (hb : Comparable m lo b db) (hc : Comparable m lo c dc)
    (h1 : Equal m a b true) (h2 : Equal m b c true) : Equal m a c true := by
  rw [(c13_decides_partial ha hb).1] at h1
  rw [(c13_decides_partial hb hc).1] at h2
  rw [(c13_decides_partial ha hc).1]
  exact same_trans h1 _ h2

/-! ### negative results -/

/-- a memory with the given objects at the addresses 0, 1, 2 … -/
def memOf (os : List Obj) : Mem := fun r => os[r]?.map fun o => { obj := o, uid := r }

/-- a quiet NaN -/
def nan : Dbl := 0x7FF8000000000000

/-- 1 == NaN and NaN == 2 but not 1 == 2 -/
theorem c13_nan_not_transitive :
    ∃ m : Mem, Equal m 0 1 true ∧ Equal m 1 2 true ∧ Equal m 0 2 false :=
  ⟨memOf [.int 1, .real nan, .int 2], ⟨1, by decide +kernel⟩, ⟨1, by decide +kernel⟩, ⟨1, by decide +kernel⟩⟩

/-- comparing 2147483647 with -1 overflows -/
theorem c13_overflow : ∃ m : Mem, m 0 = some { obj := .int 2147483647, uid := 0 } ∧
    m 1 = some { obj := .int (-1), uid := 1 } ∧ ∀ n, isEqual m (n + 1) 0 1 = .error .ub :=
  ⟨memOf [.int 2147483647, .int (-1)], rfl, rfl, fun _ => rfl⟩

/-! ### the hypotheses can be met -/

/-- [1, {a: 2.0}] twice, with the hash maps built of different values, and [1, {a: 3}] -/
def c13_mem : Mem := memOf [.int 1, .str (txt "a"), .real 0x4000000000000000, .hmap 128 [(1, 2)],
  .vec [0, 3], .str (txt "a"), .int 2, .hmap 256 [(5, 6)], .vec [0, 7], .int 3, .hmap 128 [(1, 9)],
  .vec [0, 10]]

def c13_data (v : Data) : Data := .vec [.int 1, .hmap [(.str (txt "a"), v)]]

theorem c13_comparable_aux (k v h r : Ref) (nb : Nat) (d : Data)
    (hk : ∃ c, c13_mem k = some c ∧ c.obj = .str (txt "a")) (hv : Denotes c13_mem v d)
    (hh : ∃ c, c13_mem h = some c ∧ c.obj = .hmap nb [(k, v)])
    (hr : ∃ c, c13_mem r = some c ∧ c.obj = .vec [0, h]) (pd : Plain d) (wd : InWindow 0 d) :
    Comparable c13_mem 0 r (c13_data d) := by
  obtain ⟨ck, hk, ok⟩ := hk
  obtain ⟨ch, hh, oh⟩ := hh
  obtain ⟨cr, hr, or⟩ := hr
  have dk : Denotes c13_mem k (.str (txt "a")) := .atom hk (by rw [ok]; rfl)
  have d1 : Denotes c13_mem 0 (.int 1) := .atom (c := { obj := .int 1, uid := 0 }) rfl rfl
  have dh : Denotes c13_mem h (.hmap [(.str (txt "a"), d)]) := by
    refine .hmap hh oh rfl ?_ ?_
    · rintro (_ | i) e d he hd <;> simp at he hd
      subst he hd; exact dk
    · rintro (_ | i) e d he hd <;> simp at he hd
      subst he hd; exact hv
  have pk : Printable (txt "a") := by unfold Printable; decide
  refine ⟨.vec hr or rfl ?_, .vec (by simp) ?_, .vec ?_⟩
  · rintro (_ | _ | i) x d hx hd <;> simp at hx hd
    · subst hx hd; exact d1
    · subst hx hd; exact dh
  · intro x hx
    simp at hx
    rcases hx with rfl | rfl
    · exact .plain .int
    · refine .hmap (by simp) (by simp) ?_ ?_ <;> intro e he <;> simp at he <;> subst he
      · exact .str pk
      · exact .plain pd
  · intro x hx
    simp at hx
    rcases hx with rfl | rfl
    · exact .int (by decide) (by decide)
    · refine .hmap ?_ ?_ <;> intro e he <;> simp at he <;> subst he
      · exact .leaf (by simp) (by simp [Leaf, dataTag])
      · exact wd

/-- the two values with 2.0 and 2 are comparable and equal, the third is not equal to them -/
example : Comparable c13_mem 0 4 (c13_data (.real 0x4000000000000000)) ∧
    Comparable c13_mem 0 8 (c13_data (.int 2)) ∧ Comparable c13_mem 0 11 (c13_data (.int 3)) ∧
    Equal c13_mem 4 8 true ∧ Equal c13_mem 4 11 false := by
  refine ⟨c13_comparable_aux 1 2 3 4 128 _ ⟨_, rfl, rfl⟩ (.atom (c := { obj := .real 0x4000000000000000, uid := 2 }) rfl rfl)
      ⟨_, rfl, rfl⟩ ⟨_, rfl, rfl⟩ (.real (by decide)) (.leaf (by simp) (by simp [Leaf, dataTag])),
    c13_comparable_aux 5 6 7 8 256 _ ⟨_, rfl, rfl⟩ (.atom (c := { obj := .int 2, uid := 6 }) rfl rfl) ⟨_, rfl, rfl⟩ ⟨_, rfl, rfl⟩ .int
      (.int (by decide) (by decide)),
    c13_comparable_aux 1 9 10 11 128 _ ⟨_, rfl, rfl⟩ (.atom (c := { obj := .int 3, uid := 9 }) rfl rfl) ⟨_, rfl, rfl⟩ ⟨_, rfl, rfl⟩ .int
      (.int (by decide) (by decide)),
    ⟨4, by decide +kernel⟩, ⟨4, by decide +kernel⟩⟩

end Dern.Props
