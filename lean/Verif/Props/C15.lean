import Verif.Props.C14
import Verif.Props.C17
/-
C15: equal keys hash equally.

Two equal values have the same hash if they are of the same kind and not containers, not zero as
reals, and, as versions, have the same build metadata.  Values that are nil, booleans, integers or
texts are therefore lawful keys in the sense of C17, which makes lookup in a hash map find the entry
stored under an equal key, after every history.

Negative: the integer 1 and the real 1.0, the reals 0.0 and -0.0, equal vectors, versions that
differ in build metadata, and strings that differ after a NUL are equal but have different hashes.
-/
namespace Dern.Props
open Dern Dern.Spec

theorem c15_bits_aux (d : Dbl) : d.toNat = d.sign.toNat * 2 ^ 63 + d.exponent * 2 ^ 52 + d.fraction := by
  have hs : d.sign.toNat = d.toNat / 2 ^ 63 := by
    have hlt : d.toNat < 2 ^ 64 := d.isLt
    unfold Dbl.sign
    rw [BitVec.getLsbD, Nat.testBit_eq_decide_div_mod_eq]
    by_cases h : d.toNat / 2 ^ 63 % 2 = 1
    · simp only [h, decide_true, Bool.toNat_true]; omega
    · simp only [h, decide_false, Bool.toNat_false]; omega
  have hlt : d.toNat < 2 ^ 64 := d.isLt
  rw [hs]
  unfold Dbl.exponent Dbl.fraction
  omega

/-- the magnitude of a finite double determines exponent and fraction -/
theorem c15_magnitude_lt_aux {d e : Dbl} (h : d.exponent < e.exponent) : d.magnitude < e.magnitude := by
  unfold Dbl.magnitude
  have f1 : d.fraction < 2 ^ 52 := Nat.mod_lt _ (by decide)
  rw [if_neg (show ¬ e.exponent = 0 by omega)]
  have le : (2 ^ 52) * 2 ^ (e.exponent - 1) ≤ (2 ^ 52 + e.fraction) * 2 ^ (e.exponent - 1) :=
    Nat.mul_le_mul_right _ (by omega)
  by_cases h0 : d.exponent = 0
  · rw [if_pos h0]
    have : 1 ≤ 2 ^ (e.exponent - 1) := Nat.one_le_two_pow
    have : 2 ^ 52 * 1 ≤ 2 ^ 52 * 2 ^ (e.exponent - 1) := Nat.mul_le_mul_left _ this
    omega
  · rw [if_neg h0]
    have p : 2 ^ (d.exponent - 1 + 1) ≤ 2 ^ (e.exponent - 1) :=
      Nat.pow_le_pow_right (by decide) (by omega)
    rw [Nat.pow_succ] at p
    have : 2 ^ 52 * (2 ^ (d.exponent - 1) * 2) ≤ 2 ^ 52 * 2 ^ (e.exponent - 1) := Nat.mul_le_mul_left _ p
    have hpos : 0 < 2 ^ (d.exponent - 1) := Nat.pow_pos (by decide)
    have : (2 ^ 52 + d.fraction) * 2 ^ (d.exponent - 1) < (2 ^ 52 * 2) * 2 ^ (d.exponent - 1) :=
      Nat.mul_lt_mul_of_pos_right (by omega) hpos
    have : (2 ^ 52 * 2) * 2 ^ (d.exponent - 1) = 2 ^ 52 * (2 ^ (d.exponent - 1) * 2) := by
      rw [Nat.mul_assoc, Nat.mul_comm 2]
    omega

theorem c15_magnitude_aux {d e : Dbl} (h : d.magnitude = e.magnitude) :
    d.exponent = e.exponent ∧ d.fraction = e.fraction := by
  have he : d.exponent = e.exponent := by
    rcases Nat.lt_trichotomy d.exponent e.exponent with h' | h' | h'
    · have := c15_magnitude_lt_aux h'; omega
    · exact h'
    · have := c15_magnitude_lt_aux h'; omega
  refine ⟨he, ?_⟩
  unfold Dbl.magnitude at h
  rw [he] at h
  by_cases h0 : e.exponent = 0
  · rwa [if_pos h0, if_pos h0] at h
  · rw [if_neg h0, if_neg h0] at h
    have := Nat.eq_of_mul_eq_mul_right (Nat.pow_pos (by decide)) h
    omega

theorem c15_finite_aux {d : Dbl} (h : d.exponent ≠ 2047) : d.magnitude < 2 ^ 2100 := by
  have he : d.exponent < 2048 := Nat.mod_lt _ (by decide)
  let big : Dbl := 0x7FF0000000000000
  have hb : big.exponent = 2047 := by decide
  have hl : d.exponent < big.exponent := by omega
  have := c15_magnitude_lt_aux hl
  have hm : big.magnitude = 2 ^ 52 * 2 ^ 2046 := by decide +kernel
  have : 2 ^ 52 * 2 ^ 2046 < 2 ^ 2100 := by decide +kernel
  omega

/-- doubles with the same value other than 0 have the same bits -/
theorem c15_same_bits_aux {d e : Dbl} {x : Int} (hd : d.value = some x) (he : e.value = some x)
    (h0 : x ≠ 0) : d = e := by
  unfold Dbl.value at hd he
  by_cases nd : d.isNaN
  · rw [if_pos nd] at hd; cases hd
  · by_cases ne : e.isNaN
    · rw [if_pos ne] at he; cases he
    · rw [if_neg nd] at hd
      rw [if_neg ne] at he
      simp only [Option.some.injEq] at hd he
      have key : ∀ {m n : Nat} {s t : Bool}, (if s then -(m : Int) else m) = x →
          (if t then -(n : Int) else n) = x → s = t ∧ m = n := by
        intro m n s t h1 h2
        cases s <;> cases t <;> simp at h1 h2 <;> first | exact ⟨rfl, by omega⟩ | omega
      obtain ⟨hs, hm⟩ := key hd he
      have : d.exponent = e.exponent ∧ d.fraction = e.fraction := by
        unfold Dbl.isNaN at nd ne
        by_cases h1 : d.exponent = 2047 <;> by_cases h2 : e.exponent = 2047
        · simp [h1] at nd
          simp [h2] at ne
          exact ⟨by omega, by omega⟩
        · rw [if_pos h1, if_neg h2] at hm
          have := c15_finite_aux h2; omega
        · rw [if_neg h1, if_pos h2] at hm
          have := c15_finite_aux h1; omega
        · rw [if_neg h1, if_neg h2] at hm
          exact c15_magnitude_aux hm
      apply BitVec.eq_of_toNat_eq
      rw [c15_bits_aux d, c15_bits_aux e, hs, this.1, this.2]

/-- the kinds for which equality and hash agree -/
def HashFits (da db : Data) : Prop :=
  Leaf da ∧ dataTag da = dataTag db ∧ (∀ d, da = .real d → d.value ≠ some 0) ∧
  ∀ v w, da = .semver v → db = .semver w → v.build = w.build

theorem c15_hash_aux {m : Mem} {r : Ref} {c : Cell} (hc : m r = some c) : hashRef m r = hashObj r c.obj := by
  simp [hashRef, Mem.read, hc, bind, Except.bind]

/-- equal values of these kinds have the same hash -/
theorem c15_equal_hash_partial {m : Mem} {a b : Ref} {da db : Data} (ha : Denotes m a da)
    (hb : Denotes m b db) (pa : Plain da) (pb : Plain db) (fits : HashFits da db)
    (h : Equal m a b true) : hashRef m a = hashRef m b := by
  have same := (c13_sound_partial ha hb (.plain pa) (.plain pb) h).mp rfl
  obtain ⟨ca, hca, ta⟩ := ha.cell
  obtain ⟨cb, hcb, tb⟩ := hb.cell
  rw [c15_hash_aux hca, c15_hash_aux hcb]
  obtain ⟨la, ht, hr, hv⟩ := fits
  have lb : Leaf db := by unfold Leaf at la ⊢; omega
  have ea := ha.atom_inv hca (by rintro _ rfl; exact la.1 rfl) (by rintro _ rfl; exact la.2.2.1 rfl)
    (by rintro _ rfl; exact la.2.2.2 rfl) (by rintro _ rfl; exact la.2.1 rfl)
  have eb := hb.atom_inv hcb (by rintro _ rfl; exact lb.1 rfl) (by rintro _ rfl; exact lb.2.2.1 rfl)
    (by rintro _ rfl; exact lb.2.2.2 rfl) (by rintro _ rfl; exact lb.2.1 rfl)
  have oa := atomData_inv ea
  have ob := atomData_inv eb
  have fin : da = db → hashObj a ca.obj = hashObj b cb.obj := by
    intro e
    subst e
    cases da <;> simp only at oa ob <;> first
      | rw [oa, ob]; rfl
      | (obtain ⟨rfl, _, oa⟩ := oa; obtain ⟨e, _, ob⟩ := ob; rw [oa, ob, ← e]; rfl)
      | (obtain ⟨e1, _, oa⟩ := oa; obtain ⟨e2, _, ob⟩ := ob; rw [oa, ob, e1, e2]; rfl)
      | exact absurd rfl la.1
      | exact absurd rfl la.2.1
      | exact absurd rfl la.2.2.1
      | exact absurd rfl la.2.2.2
  apply fin
  cases same with
  | number h1 h2 =>
    cases da <;> simp [Data.number] at h1 <;> cases db <;> simp [dataTag] at ht <;>
      simp [Data.number] at h2
    · rw [Dbl.ofInt_inj.mp (h1.trans h2.symm)]
    · rw [c15_same_bits_aux h1 h2 (fun h0 => hr _ rfl (by rw [h1, h0]))]
  | vec => exact absurd rfl la.1
  | hmap => exact absurd rfl la.2.1
  | queue => exact absurd rfl la.2.2.1
  | list => exact absurd rfl la.2.2.2
  | @semver v w h =>
    obtain ⟨h1, h2, h3, h4⟩ := h
    have h5 := hv v w rfl rfl
    cases v; cases w
    simp only at h1 h2 h3 h4 h5
    subst h1 h2 h3 h4 h5
    rfl
  | _ => rfl

/-- a value that may be used as a key: nil, a boolean, an integer of the window, or a text -/
def IsKey (m : Mem) (lo : Int) (r : Ref) : Prop := ∃ d, Denotes m r d ∧ KeyData d ∧ InWindow lo d

open Classical in
/-- the functions a hash map of values is created with (vm.c: octaspire_dern_vm_create_new_value_hash_map):
octaspire_dern_value_get_hash and octaspire_dern_value_is_equal -/
noncomputable def valueKeys (m : Mem) (lo : Int) : KeyFns { r // IsKey m lo r } where
  hash r := match hashRef m r.1 with | .ok h => h.toNat | .error _ => 0
  eqv a b := decide (Equal m a.1 b.1 true)

/-- with such keys the requirements of C17 on compare and hash function are met -/
theorem c15_keys_lawful_partial (m : Mem) (lo : Int) : (valueKeys m lo).Lawful := by
  have comp : ∀ r : { r // IsKey m lo r }, ∃ d, Comparable m lo r.1 d ∧ KeyData d := by
    rintro ⟨r, d, h1, h2, h3⟩
    exact ⟨d, ⟨h1, .plain h2.plain, h3⟩, h2⟩
  refine ⟨?_, ?_, ?_, ?_⟩
  · intro a; simp only [valueKeys, decide_eq_true_eq]; exact c13_reflexive m a.1
  · intro a b h
    simp only [valueKeys, decide_eq_true_eq] at h ⊢
    obtain ⟨da, ca, _⟩ := comp a
    obtain ⟨db, cb, _⟩ := comp b
    exact (c13_symmetric_partial ca cb true).mp h
  · intro a b c h1 h2
    simp only [valueKeys, decide_eq_true_eq] at h1 h2 ⊢
    obtain ⟨da, ca, _⟩ := comp a
    obtain ⟨db, cb, _⟩ := comp b
    obtain ⟨dc, cc, _⟩ := comp c
    exact c13_transitive_partial ca cb cc h1 h2
  · intro a b h
    simp only [valueKeys, decide_eq_true_eq] at h ⊢
    obtain ⟨da, ca, ka⟩ := comp a
    obtain ⟨db, cb, kb⟩ := comp b
    have e : da = db := (key_same ka kb).mp ((c13_decides_partial ca cb).1.mp h)
    subst e
    rw [hashRef_key ca.1 ka, hashRef_key cb.1 kb]

/-- hence: after putting `v` under the key `a`, looking up any key `b` equal to `a` finds an entry
whose values include `v`, whatever was done to the map before -/
theorem c15_lookup_partial {ν : Type} (m : Mem) (lo : Int) (ops : List (MapOp { r // IsKey m lo r } ν))
    (a b : { r // IsKey m lo r }) (v : ν) (h : Equal m a.1 b.1 true) :
    ∃ t i e, HMap.new.run (valueKeys m lo) (ops ++ [.put a v]) = some t ∧
      t.get (valueKeys m lo) b = some (some (i, e)) ∧ v ∈ e.2.values := by
  have L := c15_keys_lawful_partial m lo
  obtain ⟨t, r, h1, h2, h3⟩ := c17_lookup L (ops ++ [MapOp.put a v]) b
  have hab : (valueKeys m lo).eqv b a = true := L.symm _ _ (by simp [valueKeys, h])
  have key : ∃ e, (runEntries (valueKeys m lo).eqv (ops ++ [MapOp.put a v])).lookup
      (valueKeys m lo).eqv b = some e ∧ v ∈ e.2 := by
    unfold runEntries
    rw [List.foldl_append]
    generalize List.foldl _ _ ops = s
    simp only [List.foldl_cons, List.foldl_nil, MapOp.apply, Entries.lookup]
    by_cases hs : (s.any fun e => (valueKeys m lo).eqv a e.1) = true
    · rw [if_pos hs]
      have same : ∀ e : { r // IsKey m lo r }, (valueKeys m lo).eqv b e = (valueKeys m lo).eqv a e := by
        intro e
        cases ha : (valueKeys m lo).eqv a e with
        | true => exact L.trans _ _ _ hab ha
        | false =>
          cases hb : (valueKeys m lo).eqv b e with
          | false => rfl
          | true => rw [L.trans _ _ _ (L.symm _ _ hab) hb] at ha; cases ha
      rw [List.find?_map]
      have : ∃ e, s.find? (fun e => (valueKeys m lo).eqv a e.1) = some e ∧ (valueKeys m lo).eqv a e.1 = true := by
        obtain ⟨x, hx, hp⟩ := List.any_eq_true.mp hs
        cases hf : s.find? (fun e => (valueKeys m lo).eqv a e.1) with
        | none => exact absurd hp (by simpa using List.find?_eq_none.mp hf x hx)
        | some e => exact ⟨e, rfl, by have := List.find?_some hf; exact this⟩
      obtain ⟨e, he, hp⟩ := this
      have hf : s.find? ((fun e => (valueKeys m lo).eqv b e.1) ∘
          fun e => if (valueKeys m lo).eqv a e.1 then (e.1, e.2 ++ [v]) else e) = some e := by
        rw [← he]
        congr 1
        funext x
        simp only [Function.comp]
        split <;> simp [same]
      rw [hf]
      exact ⟨_, rfl, by simp [hp]⟩
    · rw [if_neg hs, List.find?_append]
      have : s.find? (fun e => (valueKeys m lo).eqv b e.1) = none := by
        rw [List.find?_eq_none]
        intro x hx hb
        exact hs (List.any_eq_true.mpr ⟨x, hx, L.trans _ _ _ (L.symm _ _ hab) hb⟩)
      rw [this]
      simp [hab]
  obtain ⟨e, he, hv⟩ := key
  rw [he] at h3
  cases r with
  | none => simp at h3
  | some r =>
    obtain ⟨i, j, x⟩ := r
    simp at h3
    refine ⟨t, i, (j, x), h1, h2, ?_⟩
    rw [← h3] at hv
    exact hv

/-! ### negative results -/

/-- 1 == 1.0, but the hashes differ -/
theorem c15_int_real : ∃ m : Mem, Equal m 0 1 true ∧ hashRef m 0 ≠ hashRef m 1 :=
  ⟨memOf [.int 1, .real 0x3FF0000000000000], ⟨1, by decide +kernel⟩, by
    have h1 : hashRef (memOf [.int 1, .real 0x3FF0000000000000]) 0 = .ok (jenkins [1, 0, 0, 0]) := rfl
    have h2 : hashRef (memOf [.int 1, .real 0x3FF0000000000000]) 1 =
      .ok (jenkins [0, 0, 0, 0, 0, 0, 0xF0, 0x3F]) := by decide +kernel
    rw [h1, h2]; decide +kernel⟩

/-- 0.0 == -0.0, but the hashes differ -/
theorem c15_zeros : ∃ m : Mem, Equal m 0 1 true ∧ hashRef m 0 ≠ hashRef m 1 :=
  ⟨memOf [.real 0, .real 0x8000000000000000], ⟨1, by decide +kernel⟩, by decide +kernel⟩

/-- two empty vectors are equal, but the hashes are those of the addresses -/
theorem c15_vectors : ∃ m : Mem, Equal m 0 1 true ∧ hashRef m 0 ≠ hashRef m 1 :=
  ⟨memOf [.vec [], .vec []], ⟨1, by decide +kernel⟩, by decide +kernel⟩

/-- versions that differ in build metadata -/
theorem c15_build_metadata : ∃ m : Mem, Equal m 0 1 true ∧ hashRef m 0 ≠ hashRef m 1 :=
  ⟨memOf [.semver ⟨1, 0, 0, [], [txt "a"]⟩, .semver ⟨1, 0, 0, [], [txt "b"]⟩], ⟨1, by decide +kernel⟩,
    by decide +kernel⟩

/-- strings that differ after a NUL -/
theorem c15_nul : ∃ m : Mem, Equal m 0 1 true ∧ hashRef m 0 ≠ hashRef m 1 :=
  ⟨memOf [.str (txt "a"), .str [97, 0, 98]], ⟨1, by decide +kernel⟩, by decide +kernel⟩

/-- the hypotheses can be met: two strings and two reals with equal hashes, at different addresses -/
example : let m := memOf [.str (txt "né"), .str (txt "né"), .real 0x3FF0000000000000, .real 0x3FF0000000000000]
    Equal m 0 1 true ∧ hashRef m 0 = hashRef m 1 ∧ Equal m 2 3 true ∧ hashRef m 2 = hashRef m 3 ∧
    HashFits (.str (txt "né")) (.str (txt "né")) ∧
    HashFits (.real 0x3FF0000000000000) (.real 0x3FF0000000000000) ∧ IsKey m 0 0 := by
  intro m
  refine ⟨⟨1, by decide +kernel⟩, rfl, ⟨1, by decide +kernel⟩, rfl, ?_, ?_, ?_⟩
  · exact ⟨by simp [Leaf, dataTag], rfl, by simp, by simp⟩
  · refine ⟨by simp [Leaf, dataTag], rfl, ?_, by simp⟩
    intro d h
    cases h
    decide +kernel
  · exact ⟨.str (txt "né"), .atom (c := { obj := .str (txt "né"), uid := 0 }) rfl rfl,
      .str (by unfold Printable; decide), .leaf (by simp) (by simp [Leaf, dataTag])⟩

end Dern.Props
