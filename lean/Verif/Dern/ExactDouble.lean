import Verif.Dern.Conversions
/-
Integers converted to floating point numbers.
-/
namespace Dern.Prog
open Dern.Spec (Dbl)
theorem exactDouble_parts {n : Int} (h0 : n ≠ 0) (h : n.natAbs < 2 ^ 53) :
    (exactDouble n).sign = decide (n < 0) ∧ (exactDouble n).exponent = 1023 + n.natAbs.log2 ∧
    (exactDouble n).fraction = n.natAbs * 2 ^ (52 - n.natAbs.log2) - 2 ^ 52 ∧ n.natAbs.log2 ≤ 52 ∧ 2 ^ 52 ≤ n.natAbs * 2 ^ (52 - n.natAbs.log2) := by
  have hm : n.natAbs ≠ 0 := by omega
  have hl : n.natAbs.log2 ≤ 52 := by
    have := (Nat.log2_lt hm (k := 53)).mpr h
    omega
  have h1 : 2 ^ n.natAbs.log2 ≤ n.natAbs := Nat.log2_self_le hm
  have h2 : n.natAbs < 2 ^ (n.natAbs.log2 + 1) := Nat.lt_log2_self
  have e1 : 2 ^ n.natAbs.log2 * 2 ^ (52 - n.natAbs.log2) = 2 ^ 52 := by rw [← Nat.pow_add]; congr 1; omega
  have e2 : 2 ^ (n.natAbs.log2 + 1) * 2 ^ (52 - n.natAbs.log2) = 2 ^ 53 := by rw [← Nat.pow_add]; congr 1; omega
  have l1 : 2 ^ 52 ≤ n.natAbs * 2 ^ (52 - n.natAbs.log2) := by rw [← e1]; exact Nat.mul_le_mul_right _ h1
  have l2 : n.natAbs * 2 ^ (52 - n.natAbs.log2) < 2 ^ 53 := by
    rw [← e2]; exact Nat.mul_lt_mul_of_pos_right h2 (Nat.pow_pos (by decide))
  generalize hF : n.natAbs * 2 ^ (52 - n.natAbs.log2) - 2 ^ 52 = F
  have hF' : F < 2 ^ 52 := by omega
  generalize hE : 1023 + n.natAbs.log2 = E
  have hE' : E < 2048 := by omega
  have hd : exactDouble n = BitVec.ofNat 64 ((if n < 0 then 2 ^ 63 else 0) + E * 2 ^ 52 + F) := by
    unfold exactDouble; rw [if_neg h0, hE, hF]
  generalize hS : (if n < 0 then 2 ^ 63 else 0 : Nat) = S at hd
  have hS' : S = 0 ∨ S = 2 ^ 63 := by split at hS <;> omega
  have hlt : S + E * 2 ^ 52 + F < 2 ^ 64 := by omega
  have ht : (exactDouble n).toNat = S + E * 2 ^ 52 + F := by rw [hd, BitVec.toNat_ofNat, Nat.mod_eq_of_lt hlt]
  refine ⟨?_, ?_, ?_, hl, l1⟩
  · unfold Dbl.sign
    rw [BitVec.getLsbD, ht, Nat.testBit_eq_decide_div_mod_eq]
    rw [decide_eq_decide]
    constructor
    · intro h; split at hS <;> omega
    · intro h; rw [if_pos h] at hS; omega
  · unfold Dbl.exponent; rw [ht]; omega
  · unfold Dbl.fraction; rw [ht]; omega

/-- an integer converted to a double has the same value -/
theorem exactDouble_value {n : Int} (h : n.natAbs < 2 ^ 53) :
    (exactDouble n).value = some (Dbl.ofInt n) ∧ (exactDouble n).exponent ≠ 2047 := by
  by_cases h0 : n = 0
  · subst h0
    have : exactDouble 0 = 0 := rfl
    rw [this]
    refine ⟨?_, by decide⟩
    unfold Dbl.ofInt
    rw [Int.zero_mul]
    decide
  obtain ⟨p1, p2, p3, p4, p5⟩ := exactDouble_parts h0 h
  have hne : (exactDouble n).exponent ≠ 2047 := by omega
  refine ⟨?_, hne⟩
  have hn : (exactDouble n).isNaN = false := by simp [Dbl.isNaN, hne]
  unfold Dbl.value
  rw [hn, if_neg hne, p1]
  have hmag : (exactDouble n).magnitude = n.natAbs * Dbl.unit := by
    unfold Dbl.magnitude
    rw [if_neg (by omega), p2, p3, Nat.add_sub_cancel' p5, Nat.mul_assoc, ← Nat.pow_add]
    unfold Dbl.unit
    congr 2; omega
  simp only [Bool.false_eq_true, if_false, hmag]
  unfold Dbl.ofInt
  congr 1
  split
  · rename_i h'
    simp only [decide_eq_true_eq] at h'
    rw [Int.natCast_mul, ← Int.neg_mul]
    congr 1; omega
  · rename_i h'
    simp only [decide_eq_true_eq] at h'
    rw [Int.natCast_mul]
    congr 1; omega

end Dern.Prog
