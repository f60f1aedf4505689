import Verif.Props.C21
/-
C38: adding to and subtracting from a version.

A version with exactly one non-zero number is an amount.  Adding it raises that number, resets the
lower ones and gives a version of higher precedence; subtracting takes it away again or is refused
with the version unchanged; anything with two non-zero numbers is refused unchanged.
-/
namespace Dern.Props
open Dern Dern.Spec

/-- an amount of major, minor or patch steps -/
def amount : Fin 3 → Nat → Version
  | 0, n => ⟨n, 0, 0, [], []⟩
  | 1, n => ⟨0, n, 0, [], []⟩
  | 2, n => ⟨0, 0, n, [], []⟩

/-- the meaning of a bump -/
def bump (v : Version) : Fin 3 → Nat → Version
  | 0, n => { v with major := v.major + n, minor := 0, patch := 0 }
  | 1, n => { v with minor := v.minor + n, patch := 0 }
  | 2, n => { v with patch := v.patch + n }

/-- the number a bump changes -/
def component (v : Version) : Fin 3 → Nat
  | 0 => v.major
  | 1 => v.minor
  | 2 => v.patch

/-- Adding an amount raises the number, sets the lower ones to zero and keeps everything else. -/
theorem c38_add (v : Version) (k : Fin 3) (n : Nat) (hn : 0 < n) (h : component v k + n < 2 ^ 64) :
    Semver.addOrSubtract v (amount k n) true = (true, bump v k n) := by
  have hn' : n ≠ 0 := by omega
  match k with
  | 0 =>
    simp only [component] at h
    simp [Semver.addOrSubtract, amount, bump, Semver.addPre, hn']; omega
  | 1 =>
    simp only [component] at h
    simp [Semver.addOrSubtract, amount, bump, Semver.addPre, hn']; omega
  | 2 =>
    simp only [component] at h
    simp [Semver.addOrSubtract, amount, bump, Semver.addPre, hn']; omega

/-- A bump strictly raises the precedence, as seen by the comparison of the code, as long as the
number stays below 2^31. -/
theorem c38_add_raises (v : Version) (hv : Modest v) (k : Fin 3) (n : Nat) (hn : 0 < n)
    (h : component v k + n < 2 ^ 31) :
    Semver.isSmallerThan v (Semver.addOrSubtract v (amount k n) true).2 = some true := by
  rw [c38_add v k n hn (by omega)]
  have hm : Modest (bump v k n) := by
    match k with
    | 0 => exact ⟨h, by simp [bump], by simp [bump], hv.count, hv.pre⟩
    | 1 => exact ⟨hv.major, h, by simp [bump], hv.count, hv.pre⟩
    | 2 => exact ⟨hv.major, hv.minor, h, hv.count, hv.pre⟩
  rw [(c21_comparison_functions hv hm).1]
  match k with
  | 0 => exact .major (by simp [bump]; omega)
  | 1 => exact .minor rfl (by simp [bump]; omega)
  | 2 => exact .patch rfl rfl (by simp [bump]; omega)

/-- the meaning of taking an amount away: only one number changes -/
def lower (v : Version) : Fin 3 → Nat → Version
  | 0, n => { v with major := v.major - n }
  | 1, n => { v with minor := v.minor - n }
  | 2, n => { v with patch := v.patch - n }

/-- Subtracting an amount that is there lowers that number and keeps everything else. -/
theorem c38_subtract (v : Version) (k : Fin 3) (n : Nat) (h : n ≤ component v k) :
    Semver.addOrSubtract v (amount k n) false = (true, lower v k n) := by
  by_cases hn : n = 0
  · subst hn
    match k with
    | 0 => simp [Semver.addOrSubtract, amount, Semver.subPre, lower]
    | 1 => simp [Semver.addOrSubtract, amount, Semver.subPre, lower]
    | 2 => simp [Semver.addOrSubtract, amount, Semver.subPre, lower]
  · match k with
    | 0 =>
      simp only [component] at h
      have h' : ¬ v.major < n := by omega
      simp [Semver.addOrSubtract, amount, Semver.subPre, hn, h', lower]
    | 1 =>
      simp only [component] at h
      have h' : ¬ v.minor < n := by omega
      simp [Semver.addOrSubtract, amount, Semver.subPre, hn, h', lower]
    | 2 =>
      simp only [component] at h
      have h' : ¬ v.patch < n := by omega
      simp [Semver.addOrSubtract, amount, Semver.subPre, hn, h', lower]

/-- Subtracting a bump from the bumped version gives the version with the lower numbers reset. -/
theorem c38_undo (v : Version) (k : Fin 3) (n : Nat) (hn : 0 < n) (h : component v k + n < 2 ^ 64) :
    Semver.addOrSubtract (Semver.addOrSubtract v (amount k n) true).2 (amount k n) false =
      (true, bump v k 0) := by
  rw [c38_add v k n hn h]
  have hn' : n ≠ 0 := by omega
  match k with
  | 0 => simp [Semver.addOrSubtract, amount, bump, Semver.subPre, hn']
  | 1 => simp [Semver.addOrSubtract, amount, bump, Semver.subPre, hn']
  | 2 => simp [Semver.addOrSubtract, amount, bump, Semver.subPre, hn']

/-- Subtracting more than there is is refused and changes nothing. -/
theorem c38_subtract_refused (v : Version) (k : Fin 3) (n : Nat) (h : component v k < n) :
    Semver.addOrSubtract v (amount k n) false = (false, v) := by
  have hn' : n ≠ 0 := by omega
  match k with
  | 0 => simp only [component] at h; simp [Semver.addOrSubtract, amount, hn', h]
  | 1 => simp only [component] at h; simp [Semver.addOrSubtract, amount, hn', h]
  | 2 => simp only [component] at h; simp [Semver.addOrSubtract, amount, hn', h]

/-- A version with more than one non-zero number is refused as an amount and changes nothing. -/
theorem c38_mixed_refused (v w : Version) (add : Bool)
    (h : (w.major ≠ 0 ∧ w.minor ≠ 0) ∨ (w.major ≠ 0 ∧ w.patch ≠ 0) ∨ (w.minor ≠ 0 ∧ w.patch ≠ 0)) :
    Semver.addOrSubtract v w add = (false, v) := by
  unfold Semver.addOrSubtract
  by_cases h1 : w.major = 0
  · have h2 : w.minor ≠ 0 ∧ w.patch ≠ 0 := by
      rcases h with h | h | h
      · exact absurd h1 h.1
      · exact absurd h1 h.1
      · exact h
    simp [h1, h2]
  · have h2 : w.minor ≠ 0 ∨ w.patch ≠ 0 := by
      rcases h with h | h | h
      · exact .inl h.2
      · exact .inr h.2
      · exact .inl h.1
    rw [if_pos ⟨h1, h2⟩]

theorem c38_addPre_aux : ∀ (is pre : List Ident), Semver.addPre pre is = (true, pre ++ is) := by
  intro is
  induction is with
  | nil => intro pre; simp [Semver.addPre]
  | cons i is ih => intro pre; simp [Semver.addPre, ih]

/-- Adding pre-release identifiers appends them; subtracting them again restores the version when
none of them was there before. -/
theorem c38_prerelease (v : Version) (is : List Ident) (hd : ∀ i ∈ is, i ∉ v.pre) :
    Semver.addOrSubtract v ⟨0, 0, 0, is, []⟩ true = (true, { v with pre := v.pre ++ is }) ∧
    Semver.addOrSubtract { v with pre := v.pre ++ is } ⟨0, 0, 0, is, []⟩ false = (true, v) := by
  constructor
  · simp [Semver.addOrSubtract, c38_addPre_aux]
  · have : ∀ (is : List Ident), (∀ i ∈ is, i ∉ v.pre) →
        Semver.subPre (v.pre ++ is) is = (true, v.pre) := by
      intro is
      induction is with
      | nil => intro _; simp [Semver.subPre]
      | cons i is ih =>
        intro h
        have hi := h i (by simp)
        simp only [Semver.subPre, Semver.removePre]
        rw [if_pos (by simp)]
        rw [List.erase_append_right _ hi]
        simp only [List.erase_cons_head]
        exact ih (fun j hj => h j (by simp [hj]))
    simp [Semver.addOrSubtract, this is hd]

/-- A refused subtraction of several pre-release identifiers may have removed some of them. -/
theorem c38_refused_prerelease_half_done :
    Semver.addOrSubtract ⟨1, 0, 0, [.num 1, .num 2], []⟩ ⟨0, 0, 0, [.num 1, .num 9], []⟩ false =
      (false, ⟨1, 0, 0, [.num 2], []⟩) := by decide

/-- Adding wraps around at 2^64. -/
theorem c38_add_wraps :
    Semver.addOrSubtract ⟨2 ^ 64 - 1, 5, 0, [], []⟩ (amount 0 1) true = (true, ⟨0, 0, 0, [], []⟩) := by
  decide

example : Semver.addOrSubtract ⟨1, 2, 3, [.num 1], []⟩ (amount 1 2) true =
    (true, ⟨1, 4, 0, [.num 1], []⟩) := by decide

end Dern.Props
