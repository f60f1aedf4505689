/-
Specification of orders, independent of the model.
-/
namespace Dern.Spec

/-- dictionary order on sequences of numbers (code points) -/
def lexCmp : List Nat → List Nat → Ordering
  | [], [] => .eq
  | [], _ :: _ => .lt
  | _ :: _, [] => .gt
  | a :: as, b :: bs => if a < b then .lt else if b < a then .gt else lexCmp as bs

theorem lexCmp_refl : ∀ a, lexCmp a a = .eq
  | [] => rfl
  | a :: as => by simp [lexCmp, lexCmp_refl as]

theorem lexCmp_eq : ∀ a b, lexCmp a b = .eq → a = b
  | [], [], _ => rfl
  | [], _ :: _, h => by simp [lexCmp] at h
  | _ :: _, [], h => by simp [lexCmp] at h
  | a :: as, b :: bs, h => by
    unfold lexCmp at h
    split at h
    · cases h
    · split at h
      · cases h
      · rw [lexCmp_eq as bs h, show a = b by omega]

theorem lexCmp_swap : ∀ a b, lexCmp b a = (lexCmp a b).swap
  | [], [] => rfl
  | [], _ :: _ => rfl
  | _ :: _, [] => rfl
  | a :: as, b :: bs => by
    unfold lexCmp
    by_cases h1 : a < b
    · have : ¬ b < a := by omega
      simp [h1, this]
    · by_cases h2 : b < a
      · simp [h1, h2]
      · simp [h1, h2, lexCmp_swap as bs]

theorem lexCmp_trans : ∀ a b c, lexCmp a b = .lt → lexCmp b c = .lt → lexCmp a c = .lt
  | [], [], _, h, _ => by simp [lexCmp] at h
  | [], _ :: _, [], _, h => by simp [lexCmp] at h
  | [], _ :: _, _ :: _, _, _ => rfl
  | _ :: _, [], _, h, _ => by simp [lexCmp] at h
  | _ :: _, _ :: _, [], _, h => by simp [lexCmp] at h
  | a :: as, b :: bs, c :: cs, h1, h2 => by
    unfold lexCmp at h1 h2 ⊢
    by_cases x1 : a < b <;> by_cases x2 : b < c
    · rw [if_pos (by omega)]
    · rw [if_neg x2] at h2
      by_cases x3 : c < b
      · simp [x3] at h2
      · rw [if_pos (by omega)]
    · rw [if_neg x1] at h1
      by_cases x3 : b < a
      · simp [x3] at h1
      · rw [if_pos (by omega)]
    · rw [if_neg x1] at h1
      rw [if_neg x2] at h2
      by_cases x3 : b < a
      · simp [x3] at h1
      · by_cases x4 : c < b
        · simp [x4] at h2
        · rw [if_neg x3] at h1
          rw [if_neg x4] at h2
          rw [if_neg (by omega), if_neg (by omega)]
          exact lexCmp_trans as bs cs h1 h2

/-- the C convention for the result of a comparison -/
def sign : Ordering → Int
  | .lt => -1
  | .eq => 0
  | .gt => 1

end Dern.Spec
