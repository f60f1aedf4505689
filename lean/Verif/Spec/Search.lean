/-
Specification of searching and splitting texts.  Independent of the model.
-/
namespace Dern.Spec
variable {α : Type}

/-- `sub` occurs in `s` at position `k`. -/
def OccursAt (sub s : List α) (k : Nat) : Prop := ∃ a b, s = a ++ sub ++ b ∧ a.length = k

/-- `sub` occurs in `s`. -/
def Occurs (sub s : List α) : Prop := ∃ k, OccursAt sub s k

/-- `s = a ++ sub ++ b` and this is the first occurrence. -/
def FirstCut (sub s a b : List α) : Prop :=
  s = a ++ sub ++ b ∧ ∀ k, OccursAt sub s k → a.length ≤ k

/-- `r` is what remains of `s` when the first occurrence of `sub` is taken out again and again until
there is none; `n` counts. -/
inductive Stripped (sub : List α) : List α → List α → Nat → Prop where
  | done {s : List α} : ¬ Occurs sub s → Stripped sub s s 0
  | more {s a b r : List α} {n : Nat} : FirstCut sub s a b → Stripped sub (a ++ b) r n →
      Stripped sub s r (n + 1)

/-- `ps` are the pieces of `s` between the occurrences of the delimiter, taken from the left. -/
inductive Pieces (d : List α) : List α → List (List α) → Prop where
  | last {s : List α} : ¬ Occurs d s → Pieces d s [s]
  | cut {s a b : List α} {ps : List (List α)} : FirstCut d s a b → Pieces d b ps → Pieces d s (a :: ps)

end Dern.Spec
