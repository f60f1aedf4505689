/-
Specification of the edit distance of two texts: the least number of insertions, deletions and
replacements of single characters that lead from one to the other.  Independent of the model.
-/
namespace Dern.Spec

/-- `t` is `s` with one character inserted, deleted or replaced. -/
inductive OneEdit {α : Type} : List α → List α → Prop where
  | insert (pre post : List α) (c : α) : OneEdit (pre ++ post) (pre ++ c :: post)
  | delete (pre post : List α) (c : α) : OneEdit (pre ++ c :: post) (pre ++ post)
  | replace (pre post : List α) (c d : α) : OneEdit (pre ++ c :: post) (pre ++ d :: post)

/-- `n` edits lead from `s` to `t`. -/
inductive Edits {α : Type} : Nat → List α → List α → Prop where
  | none (s : List α) : Edits 0 s s
  | more {n : Nat} {s u t : List α} : OneEdit s u → Edits n u t → Edits (n + 1) s t

/-- `n` is the edit distance of `s` and `t`. -/
def EditDistance {α : Type} (s t : List α) (n : Nat) : Prop :=
  Edits n s t ∧ ∀ m, Edits m s t → n ≤ m

end Dern.Spec
