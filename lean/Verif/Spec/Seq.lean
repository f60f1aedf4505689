/-
Specification of a plain sequence with the operations of octaspire_vector: a `List`, indices that
may be negative (counting from the back), and for each operation the new sequence, whether it is
accepted, and which elements leave the sequence.  Independent of the model.
-/
namespace Dern.Spec

/-- The position an index denotes in a sequence of length `n`: `i` itself if `0 ≤ i < n`, `n + i`
if `-n ≤ i < 0`, nothing otherwise. -/
def position (n : Nat) (i : Int) : Option Nat :=
  if 0 ≤ i then (if i < n then some i.toNat else none)
  else (if -(n : Int) ≤ i then some (n + i).toNat else none)

inductive SeqOp (α : Type) where
  | pushBack (x : α)
  | pushFront (x : α)
  | insertBefore (x : α) (i : Int)
  | replaceAt (i : Int) (x : α)
  | replaceOrPushBack (x : α) (i : Int)
  | removeAt (i : Int)
  | popBack
  | popFront
  | clear
  | swap (i j : Int)

/-- What an operation does to a plain sequence: the new sequence, whether the operation is
accepted, and the elements it gives back, in order. -/
def SeqOp.apply {α : Type} (s : List α) : SeqOp α → List α × Bool × List α
  | .pushBack x => (s ++ [x], true, [])
  | .pushFront x => (x :: s, true, [])
  | .insertBefore x i =>
    match position s.length i with
    | some k => (s.take k ++ x :: s.drop k, true, [])
    | none => (s, false, [])
  | .replaceAt i x =>
    match position s.length i with
    | some k => (s.take k ++ x :: s.drop (k + 1), true, (s.drop k).take 1)
    | none => (s, false, [])
  | .replaceOrPushBack x i =>
    match position s.length i with
    | some k => (s.take k ++ x :: s.drop (k + 1), true, [])
    | none => (s ++ [x], true, [])
  | .removeAt i =>
    match position s.length i with
    | some k => (s.take k ++ s.drop (k + 1), true, (s.drop k).take 1)
    | none => (s, false, [])
  | .popBack => if s = [] then ([], false, []) else (s.dropLast, true, s.drop (s.length - 1))
  | .popFront => (s.tail, !s.isEmpty, s.take 1)
  | .clear => ([], true, s.reverse)
  | .swap i j =>
    match position s.length i, position s.length j with
    | some a, some b =>
      match s[a]?, s[b]? with
      | some x, some y => ((s.set a y).set b x, true, [])
      | _, _ => (s, false, [])
    | _, _ => (s, false, [])

/-- A history of operations on an initial sequence: final sequence and all answers. -/
def runSeq {α : Type} : List α → List (SeqOp α) → List α × List (Bool × List α)
  | s, [] => (s, [])
  | s, op :: ops =>
    let r := op.apply s
    let rest := runSeq r.1 ops
    (rest.1, r.2 :: rest.2)

end Dern.Spec
