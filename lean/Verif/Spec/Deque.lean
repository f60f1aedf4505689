import Verif.Spec.Seq
/-
Specification of octaspire_list and octaspire_queue as plain sequences.  Independent of the model.
-/
namespace Dern.Spec

inductive DequeOp (α : Type) where
  | pushFront (x : α)
  | pushBack (x : α)
  | popFront
  | popBack
  | removeAt (i : Int)   -- remove the node found at an index
  | clear

/-- New sequence and the elements given back, in order.  Popping from the empty sequence does
nothing. -/
def DequeOp.apply {α : Type} (s : List α) : DequeOp α → List α × List α
  | .pushFront x => (x :: s, [])
  | .pushBack x => (s ++ [x], [])
  | .popFront => (s.tail, s.take 1)
  | .popBack => (s.dropLast, s.drop (s.length - 1))
  | .removeAt i =>
    match position s.length i with
    | some k => (s.take k ++ s.drop (k + 1), (s.drop k).take 1)
    | none => (s, [])
  | .clear => ([], s)

/-- final sequence and everything given back, in order -/
def runDeque {α : Type} : List α → List (DequeOp α) → List α × List α
  | s, [] => (s, [])
  | s, op :: ops =>
    ((runDeque (op.apply s).1 ops).1, (op.apply s).2 ++ (runDeque (op.apply s).1 ops).2)

inductive QueueOp (α : Type) where
  | push (x : α)
  | pop
  | clear
  | setMax (n : Nat)
  | setBounded (b : Bool)

/-- a queue: its elements, oldest first, the maximum length and whether it applies -/
structure Fifo (α : Type) where
  items : List α
  max : Nat
  bounded : Bool

/-- the most recent elements that fit -/
def Fifo.trim {α : Type} (q : Fifo α) : Fifo α × List α :=
  if q.bounded then
    ({ q with items := q.items.drop (q.items.length - q.max) }, q.items.take (q.items.length - q.max))
  else (q, [])

/-- new queue and the elements dropped, in order -/
def QueueOp.apply {α : Type} (q : Fifo α) : QueueOp α → Fifo α × List α
  | .push x => { q with items := q.items ++ [x] }.trim
  | .pop => ({ q with items := q.items.tail }, q.items.take 1)
  | .clear => ({ q with items := [] }, q.items)
  | .setMax n => { q with max := n }.trim
  | .setBounded b => { q with bounded := b }.trim

def runFifo {α : Type} : Fifo α → List (QueueOp α) → Fifo α × List α
  | q, [] => (q, [])
  | q, op :: ops =>
    ((runFifo (op.apply q).1 ops).1, (op.apply q).2 ++ (runFifo (op.apply q).1 ops).2)

end Dern.Spec
