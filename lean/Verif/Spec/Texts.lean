import Verif.Spec.Seq
import Verif.Spec.Utf8
/-
Specification of a family of texts under the operations of octaspire_string: every text is the
list of its code points, and for each operation it is said which text changes, to what, and what
the caller is told.  Independent of the model.
-/
namespace Dern.Spec

/-- the UTF-8 octets of a text -/
def encodeText (s : List Nat) : List Nat := s.flatMap _root_.Spec.Utf8.encode

/-- what a text means as a C string: everything before the first U+0000 -/
def beforeNul (s : List Nat) : List Nat := s.takeWhile (· ≠ 0)

/-- Operations on texts `a`, `b`, … (numbers name texts). -/
inductive TextOp where
  | push (a : Nat) (c : Nat)
  | popFront (a : Nat)
  | popBack (a : Nat)
  | removeAt (a : Nat) (i : Int)
  | removeRun (a : Nat) (i : Int) (n : Nat)
  | insert (a b : Nat) (i : Int)
  | overwrite (a b : Nat) (i : Int)
  | append (a b : Nat)
  | appendC (a : Nat) (t : List Nat)
  | setC (a : Nat) (t : List Nat)
  | clear (a : Nat)
  | copy (a b : Nat)
  | length (a : Nat)
  | valid (a : Nat) (i : Int)
  | get (a : Nat) (i : Int)
  | equal (a b : Nat)
  | octets (a : Nat)
  | octetCount (a : Nat)

/-- what the caller is told -/
inductive TextAnswer where
  | bool (b : Bool)
  | number (n : Nat)
  | octets (os : List Nat)
  deriving DecidableEq, Repr

/-- replace one text of a family -/
def setText (S : Nat → List Nat) (a : Nat) (t : List Nat) : Nat → List Nat :=
  fun x => if x = a then t else S x

/-- The effect of an operation on a family of texts, and its answer. -/
def TextOp.apply (S : Nat → List Nat) : TextOp → (Nat → List Nat) × TextAnswer
  | .push a c => (setText S a (S a ++ [c]), .bool true)
  | .popFront a => (setText S a (S a).tail, .bool (!(S a).isEmpty))
  | .popBack a => (setText S a (S a).dropLast, .bool (!(S a).isEmpty))
  | .removeAt a i =>
    match position (S a).length i with
    | some k => (setText S a ((S a).take k ++ (S a).drop (k + 1)), .bool true)
    | none => (S, .bool false)
  | .removeRun a i n =>
    match position (S a).length i with
    | some k => (setText S a ((S a).take k ++ (S a).drop (k + n)), .number (min n ((S a).length - k)))
    | none => (S, .number 0)
  | .insert a b i =>
    match position (S a).length i with
    | some k => (setText S a ((S a).take k ++ S b ++ (S a).drop k), .bool true)
    | none => (S, .bool false)
  | .overwrite a b i =>
    match position (S a).length i with
    | some k => (setText S a ((S a).take k ++ S b ++ (S a).drop (k + (S b).length)), .bool true)
    | none => if i < 0 then (S, .bool false) else (setText S a (S a ++ S b), .bool true)
  | .append a b => (setText S a (S a ++ beforeNul (S b)), .bool true)
  | .appendC a t => (setText S a (S a ++ t), .bool true)
  | .setC a t => (setText S a t, .bool true)
  | .clear a => (setText S a [], .bool true)
  | .copy a b => (setText S a (S b), .bool true)
  | .length a => (S, .number (S a).length)
  | .valid a i => (S, .bool (position (S a).length i).isSome)
  | .get a i =>
    (S, .number (match position (S a).length i with | some k => (S a).getD k 0 | none => 0))
  | .equal a b => (S, .bool (decide (S a = S b)))
  | .octets a => (S, .octets (encodeText (beforeNul (S a))))
  | .octetCount a => (S, .number (encodeText (S a)).length)

/-- What a caller has to respect: characters are Unicode scalar values, C strings are UTF-8
without U+0000, a text is not inserted into, written over or appended to itself, and a character
is only asked for at a valid index. -/
def TextOp.Allowed (S : Nat → List Nat) : TextOp → Prop
  | .push _ c => _root_.Spec.Utf8.IsScalar c
  | .insert a b _ => a ≠ b
  | .overwrite a b _ => a ≠ b
  | .append a b => a ≠ b
  | .appendC _ t => ∀ c ∈ t, _root_.Spec.Utf8.IsScalar c ∧ c ≠ 0
  | .setC _ t => ∀ c ∈ t, _root_.Spec.Utf8.IsScalar c ∧ c ≠ 0
  | .get a i => position (S a).length i ≠ none
  | _ => True

/-- a history of operations: the final texts and all answers -/
def runTexts : (Nat → List Nat) → List TextOp → (Nat → List Nat) × List TextAnswer
  | S, [] => (S, [])
  | S, op :: ops =>
    let r := op.apply S
    let rest := runTexts r.1 ops
    (rest.1, r.2 :: rest.2)

/-- every operation of the history is allowed when its turn comes -/
def AllAllowed : (Nat → List Nat) → List TextOp → Prop
  | _, [] => True
  | S, op :: ops => op.Allowed S ∧ AllAllowed (op.apply S).1 ops

end Dern.Spec
