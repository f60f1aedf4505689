import Verif.Dern.Lexer
/-
Values as trees: what the reader produces and the printer prints, for the kinds of values that
have a literal syntax.  The heap and the identity of values are the subject of `Verif.Dern.Heap`.
-/
namespace Dern

/-- octaspire_dern_value_t restricted to the kinds the parser creates (vm.c:3079-3450); errors are
not part of a tree. -/
inductive Tree
  | nil
  | bool (b : Bool)
  | int (i : Int)
  | real (r : RealLit)
  | str (s : Text)
  | chr (s : Text)
  | sym (s : Text)
  | semver (major minor patch : Nat)
  | vec (es : List Tree)
  deriving Repr

/-- decimal digits of `n`, as `%zu` and (without sign) `%PRId32` print them -/
def decDigits (n : Nat) : Text :=
  if _h : n < 10 then [48 + n] else decDigits (n / 10) ++ [48 + n % 10]
termination_by n

/-- `%PRId32` -/
def printInt (i : Int) : Text := if i < 0 then 45 :: decDigits i.natAbs else decDigits i.natAbs

/-- octaspire_string_new_format(allocator, "pre%spost", octaspire_string_get_c_string(s))
(amalgamated.c:5275-5477): `none` is the `abort()` of get_c_string.  The formatted octets are
decoded again; a decoding error cuts the string short and is ignored. -/
def fmtS (pre : Text) (s : Text) (post : Text) : Option Text := do
  let o ← getCString s
  let p ← getCString pre
  let q ← getCString post
  inputText (p ++ o ++ q)

/-- octaspire_string_is_equal_to_c_string, amalgamated.c:6042-6069, with a one octet C string:
the octets are compared. -/
def isCString1 (s : Text) (c : Ch) : Bool := s == [c]

mutual
/-- octaspire_dern_private_value_to_string, value.c:1290-1468, with printReadably, on trees; `g`
prints a real with `%g`.  `none` is `abort()`. -/
def printTree (g : RealLit → Text) : Tree → Option Text
  | .nil => some (txt "nil")
  | .bool b => some (if b then txt "true" else txt "false")
  | .int i => some ((if 0 ≤ i then txt "{D+" else txt "{D") ++ printInt i ++ txt "}")
  | .real r => some ((if r.negative && r.digits ≠ 0 then txt "{D" else txt "{D+") ++ g r ++ txt "}")
  | .str s => fmtS (txt "[") s (txt "]")
  | .chr s =>
    if isCString1 s 124 then some (txt "|bar|")
    else if isCString1 s 10 then some (txt "|newline|")
    else if isCString1 s 9 then some (txt "|tab|")
    else fmtS (txt "|") s (txt "|")
  | .sym s => fmtS [] s []
  | .semver a b c => some (decDigits a ++ 46 :: decDigits b ++ 46 :: decDigits c)
  | .vec es => do
    let body ← printTrees g es
    some (40 :: body ++ [41])
/-- the loop over the elements of a vector, value.c:1424-1452: printed elements are separated by
one space.  Concatenation re-encodes every printed element (amalgamated.c:5747-5788). -/
def printTrees (g : RealLit → Text) : List Tree → Option Text
  | [] => some []
  | [t] => do
    let s ← printTree g t
    fmtS [] s []
  | t :: u :: ts => do
    let s ← printTree g t
    let s ← fmtS [] s []
    let r ← printTrees g (u :: ts)
    some (s ++ 32 :: r)
end

end Dern
