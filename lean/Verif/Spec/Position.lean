/- Specification of source positions: line and column of the character at index `i` of a text. -/
namespace Spec.Position

/-- 1 + number of newlines (code point 10) before index `i` -/
def line (text : List Nat) (i : Nat) : Nat := 1 + (text.take i).count 10

/-- 1 + number of characters between the last newline before index `i` and `i` -/
def column (text : List Nat) (i : Nat) : Nat := 1 + ((text.take i).reverse.takeWhile (· ≠ 10)).length

end Spec.Position
