/-
Specification: positional numerals.
-/
namespace Dern.Spec.Numeral

/-- value of a digit character '0'-'9', 'A'-'F', 'a'-'f' -/
def digitValue (c : Nat) : Option Nat :=
  if '0'.toNat ≤ c ∧ c ≤ '9'.toNat then some (c - '0'.toNat)
  else if 'A'.toNat ≤ c ∧ c ≤ 'F'.toNat then some (c - 'A'.toNat + 10)
  else if 'a'.toNat ≤ c ∧ c ≤ 'f'.toNat then some (c - 'a'.toNat + 10)
  else none

/-- `c` is a digit of the base -/
def IsDigit (base c : Nat) : Prop := ∃ d, digitValue c = some d ∧ d < base

/-- positional value of a sequence of digits, most significant first -/
def value (base : Nat) (ds : List Nat) : Nat :=
  ds.foldl (fun v c => v * base + (digitValue c).getD 0) 0

/-- the bases and their letters -/
inductive BaseLetter : Nat → Char → Prop
  | hex : BaseLetter 16 'X'
  | dec : BaseLetter 10 'D'
  | oct : BaseLetter 8 'O'
  | bin : BaseLetter 2 'B'

end Dern.Spec.Numeral
