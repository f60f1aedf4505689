/-
IEEE 754 binary64 numbers as bit patterns and their values, independent of the model.
-/
namespace Dern.Spec

/-- a `double`: its 64 bits -/
abbrev Dbl := BitVec 64

namespace Dbl

def sign (d : Dbl) : Bool := d.getLsbD 63
/-- biased exponent -/
def exponent (d : Dbl) : Nat := (d.toNat / 2 ^ 52) % 2048
def fraction (d : Dbl) : Nat := d.toNat % 2 ^ 52

/-- all finite doubles are integer multiples of 2^-1074; values are counted in that unit -/
def unit : Nat := 2 ^ 1074

/-- magnitude of a finite double in units of 2^-1074 -/
def magnitude (d : Dbl) : Nat :=
  if d.exponent = 0 then d.fraction else (2 ^ 52 + d.fraction) * 2 ^ (d.exponent - 1)

def isNaN (d : Dbl) : Bool := d.exponent = 2047 && d.fraction ≠ 0

/-- the value in units of 2^-1074; `none` for a NaN.  The infinities are placed outside the range
of the finite values (all of which are below 2^2098). -/
def value (d : Dbl) : Option Int :=
  if d.isNaN then none
  else
    let m : Nat := if d.exponent = 2047 then 2 ^ 2100 else d.magnitude
    some (if d.sign then -(m : Int) else m)

/-- the value of an integer in the same unit -/
def ofInt (n : Int) : Int := n * (unit : Int)

theorem unit_pos : 0 < unit := Nat.pow_pos (by decide)

theorem ofInt_lt {m n : Int} : ofInt m < ofInt n ↔ m < n := by
  unfold ofInt
  exact Int.mul_lt_mul_right (by exact_mod_cast unit_pos)

theorem ofInt_inj {m n : Int} : ofInt m = ofInt n ↔ m = n := by
  constructor
  · intro h
    rcases Int.lt_trichotomy m n with h' | h' | h'
    · have := ofInt_lt.mpr h'; omega
    · exact h'
    · have := ofInt_lt.mpr h'; omega
  · exact fun h => h ▸ rfl

attribute [irreducible] unit

end Dbl
end Dern.Spec
