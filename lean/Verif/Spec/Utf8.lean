/-
Independent specification of UTF-8 (Unicode standard, table 3-6), on natural numbers with
division and remainder only.
-/
namespace Spec.Utf8

/-- Unicode scalar values: all code points but the surrogates. -/
def IsScalar (c : Nat) : Prop := c ≤ 0x10FFFF ∧ ¬ (0xD800 ≤ c ∧ c ≤ 0xDFFF)

instance (c : Nat) : Decidable (IsScalar c) := by unfold IsScalar; infer_instance

/-- the shortest form bit distribution (defined up to 21 bits; only scalar values are UTF-8) -/
def encode (c : Nat) : List Nat :=
  if c < 0x80 then [c]
  else if c < 0x800 then [0xC0 + c / 64, 0x80 + c % 64]
  else if c < 0x10000 then [0xE0 + c / 4096, 0x80 + c / 64 % 64, 0x80 + c % 64]
  else [0xF0 + c / 262144, 0x80 + c / 4096 % 64, 0x80 + c / 64 % 64, 0x80 + c % 64]

end Spec.Utf8
