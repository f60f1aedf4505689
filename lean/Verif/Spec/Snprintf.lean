import Verif.Core.Utf8
/-
What the C library promises about `vsnprintf` (C11 7.21.6.12), as far as octaspire_string_new_vformat uses it: a trusted description.

`o` are the octets that the format and its arguments stand for.  If they and the NUL at the end fit into the buffer they are written there and their number
is returned.  Otherwise C11 returns the same number, and older libraries a negative number; both are allowed.  What is in a buffer that was too small is left
open.  Nothing is ever written outside of the buffer.
-/
namespace Dern.Spec
open Dern.Utf8 (Octet)

/-- one call: the buffer before it gives the buffer after it and the number returned (an `int`) -/
abbrev Printer := List Octet → List Octet × Int

/-- `print` writes the octets `o` -/
structure Formats (o : List Octet) (print : Printer) : Prop where
  size : ∀ buf, (print buf).1.length = buf.length
  fits : ∀ buf, o.length < buf.length → (print buf).2 = o.length ∧ (print buf).1.take (o.length + 1) = o ++ [0]
  short : ∀ buf, buf.length ≤ o.length → (print buf).2 = o.length ∨ (print buf).2 < 0

/-- `print` never succeeds: a character cannot be encoded, or there are more than INT_MAX octets -/
structure NeverFormats (print : Printer) : Prop where
  size : ∀ buf, (print buf).1.length = buf.length
  fails : ∀ buf, (print buf).2 < 0

/-- the C string at the beginning of a block -/
def cStringOf (os : List Octet) : List Octet := os.takeWhile (· ≠ 0)

end Dern.Spec
