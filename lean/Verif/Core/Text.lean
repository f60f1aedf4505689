import Verif.Core.Utf8
/-
octaspire_string (amalgamated.c:5119-6860) as far as the reader and printer use it: a string is
its list of code points; C strings are obtained by UTF-8 encoding and turned back by decoding.
Memory allocation failure is not modelled.
-/
namespace Dern

/-- a code point, `uint32_t` in the C code (a natural number here) -/
abbrev Ch := Nat
abbrev Text := List Ch

/-- code points of a Lean string literal (used to transcribe C string literals) -/
def txt (s : String) : Text := s.toList.map Char.toNat

open Utf8

/-- octaspire_string_private_ensure_octets_are_up_to_date, amalgamated.c:6728-6778, on a string
whose octet cache has been cleared.  The octets of the characters are appended one by one; when
a character cannot be encoded the function stops, leaving what was appended so far. -/
def ensureOctets : Text → List Octet
  | [] => [0]
  | c :: cs =>
    match encodeCharacter (BitVec.ofNat 32 c) with
    | none => []
    | some e => e.toList ++ ensureOctets cs

/-- octaspire_string_get_c_string, amalgamated.c:5695-5711: `none` is `abort()` (the last octet
is not NUL).  The result is the content of the C string, i.e. up to the first NUL. -/
def getCString (s : Text) : Option (List Octet) :=
  let octets := ensureOctets s
  if octets = [] then some []
  else if octets.getLast? = some 0 then some (octets.takeWhile (· ≠ 0))
  else none

/-- octaspire_string_new, amalgamated.c:5169-5177 on a C string, followed by the check of the
error status made by lexer token constructors (lexer.c:252-254 and alike): `none` is `abort()`. -/
def stringNewVerified (octets : List Octet) : Option Text := do
  let r ← fromBuffer octets
  if r.errorAt = none then some (r.chars.map BitVec.toNat) else none

/-- a string passed on as a C string and read back, as every token constructor does:
octaspire_string_get_c_string then octaspire_string_new.  `none` is `abort()`. -/
def recode (s : Text) : Option Text := do
  let octets ← getCString s
  stringNewVerified octets

/-- what can be in a text read from a file or a C string: octaspire_input_new_from_buffer,
amalgamated.c:8286-8318 (decoding stops at the first error; the error is ignored). -/
def inputText (octets : List Octet) : Option Text :=
  (fromBuffer octets).map fun r => r.chars.map BitVec.toNat

end Dern
