/-
Base64 (RFC 4648, section 4), on octets and characters given as natural numbers.
-/
namespace Dern.Spec

/-- the character for a number below 64: A-Z, a-z, 0-9, + and / -/
def b64Char (n : Nat) : Nat :=
  if n < 26 then 65 + n else if n < 52 then 97 + (n - 26) else if n < 62 then 48 + (n - 52) else if n = 62 then 43 else 47

/-- the encoding of octets: three octets give four characters; at the end, one octet gives two characters and `==`, two octets give three characters and
`=` -/
def base64 : List Nat → List Nat
  | [] => []
  | [a] => [b64Char (a / 4), b64Char (a % 4 * 16), 61, 61]
  | [a, b] => [b64Char (a / 4), b64Char (a % 4 * 16 + b / 16), b64Char (b % 16 * 4), 61]
  | a :: b :: c :: xs => b64Char (a / 4) :: b64Char (a % 4 * 16 + b / 16) :: b64Char (b % 16 * 4 + c / 64) :: b64Char (c % 64) :: base64 xs

/-- a newline after every `l` characters; `k` characters are on the line already -/
def lined (l : Nat) : Nat → List Nat → List Nat
  | _, [] => []
  | k, c :: cs => if k + 1 = l then c :: 10 :: lined l 0 cs else c :: lined l (k + 1) cs

/-- the character stands for a number -/
def isB64 (c : Nat) : Bool := (65 ≤ c && c ≤ 90) || (97 ≤ c && c ≤ 122) || (48 ≤ c && c ≤ 57) || c = 43 || c = 47

/-- whitespace: tab, newline, vertical tab, form feed, carriage return, space -/
def blank (c : Nat) : Bool := c = 32 || (9 ≤ c && c ≤ 13)

end Dern.Spec
