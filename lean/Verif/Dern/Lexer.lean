import Verif.Core.Input
/-
Model of /repo/dev/src/octaspire_dern_lexer.c (lexer.c below).

The lexer reads from the unread part of the input, a list of code points; every function returns
what it produces and what is left unread.  Token positions are dealt with in `Verif.Dern.Reader`.
Error messages are kept as their format strings (the arguments of `%s`, `%c`, `%zu` are left
out).  Memory allocation failures are not modelled.
-/
namespace Dern

/-- The ctype.h functions as the program calls them (lexer.c:962, 1133, 1517, 1673).  The C
standard defines them for 0..255 only; for other code points the call is undefined, hence their
value there is arbitrary in the model (an oracle); `Ctype.C` states what is known. -/
structure Ctype where
  isspace : Ch → Bool
  isdigit : Ch → Bool
  isxdigit : Ch → Bool

/-- isspace in the "C" locale -/
def spaceC (c : Ch) : Bool := c == 32 || (9 ≤ c && c ≤ 13)
/-- isdigit -/
def digitC (c : Ch) : Bool := 48 ≤ c && c ≤ 57
/-- isxdigit -/
def xdigitC (c : Ch) : Bool := (48 ≤ c && c ≤ 57) || (65 ≤ c && c ≤ 70) || (97 ≤ c && c ≤ 102)

/-- what holds in every locale used by the program (UTF-8 or "C"): ASCII is classified as in C -/
structure Ctype.C (ct : Ctype) : Prop where
  space : ∀ c < 128, ct.isspace c = spaceC c
  digit : ∀ c < 128, ct.isdigit c = digitC c
  xdigit : ∀ c < 128, ct.isxdigit c = xdigitC c

/-- a particular one, for examples -/
def asciiCtype : Ctype := ⟨spaceC, digitC, xdigitC⟩

/-- the double computed for a real literal, symbolically: `digits` is the integer value of all
digits (dot left out), it is multiplied by the factor, that is by ±1 divided `frac` times by the
base (lexer.c:1636, 1673-1676, 1829-1832). -/
structure RealLit where
  digits : Nat
  base : Nat
  frac : Nat
  negative : Bool
  deriving DecidableEq, Repr

/-- octaspire_dern_lexer_token_t, lexer.c:28-60 (positions left out). -/
inductive Token
  | lparen | rparen | quote | backQuote | true_ | false_ | nil_
  | integer (i : Int)
  | real (r : RealLit)
  | character (s : Text)
  | string (s : Text)
  | symbol (s : Text)
  | semver (major minor patch : Nat)
  | error (msg : String)
  | moreInput (msg : String)
  deriving DecidableEq, Repr

/-- result of a lexer function: a token, the null pointer (out of input), `abort()`, undefined
behaviour. -/
inductive LexOut
  | tok (t : Token)
  | null
  | abort
  | ub
  deriving DecidableEq, Repr

/-- octaspire_dern_lexer_private_pop_whitespace, lexer.c:955-973. -/
def popWhitespace (ct : Ctype) : Text → Text
  | [] => []
  | c :: cs => if ct.isspace c then popWhitespace ct cs else c :: cs

/-- octaspire_dern_lexer_private_pop_rest_of_line, lexer.c:974-994. -/
def popRestOfLine : Text → Text
  | [] => []
  | c :: cs => if c = 10 then cs else popRestOfLine cs

/-- the loop of octaspire_dern_lexer_private_pop_multiline_comment (lexer.c:996-1128), lexer.c:1052-1110: `none` is
the null pointer (comment closed), `some msg` the token MORE_INPUT_REQUIRED. -/
def multilineLoop : Text → Option String × Text
  | [] => (some "Multiline comment that is not closed with !#", [])
  | c :: cs =>
    if c = 33 then
      match cs with
      | [] => (some "Number sign '#' expected after '!' to close multiline comment", [])
      | d :: ds => if d = 35 then (none, ds) else multilineLoop cs
    else multilineLoop cs

/-- octaspire_dern_lexer_private_is_delimeter, lexer.c:1130-1142. -/
def isDelimiter (ct : Ctype) (c : Ch) : Bool :=
  ct.isspace c || c == 124 || c == 91 || c == 93 || c == 40 || c == 41 || c == 39 || c == 10

/-- `strchr(expected, c)` with `c` a code point: the `int` is converted to `char`, and the
terminating NUL is part of the string (lexer.c:1450). -/
def strchr (expected : List Nat) (c : Ch) : Bool := expected.contains (c % 256) || c % 256 == 0

/-- octaspire_dern_lexer_private_expect_octet, lexer.c:1432-1493: the character read, or the
error token. -/
def expectOctet (source : String) (expected : List Nat) (t : Text) : (Except Token Ch) × Text :=
  match t with
  | [] => (.error (.error (source ++ ": one of octets '%s' expected")), [])
  | c :: cs =>
    if strchr expected c then (.ok c, cs)
    else (.error (.error (source ++ ": one of octets '%s' expected. Instead '%c' was found.")), c :: cs)

/-- value of a digit character, lexer.c:1813-1822 (`c - '0'` or `10 + (tolower(c) - 'a')`) -/
def digitVal (c : Ch) : Nat :=
  if 48 ≤ c ∧ c ≤ 57 then c - 48 else if 65 ≤ c ∧ c ≤ 70 then 10 + (c - 65) else 10 + (c - 97)

/-- `(size_t)(pow(base, i) * d)`, lexer.c:1815, 1820: exact if the product is zero or at most 2^53
(`pow` is assumed exact when its result is exactly representable); otherwise rounding, or
undefined behaviour of the conversion, makes it unspecified: `none`. -/
def powTerm (base i d : Nat) : Option Nat :=
  if d = 0 then some 0 else if base ^ i * d ≤ 2 ^ 53 then some (base ^ i * d) else none

/-- the loop `value += (size_t)(pow(base, i) * digit)` from the last digit on, lexer.c:1806-1822,
on the reversed list of digits; `size_t` addition wraps modulo 2^64. -/
def sumDigits (base : Nat) : List Ch → Nat → Nat → Option Nat
  | [], _, acc => some acc
  | c :: cs, i, acc => do
    let t ← powTerm base i (digitVal c)
    sumDigits base cs (i + 1) ((acc + t) % 2 ^ 64)

/-- `(int32_t)value` for a `size_t`: modulo 2^32 into the signed range (gcc, clang). -/
def toInt32 (n : Nat) : Int :=
  let m : Nat := n % 2 ^ 32
  if m < 2 ^ 31 then (m : Int) else (m : Int) - 2 ^ 32

def int32Min : Int := -2147483648
def int32Max : Int := 2147483647

/-- lexer.c:1834 `(int32_t)((int32_t)value * factor)` with factor 1 or -1: the product is a double
and exact; converting it back is undefined when it is out of range. -/
def intLiteral (value : Nat) (negative : Bool) : LexOut :=
  let r := if negative then - toInt32 value else toInt32 value
  if int32Min ≤ r ∧ r ≤ int32Max then .tok (.integer r) else .ub

/-- base selected by the letter read, lexer.c:1619-1625; any other value leaves it 10 -/
def baseOf (c : Ch) : Nat := if c = 88 then 16 else if c = 68 then 10 else if c = 79 then 8
  else if c = 66 then 2 else 10

/-- loop state of pop_integer_or_real_number, lexer.c:1562-1575 -/
structure NumState where
  charsRead : Nat
  dotRead : Bool
  frac : Nat           -- how many times the factor was divided by the base
  prevChar : Ch
  digits : List Ch     -- last digit first
  deriving Repr

/-- the code after the loop, lexer.c:1770-1851 (`prevChar == '-'` cannot happen: '-' is no digit;
the check is kept). -/
def numFinish (base : Nat) (negative : Bool) (s : NumState) : LexOut :=
  if s.prevChar = 46 then .tok (.error "Character '.' cannot end a number")
  else if s.prevChar = 45 then .tok (.error "Character '-' cannot end a number")
  else
    match sumDigits base s.digits 0 0 with
    | none => .ub
    | some v =>
      if s.dotRead then .tok (.real { digits := v, base := base, frac := s.frac, negative := negative })
      else intLiteral v negative

/-- one digit character `c` in the loop, lexer.c:1669-1740: an outcome, or go on. -/
def numDigit (base : Nat) (s : NumState) (c : Ch) : Except LexOut NumState :=
  if s.digits.length ≥ 256 then .error .abort
  else if base = 2 ∧ ¬ (c = 48 ∨ c = 49) then
    .error (.tok (.error "Binary number can contain only '0' and '1' digits."))
  else if base = 8 ∧ ¬ (48 ≤ c ∧ c ≤ 55) then
    .error (.tok (.error "Octal number can contain only digits '0' - '7'."))
  else if base = 10 ∧ ¬ (48 ≤ c ∧ c ≤ 57) then
    .error (.tok (.error "Decimal number can contain only digits '0' - '9'."))
  else if ¬ xdigitC c then .error .ub
  else .ok { charsRead := s.charsRead + 1, dotRead := s.dotRead,
             frac := if s.dotRead then s.frac + 1 else s.frac,
             prevChar := c, digits := c :: s.digits }

/-- the `while` loop of pop_integer_or_real_number, lexer.c:1638-1768.  `inside` tells that the
current iteration has already skipped whitespace (pop_whitespace at its start): the input may then
be empty, in which case the character peeked is 0 and the error below is reported. -/
def numLoop (ct : Ctype) (base : Nat) (negative : Bool) : Bool → NumState → Text → LexOut × Text
  | inside, s, [] =>
    if inside then (.tok (.error "Number cannot contain character '%c'"), [])
    else (numFinish base negative s, [])
  | _, s, c :: cs =>
    if ct.isspace c then numLoop ct base negative true s cs
    else if c = 46 then
      if s.dotRead then (.tok (.error "Number can contain only one '.' character"), c :: cs)
      else if s.charsRead = 0 then (.tok (.error "Character '.' cannot start a number"), c :: cs)
      else numLoop ct base negative false
        { s with dotRead := true, charsRead := s.charsRead + 1, prevChar := c } cs
    else if ct.isxdigit c then
      match numDigit base s c with
      | .error o => (o, c :: cs)
      | .ok s' => numLoop ct base negative false s' cs
    else if c = 125 then (numFinish base negative s, cs)
    else (.tok (.error "Number cannot contain character '%c'"), c :: cs)

/-- octaspire_dern_lexer_private_pop_integer_or_real_number, lexer.c:1555-1852. -/
def popNumber (ct : Ctype) (t : Text) : LexOut × Text :=
  match expectOctet "Number" [123] t with
  | (.error e, t) => (.tok e, t)
  | (.ok _, t) =>
    match expectOctet "Number" [88, 68, 79, 66] t with
    | (.error e, t) => (.tok e, t)
    | (.ok b, t) =>
      match expectOctet "Number" [43, 45] t with
      | (.error e, t) => (.tok e, t)
      | (.ok s, t) =>
        numLoop ct (baseOf b) (s == 45) false
          { charsRead := 0, dotRead := false, frac := 0, prevChar := 0, digits := [] } t

/-- result of expect_semver_number -/
inductive SemverNum
  | ok (digits : List Ch)   -- last digit first
  | abort

/-- the loop of octaspire_dern_lexer_private_expect_semver_number, lexer.c:1495-1553; `ds` are the
digits read so far, last first. -/
def semverDigits (ct : Ctype) : List Ch → Text → SemverNum × Text
  | ds, [] => (.ok ds, [])
  | ds, c :: cs =>
    if ct.isdigit c then
      if ds.length ≥ 256 then (.abort, c :: cs) else semverDigits ct (c :: ds) cs
    else (.ok ds, c :: cs)

/-- value of the digits, lexer.c:1521-1527 (`c - '0'` for every character) -/
def semverValue (ds : List Ch) : Option Nat :=
  if ds.all digitC then sumDigits 10 ds 0 0 else none

/-- octaspire_dern_lexer_private_pop_semver, lexer.c:1891-2097 -/
def popSemver (ct : Ctype) (t : Text) : LexOut × Text :=
  match semverDigits ct [] t with
  | (.abort, t) => (.abort, t)
  | (.ok [], t) => (.tok (.error "Major component of semantic version number cannot be empty"), t)
  | (.ok (d1 :: ds1), t) =>
    match expectOctet "SemVer: after major component" [46] t with
    | (.error e, t) => (.tok e, t)
    | (.ok _, t) =>
      match semverDigits ct [] t with
      | (.abort, t) => (.abort, t)
      | (.ok [], t) => (.tok (.error "Minor component of semantic version number cannot be empty"), t)
      | (.ok (d2 :: ds2), t) =>
        match expectOctet "SemVer: after minor component" [46] t with
        | (.error e, t) => (.tok e, t)
        | (.ok _, t) =>
          match semverDigits ct [] t with
          | (.abort, t) => (.abort, t)
          | (.ok [], t) =>
            (.tok (.error "Patch component of semantic version number cannot be empty"), t)
          | (.ok (d3 :: ds3), t) =>
            match semverValue (d1 :: ds1), semverValue (d2 :: ds2), semverValue (d3 :: ds3) with
            | some a, some b, some c => (.tok (.semver a b c), t)
            | _, _, _ => (.ub, t)

/-- the loop of octaspire_dern_lexer_private_pop_character after the opening '|',
lexer.c:2387-2453: the characters up to the closing '|', or `none` when the input ends. -/
def charContent : Text → Option Text × Text
  | [] => (none, [])
  | c :: cs =>
    if c = 124 then (some [], cs)
    else
      match charContent cs with
      | (none, r) => (none, r)
      | (some s, r) => (some (c :: s), r)

/-- value of hexadecimal digits as `strtol(.., 16)`; at most 8 digits -/
def hexValue (s : Text) : Nat := s.foldl (fun a c => a * 16 + digitVal c) 0

/-- a token holding a string: the token constructor is given the C string (lexer.c:239-340) -/
def textToken (f : Text → Token) (s : Text) : LexOut :=
  match recode s with
  | none => .abort
  | some s' => .tok (f s')

/-- the decision on the content of a character, lexer.c:2475-2697.  `strspn` works on the octets
of the C string, and equals the number of code points iff all of them are hexadecimal digits
(the C string of the content may abort). -/
def charToken (s : Text) : LexOut :=
  if s.length > 1 then
    if s = txt "bar" then textToken .character [124]
    else if s = txt "newline" then textToken .character [10]
    else if s = txt "tab" then textToken .character [9]
    else if s = txt "string-start" then textToken .character [91]
    else if s = txt "string-end" then textToken .character [93]
    else
      match getCString s with
      | none => .abort
      | some octets =>
        if (octets.takeWhile fun o => xdigitC o.toNat).length = s.length then
          if s.length > 8 then
            .tok (.error "Number of hex digits (%zu) in character definition may not be larger than eight")
          else textToken .character [hexValue s]
        else .tok (.error "Unknown character constant |%s|")
  else if s = [] then .tok (.error "Character cannot be empty: ||")
  else textToken .character s

/-- octaspire_dern_lexer_private_pop_character, lexer.c:2357-2720. -/
def popCharacter (t : Text) : LexOut × Text :=
  match t with
  | [] => (.null, [])
  | c :: cs =>
    if c = 124 then
      match charContent cs with
      | (none, r) => (.null, r)
      | (some s, r) => (charToken s, r)
    else (.tok (.error "Character must begin with character '|'"), c :: cs)

/-- the end of octaspire_dern_lexer_private_pop_string after the closing ']': the next character
must be a delimiter (lexer.c:2121-2149). -/
def stringEnd (ct : Ctype) (s : Text) (t : Text) : LexOut × Text :=
  match t with
  | [] => (textToken .string s, [])
  | c :: cs =>
    if isDelimiter ct c then (textToken .string s, c :: cs)
    else (.tok (.error "After last ']' of string there must be dern delimiter"), c :: cs)

/-- the loop of octaspire_dern_lexer_private_pop_string after the opening '[',
lexer.c:2116-2312.  An embedded character is read by pop_character; `get_ucs_character_at_index`
aborts if its string is empty.  `fuel` bounds the number of iterations (the length of the input
is enough, each iteration reads something; see `popString`). -/
def stringLoop (ct : Ctype) : Nat → Text → Text → LexOut × Text
  | 0, _, t => (.ub, t)
  | fuel + 1, acc, t =>
    match t with
    | [] => (.null, [])
    | c :: cs =>
      if c = 93 then stringEnd ct acc cs
      else if c = 124 then
        match popCharacter (c :: cs) with
        | (.null, r) =>
          (.tok (.error "Problem with a character embedded in string: (character is not complete)"), r)
        | (.tok (.error _), r) =>
          (.tok (.error "Problem with a character embedded in string: (%s)"), r)
        | (.tok (.character (d :: _)), r) => stringLoop ct fuel (acc ++ [d]) r
        | (.tok _, r) => (.abort, r)
        | (.abort, r) => (.abort, r)
        | (.ub, r) => (.ub, r)
      else stringLoop ct fuel (acc ++ [c]) cs

/-- octaspire_dern_lexer_private_pop_string, lexer.c:2099-2355. -/
def popString (ct : Ctype) (t : Text) : LexOut × Text :=
  match t with
  | [] => (.null, [])
  | c :: cs =>
    if c = 91 then stringLoop ct (cs.length + 1) [] cs
    else (.tok (.error "String must begin with character '['"), c :: cs)

/-- the loop of pop_true_or_false_or_nil_or_symbol, lexer.c:2752-2788 -/
def symbolChars (ct : Ctype) : Text → Text × Text
  | [] => ([], [])
  | c :: cs =>
    if isDelimiter ct c then ([], c :: cs)
    else let (s, r) := symbolChars ct cs; (c :: s, r)

/-- octaspire_dern_lexer_private_pop_true_or_false_or_nil_or_symbol, lexer.c:2722-2879. -/
def popSymbol (ct : Ctype) (t : Text) : LexOut × Text :=
  let (s, r) := symbolChars ct t
  if s = [] then (.tok (.error "Symbol cannot be empty"), r)
  else if s = txt "true" then (.tok .true_, r)
  else if s = txt "false" then (.tok .false_, r)
  else if s = txt "nil" then (.tok .nil_, r)
  else (textToken .symbol s, r)

/-- the `switch` of octaspire_dern_lexer_pop_next_token on a character that starts no comment,
lexer.c:2897-3068; `t` is not empty there. -/
def popTokenAt (ct : Ctype) (t : Text) : LexOut × Text :=
  match t with
  | [] => (.null, [])
  | c :: cs =>
    if c = 40 then (.tok .lparen, cs)
    else if c = 41 then (.tok .rparen, cs)
    else if c = 39 then (.tok .quote, cs)
    else if c = 96 then (.tok .backQuote, cs)
    else if c = 123 then popNumber ct (c :: cs)
    else if 48 ≤ c ∧ c ≤ 57 then popSemver ct (c :: cs)
    else if c = 91 then popString ct (c :: cs)
    else if c = 124 then popCharacter (c :: cs)
    else popSymbol ct (c :: cs)

/-- what skipping whitespace and comments leads to -/
inductive Trivia
  | start (t : Text)                     -- a token starts here (`t` is not empty)
  | eof
  | more (msg : String) (t : Text)       -- MORE_INPUT_REQUIRED
  deriving DecidableEq, Repr

/-- octaspire_dern_lexer_pop_next_token, lexer.c:2882-2940, the part that skips whitespace, line
comments and multiline comments (by recursion, here with `fuel`; the length of the input is
enough, see `skipTrivia`). -/
def skipTriviaFuel (ct : Ctype) : Nat → Text → Trivia
  | 0, _ => .eof
  | fuel + 1, t =>
    match popWhitespace ct t with
    | [] => .eof
    | c :: cs =>
      if c = 59 then skipTriviaFuel ct fuel (popRestOfLine (c :: cs))
      else if c = 35 then
        match cs with
        | d :: ds =>
          if d = 33 then
            match multilineLoop ds with
            | (none, r) => skipTriviaFuel ct fuel r
            | (some msg, r) => .more msg r
          else .start (c :: cs)
        | [] => .start (c :: cs)
      else .start (c :: cs)

def skipTrivia (ct : Ctype) (t : Text) : Trivia := skipTriviaFuel ct (t.length + 1) t

/-- octaspire_dern_lexer_pop_next_token, lexer.c:2882-3071: the token (or null pointer) and the
unread rest. -/
def lex (ct : Ctype) (t : Text) : LexOut × Text :=
  match skipTrivia ct t with
  | .eof => (.null, [])
  | .more msg r => (.tok (.moreInput msg), r)
  | .start t => popTokenAt ct t

end Dern
