/-
Model of octaspire_utf8 (octaspire-core as bundled in
/repo/release/octaspire-dern-amalgamated.c, lines 2738-3196).

Octets are `BitVec 8`, code points are `BitVec 32` (`uint32_t`); all masks and shifts are
those of the C text.  A text of length `n` is a list of `n` octets; reading outside of it is
the outcome `none` (undefined behaviour), never a default value.
-/
namespace Dern.Utf8

abbrev Octet := BitVec 8
abbrev Ucs := BitVec 32

/-- octaspire_utf8_character_range_t, amalgamated.c:2757-2765. -/
inductive Range | first | second | third | fourth | illegal
  deriving DecidableEq, Repr

/-- octaspire_utf8_private_rangeof, amalgamated.c:2795-2810. -/
def rangeof (c : Ucs) : Range :=
  if c ≤ 0x7F#32 then .first
  else if c ≥ 0x80#32 ∧ c ≤ 0x7FF#32 then .second
  else if c ≥ 0x800#32 ∧ c ≤ 0xFFFF#32 then .third
  else if c ≥ 0x10000#32 ∧ c ≤ 0x10FFFF#32 then .fourth
  else .illegal

/-- octaspire_utf8_private_high_order_bits, amalgamated.c:2812-2828. -/
def highOrderBits : Range → Ucs
  | .first => 0#32
  | .second => 0xC080#32
  | .third => 0xE08080#32
  | .fourth => 0xF0808080#32
  | .illegal => 0xFFFFFFFF#32

/-- octaspire_utf8_character_t, amalgamated.c:282-288 (padding left out). -/
structure Encoded where
  numoctets : Nat
  o0 : Octet
  o1 : Octet
  o2 : Octet
  o3 : Octet
  deriving DecidableEq, Repr

/-- one `bitset |= ((bitset & ~m) | (x & m))` step of amalgamated.c:2850-2903, where `x` is the
(shifted) part of the character. -/
def orMasked (bitset m x : Ucs) : Ucs := bitset ||| ((bitset &&& ~~~m) ||| (x &&& m))

/-- the `switch (range)` of octaspire_utf8_encode_character, amalgamated.c:2848-2910: the number
of octets and the 32 bit pattern holding them.  The first step of each case has the same mask on
character and bitset. -/
def encodeBits (c : Ucs) : Range → Option (Nat × Ucs)
  | .first =>
    some (1, orMasked (highOrderBits .first) 0x7F#32 c)
  | .second =>
    let b := orMasked (highOrderBits .second) 0x3F#32 c
    let b := orMasked b 0x1F00#32 ((c &&& 0x7C0#32) <<< 2)
    some (2, b)
  | .third =>
    let b := orMasked (highOrderBits .third) 0x3F#32 c
    let b := orMasked b 0x3F00#32 ((c &&& 0xFC0#32) <<< 2)
    let b := orMasked b 0xF0000#32 ((c &&& 0xF000#32) <<< 4)
    some (3, b)
  | .fourth =>
    let b := orMasked (highOrderBits .fourth) 0x3F#32 c
    let b := orMasked b 0x3F00#32 ((c &&& 0xFC0#32) <<< 2)
    let b := orMasked b 0x3F0000#32 ((c &&& 0x3F000#32) <<< 4)
    let b := orMasked b 0x7000000#32 ((c &&& 0x1C0000#32) <<< 6)
    some (4, b)
  | .illegal => none

/-- octaspire_utf8_encode_character, amalgamated.c:2829-2926.  `none` is the status
ILLEGAL_CHARACTER_NUMBER.  Octets are right aligned in `octets[0..3]` as in the C code. -/
def encodeCharacter (c : Ucs) : Option Encoded :=
  if c ≥ 0xD800#32 ∧ c ≤ 0xDFFF#32 then none
  else
    match encodeBits c (rangeof c) with
    | none => none
    | some (n, b) =>
      some { numoctets := n
             o3 := (b &&& 0xFF#32).setWidth 8
             o2 := ((b &&& 0xFF00#32) >>> 8).setWidth 8
             o1 := ((b &&& 0xFF0000#32) >>> 16).setWidth 8
             o0 := ((b &&& 0xFF000000#32) >>> 24).setWidth 8 }

/-- The octets a caller copies out of the result: `octets + 4 - numoctets + j` for
`j < numoctets` (amalgamated.c:6752-6761). -/
def Encoded.toList (e : Encoded) : List Octet := [e.o0, e.o1, e.o2, e.o3].drop (4 - e.numoctets)

/-- `((octet >> s) & m) == v` on an octet (used by octets_in_next_from_buffer). -/
def hasBits (o : Octet) (s : Nat) (m v : BitVec 8) : Bool := ((o >>> s) &&& m) == v

/-- octaspire_utf8_private_octets_in_next_from_buffer, amalgamated.c:2952-3028.
`buf` has `lengthInOctets` octets.  The outer `none` is an out of bounds read. -/
def octetsInNextFromBuffer (buf : List Octet) (currentIndex : Nat) : Option Int :=
  if currentIndex ≥ buf.length then some 0
  else do
    let avail := buf.length - currentIndex
    let o0 ← buf[currentIndex]?
    if hasBits o0 7 1 0 then some 1
    else if hasBits o0 5 7 6 then
      if avail < 2 then some (-1)
      else do
        let o1 ← buf[currentIndex + 1]?
        if hasBits o1 6 3 2 then some 2 else some (-1)
    else if hasBits o0 4 15 14 then
      if avail < 3 then some (-1)
      else do
        let o1 ← buf[currentIndex + 1]?
        let o2 ← buf[currentIndex + 2]?
        if hasBits o1 6 3 2 && hasBits o2 6 3 2 then some 3 else some (-1)
    else if hasBits o0 3 31 30 then
      if avail < 4 then some (-1)
      else do
        let o1 ← buf[currentIndex + 1]?
        let o2 ← buf[currentIndex + 2]?
        let o3 ← buf[currentIndex + 3]?
        if hasBits o1 6 3 2 && hasBits o2 6 3 2 && hasBits o3 6 3 2 then some 4 else some (-1)
    else some (-1)

/-- the counting loop of octaspire_utf8_private_octets_in_next (amalgamated.c:2937-2947):
number of leading non-NUL octets, at most `k` (`k = min(4, textLengthInOctets)`). -/
def countNonNul (text : List Octet) : Nat → Nat
  | 0 => 0
  | k + 1 =>
    match text with
    | [] => 0
    | o :: rest => if o = 0 then 0 else 1 + countNonNul rest k

/-- octaspire_utf8_private_octets_in_next, amalgamated.c:2928-2950.  The callee gets the first
`lengthInOctets` octets only. -/
def octetsInNext (text : List Octet) : Option Int :=
  match text with
  | [] => some 0
  | o :: _ =>
    if o = 0 then some 0
    else octetsInNextFromBuffer (text.take (countNonNul text (min 4 text.length))) 0

/-- octaspire_utf8_decode_status_t, amalgamated.c:265-273. -/
inductive DecodeStatus
  | ok | inputIsNull | notEnoughOctets | illegalNumberOfOctets | overlong
  deriving DecidableEq, Repr

/-- `(x & inputMask) << s` of a `char` promoted to int: the mask is at most 0x7F, hence the sign
of the char does not matter. -/
def bitsFrom (o m : Octet) (s : Nat) : Ucs := ((o &&& m).setWidth 32) <<< s

/-- one `*result |= ((*result & ~resultMask) | x)` step of decode_helper. -/
def orResult (r m x : Ucs) : Ucs := r ||| ((r &&& ~~~m) ||| x)

/-- octaspire_utf8_private_decode_helper, amalgamated.c:3030-3128, called with
`numOctetsAvailable = numOctetsNeeded` by decode_character; result and status.  The `assert`
on `numOctetsNeeded <= 4` is met by the only callers; other numbers leave the result as is. -/
def decodeHelper (buf : List Octet) (needed available : Nat) : Option (DecodeStatus × Ucs) :=
  if needed > available then some (.notEnoughOctets, 0)
  else match needed with
  | 1 => do
    let o0 ← buf[0]?
    some (.ok, orResult 0 0x7F#32 (bitsFrom o0 0x7F#8 0))
  | 2 => do
    let o0 ← buf[0]?
    let o1 ← buf[1]?
    let r := orResult 0 0x7C0#32 (bitsFrom o0 0x1F#8 6)
    let r := orResult r 0x3F#32 (bitsFrom o1 0x3F#8 0)
    some (if r ≤ 0x7F#32 then .overlong else .ok, r)
  | 3 => do
    let o0 ← buf[0]?
    let o1 ← buf[1]?
    let o2 ← buf[2]?
    let r := orResult 0 0xF000#32 (bitsFrom o0 0xF#8 12)
    let r := orResult r 0xFC0#32 (bitsFrom o1 0x3F#8 6)
    let r := orResult r 0x3F#32 (bitsFrom o2 0x3F#8 0)
    some (if r ≤ 2047#32 then .overlong else .ok, r)
  | 4 => do
    let o0 ← buf[0]?
    let o1 ← buf[1]?
    let o2 ← buf[2]?
    let o3 ← buf[3]?
    let r := orResult 0 0x1C0000#32 (bitsFrom o0 0x7#8 18)
    let r := orResult r 0x3F000#32 (bitsFrom o1 0x3F#8 12)
    let r := orResult r 0xFC0#32 (bitsFrom o2 0x3F#8 6)
    let r := orResult r 0x3F#32 (bitsFrom o3 0x3F#8 0)
    some (if r ≤ 65535#32 then .overlong else .ok, r)
  | _ => some (.ok, 0)

/-- what octaspire_utf8_decode_character reports. -/
structure Decoded where
  status : DecodeStatus
  result : Ucs
  numoctets : Int
  deriving DecidableEq, Repr

/-- octaspire_utf8_decode_character, amalgamated.c:3130-3158.  `numoctetsRef` is the `int`
converted to `size_t`: -1 becomes a huge number, caught by `> 4`. -/
def decodeCharacter (text : List Octet) : Option Decoded := do
  let n ← octetsInNext text
  if n ≤ 0 ∨ n > 4 then
    if text = [] ∨ text[0]? = some 0 then
      some { status := .inputIsNull, result := 0, numoctets := n }
    else
      some { status := .illegalNumberOfOctets, result := 0, numoctets := n }
  else if n.toNat > text.length then
    some { status := .illegalNumberOfOctets, result := 0, numoctets := n }
  else do
    let (st, r) ← decodeHelper text n.toNat n.toNat
    some { status := st, result := r, numoctets := n }

/-- octaspire_utf8_decode_character_from_buffer, amalgamated.c:3160-3192.  As in the code, the
octets are *counted* at `currentIndex` but *decoded* from the start of the buffer. -/
def decodeCharacterFromBuffer (buf : List Octet) (currentIndex : Nat) : Option Decoded := do
  let n ← octetsInNextFromBuffer buf currentIndex
  if n ≤ 0 ∨ n > 4 then
    some { status := .illegalNumberOfOctets, result := 0, numoctets := n }
  else do
    let (st, r) ← decodeHelper buf n.toNat (buf.length - currentIndex)
    some { status := st, result := r, numoctets := n }

/-- result of octaspire_string_new_from_buffer: the characters, and the decoding error position
if decoding stopped early. -/
structure FromBuffer where
  chars : List Ucs
  errorAt : Option Nat
  deriving DecidableEq, Repr

/-- octaspire_string_new_from_buffer, amalgamated.c:5179-5257, the `while (index <
lengthInOctets)` loop.  `fuel` bounds the number of iterations; each successful one consumes at
least one octet so `text.length + 1` is enough (`fromBuffer`).  Allocation failure is not
modelled.  `none` is an out of bounds read. -/
def fromBufferLoop : Nat → List Octet → Nat → List Ucs → Option FromBuffer
  | 0, _, _, _ => none
  | fuel + 1, text, index, acc =>
    if index < text.length then do
      let d ← decodeCharacter (text.drop index)
      if d.status ≠ .ok then some { chars := acc, errorAt := some index }
      else if d.numoctets > 0 then
        fromBufferLoop fuel text (index + d.numoctets.toNat) (acc ++ [d.result])
      else fromBufferLoop fuel text index acc
    else some { chars := acc, errorAt := none }

/-- octaspire_string_new_from_buffer, amalgamated.c:5179-5257. -/
def fromBuffer (text : List Octet) : Option FromBuffer :=
  fromBufferLoop (text.length + 1) text 0 []

/-- octaspire_string_private_ensure_octets_are_up_to_date, amalgamated.c:6728-6778, on a string
whose octet cache is empty: `none` is the return value `false` (a character cannot be encoded),
otherwise the octets including the terminating NUL. -/
def toOctets : List Ucs → Option (List Octet)
  | [] => some [0]
  | c :: cs => do
    let e ← encodeCharacter c
    let rest ← toOctets cs
    some (e.toList ++ rest)

end Dern.Utf8
