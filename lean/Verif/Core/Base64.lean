import Verif.Dern.Heap
/-
octaspire_helpers_base64_encode and octaspire_helpers_base64_decode (amalgamated.c:2388-2732).  Octets are natural numbers below 256; a string is its list
of characters.  Memory allocation does not fail.
-/
namespace Dern.Base64

/-- octaspire_helpers_base64_private_base64_char_into_num, amalgamated.c:2390-2418; 64 is octaspire_helpers_base64_private_bad_num -/
def charIntoNum (c : Nat) : Nat :=
  if 65 ≤ c ∧ c ≤ 90 then c - 65
  else if 97 ≤ c ∧ c ≤ 122 then 26 + (c - 97)
  else if 48 ≤ c ∧ c ≤ 57 then 52 + (c - 48)
  else if c = 43 then 62
  else if c = 47 then 63
  else 64

/-- the 24 bit number from four indices, and the three octets it is broken into: amalgamated.c:2500-2520 -/
def threeOctets (i0 i1 i2 i3 : Nat) : List Nat :=
  let num := ((i0 &&& 63) <<< (24 - 6)) + ((i1 &&& 63) <<< (24 - 12)) + ((i2 &&& 63) <<< (24 - 18)) + (i3 &&& 63)
  [(num >>> (16 - 0 * 8)) &&& 255, (num >>> (16 - 1 * 8)) &&& 255, (num >>> (16 - 2 * 8)) &&& 255]

/-- the start of a round of the loop of octaspire_helpers_base64_decode, amalgamated.c:2498-2523: four indices are turned into octets -/
def flush (indices result : List Nat) : List Nat × List Nat :=
  match indices with
  | [i0, i1, i2, i3] => ([], result ++ threeOctets i0 i1 i2 i3)
  | _ => (indices, result)

/-- the loop of octaspire_helpers_base64_decode, amalgamated.c:2496-2552, on the characters that are left.  `sp` is `isspace`; a round that only skips
whitespace is a round of its own here, which changes nothing because there are at most three indices then.  Null for a bad character; otherwise the indices
left, the octets and the number of paddings. -/
def decodeLoop (sp : Nat → Bool) : List Nat → List Nat → List Nat → Nat → Option (List Nat × List Nat × Nat)
  | [], indices, result, padding =>
    let (indices, result) := flush indices result
    some (indices, result, padding)
  | c :: cs, indices, result, padding =>
    let (indices, result) := flush indices result
    if sp c then decodeLoop sp cs indices result padding
    else
      let (c, padding) := if c = 61 then (65, padding + 1) else (c, padding)
      if charIntoNum c = 64 then none
      else decodeLoop sp cs (indices ++ [charIntoNum c]) result padding

/-- removal of whitespace at the end, amalgamated.c:2563-2573, on the reversed octets; octaspire_vector_peek_back_element_const gives null for an empty
vector, which is then dereferenced -/
def dropBlanks (sp : Nat → Bool) : List Nat → Res (List Nat)
  | [] => .error .null
  | o :: os => if sp o then dropBlanks sp os else .ok (o :: os)

/-- removal of the octets that stand for paddings, amalgamated.c:2561-2581, on the reversed octets -/
def dropPadding (sp : Nat → Bool) : Nat → List Nat → Res (List Nat)
  | 0, os => .ok os
  | n + 1, os => do
    let os ← dropBlanks sp os
    dropPadding sp n os.tail

/-- octaspire_helpers_base64_decode, amalgamated.c:2465-2584, on the characters from `input` on (there are at least `len` of them); `none` is null -/
def decode (sp : Nat → Bool) (input : List Nat) (len : Int) : Res (Option (List Nat)) :=
  if len < 2 then .ok none
  else
    match decodeLoop sp (input.take len.toNat) [] [] 0 with
    | none => .ok none
    | some (indices, result, padding) =>
      if indices.length ≠ 0 ∨ result.length ≤ padding then .ok none
      else do
        let os ← dropPadding sp padding result.reverse
        .ok (some os.reverse)

/-- the alphabet, amalgamated.c:2592-2593 -/
def base64chars : List Nat := ("ABCDEFGHIJKLMNOPQRSTUVWXYZabcdefghijklmnopqrstuvwxyz0123456789+/".toList).map Char.toNat

/-- one character of the result, amalgamated.c:2641-2667: with a line length, a newline is added when the line is full -/
def put (lineLen : Nat) (s : List Nat × Nat) (c : Nat) : List Nat × Nat :=
  if lineLen ≠ 0 ∧ lineLen ≤ s.2 + 1 then (s.1 ++ [c] ++ [10], 0) else (s.1 ++ [c], s.2 + 1)

/-- three octets as four numbers of six bits, amalgamated.c:2615-2638 -/
def fourNumbers (a b c : Nat) : List Nat :=
  let num := (a <<< (16 - 0 * 8)) + (b <<< (16 - 1 * 8)) + (c <<< (16 - 2 * 8))
  [(num >>> (24 - 6)) &&& 63, (num >>> (24 - 12)) &&& 63, (num >>> (24 - 18)) &&& 63, num &&& 63]

/-- the loop of octaspire_helpers_base64_encode, amalgamated.c:2613-2668, on the octets that are left; missing octets are 0
(octaspire_helpers_get_char_or_default_from_buf, amalgamated.c:2420-2432) -/
def encodeLoop (lineLen : Nat) : List Nat → List Nat × Nat → List Nat × Nat
  | [], s => s
  | [a], s => ((fourNumbers a 0 0).map fun n => base64chars.getD n 0).foldl (put lineLen) s
  | [a, b], s => ((fourNumbers a b 0).map fun n => base64chars.getD n 0).foldl (put lineLen) s
  | a :: b :: c :: xs, s => encodeLoop lineLen xs (((fourNumbers a b c).map fun n => base64chars.getD n 0).foldl (put lineLen) s)

/-- octaspire_helpers_measure_length_of_last_line, amalgamated.c:2434-2450, on the reversed string: the newline is counted -/
def lastLine : List Nat → Nat
  | [] => 0
  | c :: cs => if c = 10 then 1 else 1 + lastLine cs

/-- the loop that removes the characters to be replaced by paddings, amalgamated.c:2670-2700, on the reversed string; `i` is the loop variable, which is
compared with the length of the shrinking string.  The length of the line is a `size_t`. -/
def removeLoop (padding : Nat) : List Nat → Nat → Nat → Nat → List Nat × Nat
  | [], _, _, cur => ([], cur)
  | c :: cs, i, removed, cur =>
    if i < (c :: cs).length then
      let removed' := if c ≠ 10 then removed + 1 else removed
      let cur' := if c ≠ 10 then (cur + (2 ^ 64 - 1)) % 2 ^ 64 else lastLine (c :: cs)
      if removed' = padding then (cs, cur') else removeLoop padding cs (i + 1) removed' cur'
    else (c :: cs, cur)

/-- the loop that adds the paddings, amalgamated.c:2702-2729 -/
def padLoop (lineLen : Nat) : Nat → List Nat × Nat → List Nat × Nat
  | 0, s => s
  | n + 1, s =>
    let s := if lineLen ≠ 0 ∧ lineLen ≤ s.2 then (s.1 ++ [10], 0) else s
    padLoop lineLen n (s.1 ++ [61], s.2 + 1)

/-- octaspire_helpers_base64_encode, amalgamated.c:2586-2732 -/
def encode (input : List Nat) (lineLen : Nat) : List Nat :=
  let padding := if input.length % 3 ≠ 0 then 3 - input.length % 3 else 0
  let s := encodeLoop lineLen input ([], 0)
  let s := if padding ≠ 0 then
      let (rev, cur) := removeLoop padding s.1.reverse 0 0 s.2
      (rev.reverse, cur)
    else s
  (padLoop lineLen padding s).1

end Dern.Base64
