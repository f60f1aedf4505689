import Verif.Core.Strings
import Verif.Spec.Snprintf
/-
octaspire_string_new_format, octaspire_string_new_vformat and octaspire_string_concatenate_format (amalgamated.c:5259-5474, 5795-5826).

`vsnprintf` is a parameter (`Printer`), and so is the allocator's answer to `realloc` (`grant`, by size).  The first block of 8 octets and the vectors are always
allocated.  The octets collected in `vec2` are a list here (C18 is about the vector).  `size_t` has 64 bits.
-/
namespace Dern
open Utf8 Spec

/-- how the loop ends: with octets in `vec2` (and the status ENCODING_ERROR or not), with the null pointer because the allocator refused, or with a read
outside of the buffer -/
inductive FormatEnd where
  | made (os : List Octet) (encoding : Bool)
  | null
  | outside
  deriving DecidableEq

/-- `buffer[i]` for `i` from 0 to `n - 1`, amalgamated.c:5421-5425 -/
def readOctets (buf : List Octet) (n : Nat) : Option (List Octet) :=
  if n ≤ buf.length then some (buf.take n) else none

/-- The loop of octaspire_string_new_vformat, amalgamated.c:5326-5443, and the sizes asked from `realloc`, in order.  `neg` is `negativeResultCounter`; `fuel` bounds
the number of turns.  A grown buffer is cleared by `memset` (5388, 5408). -/
def formatLoop (print : Printer) (grant : Nat → Bool) : Nat → Int → List Octet → Option (FormatEnd × List Nat)
  | 0, _, _ => none
  | fuel + 1, neg, buf =>
    if neg > 1000 then some (.made [] true, [])
    else
      let out := print buf
      if out.2 < 0 then
        let size := buf.length * 2 % 2 ^ 64
        if grant size then
          (formatLoop print grant fuel (neg + 1) (List.replicate size 0)).map fun r => (r.1, size :: r.2)
        else some (.null, [size])
      else if out.2.toNat ≥ buf.length then
        let size := buf.length * 2 % 2 ^ 64
        if grant size then
          (formatLoop print grant fuel neg (List.replicate size 0)).map fun r => (r.1, size :: r.2)
        else some (.null, [size])
      else if out.2 > 0 then
        match readOctets out.1 out.2.toNat with
        | none => some (.outside, [])
        | some os => some (.made (os ++ [0]) false, [])
      else some (.made [] false, [])

/-- a new string, or the null pointer, amalgamated.c:5275-5474 -/
inductive NewFormat where
  | str (s : Str) (encoding : Bool)
  | null
  | broken

/-- octaspire_string_new_vformat, amalgamated.c:5275-5474, and the sizes asked from `realloc`.  The string is made from the C string at the beginning of `vec2`
(5452); the status ENCODING_ERROR is only set if decoding went well (5461). -/
def newFormat (g : Growth) (print : Printer) (grant : Nat → Bool) (fuel : Nat) : Option (NewFormat × List Nat) :=
  match formatLoop print grant fuel (-1) (List.replicate 8 0) with
  | none => none
  | some (.outside, rs) => some (.broken, rs)
  | some (.null, rs) => some (.null, rs)
  | some (.made os e, rs) =>
    match Str.new g (cStringOf (os ++ [0])) with
    | none => some (.broken, rs)
    | some s => some (.str s (e && s.error.isNone), rs)

/-- octaspire_string_concatenate_format, amalgamated.c:5795-5826: the string and the answer -/
def concatenateFormat (g : Growth) (print : Printer) (grant : Nat → Bool) (fuel : Nat) (self : Str) : Option (Str × Bool) :=
  match newFormat g print grant fuel with
  | none => none
  | some (.broken, _) => none
  | some (.null, _) => some (self, false)
  | some (.str s _, _) =>
    match self.clearOctets with
    | none => none
    | some (self, false) => some (self, false)
    | some (self, true) =>
      match s.cString g with
      | none => none
      | some (_, os) => self.concatenateC g os

end Dern
