import Verif.Core.Vector
import Verif.Core.Text
import Verif.Spec.Texts
/-
octaspire_string (amalgamated.c:5119-6860), the object itself: a vector of characters, a vector
holding the UTF-8 octets (a cache, filled on demand), and the decoding error.  Both vectors are
the blocks of `Core/Vector.lean`.

`none` stands for `abort()`, a failed `assert` or an access outside of a block.  Characters are
`uint32_t` in the C code and natural numbers here.  Allocation failure is not modelled; lengths
stay below 2^63.  Formatting is in `Core/Format.lean`.
-/
namespace Dern
open Utf8

/-- octaspire_string_t, amalgamated.c:5138-5145 (allocator left out). -/
structure Str where
  chars : Vec Ch
  octets : Vec Octet
  error : Option Nat

namespace Str

/-- the characters of the string; a cell of all zero octets is the character 0 -/
def text (s : Str) : Text := s.chars.elems.map (·.getD 0)

/-- push the elements of a list one after the other, stopping at the first refusal -/
def pushAll {α : Type} (g : Growth) (v : Vec α) : List α → Option (Vec α × Bool)
  | [] => some (v, true)
  | x :: xs =>
    match v.pushBack g x with
    | none => none
    | some (v, false) => some (v, false)
    | some (v, true) => pushAll g v xs

/-- octaspire_string_new_from_buffer, amalgamated.c:5179-5257. -/
def new (g : Growth) (buf : List Octet) : Option Str :=
  match fromBuffer buf with
  | none => none
  | some r =>
    match pushAll g (Vec.new (buf.length / 4)) (r.chars.map BitVec.toNat) with
    | none => none
    | some (chars, _) => some { chars := chars, octets := Vec.new 1, error := r.errorAt }

/-- octaspire_string_new_copy, amalgamated.c:5477-5499. -/
def copy (s : Str) : Str :=
  { chars := s.chars.shallowCopy, octets := s.octets.shallowCopy, error := s.error }

/-- octaspire_string_get_length_in_ucs_characters, amalgamated.c:5602-5607. -/
def length (s : Str) : Nat := s.chars.num

/-- octaspire_string_private_is_index_valid, amalgamated.c:5631-5664.  A negative `ptrdiff_t`
converted to `size_t` is at least 2^63 and never below the length. -/
def index (s : Str) (i : Int) : Option Nat :=
  if i < 0 then
    if (s.length : Int) + i ≥ 0 ∧ (s.length : Int) + i < s.length then
      some ((s.length : Int) + i).toNat
    else none
  else if i.toNat < s.length then some i.toNat else none

/-- octaspire_string_get_ucs_character_at_index, amalgamated.c:5678-5693. -/
def charAt (s : Str) (i : Int) : Option Ch :=
  match s.index i with
  | none => none
  | some k =>
    match s.chars.getAt k with
    | none => none
    | some none => none
    | some (some c) => some (c.getD 0)

/-- octaspire_vector_clear of the octets, as every operation that changes the text does. -/
def clearOctets (s : Str) : Option (Str × Bool) :=
  match s.octets.clear with
  | none => none
  | some (v, ok) => some ({ s with octets := v }, ok)

/-- the octets of one character appended one by one, amalgamated.c:6753-6763 -/
def ensureLoop (g : Growth) (v : Vec Octet) : Text → Option (Vec Octet × Bool)
  | [] => v.pushBack g 0
  | c :: cs =>
    match encodeCharacter (BitVec.ofNat 32 c) with
    | none => some (v, false)
    | some e =>
      match pushAll g v e.toList with
      | none => none
      | some (v, false) => some (v, false)
      | some (v, true) => ensureLoop g v cs

/-- octaspire_string_private_ensure_octets_are_up_to_date, amalgamated.c:6728-6778. -/
def ensureOctets (g : Growth) (s : Str) : Option (Str × Bool) :=
  if s.octets.num ≠ 0 then some (s, true)
  else
    match ensureLoop g s.octets s.text with
    | none => none
    | some (v, ok) => some ({ s with octets := v }, ok)

/-- octaspire_string_get_c_string, amalgamated.c:5695-5711: the content of the C string. -/
def cString (g : Growth) (s : Str) : Option (Str × List Octet) :=
  match s.ensureOctets g with
  | none => none
  | some (s, _) =>
    if s.octets.num = 0 then some (s, [])
    else
      match s.octets.getAt (s.octets.num - 1 : Nat) with
      | some (some (some 0)) => some (s, (s.octets.elems.map (·.getD 0)).takeWhile (· ≠ 0))
      | _ => none

/-- octaspire_string_get_length_in_octets, amalgamated.c:5609-5622. -/
def lengthInOctets (g : Growth) (s : Str) : Option (Str × Nat) :=
  match s.ensureOctets g with
  | none => none
  | some (s, _) =>
    if s.octets.num = 0 then some (s, 0)
    else
      match s.octets.getAt (s.octets.num - 1 : Nat) with
      | some (some (some 0)) => some (s, s.octets.num - 1)
      | _ => none

/-- octaspire_string_concatenate_c_string, amalgamated.c:5747-5791.  `str` is the content of the
C string.  The loop decodes exactly as octaspire_string_new_from_buffer does (`fromBuffer`). -/
def concatenateC (g : Growth) (s : Str) (str : List Octet) : Option (Str × Bool) :=
  let s := { s with error := none }
  if str = [] then some (s, true)
  else
    match s.clearOctets with
    | none => none
    | some (s, false) => some (s, false)
    | some (s, true) =>
      match fromBuffer str with
      | none => none
      | some r =>
        match pushAll g s.chars (r.chars.map BitVec.toNat) with
        | none => none
        | some (v, ok) => some ({ s with chars := v, error := r.errorAt }, ok)

/-- octaspire_string_clear, amalgamated.c:5995-6007. -/
def clear (s : Str) : Option (Str × Bool) :=
  let s := { s with error := none }
  match s.clearOctets with
  | none => none
  | some (s, false) => some (s, false)
  | some (s, true) =>
    match s.chars.clear with
    | none => none
    | some (v, ok) => some ({ s with chars := v }, ok)

/-- octaspire_string_set_from_c_string, amalgamated.c:5575-5594. -/
def setC (g : Growth) (s : Str) (str : List Octet) : Option (Str × Bool) :=
  match s.clear with
  | none => none
  | some (s, false) => some (s, false)
  | some (s, true) => s.concatenateC g str

/-- octaspire_string_push_back_ucs_character, amalgamated.c:6351-6363. -/
def pushBack (g : Growth) (s : Str) (c : Ch) : Option (Str × Bool) :=
  match s.chars.pushBack g c with
  | none => none
  | some (v, false) => some ({ s with chars := v }, false)
  | some (v, true) => { s with chars := v }.clearOctets

/-- octaspire_string_remove_character_at, amalgamated.c:5888-5914. -/
def removeAt (s : Str) (i : Int) : Option (Str × Bool) :=
  match s.index i with
  | none => some (s, false)
  | some k =>
    match s.clearOctets with
    | none => none
    | some (s, false) => some (s, false)
    | some (s, true) =>
      match s.chars.removeAt k with
      | none => none
      | some (_, false) => none
      | some (v, true) => some ({ s with chars := v }, true)

/-- the loop of octaspire_string_remove_characters_at, amalgamated.c:5942-5950: from the last
character of the run down to the first. -/
def removeLoop (s : Str) (k : Nat) : Nat → Nat → Option (Str × Nat)
  | 0, count => some (s, count)
  | n + 1, count =>
    match s.removeAt ((k + n : Nat) : Int) with
    | none => none
    | some (s, ok) => removeLoop s k n (if ok then count + 1 else count)

/-- octaspire_string_remove_characters_at, amalgamated.c:5916-5954. -/
def removeRun (s : Str) (i : Int) (n : Nat) : Option (Str × Nat) :=
  if n = 0 then some (s, 0)
  else
    match s.index i with
    | none => some (s, 0)
    | some k =>
      match s.clearOctets with
      | none => none
      | some (s, false) => some (s, 0)
      | some (s, true) => removeLoop s k n 0

/-- octaspire_string_pop_front_ucs_character, amalgamated.c:6365-6381. -/
def popFront (s : Str) : Option (Str × Bool) :=
  if s.length = 0 then some (s, false)
  else
    match s.clearOctets with
    | none => none
    | some (s, false) => some (s, false)
    | some (s, true) => s.removeAt 0

/-- octaspire_string_pop_back_ucs_character, amalgamated.c:6383-6402. -/
def popBack (s : Str) : Option (Str × Bool) :=
  if s.length = 0 then some (s, false)
  else
    match s.clearOctets with
    | none => none
    | some (s, false) => some (s, false)
    | some (s, true) => s.removeAt ((s.length - 1 : Nat) : Int)

/-- the loop of octaspire_string_insert_string_to, amalgamated.c:6424-6438; `cs` are the
characters of the other string still to be inserted, the next one at index `k`. -/
def insertLoop (g : Growth) (v : Vec Ch) (k : Nat) : Text → Option (Vec Ch × Bool)
  | [] => some (v, true)
  | c :: cs =>
    match v.insertBefore g c k with
    | none => none
    | some (v, false) => some (v, false)
    | some (v, true) => insertLoop g v (k + 1) cs

/-- octaspire_string_insert_string_to, amalgamated.c:6404-6441, the other string being a
different object. -/
def insert (g : Growth) (s other : Str) (i : Int) : Option (Str × Bool) :=
  match s.index i with
  | none => some (s, false)
  | some k =>
    match s.clearOctets with
    | none => none
    | some (s, false) => some (s, false)
    | some (s, true) =>
      match insertLoop g s.chars k other.text with
      | none => none
      | some (v, ok) => some ({ s with chars := v }, ok)

/-- the loop of octaspire_string_overwrite_with_string_at, amalgamated.c:6468-6484 -/
def overwriteLoop (g : Growth) (v : Vec Ch) (k : Nat) : Text → Option (Vec Ch × Bool)
  | [] => some (v, true)
  | c :: cs =>
    match v.replaceOrPushBack g c k with
    | none => none
    | some (v, false) => some (v, false)
    | some (v, true) => overwriteLoop g v (k + 1) cs

/-- octaspire_string_overwrite_with_string_at, amalgamated.c:6443-6487; an invalid index that is
not negative is used as it is. -/
def overwrite (g : Growth) (s other : Str) (i : Int) : Option (Str × Bool) :=
  if s.index i = none ∧ i < 0 then some (s, false)
  else
    let k := (s.index i).getD i.toNat
    match s.clearOctets with
    | none => none
    | some (s, false) => some (s, false)
    | some (s, true) =>
      match overwriteLoop g s.chars k other.text with
      | none => none
      | some (v, ok) => some ({ s with chars := v }, ok)

/-- the loop of octaspire_string_is_equal, amalgamated.c:6024-6043 -/
def equalFrom : Text → Text → Bool
  | a :: as, b :: bs => if a ≠ b then false else equalFrom as bs
  | _, _ => true

/-- octaspire_string_is_equal, amalgamated.c:6009-6046. -/
def isEqual (s other : Str) : Bool :=
  if s.length ≠ other.length then false else equalFrom s.text other.text

end Str

/-- replace one string of a family -/
def setStr (S : Nat → Str) (a : Nat) (s : Str) : Nat → Str := fun x => if x = a then s else S x

open Dern.Spec (TextOp TextAnswer)

/-- run an operation that answers true or false on string `a` -/
def onStr (S : Nat → Str) (a : Nat) : Option (Str × Bool) → Option ((Nat → Str) × TextAnswer)
  | none => none
  | some (s, ok) => some (setStr S a s, .bool ok)

/-- run an operation that answers a number on string `a` -/
def onStrNum (S : Nat → Str) (a : Nat) : Option (Str × Nat) → Option ((Nat → Str) × TextAnswer)
  | none => none
  | some (s, n) => some (setStr S a s, .number n)

/-- the operation of the implementation that an operation on texts names.  Appending is
octaspire_string_concatenate, amalgamated.c:5738-5745: it first makes the C string of the other
string. -/
def stringOp (g : Growth) (S : Nat → Str) : TextOp → Option ((Nat → Str) × TextAnswer)
  | .push a c => onStr S a ((S a).pushBack g c)
  | .popFront a => onStr S a (S a).popFront
  | .popBack a => onStr S a (S a).popBack
  | .removeAt a i => onStr S a ((S a).removeAt i)
  | .removeRun a i n => onStrNum S a ((S a).removeRun i n)
  | .insert a b i => onStr S a ((S a).insert g (S b) i)
  | .overwrite a b i => onStr S a ((S a).overwrite g (S b) i)
  | .append a b =>
    match (S b).cString g with
    | none => none
    | some (s, os) => onStr (setStr S b s) a ((setStr S b s a).concatenateC g os)
  | .appendC a t => onStr S a ((S a).concatenateC g ((Spec.encodeText t).map (BitVec.ofNat 8)))
  | .setC a t => onStr S a ((S a).setC g ((Spec.encodeText t).map (BitVec.ofNat 8)))
  | .clear a => onStr S a (S a).clear
  | .copy a b => some (setStr S a (S b).copy, .bool true)
  | .length a => some (S, .number (S a).length)
  | .valid a i => some (S, .bool ((S a).index i).isSome)
  | .get a i => ((S a).charAt i).map fun c => (S, .number c)
  | .equal a b => some (S, .bool ((S a).isEqual (S b)))
  | .octets a =>
    match (S a).cString g with
    | none => none
    | some (s, os) => some (setStr S a s, .octets (os.map BitVec.toNat))
  | .octetCount a =>
    match (S a).lengthInOctets g with
    | none => none
    | some (s, n) => some (setStr S a s, .number n)

/-- a history of operations on a family of strings -/
def runStrings (g : Growth) : (Nat → Str) → List TextOp → Option ((Nat → Str) × List TextAnswer)
  | S, [] => some (S, [])
  | S, op :: ops =>
    match stringOp g S op with
    | none => none
    | some (S', ans) =>
      match runStrings g S' ops with
      | none => none
      | some (S'', outs) => some (S'', ans :: outs)

end Dern
