import Verif.Core.Text
import Verif.Spec.Seq
/-
octaspire_string: searching, comparing ends, removing substrings, splitting (amalgamated.c:5501-5560,
5828-5993, 6230-6310, 6489-6860).  A string is its list of characters here (`Core/Strings.lean`,
C41); loops over indices are recursions over the rest of the list.  Lengths stay below 2^63.
-/
namespace Dern

/-- octaspire_string_private_check_substring_match_at, amalgamated.c:5828-5857; the rest of the
substring is compared with the text from index `k`. -/
def matchFrom (self : Text) : Nat → Text → Bool
  | _, [] => true
  | k, c :: cs =>
    match self[k]? with
    | none => false
    | some d => if d ≠ c then false else matchFrom self (k + 1) cs

/-- the loop of octaspire_string_find_first_substring, amalgamated.c:5873-5883; `n` rounds are
left. -/
def findLoop (self sub : Text) : Nat → Nat → Int
  | 0, _ => -1
  | n + 1, i => if matchFrom self i sub then i else findLoop self sub n (i + 1)

/-- octaspire_string_private_is_index_valid, amalgamated.c:5631-5664. -/
def textIndex (self : Text) (i : Int) : Option Nat :=
  if i < 0 then
    if (self.length : Int) + i ≥ 0 ∧ (self.length : Int) + i < self.length then
      some ((self.length : Int) + i).toNat
    else none
  else if i.toNat < self.length then some i.toNat else none

/-- octaspire_string_find_first_substring, amalgamated.c:5859-5886. -/
def findFirst (self : Text) (start : Int) (sub : Text) : Int :=
  match textIndex self start with
  | none => -1
  | some k => findLoop self sub self.length k

/-- octaspire_string_remove_characters_at, amalgamated.c:5916-5954, on the characters: the run from
a valid index on (`Str.removeRun` is the function on the object, C41). -/
def removeRun (self : Text) (i : Int) (n : Nat) : Text × Nat :=
  if n = 0 then (self, 0)
  else
    match textIndex self i with
    | none => (self, 0)
    | some k => (self.take k ++ self.drop (k + n), min n (self.length - k))

/-- octaspire_string_remove_all_substrings, amalgamated.c:5956-5993; `none` when the loop is not
over after `fuel` rounds. -/
def removeAll : Nat → Text → Text → Nat → Option (Text × Nat)
  | 0, _, _, _ => none
  | fuel + 1, self, sub, count =>
    if self = [] then some (self, count)
    else
      let k := findFirst self 0 sub
      if k < 0 then some (self, count)
      else
        let r := removeRun self k sub.length
        removeAll fuel r.1 sub (if r.2 ≠ 0 then count + 1 else count)

/-- the loop of octaspire_string_starts_with, amalgamated.c:6245-6257 and of
octaspire_string_ends_with, 6294-6306: the text from index `k` against the rest of the other. -/
def sameFrom (self : Text) : Nat → Text → Option Bool
  | _, [] => some true
  | k, c :: cs =>
    match self[k]? with
    | none => none
    | some d => if d ≠ c then some false else sameFrom self (k + 1) cs

/-- octaspire_string_starts_with, amalgamated.c:6230-6260.  `none` is `abort()` (an index that is
not valid). -/
def startsWith (self other : Text) : Option Bool :=
  if self.length < other.length then some false else sameFrom self 0 other

/-- octaspire_string_ends_with, amalgamated.c:6277-6309. -/
def endsWith (self other : Text) : Option Bool :=
  if self.length < other.length then some false
  else sameFrom self (self.length - other.length) other

/-- octaspire_string_contains_char, amalgamated.c:6615-6632. -/
def containsChar : Text → Ch → Bool
  | [], _ => false
  | d :: ds, c => if d = c then true else containsChar ds c

/-- octaspire_string_contains_only_these_chars, amalgamated.c:6634-6673. -/
def containsOnly : Text → Text → Bool
  | [], _ => true
  | d :: ds, chars => if containsChar chars d then containsOnly ds chars else false

/-- the loop of octaspire_string_find_char, amalgamated.c:6716-6733 -/
def findCharLoop (c : Ch) : Nat → Text → List Nat
  | _, [] => []
  | i, d :: ds => if d = c then i :: findCharLoop c (i + 1) ds else findCharLoop c (i + 1) ds

/-- octaspire_string_find_char, amalgamated.c:6695-6736: `none` is the null pointer. -/
def findChar (self character : Text) (i : Int) : Option (List Nat) :=
  match textIndex character i with
  | none => none
  | some k =>
    match character[k]? with
    | none => none
    | some c => some (findCharLoop c 0 self)

/-- octaspire_string_private_is_string_at_index, amalgamated.c:6780-6809, on the part of `str` that
is looked for -/
def isStringAt (self : Text) : Nat → Text → Bool
  | _, [] => true
  | k, c :: cs =>
    if k ≥ self.length then false
    else if self[k]? ≠ some c then false else isStringAt self (k + 1) cs

/-- octaspire_string_find_string, amalgamated.c:6811-6855: `none` is the null pointer. -/
def findString (self str : Text) (start : Int) (n : Nat) : Option (List Nat) :=
  if n = 0 then none
  else
    match textIndex str start with
    | none => none
    | some k =>
      if k + (n - 1) ≥ str.length then none
      else some ((List.range self.length).filter fun i => isStringAt self i ((str.drop k).take n))

/-- octaspire_string_new_substring_from_given_index_and_length, amalgamated.c:5501-5560: `none` is
the null pointer.  (Also for a substring that reaches the end.) -/
def newSubstring (other : Text) (start n : Nat) : Option Text :=
  if start + n ≥ other.length then none else some ((other.drop start).take n)

/-- the body of the loop of octaspire_string_split, amalgamated.c:6532-6559, after the character has
been added to the collector; `none` is the failed `assert(token)` -/
def splitTurn (delim collector : Text) (result : List Text) : Option (Text × List Text) :=
  if collector = delim then some ([], result)
  else
    match endsWith collector delim with
    | none => none
    | some false => some (collector, result)
    | some true =>
      match newSubstring collector 0 (collector.length - delim.length) with
      | none => none
      | some token => some ([], result ++ [token])

/-- the loop of octaspire_string_split, amalgamated.c:6521-6560 -/
def splitLoop (delim : Text) : Text → Text → List Text → Option (Text × List Text)
  | [], collector, result => some (collector, result)
  | c :: cs, collector, result =>
    match splitTurn delim (collector ++ [c]) result with
    | none => none
    | some (collector, result) => splitLoop delim cs collector result

/-- octaspire_string_split, amalgamated.c:6489-6613. -/
def split (self delim : Text) : Option (List Text) :=
  match splitLoop delim self [] [] with
  | none => none
  | some (collector, result) =>
    if collector = [] then some result
    else
      match splitTurn delim collector result with
      | none => none
      | some ([], result) => some result
      | some (collector, result) => some (result ++ [collector])

end Dern
