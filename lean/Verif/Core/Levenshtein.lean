import Verif.Core.Text
/-
octaspire_string_levenshtein_distance (amalgamated.c:6071-6190): a table of (n+1) rows of (m+1)
numbers.  The table is a list of lists (vectors behave like sequences, C18); reading outside of it
is `none` (a null pointer that is dereferenced or caught by a verification, `abort()`).  Slots are
`int` in the C code and natural numbers here, so texts are assumed shorter than 2^31.
-/
namespace Dern

abbrev Table := List (List Nat)

/-- octaspire_string_levenshtein_distance_helper_get_slot, amalgamated.c:6071-6086. -/
def getSlot (t : Table) (i j : Nat) : Option Nat :=
  match t[i]? with
  | none => none
  | some row => row[j]?

/-- octaspire_string_levenshtein_distance_helper_set_slot, amalgamated.c:6088-6099.  (An index
outside of the row is refused; the answer is not looked at.) -/
def setSlot (t : Table) (i j x : Nat) : Option Table :=
  match t[i]? with
  | none => none
  | some row => some (t.set i (row.set j x))

/-- octaspire_helpers_min_int and _min3_int, amalgamated.c:2283-2319. -/
def minInt (a b : Nat) : Nat := if a < b then a else b
def min3Int (a b c : Nat) : Nat := if a < b then minInt a c else minInt b c

/-- the table at the start, amalgamated.c:6117-6143; `n` rows below the first one. -/
def firstTable (n m : Nat) : Table :=
  (List.range (n + 1)).map fun i =>
    if i = 0 then (List.range (m + 1)).map id else i :: List.replicate m 0

/-- one slot, amalgamated.c:6151-6183 -/
def fillSlot (s o : Text) (i j : Nat) (t : Table) : Option Table :=
  match s[i - 1]?, o[j - 1]? with
  | some a, some b =>
    if a = b then
      match getSlot t (i - 1) (j - 1) with
      | none => none
      | some x => setSlot t i j x
    else
      match getSlot t (i - 1) j, getSlot t i (j - 1), getSlot t (i - 1) (j - 1) with
      | some x, some y, some z => setSlot t i j (min3Int (x + 1) (y + 1) (z + 1))
      | _, _, _ => none
  | _, _ => none

/-- the inner loop, amalgamated.c:6149: slots 1 to `n` of column `j` -/
def fillColumn (s o : Text) (j : Nat) : Nat → Table → Option Table
  | 0, t => some t
  | n + 1, t =>
    match fillColumn s o j n t with
    | none => none
    | some t => fillSlot s o (n + 1) j t

/-- the outer loop, amalgamated.c:6147: columns 1 to `m` -/
def fillColumns (s o : Text) : Nat → Table → Option Table
  | 0, t => some t
  | m + 1, t =>
    match fillColumns s o m t with
    | none => none
    | some t => fillColumn s o (m + 1) s.length t

/-- octaspire_string_levenshtein_distance, amalgamated.c:6101-6198. -/
def levenshtein (s o : Text) : Option Nat :=
  match fillColumns s o o.length (firstTable s.length o.length) with
  | none => none
  | some t => getSlot t s.length o.length

end Dern
