import Verif.Core.StringCompare
import Verif.Spec.SemVer
/-
octaspire_semver (amalgamated.c:8624-9900).

A version is the plain record of `Spec.Version`: three numbers (`size_t`), the pre-release
identifiers and the build metadata.  The C vectors are plain lists (modelled in
`Verif/Core/Vector.lean`); allocation never fails; the type tag UNKNOWN, which no constructor
produces, has no counterpart.
-/
namespace Dern
open Spec (Version Ident)

namespace Semver

/-- `int diff = a - b` for two `size_t`: the subtraction wraps and the conversion keeps the low 32
bits (implementation-defined before C23, and what every supported compiler does).
amalgamated.c:9531, 9538, 9545, 9604, 9628. -/
def intDiff (a b : Nat) : Int := ((a : Int) - (b : Int)).bmod (2 ^ 32)

/-- atoi on a string of digits, used by octaspire_semver_pre_release_elem_new,
amalgamated.c:8686-8725; `none` is undefined behaviour (the value does not fit an int). -/
def atoi (s : Text) : Option Nat :=
  let n := s.foldl (fun n c => 10 * n + (c - 48)) 0
  if n < 2 ^ 31 then some n else none

/-- octaspire_semver_pre_release_elem_new, amalgamated.c:8686-8725: a text of digits only (also the
empty one) is a number. -/
def elemNew (s : Text) : Option Ident :=
  if s.all (fun c => 48 ≤ c ∧ c ≤ 57) then (atoi s).map .num else some (.lex s)

/-- the loop of octaspire_semver_compare over the pre-release identifiers, amalgamated.c:9570-9620:
the first difference; `some 0` if there is none up to the shorter length; `none` is `abort()` in
the comparison of strings -/
def compareFields : List Ident → List Ident → Option Int
  | a :: as, b :: bs =>
    match a, b with
    | .num _, .lex _ => some (-1)
    | .lex _, .num _ => some 1
    | .lex s, .lex t =>
      match stringCompare s t with
      | none => none
      | some d => if d ≠ 0 then some (if d < 0 then -1 else 1) else compareFields as bs
    | .num m, .num n =>
      let d := intDiff m n
      if d ≠ 0 then some (if d < 0 then -1 else 1) else compareFields as bs
  | _, _ => some 0

/-- octaspire_semver_compare, amalgamated.c:9524-9630. -/
def compare (v w : Version) : Option Int :=
  let d := intDiff v.major w.major
  if d ≠ 0 then some (if d < 0 then -1 else 1) else
  let d := intDiff v.minor w.minor
  if d ≠ 0 then some (if d < 0 then -1 else 1) else
  let d := intDiff v.patch w.patch
  if d ≠ 0 then some (if d < 0 then -1 else 1) else
  if v.pre.length = 0 then
    (if w.pre.length = 0 then some 0 else some 1)
  else if w.pre.length = 0 then some (-1)
  else match compareFields v.pre w.pre with
    | none => none
    | some d =>
      if d ≠ 0 then some d
      else if v.pre.length = w.pre.length then some 0
      else some (if intDiff v.pre.length w.pre.length < 0 then -1 else 1)

/-- octaspire_semver_is_smaller_than … is_unequal_to, amalgamated.c:9632-9684. -/
def isSmallerThan (v w : Version) : Option Bool := (compare v w).map (· == -1)
def isSmallerOrEqual (v w : Version) : Option Bool := (compare v w).map (· ≤ 0)
def isGreaterThan (v w : Version) : Option Bool := (compare v w).map (· == 1)
def isGreaterOrEqual (v w : Version) : Option Bool := (compare v w).map (· ≥ 0)
def isEqual (v w : Version) : Option Bool := (compare v w).map (· == 0)
def isUnequal (v w : Version) : Option Bool := (isEqual v w).map (!·)

/-- octaspire_semver_remove_prerelease and _numerical, amalgamated.c:9299-9357: the first equal
identifier; `none` is the result `false`.  (`is_equal_to_c_string` compares with the other string
passed through UTF-8; for the texts that survive this it is equality.) -/
def removePre (pre : List Ident) (i : Ident) : Option (List Ident) :=
  if i ∈ pre then some (pre.erase i) else none

/-- the pre-release loop of octaspire_semver_add_or_subtract, amalgamated.c:9796-9858: the result
and the possibly half-way changed list.  Adding a lexical identifier goes through elem_new. -/
def addPre : List Ident → List Ident → Bool × List Ident
  | pre, [] => (true, pre)
  | pre, i :: is => addPre (pre ++ [i]) is

def subPre : List Ident → List Ident → Bool × List Ident
  | pre, [] => (true, pre)
  | pre, i :: is => match removePre pre i with
    | none => (false, pre)
    | some pre' => subPre pre' is

/-- octaspire_semver_add_or_subtract, amalgamated.c:9723-9860: the boolean result and the changed
version.  `size_t` addition wraps. -/
def addOrSubtract (v w : Version) (add : Bool) : Bool × Version :=
  if w.major ≠ 0 ∧ (w.minor ≠ 0 ∨ w.patch ≠ 0) then (false, v)
  else if w.major ≠ 0 ∧ add = false ∧ v.major < w.major then (false, v)
  else
    let v := if w.major = 0 then v
      else if add then { v with major := (v.major + w.major) % 2 ^ 64, minor := 0, patch := 0 }
      else { v with major := v.major - w.major }
    if w.minor ≠ 0 ∧ (w.major ≠ 0 ∨ w.patch ≠ 0) then (false, v)
    else if w.minor ≠ 0 ∧ add = false ∧ v.minor < w.minor then (false, v)
    else
      let v := if w.minor = 0 then v
        else if add then { v with minor := (v.minor + w.minor) % 2 ^ 64, patch := 0 }
        else { v with minor := v.minor - w.minor }
      if w.patch ≠ 0 ∧ (w.major ≠ 0 ∨ w.minor ≠ 0) then (false, v)
      else if w.patch ≠ 0 ∧ add = false ∧ v.patch < w.patch then (false, v)
      else
        let v := if w.patch = 0 then v
          else if add then { v with patch := (v.patch + w.patch) % 2 ^ 64 }
          else { v with patch := v.patch - w.patch }
        let (ok, pre) := if add then addPre v.pre w.pre else subPre v.pre w.pre
        (ok, { v with pre := pre })

end Semver
end Dern
