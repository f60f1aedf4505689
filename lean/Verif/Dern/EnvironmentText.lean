import Verif.Dern.SymbolValue
/-
The text that shows an environment.

As in `SymbolValue.lean`, an environment is the hash map of its bindings, a chain of environments is the list of their maps, innermost first, and `none` stands for
`abort()` (or, where it says so, for what is not modelled).  `shows` is octaspire_dern_value_to_string on the values; the text of a symbol is the symbol up to its
first NUL (value.c:1405-1409).  `sort` is qsort of the C library.  Formatting with `%s` gives the text up to its first NUL (see C72 for the function that formats);
`%-*s` counts octets, because it is vsnprintf that does it.
-/
namespace Dern.EnvironmentText
open Dern Dern.SymbolValue
open Dern.Spec (beforeNul)
variable {V : Type}

/-- the element at an index, as the loop asks for it, environment.c:452-471; it may be absent only if the map is broken (`assert`) -/
def elements (m : HMap Text V) : Option (List (MapElem Text V)) :=
  (List.range m.num).mapM fun (i : Nat) => m.atIndex i

/-- numCharsInLongestKey, environment.c:451-464; the length of a symbol is that of its text in characters, value.c:4643-4730 -/
def longest : List (MapElem Text V) → Nat → Nat
  | [], w => w
  | e :: es, w => longest es (if e.key.length > w then e.key.length else w)

/-- octaspire_dern_environment_helper_compare_function, environment.c:394-411, on symbols (octaspire_string_compare); where that would abort, 0 -/
def compareKeys (a b : MapElem Text V) : Int := (stringCompare a.key b.key).getD 0

/-- one line of the loop, environment.c:476-508 -/
def line (indent : Text) (width : Nat) (shows : V → Text) (e : MapElem Text V) : Option Text :=
  match HMap.elemValue e, getCString e.key with
  | some (some v), some octets =>
    some (indent ++ (beforeNul e.key ++ List.replicate (width - octets.length) 0x20) ++ txt " -> " ++ beforeNul (shows v) ++ txt "\n")
  | _, _ => none

/-- octaspire_dern_environment_private_to_string, environment.c:413-522; the width is cast to `int`: what happens if it is too large is not modelled -/
def toText (sort : (MapElem Text V → MapElem Text V → Int) → List (MapElem Text V) → List (MapElem Text V)) (shows : V → Text) :
    Nat → List (HMap Text V) → Option Text
  | _, [] => some []
  | depth, m :: ms => do
    let indent := List.replicate depth 0x9
    let enclosing ← toText sort shows (depth + 1) ms
    let es ← elements m
    let width := longest es 0
    if width > 2147483647 then none else do
      let lines ← (sort compareKeys es).mapM (line indent width shows)
      some (indent ++ txt "---------- environment ----------\n" ++ beforeNul enclosing ++ lines.flatten ++ indent ++ txt "---------------------------------\n")

end Dern.EnvironmentText
