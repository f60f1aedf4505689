import Mathlib.Data.List.Forall2
import Verif.Spec.Data
import Verif.Spec.Numeral
import Verif.Spec.Utf8
/-
Specification of the printed form of data.  Independent of the model.
-/
namespace Dern.Spec

/-- the code points of a literal -/
def letters (s : String) : List Nat := s.toList.map Char.toNat

/-- text that C strings can hold: Unicode scalar values other than U+0000 -/
def Clean (s : List Nat) : Prop := ∀ c ∈ s, _root_.Spec.Utf8.IsScalar c ∧ c ≠ 0

/-- `s` is the decimal numeral of `n` without superfluous zeros -/
structure Decimal (n : Nat) (s : List Nat) : Prop where
  digits : ∀ c ∈ s, '0'.toNat ≤ c ∧ c ≤ '9'.toNat
  value : Numeral.value 10 s = n
  nonempty : s ≠ []
  first : s.head? = some '0'.toNat → s.length = 1

/-- `s` is the decimal numeral of an integer, with a minus sign for negative ones -/
inductive Signed : Int → List Nat → Prop
  | pos {n : Nat} {s} : Decimal n s → Signed n s
  | neg {n : Nat} {s} : n ≠ 0 → Decimal n s → Signed (-n) ('-'.toNat :: s)

/-- texts with one space between them -/
def spaced : List (List Nat) → List Nat
  | [] => []
  | [s] => s
  | s :: t :: l => s ++ ' '.toNat :: spaced (t :: l)

/-- texts with one point between them -/
def dotted : List (List Nat) → List Nat
  | [] => []
  | [s] => s
  | s :: t :: l => s ++ '.'.toNat :: dotted (t :: l)

/-- the pairs of a hash map: key and value with one space between them, every pair but the first on a new line, below the first -/
def paired : List (List Nat × List Nat) → List Nat
  | [] => []
  | [e] => e.1 ++ ' '.toNat :: e.2
  | e :: f :: l => e.1 ++ ' '.toNat :: e.2 ++ letters "\n          " ++ paired (f :: l)

/-- the text of a pre-release identifier -/
inductive IdentText : Ident → List Nat → Prop
  | num {n s} : Decimal n s → IdentText (.num n) s
  | lex {s} : Clean s → IdentText (.lex s) s

/-- the text of a version: three numbers, a minus sign before the pre-release identifiers, a plus sign before the build
metadata -/
inductive VersionText (v : Version) : List Nat → Prop
  | text {a b c ps} : Decimal v.major a → Decimal v.minor b → Decimal v.patch c → List.Forall₂ IdentText v.pre ps → (∀ s ∈ v.build, Clean s) →
      VersionText v (dotted [a, b, c] ++ (if ps = [] then [] else '-'.toNat :: dotted ps) ++
        (if v.build = [] then [] else '+'.toNat :: dotted v.build))

/-- The printed form of data.  In the mode `rd`, numbers are printed in braces, strings in brackets and characters between
bars, so that they can be read back; if `plain`, not at the top.  `real` is the numeral of a real. -/
inductive Shows (real : Dbl → List Nat) (rd : Bool) : Bool → Data → List Nat → Prop
  | nil {p} : Shows real rd p .nil (letters "nil")
  | yes {p} : Shows real rd p (.bool true) (letters "true")
  | no {p} : Shows real rd p (.bool false) (letters "false")
  | int {p n s} : rd = false → Signed n s → Shows real rd p (.int n) s
  | intPos {p n s} : rd = true → 0 ≤ n → Signed n s → Shows real rd p (.int n) (letters "{D+" ++ s ++ letters "}")
  | intNeg {p n s} : rd = true → n < 0 → Signed n s → Shows real rd p (.int n) (letters "{D" ++ s ++ letters "}")
  | real {p d} : rd = false → Clean (real d) → Shows real rd p (.real d) (real d)
  | realPos {p d x} : rd = true → d.value = some x → 0 ≤ x → Clean (real d) → Shows real rd p (.real d) (letters "{D+" ++ real d ++ letters "}")
  | realNeg {p d x} : rd = true → d.value = some x → x < 0 → Clean (real d) → Shows real rd p (.real d) (letters "{D" ++ real d ++ letters "}")
  | str {p s} : rd = false ∨ p = true → Clean s → Shows real rd p (.str s) s
  | strLit {s} : rd = true → Clean s → Shows real rd false (.str s) (letters "[" ++ s ++ letters "]")
  | chr {p s} : rd = false ∨ p = true → Clean s → Shows real rd p (.chr s) s
  | chrBar : rd = true → Shows real rd false (.chr (letters "|")) (letters "|bar|")
  | chrNewline : rd = true → Shows real rd false (.chr (letters "\n")) (letters "|newline|")
  | chrTab : rd = true → Shows real rd false (.chr (letters "\t")) (letters "|tab|")
  | chrLit {s} : rd = true → Clean s → s ≠ letters "|" → s ≠ letters "\n" → s ≠ letters "\t" →
      Shows real rd false (.chr s) (letters "|" ++ s ++ letters "|")
  | sym {p s} : Clean s → Shows real rd p (.sym s) s
  | err {p s k} : Clean s → Shows real rd p (.err s k) (letters "<error>: " ++ s)
  | semver {p v s} : VersionText v s → Shows real rd p (.semver v) s
  | vec {p ds ss} : ds.length = ss.length →
      (∀ (i : Nat) (d : Data) (s : List Nat), ds[i]? = some d → ss[i]? = some s → Shows real rd false d s) →
      Shows real rd p (.vec ds) (letters "(" ++ spaced ss ++ letters ")")
  | list {p ds ss} : ds.length = ss.length →
      (∀ (i : Nat) (d : Data) (s : List Nat), ds[i]? = some d → ss[i]? = some s → Shows real rd false d s) →
      Shows real rd p (.list ds) (letters "(list " ++ spaced ss ++ letters ")")
  | queue {p ds ss} : ds.length = ss.length →
      (∀ (i : Nat) (d : Data) (s : List Nat), ds[i]? = some d → ss[i]? = some s → Shows real rd false d s) →
      Shows real rd p (.queue ds) (letters "(queue " ++ spaced ss ++ letters ")")
  | hmap {p ds ss} : ds.length = ss.length →
      (∀ (i : Nat) (d : Data × Data) (s : List Nat × List Nat), ds[i]? = some d → ss[i]? = some s → Shows real rd false d.1 s.1) →
      (∀ (i : Nat) (d : Data × Data) (s : List Nat × List Nat), ds[i]? = some d → ss[i]? = some s → Shows real rd false d.2 s.2) →
      Shows real rd p (.hmap ds) (letters "(hash-map " ++ paired ss ++ letters ")")

/-- the number of characters `'` at the end of a text -/
def quotesAtEnd (a : List Nat) : Nat := (a.reverse.takeWhile (· = '\''.toNat)).length

/-- The format string `s` is `a`, `{}` and `b`, and an argument is to be filled in there: the number of `'` directly before is even. -/
def PlaceAt (s a b : List Nat) : Prop := s = a ++ letters "{}" ++ b ∧ quotesAtEnd a % 2 = 0

/-- the pieces of a format string between the places for arguments, taken from the left -/
inductive Places : List Nat → List (List Nat) → Prop
  | last {s} : (∀ a b, ¬ PlaceAt s a b) → Places s [s]
  | cut {s a b ps} : PlaceAt s a b → (∀ a' b', PlaceAt s a' b' → a.length ≤ a'.length) → Places b ps → Places s (a :: ps)

end Dern.Spec
