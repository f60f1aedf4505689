import Verif.Spec.SemVer
import Verif.Spec.Double
/-
Data as a user sees it: what a value denotes when all references are followed.  Functions, macros,
environments and C data are not data in this sense.
-/
namespace Dern.Spec

inductive Data
  | nil
  | bool (b : Bool)
  | int (n : Int)
  | real (d : Dbl)
  | str (s : List Nat)
  | chr (s : List Nat)
  | sym (s : List Nat)
  | err (msg : List Nat) (line : Nat)
  | vec (es : List Data)
  | hmap (es : List (Data × Data))
  | queue (es : List Data)
  | list (es : List Data)
  | special (address : Nat)
  | builtin (address : Nat)
  | port (address : Nat)
  | semver (v : Version)

namespace Data

/-- the value of a number in units of 2^-1074 -/
def number : Data → Option Int
  | int n => some (Dbl.ofInt n)
  | real d => d.value
  | _ => none

/-- What it should mean that two data are equal: numbers by value, texts by their characters,
errors by message and line, versions up to build metadata, sequences element by element, hash maps
key by key. -/
inductive Same : Data → Data → Prop
  | nil : Same nil nil
  | bool {b} : Same (bool b) (bool b)
  | number {a b x} : a.number = some x → b.number = some x → Same a b
  | str {s} : Same (str s) (str s)
  | chr {s} : Same (chr s) (chr s)
  | sym {s} : Same (sym s) (sym s)
  | err {s k} : Same (err s k) (err s k)
  | vec {as bs} : as.length = bs.length →
      (∀ (i : Nat) (a b : Data), as[i]? = some a → bs[i]? = some b → Same a b) →
      Same (vec as) (vec bs)
  | queue {as bs} : as.length = bs.length →
      (∀ (i : Nat) (a b : Data), as[i]? = some a → bs[i]? = some b → Same a b) →
      Same (queue as) (queue bs)
  | list {as bs} : as.length = bs.length →
      (∀ (i : Nat) (a b : Data), as[i]? = some a → bs[i]? = some b → Same a b) →
      Same (list as) (list bs)
  | hmap {as bs} : as.length = bs.length →
      (∀ (k v : Data), (k, v) ∈ as → ∃ w, (k, w) ∈ bs) →
      (∀ (k v w : Data), (k, v) ∈ as → (k, w) ∈ bs → Same v w) →
      Same (hmap as) (hmap bs)
  | special {p} : Same (special p) (special p)
  | builtin {p} : Same (builtin p) (builtin p)
  | port {p} : Same (port p) (port p)
  | semver {v w : Version} : v.Same w → Same (semver v) (semver w)

end Data
end Dern.Spec
