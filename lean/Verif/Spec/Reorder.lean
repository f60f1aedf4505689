import Verif.Spec.Data
/-
The same data, up to the order in which the entries of hash maps are kept.
-/
namespace Dern.Spec.Data

inductive Reordered : Data → Data → Prop
  | refl {d} : Reordered d d
  | vec {as bs} : as.length = bs.length →
      (∀ (i : Nat) (a b : Data), as[i]? = some a → bs[i]? = some b → Reordered a b) → Reordered (vec as) (vec bs)
  | queue {as bs} : as.length = bs.length →
      (∀ (i : Nat) (a b : Data), as[i]? = some a → bs[i]? = some b → Reordered a b) → Reordered (queue as) (queue bs)
  | list {as bs} : as.length = bs.length →
      (∀ (i : Nat) (a b : Data), as[i]? = some a → bs[i]? = some b → Reordered a b) → Reordered (list as) (list bs)
  | hmap {as bs cs : List (Data × Data)} : as.length = bs.length →
      (∀ (i : Nat) (a b : Data × Data), as[i]? = some a → bs[i]? = some b → Reordered a.1 b.1) →
      (∀ (i : Nat) (a b : Data × Data), as[i]? = some a → bs[i]? = some b → Reordered a.2 b.2) →
      bs.Perm cs → Reordered (hmap as) (hmap cs)

/-- data without parts that are only equal to themselves (special forms, builtin functions, ports) -/
inductive Plainly : Data → Prop
  | nil : Plainly nil
  | bool {b} : Plainly (bool b)
  | int {n} : Plainly (int n)
  | real {d} : Plainly (real d)
  | str {s} : Plainly (str s)
  | chr {s} : Plainly (chr s)
  | sym {s} : Plainly (sym s)
  | err {s k} : Plainly (err s k)
  | semver {v} : Plainly (semver v)
  | vec {es} : (∀ d ∈ es, Plainly d) → Plainly (vec es)
  | queue {es} : (∀ d ∈ es, Plainly d) → Plainly (queue es)
  | list {es} : (∀ d ∈ es, Plainly d) → Plainly (list es)
  | hmap {es} : (∀ e ∈ es, Plainly e.1) → (∀ e ∈ es, Plainly e.2) → Plainly (hmap es)

end Dern.Spec.Data
