/-
Reachability in a graph, independent of the model.
-/
namespace Dern.Spec

/-- `x` can be reached from one of the roots by following edges -/
inductive Reach {α : Type} (edge : α → α → Prop) (root : α → Prop) : α → Prop
  | root {x} : root x → Reach edge root x
  | step {x y} : Reach edge root x → edge x y → Reach edge root y

namespace Reach
variable {α : Type} {edge : α → α → Prop} {root root' : α → Prop}

theorem mono (h : ∀ x, root x → Reach edge root' x) {x : α} (hx : Reach edge root x) :
    Reach edge root' x := by
  induction hx with
  | root h' => exact h _ h'
  | step _ e ih => exact ih.step e

/-- a set that contains the roots and is closed under edges contains everything reachable -/
theorem closed {P : α → Prop} (h0 : ∀ x, root x → P x) (h1 : ∀ x y, P x → edge x y → P y) {x : α}
    (hx : Reach edge root x) : P x := by
  induction hx with
  | root h => exact h0 _ h
  | step _ e ih => exact h1 _ _ ih e

theorem congr {edge' : α → α → Prop} (h : ∀ x y, edge x y → edge' x y) {x : α}
    (hx : Reach edge root x) : Reach edge' root x := by
  induction hx with
  | root h' => exact .root h'
  | step _ e ih => exact ih.step (h _ _ e)

end Reach
end Dern.Spec
