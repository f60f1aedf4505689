import Verif.Core.Vector
/-
octaspire_vector_permutation_iterator (amalgamated.c:4077-4210): all arrangements of a vector, in
place, by Heap's method.  The vector and the counters are the blocks of `Core/Vector.lean`.

`none` stands for a failed verification (`abort()`) or an access outside of a block.  Counters are
`int` in the C code and natural numbers here (they never exceed the length).  `stepsLeft` is
written but has no effect on the answers and is left out.
-/
namespace Dern

/-- octaspire_vector_permutation_iterator_t, amalgamated.c:4077-4084. -/
structure PermIter (α : Type) where
  vector : Vec α
  counts : Vec Nat
  i : Nat

namespace PermIter
variable {α : Type}

/-- the loop of octaspire_vector_permutation_iterator_new, amalgamated.c:4116-4125 -/
def zeros (g : Growth) (v : Vec Nat) : Nat → Option (Vec Nat)
  | 0 => some v
  | n + 1 =>
    match v.pushBack g 0 with
    | some (v, true) => zeros g v n
    | _ => none

/-- octaspire_vector_permutation_iterator_new, amalgamated.c:4087-4128. -/
def new (g : Growth) (v : Vec α) : Option (PermIter α) :=
  match zeros g (Vec.new 1) v.num with
  | none => none
  | some counts => some { vector := v, counts := counts, i := 1 }

/-- the loop of octaspire_vector_permutation_iterator_next, amalgamated.c:4162-4207; `fuel` bounds
the rounds of the loop (each one makes `i` larger or is the last). -/
def nextLoop (g : Growth) : Nat → PermIter α → Option (PermIter α × Bool)
  | 0, _ => none
  | fuel + 1, it =>
    if it.i < it.vector.num then
      match it.counts.getAt it.i with
      | some (some ci) =>
        let ci := ci.getD 0
        if ci < it.i then
          match it.vector.swap (if it.i % 2 = 0 then 0 else ci) it.i with
          | some (v, true) =>
            match it.counts.replaceAt g it.i (ci + 1) with
            | some (c, true) => some ({ vector := v, counts := c, i := 1 }, true)
            | _ => none
          | _ => none
        else
          match it.counts.replaceAt g it.i 0 with
          | some (c, true) => nextLoop g fuel { it with counts := c, i := it.i + 1 }
          | _ => none
      | _ => none
    else some (it, false)

/-- octaspire_vector_permutation_iterator_next, amalgamated.c:4150-4210. -/
def next (g : Growth) (it : PermIter α) : Option (PermIter α × Bool) :=
  if it.counts.num = it.vector.num then nextLoop g (it.vector.num + 1) it else none

/-- how the iterator is used (stdlib.c:12640-12760): look at the vector, ask for the next
arrangement, and go on until there is none.  The contents of the vector at each look. -/
def collect (g : Growth) : Nat → PermIter α → Option (List (List (Option α)) × PermIter α)
  | 0, _ => none
  | n + 1, it =>
    match it.next g with
    | none => none
    | some (it', false) => some ([it.vector.elems], it')
    | some (it', true) =>
      match collect g n it' with
      | none => none
      | some (vs, e) => some (it.vector.elems :: vs, e)

end PermIter
end Dern
