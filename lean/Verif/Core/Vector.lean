import Verif.Spec.Seq
/-
octaspire_vector (amalgamated.c:3197-4070): a growing and shrinking block of cells.

Modelled: the block itself (`cells`, one per allocated element, `none` for a cell that is still
all zero octets), `numElements`, the compaction limit and the calls of the element release
callback.  `none` as the result of an operation stands for an access outside of the block
(undefined behaviour).
Simplified: the element type is abstract (`elementSize` octets each); `size_t`/`ptrdiff_t` are
unbounded, so lengths are assumed to stay below 2^63; memory allocation never fails; the growth
factor, computed in `float`, is an arbitrary function that makes the block larger.
Not modelled: sort.  The permutation iterator is in `Core/Permutation.lean`.
-/
namespace Dern

/-- octaspire_vector_private_grow, amalgamated.c:3252 computes the new size as
`numAllocated * max(2, factor)` in `float`; all that matters is that it is larger.  The second
argument is the wanted index. -/
structure Growth where
  next : Nat → Nat → Nat
  larger : ∀ n i, n < next n i

/-- The growth computed exactly: `numAllocated * max 2 (ceil (index / numAllocated))`
(amalgamated.c:3252, 3718-3721). -/
def Growth.exact : Growth where
  next n i := if n = 0 then 1 else n * max 2 ((i + n - 1) / n)
  larger n i := by
    split
    · omega
    · rename_i h
      calc n < n * 2 := by omega
        _ ≤ n * max 2 ((i + n - 1) / n) := Nat.mul_le_mul_left _ (Nat.le_max_left _ _)

/-- octaspire_vector_t, amalgamated.c:3218-3229.  `released` logs the calls of the element
release callback. -/
structure Vec (α : Type) where
  cells : List (Option α)
  num : Nat
  limit : Nat
  released : List (Option α)
  deriving DecidableEq, Repr

namespace Vec
variable {α : Type}

/-- octaspire_vector_new_with_preallocated_elements, amalgamated.c:3347-3385;
octaspire_vector_new (3323) is the case of one. -/
def new (pre : Nat) : Vec α :=
  let n := if pre = 0 then 1 else pre
  { cells := List.replicate n none, num := 0, limit := n, released := [] }

/-- octaspire_vector_private_is_index_valid, amalgamated.c:3491-3518.  The conversion of a negative
`ptrdiff_t` to `size_t` gives at least 2^63, which is never below the length. -/
def index (v : Vec α) (i : Int) : Option Nat :=
  if i < 0 then
    if (v.num : Int) + i ≥ 0 ∧ (v.num : Int) + i < v.num then some ((v.num : Int) + i).toNat
    else none
  else if i.toNat < v.num then some i.toNat else none

/-- memmove within the block, checked. -/
def move (cells : List (Option α)) (dst src n : Nat) : Option (List (Option α)) :=
  if src + n ≤ cells.length ∧ dst + n ≤ cells.length then
    some (cells.take dst ++ (cells.drop src).take n ++ cells.drop (dst + n))
  else none

/-- memcpy of one element into the block, checked. -/
def write (cells : List (Option α)) (i : Nat) (x : Option α) : Option (List (Option α)) :=
  if i < cells.length then some (cells.set i x) else none

/-- octaspire_vector_private_grow, amalgamated.c:3248-3279: enlarge and zero everything from
`numElements` on. -/
def grow (g : Growth) (v : Vec α) (wanted : Nat) : Vec α :=
  let n := g.next v.cells.length wanted
  { v with cells := v.cells.take v.num ++ List.replicate (n - v.num) none }

/-- octaspire_vector_private_compact, amalgamated.c:3281-3321. -/
def compact (v : Vec α) : Vec α :=
  if v.cells.length ≤ 1 then v
  else if v.cells.length ≤ v.num * 3 then v
  else if v.cells.length ≤ v.limit then v
  else
    let n := if v.num = 0 then 1 else v.num
    let n := if n < v.limit then v.limit else n
    { v with cells := v.cells.take n }

/-- octaspire_vector_remove_element_at, amalgamated.c:3520-3567. -/
def removeAt (v : Vec α) (i : Int) : Option (Vec α × Bool) :=
  match v.index i with
  | none => some (v, false)
  | some k =>
    match v.cells[k]? with
    | none => none
    | some old =>
      if k + 1 ≠ v.num then
        match move v.cells k (k + 1) (v.num - k - 1) with
        | none => none
        | some cells =>
          some ({ v with cells := cells, num := v.num - 1, released := v.released ++ [old] }, true)
      else some ({ v with num := v.num - 1, released := v.released ++ [old] }, true)

/-- octaspire_vector_get_element_at, amalgamated.c:3569-3645: outer `none` is an access outside of
the block, inner `none` the null pointer for an invalid index. -/
def getAt (v : Vec α) (i : Int) : Option (Option (Option α)) :=
  match v.index i with
  | none => some none
  | some k => v.cells[k]?.map some

/-- octaspire_vector_insert_element_before_the_element_at_index, amalgamated.c:3652-3698. -/
def insertBefore (g : Growth) (v : Vec α) (x : α) (i : Int) : Option (Vec α × Bool) :=
  match v.index i with
  | none => some (v, false)
  | some k =>
    let v := if v.num ≥ v.cells.length then v.grow g 0 else v
    match move v.cells (k + 1) k (v.num - k) with
    | none => none
    | some cells =>
      match write cells k (some x) with
      | none => none
      | some cells => some ({ v with cells := cells, num := v.num + 1 }, true)

/-- the loop of octaspire_vector_insert_element_at, amalgamated.c:3725-3733; `fuel` bounds the
rounds (`growLoop_ok`: enough with `fuel > wanted`). -/
def growLoop (g : Growth) : Nat → Vec α → Nat → Option (Vec α)
  | 0, _, _ => none
  | fuel + 1, v, wanted =>
    if wanted ≥ v.cells.length then growLoop g fuel (v.grow g wanted) wanted else some v

/-- octaspire_vector_insert_element_at, amalgamated.c:3718-3757. -/
def insertAt (g : Growth) (v : Vec α) (x : α) (k : Nat) : Option (Vec α × Bool) :=
  let orig := v.num
  match growLoop g (k + 1) v k with
  | none => none
  | some v =>
    let v := if (k : Int) - orig > 0 then { v with num := v.num + (k - orig) } else v
    match write v.cells k (some x) with
    | none => none
    | some cells =>
      let v := { v with cells := cells }
      some (if k ≥ v.num then { v with num := v.num + 1 } else v, true)

/-- octaspire_vector_push_back_element, amalgamated.c:3811-3819. -/
def pushBack (g : Growth) (v : Vec α) (x : α) : Option (Vec α × Bool) := v.insertAt g x v.num

/-- octaspire_vector_push_front_element, amalgamated.c:3796-3809. -/
def pushFront (g : Growth) (v : Vec α) (x : α) : Option (Vec α × Bool) :=
  if v.num = 0 then v.pushBack g x else v.insertBefore g x 0

/-- octaspire_vector_replace_element_at_index_or_push_back, amalgamated.c:3700-3716. -/
def replaceOrPushBack (g : Growth) (v : Vec α) (x : α) (i : Int) : Option (Vec α × Bool) :=
  match v.index i with
  | none => v.pushBack g x
  | some k => v.insertAt g x k

/-- octaspire_vector_replace_element_at, amalgamated.c:3759-3794. -/
def replaceAt (g : Growth) (v : Vec α) (i : Int) (x : α) : Option (Vec α × Bool) :=
  match v.index i with
  | none => some (v, false)
  | some k =>
    match v.cells[k]? with
    | none => none
    | some old => { v with released := v.released ++ [old] }.insertAt g x k

/-- octaspire_vector_pop_back_element, amalgamated.c:3864-3878. -/
def popBack (v : Vec α) : Option (Vec α × Bool) :=
  if v.num = 0 then some (v, false)
  else match v.removeAt (-1) with
    | none => none
    | some (v, false) => some (v, false)
    | some (v, true) => some (v.compact, true)

/-- octaspire_vector_pop_front_element, amalgamated.c:3906-3920. -/
def popFront (v : Vec α) : Option (Vec α × Bool) :=
  if v.num = 0 then some (v, false)
  else match v.removeAt 0 with
    | none => none
    | some (v, false) => some (v, false)
    | some (v, true) => some (v.compact, true)

/-- the loop of octaspire_vector_clear, amalgamated.c:3958-3964; `fuel` bounds the rounds. -/
def clearLoop : Nat → Vec α → Option (Vec α × Bool)
  | 0, v => if v.num = 0 then some (v, true) else none
  | fuel + 1, v =>
    if v.num = 0 then some (v, true)
    else match v.removeAt (-1) with
      | none => none
      | some (v, false) => some (v, false)
      | some (v, true) => clearLoop fuel v

/-- octaspire_vector_clear, amalgamated.c:3950-3967. -/
def clear (v : Vec α) : Option (Vec α × Bool) :=
  if v.num = 0 then some (v, true)
  else match clearLoop v.num v with
    | none => none
    | some (v, false) => some (v, false)
    | some (v, true) => some (v.compact, true)

/-- octaspire_vector_swap, amalgamated.c:3990-4031. -/
def swap (v : Vec α) (i j : Int) : Option (Vec α × Bool) :=
  match v.index i with
  | none => some (v, false)
  | some a =>
    match v.index j with
    | none => some (v, false)
    | some b =>
      match v.cells[a]?, v.cells[b]? with
      | some x, some y =>
        match write v.cells a y with
        | none => none
        | some cells =>
          match write cells b x with
          | none => none
          | some cells => some ({ v with cells := cells }, true)
      | _, _ => none

/-- octaspire_vector_set_compacting_limit_for_preallocated_elements, amalgamated.c:3457-3462. -/
def setLimit (v : Vec α) (n : Nat) : Vec α := { v with limit := n }

/-- octaspire_vector_new_shallow_copy, amalgamated.c:3387-3436, for elements that are not
pointers.  (For pointer elements line 3429 passes the first *element* instead of the block to
`memcpy`, so the copy has arbitrary content; the library only copies octets and characters of
strings this way.) -/
def shallowCopy (v : Vec α) : Vec α :=
  { cells := if v.num = 0 then [none] else v.cells.take v.num, num := v.num, limit := v.limit
    released := [] }

/-- the operation of the implementation that a sequence operation names -/
def apply (g : Growth) (v : Vec α) : Spec.SeqOp α → Option (Vec α × Bool)
  | .pushBack x => v.pushBack g x
  | .pushFront x => v.pushFront g x
  | .insertBefore x i => v.insertBefore g x i
  | .replaceAt i x => v.replaceAt g i x
  | .replaceOrPushBack x i => v.replaceOrPushBack g x i
  | .removeAt i => v.removeAt i
  | .popBack => v.popBack
  | .popFront => v.popFront
  | .clear => v.clear
  | .swap i j => v.swap i j

/-- a history of operations: the final vector and, for each operation, its answer and the
elements it passed to the release callback -/
def run (g : Growth) : Vec α → List (Spec.SeqOp α) → Option (Vec α × List (Bool × List (Option α)))
  | v, [] => some (v, [])
  | v, op :: ops =>
    match v.apply g op with
    | none => none
    | some (w, ok) =>
      match run g w ops with
      | none => none
      | some (w', outs) => some (w', (ok, w.released.drop v.released.length) :: outs)

/-- the elements of the vector, first to last -/
def elems (v : Vec α) : List (Option α) := v.cells.take v.num

end Vec
end Dern
