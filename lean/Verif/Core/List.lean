import Verif.Spec.Deque
/-
octaspire_list (amalgamated.c:4218-4845): a doubly linked list of allocated nodes, and
octaspire_queue (4847-5113), a list with an optional maximum length.

Modelled: the nodes in memory with their two links, the front and back pointers, the element count
and the calls of the release callback.  Following a null pointer through an accessor is `abort`
(octaspire_helpers_verify_not_null), touching a node that is not allocated is `ub`.
Simplified: addresses are natural numbers, a new node gets one never used before (the C allocator
may reuse the address of a released node; nothing compares stale addresses); allocation never
fails; the element type is abstract; counts are unbounded.
-/
namespace Dern

/-- The two ways an operation can go wrong: a failed octaspire_helpers_verify_... (amalgamated.c:
2145ff) calls `abort()`; access to memory that is not allocated is undefined behaviour. -/
inductive ListFault where
  | abort
  | ub
  deriving DecidableEq, Repr

/-- octaspire_list_node_t, amalgamated.c:4237-4247; `none` is the null pointer. -/
structure Node (α : Type) where
  elem : α
  next : Option Nat
  prev : Option Nat
  deriving DecidableEq, Repr

/-- octaspire_list_t, amalgamated.c:4387-4397, with the memory its nodes live in.  `released` logs
the calls of the release callback. -/
structure DList (α : Type) where
  mem : Nat → Option (Node α)
  fresh : Nat
  front : Option Nat
  back : Option Nat
  num : Nat
  released : List α

namespace DList
variable {α : Type}

abbrev R (β : Type) := Except ListFault β

/-- octaspire_list_new, amalgamated.c:4399-4422. -/
def new : DList α := ⟨fun _ => none, 0, none, none, 0, []⟩

/-- reading a node through a pointer that is verified to be not null -/
def node (l : DList α) : Option Nat → R (Node α)
  | none => .error .abort
  | some a => match l.mem a with
    | none => .error .ub
    | some n => .ok n

/-- octaspire_list_node_set_next, amalgamated.c:4342-4348. -/
def setNext (l : DList α) (p : Option Nat) (next : Option Nat) : R (DList α) :=
  match p with
  | none => .error .abort
  | some a => match l.mem a with
    | none => .error .ub
    | some n => .ok { l with mem := fun b => if b = a then some { n with next := next } else l.mem b }

/-- octaspire_list_node_set_previous, amalgamated.c:4364-4370. -/
def setPrev (l : DList α) (p : Option Nat) (prev : Option Nat) : R (DList α) :=
  match p with
  | none => .error .abort
  | some a => match l.mem a with
    | none => .error .ub
    | some n => .ok { l with mem := fun b => if b = a then some { n with prev := prev } else l.mem b }

/-- octaspire_list_node_new, amalgamated.c:4249-4290. -/
def alloc (l : DList α) (n : Node α) : DList α × Nat :=
  ({ l with mem := fun b => if b = l.fresh then some n else l.mem b, fresh := l.fresh + 1 }, l.fresh)

/-- octaspire_list_node_release, amalgamated.c:4292-4308. -/
def release (l : DList α) (a : Nat) : R (DList α) :=
  match l.mem a with
  | none => .error .ub
  | some n => .ok { l with mem := fun b => if b = a then none else l.mem b,
                           released := l.released ++ [n.elem] }

/-- a failed octaspire_helpers_verify_... -/
def verify (b : Bool) : R Unit := if b then .ok () else .error .abort

/-- octaspire_list_push_front, amalgamated.c:4463-4498. -/
def pushFront (l : DList α) (x : α) : R (DList α) := do
  let (l, a) := l.alloc ⟨x, l.front, none⟩
  let l ← if l.front.isSome then l.setPrev l.front (some a) else pure l
  let l := { l with front := some a }
  let l := if l.num = 0 then { l with back := l.front } else l
  pure { l with num := l.num + 1 }

/-- octaspire_list_push_back, amalgamated.c:4500-4545. -/
def pushBack (l : DList α) (x : α) : R (DList α) := do
  let (l, a) := l.alloc ⟨x, none, l.back⟩
  let l ← if l.back.isSome then l.setNext l.back (some a) else pure l
  let l := { l with back := some a }
  let l := if l.num = 0 then { l with front := l.back } else l
  let n ← l.node l.back
  verify (if l.num > 0 then n.prev.isSome else n.prev.isNone)
  pure { l with num := l.num + 1 }

/-- octaspire_list_pop_front, amalgamated.c:4547-4582. -/
def popFront (l : DList α) : R (DList α) := do
  match l.front with
  | none => pure l
  | some old =>
    let n ← l.node (some old)
    let l := { l with front := n.next }
    let l ← if l.front.isSome then l.setPrev l.front none else pure l
    let l ← l.setNext (some old) none
    let n ← l.node (some old)
    verify n.prev.isNone
    verify (l.num > 0)
    let l := { l with num := l.num - 1 }
    let l := if l.num = 0 then { l with back := l.front } else l
    l.release old

/-- octaspire_list_pop_back, amalgamated.c:4584-4619. -/
def popBack (l : DList α) : R (DList α) := do
  match l.back with
  | none => pure l
  | some old =>
    let n ← l.node (some old)
    let l := { l with back := n.prev }
    let l ← if l.back.isSome then l.setNext l.back none else pure l
    let l ← l.setPrev (some old) none
    let n ← l.node (some old)
    verify n.next.isNone
    verify (l.num > 0)
    let l := { l with num := l.num - 1 }
    let l := if l.num = 0 then { l with front := l.back } else l
    l.release old

/-- octaspire_list_remove, amalgamated.c:4621-4668. -/
def remove (l : DList α) (p : Option Nat) : R (DList α) :=
  if p = l.front then l.popFront
  else if p = l.back then l.popBack
  else do
    let n ← l.node p
    let l ← if n.prev.isSome then l.setNext n.prev n.next else pure l
    let l ← if n.next.isSome then l.setPrev n.next n.prev else pure l
    let l ← l.setNext p none
    let l ← l.setPrev p none
    verify (l.num > 0)
    let l := { l with num := l.num - 1 }
    let l := if l.num = 0 then { l with front := l.back } else l
    match p with
    | none => .error .abort
    | some a => l.release a

/-- the loop of octaspire_list_clear, amalgamated.c:4675-4682; `fuel` bounds the rounds. -/
def clearLoop : Nat → DList α → R (DList α)
  | 0, l => if l.front = none then .ok l else .error .ub
  | fuel + 1, l => if l.front = none then .ok l else
      match l.popFront with
      | .error e => .error e
      | .ok l => clearLoop fuel l

/-- octaspire_list_clear, amalgamated.c:4670-4685. -/
def clear (l : DList α) : R (DList α) := clearLoop l.num l

/-- the loop of octaspire_list_get_at, amalgamated.c:4738-4753 (from the front). -/
def walkNext (l : DList α) : Nat → Option Nat → R (Option Nat)
  | 0, p => .ok p
  | i + 1, p =>
    match l.node p with
    | .error e => .error e
    | .ok n => match n.next with
      | none => .ok none
      | some q => walkNext l i (some q)

/-- the loop of octaspire_list_get_at, amalgamated.c:4713-4728 (from the back). -/
def walkPrev (l : DList α) : Nat → Option Nat → R (Option Nat)
  | 0, p => .ok p
  | i + 1, p =>
    match l.node p with
    | .error e => .error e
    | .ok n => match n.prev with
      | none => .ok none
      | some q => walkPrev l i (some q)

/-- octaspire_list_get_at, amalgamated.c:4700-4756: the address of a node or null. -/
def getAt (l : DList α) (i : Int) : R (Option Nat) :=
  if i < 0 then l.walkPrev (-(i + 1)).toNat l.back else l.walkNext i.toNat l.front

/-- octaspire_list_get_at and octaspire_list_node_get_element (amalgamated.c:4310), null when there
is no node. -/
def elemAt (l : DList α) (i : Int) : R (Option α) :=
  match l.getAt i with
  | .error e => .error e
  | .ok none => .ok none
  | .ok (some a) => match l.node (some a) with
    | .error e => .error e
    | .ok n => .ok (some n.elem)

/-- The steps octaspire_list_node_iterator_init / _next (amalgamated.c:4820-4842) take: the
elements visited until the iterator has no current node; `fuel` bounds the steps. -/
def iterate (l : DList α) : Nat → Option Nat → R (List α)
  | _, none => .ok []
  | 0, some _ => .error .ub
  | fuel + 1, some a => match l.node (some a) with
    | .error e => .error e
    | .ok n => match iterate l fuel n.next with
      | .error e => .error e
      | .ok xs => .ok (n.elem :: xs)

/-- the operation that a specification operation names; `removeAt` is octaspire_list_get_at
followed, if it gives a node, by octaspire_list_remove -/
def apply (l : DList α) : Spec.DequeOp α → R (DList α)
  | .pushFront x => l.pushFront x
  | .pushBack x => l.pushBack x
  | .popFront => l.popFront
  | .popBack => l.popBack
  | .removeAt i => match l.getAt i with
    | .error e => .error e
    | .ok none => .ok l
    | .ok (some a) => l.remove (some a)
  | .clear => l.clear

def run : DList α → List (Spec.DequeOp α) → R (DList α)
  | l, [] => .ok l
  | l, op :: ops => match l.apply op with
    | .error e => .error e
    | .ok l => run l ops

end DList

/-- octaspire_queue_t, amalgamated.c:4867-4874. -/
structure Queue (α : Type) where
  list : DList α
  max : Nat
  bounded : Bool

namespace Queue
variable {α : Type}

/-- octaspire_queue_new, amalgamated.c:4893-4925. -/
def new : Queue α := ⟨DList.new, 0, false⟩

/-- octaspire_queue_new_with_max_length, amalgamated.c:4927-4960. -/
def newWithMax (n : Nat) : Queue α := ⟨DList.new, n, true⟩

/-- octaspire_queue_pop, amalgamated.c:5003-5007. -/
def pop (q : Queue α) : DList.R (Queue α) :=
  match q.list.popFront with
  | .error e => .error e
  | .ok l => .ok { q with list := l }

/-- the loop of octaspire_queue_private_ensure_max_length, amalgamated.c:4881-4887; `fuel` bounds
the rounds. -/
def trimLoop : Nat → Queue α → DList.R (Queue α)
  | 0, q => if q.list.num > q.max then .error .ub else .ok q
  | fuel + 1, q => if q.list.num > q.max then
      match q.pop with
      | .error e => .error e
      | .ok q => trimLoop fuel q
    else .ok q

/-- octaspire_queue_private_ensure_max_length, amalgamated.c:4876-4891. -/
def ensure (q : Queue α) : DList.R (Queue α) := if q.bounded then trimLoop q.list.num q else .ok q

/-- octaspire_queue_push, amalgamated.c:5009-5019. -/
def push (q : Queue α) (x : α) : DList.R (Queue α) :=
  match q.list.pushBack x with
  | .error e => .error e
  | .ok l => { q with list := l }.ensure

/-- octaspire_queue_clear, amalgamated.c:5021-5025. -/
def clear (q : Queue α) : DList.R (Queue α) :=
  match q.list.clear with
  | .error e => .error e
  | .ok l => .ok { q with list := l }

/-- octaspire_queue_set_max_length, amalgamated.c:5081-5087. -/
def setMax (q : Queue α) (n : Nat) : DList.R (Queue α) := { q with max := n }.ensure

/-- octaspire_queue_set_has_max_length, amalgamated.c:5089-5095. -/
def setBounded (q : Queue α) (b : Bool) : DList.R (Queue α) :=
  { q with bounded := b }.setMax q.max

/-- octaspire_queue_peek, amalgamated.c:4976-4987. -/
def peek (q : Queue α) : DList.R (Option α) :=
  match q.list.front with
  | none => .ok none
  | some a => match q.list.node (some a) with
    | .error e => .error e
    | .ok n => .ok (some n.elem)

/-- octaspire_queue_get_at, amalgamated.c:5039-5052. -/
def elemAt (q : Queue α) (i : Int) : DList.R (Option α) := q.list.elemAt i

def apply (q : Queue α) : Spec.QueueOp α → DList.R (Queue α)
  | .push x => q.push x
  | .pop => q.pop
  | .clear => q.clear
  | .setMax n => q.setMax n
  | .setBounded b => q.setBounded b

def run : Queue α → List (Spec.QueueOp α) → DList.R (Queue α)
  | q, [] => .ok q
  | q, op :: ops => match q.apply op with
    | .error e => .error e
    | .ok q => run q ops

end Queue
end Dern
