import Verif.Dern.Heap
/-
The state of the virtual machine, allocation and garbage collection (vm.c:1719-1804, 2945-3058,
value.c:4732-4857, environment.c:562-595).

Simplifications: memory allocation never fails; the C stack is unbounded; no binary plugins are
loaded (they may mark further values, lib.c:694-713, and run arbitrary code).
-/
namespace Dern

/-- octaspire_dern_vm_t, vm.c:52-83.  The vector `stack` is kept with its last element first.  `out`
is what has been printed; `ticks` is not in the code, it counts the questions asked to the
surroundings (`Verif/Dern/Prog.lean`), and neither is `births`, the number of allocations so far. -/
structure Vm where
  mem : Mem
  all : List Ref
  stack : List Ref
  nextUid : Nat := 0
  functionReturn : Option Ref := none
  quit : Bool := false
  exitCode : Int := 0
  sinceGc : Nat := 0
  gcLimit : Nat := 1024
  preventGc : Bool := false
  globalEnv : Ref
  valueNil : Ref
  valueTrue : Ref
  valueFalse : Ref
  out : List Nat := []
  ticks : Nat := 0
  births : Nat := 0
  readably : Bool := true

/-- The allocator: the address of the `n`-th value.  An address is the identity of a value, so no two
allocations give the same one: any access to a released value is undefined behaviour in C, whether
or not the memory has been given to another value by then, and `Fault.released` here.  Every
statement holds for every such function, so the order of the addresses is arbitrary. -/
structure Malloc where
  pick : Nat → Ref
  inj : ∀ i j, pick i = pick j → i = j

/-- computations on the state of the virtual machine -/
abbrev M (α : Type) := StateT Vm (Except Fault) α

namespace M

def fail (e : Fault) : M α := fun _ => .error e
def ofRes (x : Res α) : M α := fun v => match x with | .ok a => .ok (a, v) | .error e => .error e
def get : M Vm := fun v => .ok (v, v)
def modify (f : Vm → Vm) : M Unit := fun v => .ok ((), f v)

/-- reading a value -/
def read (r : Ref) : M Cell := fun v =>
  match v.mem.read r with
  | .ok c => .ok (c, v)
  | .error e => .error e

/-- overwriting a value in place -/
def write (r : Ref) (f : Cell → Cell) : M Unit := fun v =>
  match v.mem r with
  | some c => .ok ((), { v with mem := v.mem.set r (f c) })
  | none => .error .released

end M

/-! ### the collector -/

/-- what the collector follows from a value, in its order: the documentation string, then what the
payload refers to (value.c:4741-4857) -/
def Cell.edges (c : Cell) : List Ref := c.docstr.toList ++ c.obj.children

/-- folding a computation on the memory over a list -/
def markList (f : Mem → Ref → Res Mem) : Mem → List Ref → Res Mem
  | m, [] => .ok m
  | m, r :: rs => do
    let m ← f m r
    markList f m rs

/-- octaspire_dern_value_mark, value.c:4732-4857, and octaspire_dern_environment_mark,
environment.c:562-595.  The first argument bounds the depth of the recursion. -/
def markRef : Nat → Mem → Ref → Res Mem
  | 0, _, _ => .error .fuel
  | n + 1, m, r => do
    let c ← m.read r
    if c.mark then .ok m
    else markList (markRef n) (m.set r { c with mark := true }) c.edges

/-- one pass of octaspire_dern_vm_private_sweep, vm.c:3023-3058, over the rest of `all`; the result
is the memory and what stays in `all` -/
def sweepFrom : Mem → List Ref → Res (Mem × List Ref)
  | m, [] => .ok (m, [])
  | m, r :: rs => do
    let c ← m.read r
    if c.mark then
      let (m, keep) ← sweepFrom (m.set r { c with mark := false }) rs
      .ok (m, r :: keep)
    else
      sweepFrom (fun x => if x = r then none else m x) rs

/-- octaspire_dern_vm_gc, vm.c:2969-3058: marks from the stack, oldest first, then sweeps.  The
recursion cannot be deeper than the number of values. -/
def gc : M Unit := fun v => do
  let m ← markList (markRef (v.all.length + 1)) v.mem v.stack.reverse
  let (m, all) ← sweepFrom m v.all
  .ok ((), { v with mem := m, all := all })

/-- UINTMAX_MAX of a 64-bit `uintmax_t` -/
def uintMax : Nat := 2 ^ 64 - 1

/-- octaspire_dern_vm_private_create_new_value_struct, vm.c:1764-1804, together with the payload
the caller stores right after it -/
def alloc (A : Malloc) (o : Obj) : M Ref := do
  let v ← M.get
  if v.gcLimit ≤ v.sinceGc ∧ v.preventGc = false then
    gc
    M.modify fun v => { v with sinceGc := 0 }
  else
    M.modify fun v => { v with sinceGc := v.sinceGc + 1 }
  let v ← M.get
  let r := A.pick v.births
  if v.nextUid = uintMax then M.fail .abort
  else do
    M.modify fun v => { v with
      mem := v.mem.set r { obj := o, uid := v.nextUid }
      all := v.all ++ [r]
      nextUid := v.nextUid + 1
      births := v.births + 1 }
    pure r

/-- octaspire_dern_vm_push_value, vm.c:1719-1724 -/
def push (r : Ref) : M Unit := M.modify fun v => { v with stack := r :: v.stack }

/-- octaspire_dern_vm_pop_value, vm.c:1726-1756 -/
def pop (r : Ref) : M Unit := fun v =>
  match v.stack with
  | t :: s => if t = r then .ok ((), { v with stack := s }) else .error .unbalanced
  | [] => .error .unbalanced

end Dern
