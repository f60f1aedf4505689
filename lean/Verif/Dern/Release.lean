import Verif.Core.Vector
import Verif.Dern.Vm
/-
The collector and the end of a virtual machine with the vectors `all` and `stack` as the code keeps them (`Vm.lean` has lists), and with a record of the values
given back to the allocator, in order.

Simplifications: marking is the function of `Vm.lean`; the payload of a value is released together with it (payloads hold no values of their own,
vm.c:2804-2943); no binary plugins.  The libraries, arguments and environment variables, which are released before (vm.c:1697-1704), are those of `Registry.lean`
and hold no values then.
-/
namespace Dern.Release
open Dern

/-- octaspire_dern_vm_private_release_value, vm.c:2945-2967.  A value that was released before is a fault. -/
def releaseValue (m : Mem) (r : Ref) : Res Mem := do
  let _ ← m.read r
  .ok fun x => if x = r then none else m x

/-- the loop of octaspire_dern_vm_private_sweep, vm.c:3029-3058, from index `i`; the last component of the result is the values released.  The first argument bounds the
number of turns. -/
def sweepLoop : Nat → Mem → Vec Ref → Nat → Res (Mem × Vec Ref × List Ref)
  | 0, m, all, i => if i < all.num then .error .fuel else .ok (m, all, [])
  | n + 1, m, all, i =>
    if i < all.num then
      match all.getAt i with
      | some (some (some r)) => do
        let c ← m.read r
        if c.mark then sweepLoop n (m.set r { c with mark := false }) all (i + 1)
        else
          let m ← releaseValue m r
          match all.getAt i with
          | some (some (some r')) =>
            if r = r' then
              match all.removeAt i with
              | some (all, true) => do
                let (m, all, gone) ← sweepLoop n m all i
                .ok (m, all, r :: gone)
              | _ => .error .abort
            else .error .abort
          | _ => .error .ub
      | _ => .error .ub
    else .ok (m, all, [])

/-- the loop of octaspire_dern_vm_private_mark_all over the stack, vm.c:2985-2999, from index `i`; `depth` bounds the recursion of marking -/
def markLoop (depth : Nat) (stack : Vec Ref) : Nat → Mem → Nat → Res Mem
  | 0, m, i => if i < stack.num then .error .fuel else .ok m
  | n + 1, m, i =>
    if i < stack.num then
      match stack.getAt i with
      | some (some (some r)) => do
        let m ← markRef depth m r
        markLoop depth stack n m (i + 1)
      | _ => .error .ub
    else .ok m

/-- octaspire_dern_vm_gc, vm.c:2969-3058 -/
def collect (m : Mem) (all stack : Vec Ref) : Res (Mem × Vec Ref × List Ref) := do
  let m ← markLoop (all.num + 1) stack stack.num m 0
  sweepLoop all.num m all 0

/-- octaspire_dern_vm_release, vm.c:1690-1717 -/
def release (m : Mem) (all stack : Vec Ref) : Res (Mem × Vec Ref × List Ref) :=
  match stack.clear with
  | some (stack, _) => collect m all stack
  | none => .error .ub

end Dern.Release
