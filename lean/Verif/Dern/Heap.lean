import Verif.Core.Semver
import Verif.Spec.Double
/-
Values of the virtual machine as cells of a heap (value.h:60-265).

A pointer to a value (`octaspire_dern_value_t *`) is a `Ref`, an address.  The structures a value
owns (string, vector, function record …) are part of its cell; where the code looks at the address
of such a structure (hash of a container, comparison of builtins) the address of the cell stands
for it: the two are in one-to-one correspondence as long as both are live.
-/
namespace Dern
open Spec (Version Dbl)

abbrev Ref := Nat

/-- Ways in which the C program does not return normally. -/
inductive Fault
  | abort        -- abort(), also through octaspire_helpers_verify_*
  | unbalanced   -- abort() because the stack is not what the code expects (vm.c:1749-1752)
  | ub           -- undefined behaviour: signed overflow
  | null         -- dereference of a null pointer
  | released     -- access to a value that the collector has released
  | assert       -- a failed assert() (nothing is checked in a release build)
  | external     -- code outside of the model (plugins)
  | fuel         -- the model ran out of steps (no statement about the program)
  deriving DecidableEq, Repr

abbrev Res (α : Type) := Except Fault α

/-- special forms, stdlib.c: `octaspire_dern_vm_special_*` -/
inductive Special
  | define | eval | generate | quote | select | if | while | for | eq | eqq | ne | le | lt | gt | ge
  | template | fn | macro | and | or | do | howto
  deriving DecidableEq, Repr

/-- the kinds of values that the predicates `integer?` … `hash-map?` tell, stdlib.c:11759-12140 -/
inductive Kind
  | integer | real | number | nil | boolean | character | string | symbol | vector | hashMap
  deriving DecidableEq, Repr

/-- mathematical functions, stdlib.c:7553-8034 -/
inductive MathFn
  | cos | sin | tan | asin | acos | atan | sqrt | pow
  deriving DecidableEq, Repr

/-- builtin functions, stdlib.c: `octaspire_dern_vm_builtin_*`; those that work on files, ports,
libraries and the host, and `read-and-eval-string`, are `other` -/
inductive Builtin
  | assign | uid | abort | not | return | vector | exit | doc | len | toString | print | println
  | envNew | envCurrent | envGlobal | popBack | popFront | max | min | plusEq | minusEq
  | plusPlus | minusMinus | mod | slash | times | plus | minus | hashMap | queue | list | copy
  | minusEqEq | find | split | queueMax | lnAt | cpAt | distance | startsWith | stringFormat
  | toInteger | toReal | printReadably | character
  | math (f : MathFn)
  | isA (k : Kind)
  | other (name : String)
  deriving DecidableEq, Repr

/-- octaspire_dern_function_t, value.h:79-89 -/
structure FnData where
  name : Text
  docstr : Text
  formals : Ref
  body : Ref
  env : Ref
  howto : Bool
  deriving DecidableEq, Repr

/-- a binding of an environment: the value used as key with its name, and the value bound.  The
code keeps a hash map from symbol values to values (environment.c:57-66); its finite map behaviour
is the subject of C17.  The name is the text of the symbol when the binding was made. -/
structure Binding where
  name : Text
  key : Ref
  val : Ref
  deriving DecidableEq, Repr

/-- the payload of a value, value.h:237-261.  A hash map is its elements in the order of iteration
and its number of buckets (see `Verif/Core/Map.lean` for the table itself). -/
inductive Obj
  | nil
  | bool (b : Bool)
  | int (n : Int)
  | real (d : Dbl)
  | str (s : Text)
  | chr (s : Text)
  | sym (s : Text)
  | err (msg : Text) (line : Nat)
  | vec (es : List Ref)
  | hmap (buckets : Nat) (es : List (Ref × Ref))
  | queue (max : Option Nat) (es : List Ref)
  | list (es : List Ref)
  | env (bs : List Binding) (enclosing : Option Ref)
  | fn (f : FnData)
  | mac (f : FnData)
  | special (s : Special)
  | builtin (b : Builtin)
  | port (id : Nat)
  | cdata (id : Nat)
  | semver (v : Version)
  deriving DecidableEq, Repr

namespace Obj

/-- octaspire_dern_value_tag_t, value.h:33-65 -/
def tag : Obj → Nat
  | nil => 1 | bool _ => 2 | int _ => 3 | real _ => 4 | str _ => 5 | chr _ => 6 | sym _ => 7
  | err _ _ => 8 | vec _ => 9 | hmap _ _ => 10 | queue _ _ => 11 | list _ => 12 | env _ _ => 13
  | fn _ => 14 | mac _ => 15 | special _ => 16 | builtin _ => 17 | port _ => 18 | cdata _ => 19
  | semver _ => 20

/-- octaspire_dern_value_is_atom, value.c:5148-5186 -/
def isAtom : Obj → Bool
  | nil | bool _ | int _ | real _ | str _ | chr _ | sym _ | err _ _ | port _ => true
  | _ => false

def isError : Obj → Bool
  | err _ _ => true
  | _ => false

/-- the values an object refers to, in the order octaspire_dern_value_mark visits them
(value.c:4748-4857, environment.c:562-595) -/
def children : Obj → List Ref
  | vec es | queue _ es | list es => es
  | hmap _ es => es.flatMap fun (k, v) => [k, v]
  | env bs e => (bs.flatMap fun b => [b.key, b.val]) ++ e.toList
  | fn f | mac f => [f.formals, f.body, f.env]
  | _ => []

end Obj

/-- octaspire_dern_value_t, value.h:230-265.  `gen` counts how often the payload has been released
and replaced by `=` (value.c:745): a pointer to the payload taken before that dangles. -/
structure Cell where
  obj : Obj
  uid : Nat
  gen : Nat := 0
  docstr : Option Ref := none
  docvec : Option Ref := none
  mark : Bool := false
  howto : Bool := false
  deriving DecidableEq, Repr

/-- the memory holding the values; `none` is an address without a live value -/
abbrev Mem := Ref → Option Cell

/-- reading a value through a pointer -/
def Mem.read (m : Mem) (r : Ref) : Res Cell :=
  match m r with
  | some c => .ok c
  | none => .error .released

def Mem.set (m : Mem) (r : Ref) (c : Cell) : Mem := fun x => if x = r then some c else m x

end Dern
