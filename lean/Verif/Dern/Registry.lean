import Verif.Core.Map
import Verif.Core.Strings
import Verif.Core.StringCompare
/-
What the host program registers with a virtual machine: libraries by name, command line arguments and environment variables.

`none` stands for `abort()`.  The vectors hold pointers to strings; here the strings are a family over addresses.  The names in the map
of the libraries are texts here (the cached octets of these strings are left out); their hash is any function of the text.  Allocations
do not fail.  Not modelled: marking the values of the libraries and releasing everything.
-/
namespace Dern.Registry
open Dern
open Dern.Utf8 (Octet)

/-- the members libraries, commandLineArguments and environmentVariables of octaspire_dern_vm_t, vm.c:52-90 -/
structure Registry (Lib : Type) where
  libraries : HMap Text Lib
  args : Vec Nat
  vars : Vec Nat
  strings : Nat → Str
  next : Nat

/-- a call of one of the functions; `N` is the type of C strings -/
inductive HostOp (N Lib : Type) where
  | addLibrary (name : N) (l : Lib)
  | hasLibrary (name : N)
  | getLibrary (name : N)
  | addArgument (text : N)
  | addVariable (text : N)
  | countArguments
  | countVariables
  | argumentAt (i : Int)
  | variableAt (i : Int)

/-- an answer; `none` is a null pointer -/
inductive HostAnswer (Lib : Type) where
  | flag (b : Bool)
  | library (l : Option Lib)
  | count (n : Nat)
  | text (t : Option (List Octet))
  deriving DecidableEq

variable {Lib : Type}

/-- the functions of octaspire_map_new_with_octaspire_string_keys, amalgamated.c:7598-7616 -/
def keys (H : Text → Nat) : KeyFns Text := ⟨H, stringIsEqual⟩

/-- the beginning of octaspire_dern_vm_new, vm.c:134-160 -/
def new (S : Nat → Str) : Registry Lib := ⟨HMap.new, Vec.new 1, Vec.new 1, S, 0⟩

/-- octaspire_dern_vm_has_library, vm.c:5205-5224 -/
def hasLibrary (H : Text → Nat) (R : Registry Lib) (name : List Octet) : Option Bool :=
  match inputText name with
  | none => none
  | some t =>
    match R.libraries.get (keys H) t with
    | none => none
    | some r => some r.isSome

/-- octaspire_dern_vm_add_library, vm.c:5185-5203 -/
def addLibrary (H : Text → Nat) (R : Registry Lib) (name : List Octet) (l : Lib) : Option (Registry Lib × Bool) :=
  match hasLibrary H R name with
  | none => none
  | some true => some (R, false)
  | some false =>
    match inputText name with
    | none => none
    | some t =>
      match R.libraries.put (keys H) t l with
      | none => none
      | some m => some ({ R with libraries := m }, true)

/-- octaspire_dern_vm_get_library and octaspire_dern_vm_get_library_const, vm.c:5226-5276 -/
def getLibrary (H : Text → Nat) (R : Registry Lib) (name : List Octet) : Option (Option Lib) :=
  match inputText name with
  | none => none
  | some t =>
    match R.libraries.get (keys H) t with
    | none => none
    | some none => some none
    | some (some (_, _, e)) => HMap.elemValue e

/-- octaspire_dern_vm_add_command_line_argument, vm.c:5283-5308 -/
def addArgument (g : Growth) (R : Registry Lib) (os : List Octet) : Option (Registry Lib × Bool) :=
  match Str.new g os with
  | none => none
  | some s =>
    match R.args.pushBack g R.next with
    | none => none
    | some (v, b) => some ({ R with args := v, strings := setStr R.strings R.next s, next := R.next + 1 }, b)

/-- octaspire_dern_vm_add_environment_variable, vm.c:5310-5335 -/
def addVariable (g : Growth) (R : Registry Lib) (os : List Octet) : Option (Registry Lib × Bool) :=
  match Str.new g os with
  | none => none
  | some s =>
    match R.vars.pushBack g R.next with
    | none => none
    | some (v, b) => some ({ R with vars := v, strings := setStr R.strings R.next s, next := R.next + 1 }, b)

/-- the C string of an element of a vector of strings: octaspire_dern_vm_get_command_line_argument_at, vm.c:5344-5358, and
octaspire_dern_vm_get_environment_variable_at, vm.c:5367-5381.  The octets of the string are computed at the first request and kept. -/
def textAt (g : Growth) (v : Vec Nat) (S : Nat → Str) (i : Int) : Option ((Nat → Str) × Option (List Octet)) :=
  match v.getAt i with
  | none => none
  | some none => some (S, none)
  | some (some none) => none
  | some (some (some a)) =>
    match (S a).cString g with
    | none => none
    | some (s, os) => some (setStr S a s, some os)

/-- the function a call is for; the counts are octaspire_dern_vm_get_number_of_command_line_arguments, vm.c:5337-5342, and
octaspire_dern_vm_get_number_of_environment_variables, vm.c:5360-5365 -/
def apply (H : Text → Nat) (g : Growth) (R : Registry Lib) : HostOp (List Octet) Lib → Option (Registry Lib × HostAnswer Lib)
  | .addLibrary name l => (addLibrary H R name l).map fun (R, b) => (R, .flag b)
  | .hasLibrary name => (hasLibrary H R name).map fun b => (R, .flag b)
  | .getLibrary name => (getLibrary H R name).map fun l => (R, .library l)
  | .addArgument os => (addArgument g R os).map fun (R, b) => (R, .flag b)
  | .addVariable os => (addVariable g R os).map fun (R, b) => (R, .flag b)
  | .countArguments => some (R, .count R.args.num)
  | .countVariables => some (R, .count R.vars.num)
  | .argumentAt i => (textAt g R.args R.strings i).map fun (S, t) => ({ R with strings := S }, .text t)
  | .variableAt i => (textAt g R.vars R.strings i).map fun (S, t) => ({ R with strings := S }, .text t)

/-- a history of calls -/
def run (H : Text → Nat) (g : Growth) : Registry Lib → List (HostOp (List Octet) Lib) → Option (Registry Lib × List (HostAnswer Lib))
  | R, [] => some (R, [])
  | R, op :: ops =>
    match apply H g R op with
    | none => none
    | some (R, a) => (run H g R ops).map fun (R, as) => (R, a :: as)

end Dern.Registry
