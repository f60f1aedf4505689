import Verif.Core.StringCompare
import Verif.Dern.Containers
/-
Arguments for functions written in C (value.c:3757-4518) and C data (octaspire_dern_c_data.c).

Builtins and plugins fetch their arguments with a family of functions `…as_vector_get_element_at_as_X_or_unpushed_error`.  All of them read the element with the given
index, abort if there is none, and answer with the element and its payload or with a new error value that is not on the stack.  They differ in what they accept (`pick`).
C data are described by a table `C` from the identities used in the heap; the texts of errors are left open (as in the whole evaluator model).  Names given as C strings are texts
here (their decoding).
-/
namespace Dern
open Utf8

/-- octaspire_dern_c_data_t, c_data.c:32-47; `address` is where the structure is.  The virtual machine, the allocator and the callbacks not used here are left out. -/
structure CData where
  plugin : Text
  typeName : Text
  payload : Nat
  compareCallback : Text
  copyingAllowed : Bool
  address : Nat
  deriving DecidableEq

/-- octaspire_dern_c_data_is_plugin_and_payload_type_name, c_data.c:287-307 -/
def CData.isNamed (d : CData) (plugin typeName : Text) : Bool :=
  if d.plugin ≠ plugin then false
  else if d.typeName ≠ typeName then false
  else true

/-- octaspire_dern_c_data_is_equal, c_data.c:203-225 -/
def CData.isEqual (d e : CData) : Bool :=
  if d.payload ≠ e.payload then false
  else if stringIsEqual d.plugin e.plugin then false
  else if stringIsEqual d.typeName e.typeName then false
  else true

/-- octaspire_dern_c_data_compare, c_data.c:227-285.  `lib` are the comparators of the libraries: none if the library of that name is not known; `none` as the result of a comparator
is the null pointer, which aborts.  The difference of pointers to different structures is undefined. -/
def CData.compare (lib : Text → Option (Text → CData → CData → Option Int)) (d e : CData) : Res Int := do
  let c ← match stringCompare d.plugin e.plugin with | none => .error .abort | some c => .ok c
  if c ≠ 0 then .ok c
  else
    let c ← match stringCompare d.typeName e.typeName with | none => .error .abort | some c => .ok c
    if c ≠ 0 then .ok c
    else if d.compareCallback ≠ [] then
      match lib d.plugin with
      | none => .ok 0
      | some f =>
        match f d.compareCallback d e with
        | none => .error .abort
        | some c => .ok c
    else if d.address = e.address then .ok 0
    else .error .ub

/-- octaspire_dern_c_data_new_copy, c_data.c:113-131: a new structure with the same names and payload; names are copied as C strings -/
def CData.copy (d : CData) (address : Nat) : Option CData := do
  let plugin ← recode d.plugin
  let typeName ← recode d.typeName
  let compareCallback ← recode d.compareCallback
  some { d with plugin := plugin, typeName := typeName, compareCallback := compareCallback, address := address }

/-- what a function written in C can ask for -/
inductive Want where
  | number
  | boolean
  | text
  | string
  | function
  | vector
  | environment
  | symbol
  | thisSymbol (s : Text)
  | oneOf (alternatives : List Text)
  | cData (typeName plugin : Text)

/-- what it is given besides the element: `number` holds the integer or the double, `index` the number of the alternative -/
inductive Payload where
  | none
  | number (n : Int ⊕ Spec.Dbl)
  | boolean (b : Bool)
  | text (t : Text)
  | index (i : Nat) (t : Text)
  | data (p : Nat)

namespace Prog

/-- the loop over the alternatives, value.c:4423-4452: `i` is `index` -/
def alternative (t : Text) : List Text → Nat → Option Nat
  | [], _ => none
  | a :: as, i => if t = a then some i else alternative t as (i + 1)

/-- the checks of octaspire_dern_value_as_vector_get_element_at_as_…_or_unpushed_error: c_data value.c:3757-3827, number 3853-3891, boolean 3960-3997, text 4020-4059,
string 4061-4100, function 4102-4140, vector 4142-4180, environment 4253-4291, symbol 4293-4332, this_symbol 4334-4392, one_of_texts 4394-4461.
Characters are texts too (octaspire_dern_value_is_text, 1767-1773), whatever the error messages say. -/
def pick (C : Nat → CData) : Want → Obj → Option Payload
  | .number, .int n => some (.number (.inl n))
  | .number, .real d => some (.number (.inr d))
  | .boolean, .bool b => some (.boolean b)
  | .text, .str t => some (.text t)
  | .text, .sym t => some (.text t)
  | .text, .chr t => some (.text t)
  | .string, .str t => some (.text t)
  | .function, .fn _ => some .none
  | .vector, .vec _ => some .none
  | .environment, .env _ _ => some .none
  | .symbol, .sym t => some (.text t)
  | .thisSymbol s, .sym t => if t = s then some (.text t) else none
  | .oneOf as, .str t => (alternative t as 0).map fun i => .index i t
  | .oneOf as, .sym t => (alternative t as 0).map fun i => .index i t
  | .oneOf as, .chr t => (alternative t as 0).map fun i => .index i t
  | .cData typeName plugin, .cdata id =>
    if (C id).isNamed plugin typeName then some (.data (C id).payload) else none
  | _, _ => none

/-- the structures returned, value.h: the element, the payload, and the error -/
structure Argument where
  value : Option Ref
  payload : Option Payload
  error : Option Ref

/-- octaspire_dern_value_as_vector_get_element_at_as_…_or_unpushed_error, value.c:3757-4461 (see `pick`) -/
def getArgument (C : Nat → CData) (want : Want) (self : Ref) (i : Int) : Prog Argument := do
  let es ← verifyVec self
  match (indexIn es.length i).bind (es[·]?) with
  | none => fail .abort
  | some x =>
    match pick C want (← read x).obj with
    | some p => pure ⟨some x, some p, none⟩
    | none => do
      let e ← error "Builtin '%s' expects …"
      pure ⟨none, none, e⟩

/-- octaspire_dern_value_as_vector_get_element_of_type_at, value.c:4463-4481: null if the element has another type -/
def getOfType (tag : Nat) (self : Ref) (i : Int) : Prog (Option Ref) := do
  let es ← verifyVec self
  match (indexIn es.length i).bind (es[·]?) with
  | none => fail .abort
  | some x => do
    let c ← read x
    if c.obj.tag = tag then pure (some x) else pure none

/-- octaspire_dern_value_as_vector_get_and_eval_element_at_as_number_or_unpushed_error, value.c:3893-3937, and (if `callable`) …_as_callable_or_unpushed_error,
value.c:4207-4251: the element is evaluated first.  (The first uses a null result without a check, the second aborts.) -/
def getEvaluated (callable : Bool) (self : Ref) (i : Int) (env : Ref) : Prog Argument := do
  let es ← verifyVec self
  match (indexIn es.length i).bind (es[·]?) with
  | none => fail .abort
  | some x => do
    let a ← eval x env
    let y ← if callable then require a else deref a
    let c ← read y
    match (if callable then (if isCallable c.obj then some .none else none) else pick (fun _ => ⟨[], [], 0, [], false, 0⟩) .number c.obj) with
    | some p => pure ⟨some y, some p, none⟩
    | none => do
      let e ← error "Builtin '%s' expects …"
      pure ⟨none, none, e⟩

/-- octaspire_dern_value_as_vector_get_and_eval_element_at_as_vector_or_unpushed_error, value.c:4181-4205: it is the element that is checked, not its value -/
def getVectorEvaluated (C : Nat → CData) (self : Ref) (i : Int) (env : Ref) : Prog Argument := do
  let a ← getArgument C .vector self i
  match a.error with
  | some _ => pure a
  | none => do
    let x ← deref a.value
    let y ← eval x env
    pure { a with value := y }

end Prog
end Dern
