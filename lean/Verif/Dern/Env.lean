import Verif.Dern.Prog
/-
Environments (environment.c) and small helpers used by the evaluator and the library functions.

Simplifications: the text of an error message is whatever `World.text` says (so nothing proved here
depends on it); formatting and printing values always succeeds.  A key of an environment that is not
a symbol is outside of the model (`Fault.external`).
-/
namespace Dern.Prog


/-- octaspire_dern_vm_create_new_value_error and its variants, vm.c:2437-2486 -/
def error (what : String) : Prog (Option Ref) := do
  let t ← text what
  let r ← alloc (.err t 0)
  pure (some r)

/-- octaspire_helpers_verify_true(arguments->typeTag == OCTASPIRE_DERN_VALUE_TAG_VECTOR): the
elements of a vector -/
def verifyVec (r : Ref) : Prog (List Ref) := do
  match (← read r).obj with
  | .vec es => pure es
  | _ => fail .abort

/-- octaspire_helpers_verify_true(environment->typeTag == OCTASPIRE_DERN_VALUE_TAG_ENVIRONMENT) -/
def verifyEnv (r : Ref) : Prog Unit := do
  match (← read r).obj with
  | .env _ _ => pure ()
  | _ => fail .abort

/-- octaspire_dern_value_as_vector_get_element_at, value.c:3716-3726; null if there is none -/
def elemAt (r : Ref) (i : Nat) : Prog (Option Ref) := do
  let es ← verifyVec r
  pure es[i]?

/-- octaspire_dern_vm_eval of a pointer that may be null, vm.c:3600-3642 -/
def evalOpt (x : Option Ref) (env : Ref) : Prog (Option Ref) := do
  match x with
  | some r => eval r env
  | none =>
    if ← isQuit then
      let r ← alloc .nil
      pure (some r)
    else do
      verifyEnv env
      pure none

/-- octaspire_dern_vm_eval of an element of the arguments, which must give a value -/
def evalElem (args : Ref) (i : Nat) (env : Ref) : Prog Ref := do
  let x ← elemAt args i
  let r ← evalOpt x env
  deref r

/-- octaspire_vector_push_back_element on the payload of a vector -/
def append (r x : Ref) : Prog Unit := do
  match (← read r).obj with
  | .vec es => setObj r (.vec (es ++ [x]))
  | _ => fail .ub

/-- appending values to a vector, one after the other -/
def appendAll (r : Ref) : List Ref → Prog Unit
  | [] => pure ()
  | x :: xs => do append r x; appendAll r xs

/-- octaspire_string_concatenate_format(result->value.error->message, …), vm.c:3872-3884 -/
def annotate (r : Ref) : Prog Unit := do
  match (← read r).obj with
  | .err msg line => do
    let t ← text "\n\tAt form: >>>>>>>>>>%s<<<<<<<<<<\n"
    setObj r (.err (msg ++ t) line)
  | _ => fail .ub

/-- octaspire_dern_vm_create_new_value_copy; only copying C data gives no copy -/
def copyOf (r : Ref) : Prog Ref := do
  let c ← call (.copy r)
  deref c

/-- octaspire_dern_vm_get_value_nil, _true and _false, vm.c:4430-4449: copies -/
def getRoot (which : Root) : Prog Ref := do
  let r ← root which
  copyOf r

/-- copying atoms, as many library functions do -/
def copyAtom (r : Ref) : Prog Ref := do
  if (← read r).obj.isAtom then copyOf r else pure r

/-- octaspire_dern_value_is_symbol_and_equal_to_c_string, value.c:3227-3240 -/
def isSymbol (r : Ref) (s : Text) : Prog Bool := do
  match (← read r).obj with
  | .sym t => pure (t = s)
  | _ => pure false

/-- replacing the binding of a name: octaspire_map_remove followed by octaspire_map_put,
environment.c:405-413 -/
def setBinding (bs : List Binding) (b : Binding) : List Binding :=
  bs.filter (fun x => x.name ≠ b.name) ++ [b]

/-- octaspire_dern_environment_set, environment.c:398-414 -/
def envSet (env key val : Ref) : Prog Unit := do
  match (← read key).obj with
  | .sym name =>
    match (← read env).obj with
    | .env bs enc => setObj env (.env (setBinding bs ⟨name, key, val⟩) enc)
    | _ => fail .ub
  | _ => fail .external

/-- octaspire_dern_environment_get, environment.c:374-396 -/
def envGet (env : Ref) (name : Text) : Prog (Option Ref) := do
  match (← read env).obj with
  | .env bs enc =>
    match bs.find? fun b => b.name = name with
    | some b => pure (some b.val)
    | none =>
      match enc with
      | some e => call (.lookup e name)
      | none => pure none
  | _ => fail .ub

/-- the text `...` -/
def dots : Text := txt "..."

/-- the names of the formals, environment.c:180-207 -/
def formalNames : List Ref → Prog (List Text)
  | [] => pure []
  | r :: rs => do
    match (← read r).obj with
    | .sym s => do
      let ts ← formalNames rs
      pure (s :: ts)
    | _ => fail .assert

/-- binding formals to values, environment.c:256-276 -/
def bindFormals (env : Ref) : List (Ref × Ref) → Prog Unit
  | [] => pure ()
  | (k, v) :: l => do envSet env k v; bindFormals env l

/-- octaspire_dern_environment_extend, environment.c:158-372, after the numbers of formals have been
determined: `normal` formals in front, `varargs` for `name ...` at the end.  The result is null or
an error. -/
def bindArgs (env : Ref) (fs as : List Ref) (normal : Nat) (varargs : Bool) :
    Prog (Option Ref) := do
  bindFormals env ((fs.take normal).zip (as.take normal))
  let rest := as.drop normal
  if rest = [] ∧ varargs = false then pure none
  else if varargs = false then error "Function can have zero or one dot args."
  else
    match fs[fs.length - 2]? with
    | none => fail .assert
    | some f => do
      let r ← alloc (.vec [])
      appendAll r rest
      envSet env f r
      pure none

/-- octaspire_dern_environment_extend, environment.c:158-372 -/
def extend (env formals arguments : Ref) : Prog (Option Ref) := do
  match (← read formals).obj, (← read arguments).obj with
  | .vec fs, .vec as => do
    let names ← formalNames fs
    let numDots := names.count dots
    let before := (names.takeWhile (· ≠ dots)).length
    let after := fs.length - before - numDots
    if 1 < numDots then error "Function can have only one formal ... argument for varargs."
    else if 0 < after then error "Function can have no formal arguments after ..."
    else if numDots = 1 ∧ before = 0 then fail .assert
    else
      let normal := before - numDots
      if as.length < normal then error "Function expects %zu arguments."
      else bindArgs env fs as normal (numDots = 1)
  | _, _ => fail .assert

end Dern.Prog
