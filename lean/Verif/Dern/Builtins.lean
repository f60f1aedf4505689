import Verif.Dern.Collections
/-
Copying values (vm.c:1806-2143), assignment (value.c:737-1154) and builtin functions (stdlib.c).
-/
namespace Dern.Prog
open Spec (Dbl)

/-- The code without a model: the builtins not modelled.  They are arbitrary programs over the same operations. -/
structure Library where
  builtin : Builtin → (args env : Ref) → Prog (Option Ref)

/-! ### copying -/

/-- the value structure of a copy before the elements are copied, vm.c:1812-1816, 1848-1893,
1897-1901, 1925-1929, 1953-1957, 1985-1997 -/
def shell : Obj → Obj
  | .vec _ => .vec []
  | .queue _ _ => .queue none []
  | .list _ => .list []
  | .hmap n _ => .hmap n []
  | .env _ _ => .env [] none
  | o => o

/-- copying the elements of a container, vm.c:1903-1919, 1931-1949, 1960-1979.  The container is
read again for each element. -/
def copyElements (value r : Ref) : List Ref → Prog Unit
  | [] => pure ()
  | x :: xs => do
    let _ ← read value
    let y ← copyOf x
    addElement r y
    copyElements value r xs

/-- copying the elements of a hash map, vm.c:1999-2043.  The keys of a hash map are different from
each other, and so are their copies (C16). -/
def copyPairs (value r : Ref) : List (Ref × Ref) → Prog Unit
  | [] => pure ()
  | (k, v) :: l => do
    let _ ← read value
    let k' ← copyOf k
    push k'
    let v' ← copyOf v
    push v'
    addPair r k' v'
    pop v'
    pop k'
    copyPairs value r l

/-- the documentation of a copy, vm.c:2125-2134 -/
def copyDocs (value r : Ref) : Prog Unit := do
  match (← read value).docstr with
  | some d => do
    let d' ← copyOf d
    let c ← read r
    setDoc r (some d') c.docvec
  | none => pure ()
  match (← read value).docvec with
  | some d => do
    let d' ← copyOf d
    let c ← read r
    setDoc r c.docstr (some d')
  | none => pure ()

/-- octaspire_dern_vm_create_new_value_copy, vm.c:1806-2143.

Copying an environment (environment.c:71-147) copies the enclosing one first, so it ends with a null
pointer dereference at the outermost one; should it get further, a successful octaspire_map_put
aborts.  Copying a function (value.c:99-147) copies its environment.  Ports and C data are outside
of the model. -/
def copyValue (value : Ref) : Prog (Option Ref) := do
  let c ← read value
  let r ← alloc (shell c.obj)
  push r
  match (← read value).obj with
  | .vec es | .queue _ es | .list es => copyElements value r es
  | .hmap _ es => copyPairs value r es
  | .env _ enc =>
    match enc with
    | none => fail .null
    | some e => do
      let _ ← call (.copy e)
      fail .abort
  | .fn f | .mac f => do
    let _ ← call (.copy f.formals)
    let _ ← call (.copy f.body)
    let _ ← call (.copy f.env)
    fail .abort
  | .port _ | .cdata _ => fail .external
  | _ => pure ()
  copyDocs value r
  pop r
  pure (some r)

/-! ### assignment -/

/-- the elements of a container being assigned, value.c:838-859, 925-945, 957-979: atoms are copied -/
def setElements (value self : Ref) : List Ref → Prog Unit
  | [] => pure ()
  | x :: xs => do
    let _ ← read value
    let y ← copyAtom x
    push y
    addElement self y
    pop y
    setElements value self xs

/-- the elements of a hash map being assigned, value.c:876-916 -/
def setPairs (value self : Ref) : List (Ref × Ref) → Prog Unit
  | [] => pure ()
  | (k, v) :: l => do
    let _ ← read value
    let k' ← copyAtom k
    push k'
    let v' ← copyAtom v
    push v'
    addPair self k' v'
    pop v'
    pop k'
    setPairs value self l

/-- the documentation of an assigned value, value.c:1018-1028 -/
def setDocs (value self : Ref) : Prog Unit := copyDocs value self

/-- octaspire_dern_value_set, value.c:737-1032 -/
def valueSet (self value : Ref) : Prog Bool := do
  if self = value then pure true
  else do
    match (← read value).obj with
    | .nil => replace self .nil
    | .bool b => replace self (.bool b)
    | .int n => replace self (.int n)
    | .real d => replace self (.real d)
    | .str s => replace self (.str s)
    | .semver s => replace self (.semver s)
    | .chr s => replace self (.chr s)
    | .sym s => replace self (.sym s)
    | .err m l => replace self (.err m l)
    | .vec es => do
      replace self (.vec [])
      setElements value self es
    | .queue _ es => do
      replace self (.queue none [])
      setElements value self es
    | .list es => do
      replace self (.list [])
      setElements value self es
    | .hmap n es => do
      replace self (.hmap n [])
      setPairs value self es
    | .env _ _ | .fn _ | .mac _ | .special _ | .builtin _ | .port _ => fail .abort
    | .cdata _ => fail .external
    setDocs value self
    pure true

/-- filling a vector with nil, value.c:1083-1095, `k` times -/
def fillNil (self : Ref) : Nat → Prog Unit
  | 0 => pure ()
  | k + 1 => do
    let r ← getRoot .nil
    append self r
    fillNil self k

/-- octaspire_dern_value_set_collection, value.c:1034-1154.  The key is put into a hash map
as it is, the value is copied if it is an atom. -/
def setCollection (self index value : Ref) : Prog Bool := do
  match (← read self).obj with
  | .str s => do
    match (← read value).obj with
    | .chr t =>
      match (← read index).obj with
      | .int n =>
        match overwriteText s n t with
        | some u => do
          setObj self (.str u)
          pure true
        | none => pure false
      | _ => pure false
    | _ => pure false
  | .hmap _ _ => do
    let y ← copyAtom value
    let _ ← mapRemove self index
    mapPut self index y
    pure true
  | .vec es =>
    match (← read index).obj with
    | .int n =>
      if n < 0 then pure false
      else if (es.length : Int) ≤ n then do
        fillNil self (n.toNat - es.length)
        let y ← copyAtom value
        append self y
        pure true
      else do
        let y ← copyAtom value
        match (← read self).obj with
        | .vec es => setObj self (.vec (es.set n.toNat y))
        | _ => fail .ub
        pure true
    | _ => pure false
  | .queue _ _ | .list _ => fail .abort
  | .env _ _ => do
    envSet self index value
    pure true
  | _ => pure false

/-- octaspire_dern_vm_builtin_equals, stdlib.c:3619-3687 -/
def biAssign (args env : Ref) : Prog (Option Ref) := do
  let es ← verifyVec args
  verifyEnv env
  match es with
  | [self, value] => do
    push args
    let ok ← valueSet self value
    pop args
    if ok then pure (some self) else error "Builtin '=' failed"
  | [self, index, value] => do
    push args
    let ok ← setCollection self index value
    pop args
    if ok then pure (some self) else error "Builtin '=' failed"
  | _ => error "Builtin '=' expects two or three arguments."

/-! ### small builtins -/

/-- octaspire_dern_vm_builtin_uid, stdlib.c:4793-4836 -/
def biUid (args env : Ref) : Prog (Option Ref) := do
  let es ← verifyVec args
  verifyEnv env
  push args
  push env
  match es with
  | [x] => do
    let c ← read x
    if intMax < (c.uid : Int) then fail .abort
    else do
      let r ← alloc (.int c.uid)
      pop env
      pop args
      pure (some r)
  | _ => do
    pop env
    pop args
    error "Special 'uid' expects exactly one argument."

/-- octaspire_dern_vm_builtin_abort, stdlib.c:4838-4869; the argument is printed -/
def biAbort (args env : Ref) : Prog (Option Ref) := do
  let es ← verifyVec args
  verifyEnv env
  match es with
  | [x] => do
    let _ ← read x
    fail .abort
  | _ => error "Builtin 'abort' expects one argument."

/-- octaspire_dern_vm_builtin_not, stdlib.c:5647-5686 -/
def biNot (args env : Ref) : Prog (Option Ref) := do
  let es ← verifyVec args
  verifyEnv env
  match es with
  | [x] => do
    push args
    match (← read x).obj with
    | .bool b => do
      pop args
      let r ← alloc (.bool (!b))
      pure (some r)
    | _ => do
      pop args
      error "Builtin 'not' expects boolean argument."
  | _ => error "Builtin 'not' expects one argument."

/-- octaspire_helpers_verify_true(octaspire_dern_vm_get_function_return(vm) == 0) and
octaspire_dern_vm_set_function_return, stdlib.c:5715-5720, 5727-5732 -/
def setReturnOnce (r : Ref) : Prog Unit := do
  match ← getReturn with
  | none => setReturn (some r)
  | some _ => fail .abort

/-- octaspire_dern_vm_builtin_return, stdlib.c:5688-5733 -/
def biReturn (args env : Ref) : Prog (Option Ref) := do
  let es ← verifyVec args
  verifyEnv env
  match es with
  | [] => do
    let r ← alloc .nil
    setReturnOnce r
    pure (some r)
  | [x] => do
    setReturnOnce x
    pure (some x)
  | _ => error "Builtin 'return' expects zero or one arguments."

/-- the loop of octaspire_dern_vm_builtin_vector, stdlib.c:5748-5762 -/
def vectorLoop (r : Ref) : List Ref → Prog Unit
  | [] => pure ()
  | a :: as => do
    let x ← copyAtom a
    append r x
    vectorLoop r as

/-- octaspire_dern_vm_builtin_vector, stdlib.c:5735-5766 -/
def biVector (args env : Ref) : Prog (Option Ref) := do
  let es ← verifyVec args
  verifyEnv env
  let r ← alloc (.vec [])
  push r
  vectorLoop r es
  pop r
  pure (some r)

/-- octaspire_dern_vm_builtin_exit, stdlib.c:5923-5963 -/
def biExit (args env : Ref) : Prog (Option Ref) := do
  let es ← verifyVec args
  verifyEnv env
  match es with
  | [] => do
    quit none
    let r ← getRoot .true
    pure (some r)
  | [x] =>
    match (← read x).obj with
    | .int n => do
      quit (some n)
      let r ← getRoot .true
      pure (some r)
    | _ => error "Builtin 'exit' expects integer argument."
  | _ => error "Builtin 'exit' expects zero or one argument."

/-- the documentation string of a value, or nil -/
def docOf (x : Ref) : Prog Ref := do
  match (← read x).docstr with
  | some d => pure d
  | none => getRoot .nil

/-- the loop of octaspire_dern_vm_builtin_doc, stdlib.c:6011-6025 -/
def docLoop (r : Ref) : List Ref → Prog Unit
  | [] => pure ()
  | x :: xs => do
    let d ← docOf x
    append r d
    docLoop r xs

/-- octaspire_dern_vm_builtin_doc, stdlib.c:5966-6033 -/
def biDoc (args env : Ref) : Prog (Option Ref) := do
  let es ← verifyVec args
  verifyEnv env
  match es with
  | [] => error "Builtin 'doc' expects at least one argument."
  | [x] => do
    let d ← docOf x
    pure (some d)
  | _ => do
    let r ← alloc (.vec [])
    push r
    docLoop r es
    pop r
    pure (some r)

/-- octaspire_dern_special_t.numRequiredActualArguments, from the registrations, vm.c:331-1678 -/
def _root_.Dern.Special.arity : Special → Nat
  | .generate => 4
  | .define | .for => 3
  | .while | .eqq | .fn | .macro => 2
  | .and | .or => 0
  | _ => 1

/-- octaspire_dern_builtin_t.numRequiredActualArguments, from the registrations, vm.c:331-1678 -/
def _root_.Dern.Builtin.arity : Builtin → Nat
  | .lnAt | .cpAt | .distance | .max | .min | .math .pow | .find | .split | .uid => 2
  | .printReadably | .print | .println | .envNew | .envCurrent | .envGlobal | .hashMap | .queue
  | .queueMax | .list | .exit => 0
  | .other "host-get-command-line-arguments" | .other "host-get-environment-variables" => 0
  | _ => 1

/-- octaspire_dern_function_get_number_of_required_arguments, value.c:249-279 -/
def countFormals : List Ref → Prog Nat
  | [] => pure 0
  | x :: xs => do
    match (← read x).obj with
    | .sym t =>
      if t = txt "." then pure 0
      else do
        let n ← countFormals xs
        pure (n + 1)
    | _ => fail .abort

/-- octaspire_dern_value_get_length, value.c:4643-4729, of values without formals -/
def objLength : Obj → Option Nat
  | .nil => some 0
  | .bool _ | .int _ | .real _ | .cdata _ | .chr _ => some 1
  | .str s | .sym s => some s.length
  | .err m _ => some m.length
  | .vec es | .queue _ es | .list es => some es.length
  | .hmap _ es => some es.length
  | .env bs _ => some bs.length
  | .semver v => some (3 + v.pre.length + v.build.length)
  | .special s => some s.arity
  | .builtin b => some b.arity
  | .fn _ | .mac _ | .port _ => none

/-- octaspire_dern_value_get_length, value.c:4643-4729, of functions; the length of a port is
outside of the model -/
def fnLength : Obj → Prog Nat
  | .fn f | .mac f => do
    let fs ← verifyVec f.formals
    countFormals fs
  | _ => fail .external

/-- the length of a value as an integer: (int32_t) of a size_t keeps the low 32 bits -/
def lengthOf (x : Ref) : Prog Int := do
  let c ← read x
  let n ← match objLength c.obj with
    | some n => pure n
    | none => fnLength c.obj
  pure (Int.bmod n (2 ^ 32))

/-- the loop of octaspire_dern_vm_builtin_len, stdlib.c:6070-6089 -/
def lenLoop (r : Ref) : List Ref → Prog Unit
  | [] => pure ()
  | x :: xs => do
    let n ← lengthOf x
    let i ← alloc (.int n)
    append r i
    lenLoop r xs

/-- octaspire_dern_vm_builtin_len, stdlib.c:6035-6095 -/
def biLen (args env : Ref) : Prog (Option Ref) := do
  let es ← verifyVec args
  verifyEnv env
  match es with
  | [] => error "Builtin 'len' expects at least one argument."
  | [x] => do
    let n ← lengthOf x
    let r ← alloc (.int n)
    pure (some r)
  | _ => do
    let r ← alloc (.vec [])
    push r
    lenLoop r es
    pop r
    pure (some r)

/-- octaspire_dern_vm_builtin_env_new, stdlib.c:6722-6763 -/
def biEnvNew (args env : Ref) : Prog (Option Ref) := do
  let es ← verifyVec args
  verifyEnv env
  match es with
  | [] => do
    let r ← alloc (.env [] none)
    pure (some r)
  | [x] =>
    match (← read x).obj with
    | .env _ _ => do
      let r ← alloc (.env [] (some x))
      pure (some r)
    | _ => error "Argument to builtin 'env-new' must be an environment."
  | _ => error "Builtin 'env-new' expects zero or one arguments."

/-- octaspire_dern_vm_builtin_env_current, stdlib.c:6765-6786 -/
def biEnvCurrent (args env : Ref) : Prog (Option Ref) := do
  let es ← verifyVec args
  verifyEnv env
  if es = [] then pure (some env) else error "Builtin 'env-current' expects zero arguments."

/-- octaspire_dern_vm_builtin_env_global, stdlib.c:6788-6809 -/
def biEnvGlobal (args env : Ref) : Prog (Option Ref) := do
  let es ← verifyVec args
  verifyEnv env
  if es = [] then do
    let g ← root .globalEnv
    pure (some g)
  else error "Builtin 'env-global' expects zero arguments."

/-! ### arithmetic -/

/-- the loops of `+`, `-` and `*`: the arguments from the position `i` on, the integer so far, and
whether all of them were integers, stdlib.c:8860-8930, 9633-9737, 8760-8830.  `op` is the operation
on integers. -/
def numLoop (op : Nat → Int → Int → Int) : List Ref → Nat → Int → Bool → Prog (Option Ref)
  | [], _, n, true => do
    let r ← alloc (.int n)
    pure (some r)
  | [], _, _, false => do
    let d ← real
    let r ← alloc (.real d)
    pure (some r)
  | x :: xs, i, n, ints => do
    match (← read x).obj with
    | .int k => do
      let n ← int32 (op i n k)
      numLoop op xs (i + 1) n ints
    | .real d => do
      let k ← truncate d
      let n ← int32 (op i n k)
      numLoop op xs (i + 1) n false
    | .err _ _ => pure (some x)
    | _ => error "expects numeric arguments (integer or real)."

/-- octaspire_dern_vm_builtin_private_plus_numerical, stdlib.c:8844-8940 -/
def plusNumerical (args env : Ref) : Prog (Option Ref) := do
  let es ← verifyVec args
  verifyEnv env
  numLoop (fun _ n k => n + k) es 0 0 true

/-- octaspire_dern_vm_builtin_private_minus_numerical, stdlib.c:9619-9747 -/
def minusNumerical (args env : Ref) : Prog (Option Ref) := do
  let es ← verifyVec args
  verifyEnv env
  numLoop (fun i n k => if es.length = 1 then -k else if i = 0 then k else n - k) es 0 0 true

/-- the loops of octaspire_dern_vm_builtin_private_plus_textual_string, _char and _symbol,
stdlib.c:8963-9035, 9062-9136, 9163-9243.  The new text `r` is not one of the arguments. -/
def plusTexts (isSym : Bool) (r : Ref) : List Ref → Prog (Option Ref)
  | [] => do
    pop r
    pure (some r)
  | x :: xs => do
    match (← read x).obj with
    | .str t | .chr t => do
      let u ← read r
      match textOf isSym u.obj with
      | some s => do
        let u ← joined r x s t
        setObj r (ofText isSym u)
        plusTexts isSym r xs
      | none => fail .ub
    | .sym t =>
      if isSym then do
        let u ← read r
        match textOf isSym u.obj with
        | some s => do
          let u ← joined r x s t
          setObj r (ofText isSym u)
          plusTexts isSym r xs
        | none => fail .ub
      else do
        pop r
        error "Builtin '+' expects textual arguments if the first argument is string."
    | _ => do
      pop r
      error "Builtin '+' expects textual arguments if the first argument is string."

/-- octaspire_dern_vm_builtin_private_plus_textual_string, _char and _symbol, stdlib.c:8942-9247 -/
def plusTextual (isSym : Bool) (t : Text) (xs : List Ref) : Prog (Option Ref) := do
  match recode t with
  | none => fail .abort
  | some s => do
    let r ← alloc (ofText isSym s)
    push r
    plusTexts isSym r xs

/-- the loops of octaspire_dern_vm_builtin_private_plus_semver and _minus_semver,
stdlib.c:9279-9336, 9372-9429; whether the sum was possible is not checked -/
def sumVersions (add : Bool) (r : Ref) : List Ref → Prog (Option Ref)
  | [] => do
    pop r
    pure (some r)
  | x :: xs => do
    match (← read x).obj with
    | .semver _ => do
      let _ ← addVersion add r x
      sumVersions add r xs
    | _ => do
      pop r
      error "Builtin '+' expects SemVer arguments if the first argument is SemVer."

/-- octaspire_dern_vm_builtin_private_plus_semver and _minus_semver, stdlib.c:9249-9433 -/
def sumSemver (add : Bool) (v : Spec.Version) (xs : List Ref) : Prog (Option Ref) := do
  let r ← alloc (.semver v)
  push r
  sumVersions add r xs

/-- the loop of octaspire_dern_vm_builtin_private_plus_vector, stdlib.c:9465-9518 -/
def appendCopies (r : Ref) : List Ref → Prog Unit
  | [] => pure ()
  | x :: xs => do
    let y ← copyOf x
    append r y
    appendCopies r xs

/-- octaspire_dern_vm_builtin_private_plus_vector, stdlib.c:9435-9523 -/
def plusVector (x : Ref) (xs : List Ref) : Prog (Option Ref) := do
  let r ← copyOf x
  push r
  appendCopies r xs
  pop r
  pure (some r)

/-- the loop of octaspire_dern_vm_builtin_private_plus_hash_map, stdlib.c:9563-9612 -/
def putCopies (r : Ref) : List (Ref × Ref) → Prog Unit
  | [] => pure ()
  | (k, v) :: l => do
    let k' ← copyOf k
    push k'
    let v' ← copyOf v
    push v'
    let _ ← mapAddPair r k' v'
    pop v'
    pop k'
    putCopies r l

/-- octaspire_dern_vm_builtin_private_plus_hash_map, stdlib.c:9525-9617 -/
def plusHashMap (x : Ref) (xs : List Ref) : Prog (Option Ref) := do
  if xs.length % 2 ≠ 0 then error "Builtin '+' for hash maps expects odd number of arguments."
  else do
    let r ← copyOf x
    push r
    putCopies r (inPairs xs)
    pop r
    pure (some r)

/-- octaspire_dern_vm_builtin_private_minus_textual, stdlib.c:9749-9836: the first argument itself is
changed -/
def minusTextual (x : Ref) : List Ref → Prog (Option Ref)
  | [] => pure (some x)
  | y :: ys => do
    if ← stripText x y then minusTextual x ys
    else error "Builtin '-' expects textual arguments if the first argument is textual."

/-- octaspire_dern_vm_builtin_plus, stdlib.c:9838-9961 -/
def biPlus (args env : Ref) : Prog (Option Ref) := do
  let es ← verifyVec args
  verifyEnv env
  match es with
  | [] => plusNumerical args env
  | x :: xs =>
    match (← read x).obj with
    | .str t | .chr t => plusTextual false t xs
    | .sym t => plusTextual true t xs
    | .semver v => sumSemver true v xs
    | .vec _ => plusVector x xs
    | .hmap _ _ => plusHashMap x xs
    | _ => plusNumerical args env

/-- octaspire_dern_vm_builtin_minus, stdlib.c:9963-10031 -/
def biMinus (args env : Ref) : Prog (Option Ref) := do
  let es ← verifyVec args
  verifyEnv env
  match es with
  | [] => minusNumerical args env
  | x :: xs =>
    match (← read x).obj with
    | .str _ => minusTextual x xs
    | .semver v => sumSemver false v xs
    | _ => minusNumerical args env

/-- octaspire_dern_vm_builtin_times, stdlib.c:8746-8842 -/
def biTimes (args env : Ref) : Prog (Option Ref) := do
  let es ← verifyVec args
  verifyEnv env
  numLoop (fun _ n k => n * k) es 0 1 true

/-- octaspire_dern_vm_builtin_mod, stdlib.c:8461-8532: `%` is the remainder of the division that
rounds towards zero; it is undefined if the quotient does not fit -/
def biMod (args env : Ref) : Prog (Option Ref) := do
  let es ← verifyVec args
  verifyEnv env
  match es with
  | [a, b] =>
    match (← read a).obj with
    | .int x =>
      match (← read b).obj with
      | .int y =>
        if y = 0 then error "The second argument to builtin 'mod' cannot be zero."
        else do
          let _ ← int32 (x.tdiv y)
          let r ← alloc (.int (x.tmod y))
          pure (some r)
      | .err _ _ => pure (some b)
      | _ => error "The second argument to builtin 'mod' must be integer."
    | .err _ _ => pure (some a)
    | _ => error "The first argument to builtin 'mod' must be integer."
  | _ => error "Builtin 'mod' expects two arguments (integers)."

/-- is the argument of `/` zero: null for an argument that is not a number -/
def isZero : Obj → Option Bool
  | .int n => some (n = 0)
  | .real d => some (d.value = some 0)
  | _ => none

/-- the loop of octaspire_dern_vm_builtin_slash, stdlib.c:8651-8741; `i` is the position -/
def slashLoop : List Ref → Nat → Prog (Option Ref)
  | [], _ => do
    let d ← real
    let r ← alloc (.real d)
    pure (some r)
  | x :: xs, i => do
    match (← read x).obj with
    | .err _ _ => pure (some x)
    | o =>
      match isZero o with
      | none => error "Builtin '/' expects numeric arguments (integer or real)."
      | some z =>
        if z ∧ i ≠ 0 then error "Argument to builtin '/' cannot be zero."
        else slashLoop xs (i + 1)

/-- octaspire_dern_vm_builtin_slash, stdlib.c:8534-8744; with one argument its reciprocal -/
def biSlash (args env : Ref) : Prog (Option Ref) := do
  let es ← verifyVec args
  verifyEnv env
  match es with
  | [] => error "Builtin '/' expects at least one numeric argument (integer or real)."
  | [x] => slashLoop [x] 1
  | _ => slashLoop es 0

/-- octaspire_dern_vm_builtin_plus_plus, stdlib.c:8310-8358 -/
def incrLoop : List Ref → Option Ref → Prog (Option Ref)
  | [], last => pure last
  | x :: xs, _ => do
    match (← read x).obj with
    | .int n => do
      let n ← int32 (n + 1)
      setObj x (.int n)
      incrLoop xs (some x)
    | .real _ => do
      let d ← real
      setObj x (.real d)
      incrLoop xs (some x)
    | _ => error "Arguments to builtin '++' must be numbers."

/-- octaspire_dern_vm_builtin_plus_plus, stdlib.c:8310-8358 -/
def biIncr (args env : Ref) : Prog (Option Ref) := do
  let es ← verifyVec args
  verifyEnv env
  if es = [] then error "Builtin '++' expects at least one argument." else incrLoop es none

/-- the loop of octaspire_dern_vm_builtin_minus_minus, stdlib.c:8383-8455 -/
def decrLoop : List Ref → Option Ref → Prog (Option Ref)
  | [], last => pure last
  | x :: xs, _ => do
    match (← read x).obj with
    | .int n => do
      let n ← int32 (n - 1)
      setObj x (.int n)
      decrLoop xs (some x)
    | .real _ => do
      let d ← real
      setObj x (.real d)
      decrLoop xs (some x)
    | .sym _ | .semver _ => error "argument to builtin '--' has unsupported type"
    | o =>
      match Obj.less true o with
      | some (o', true) => do
        setObj x o'
        decrLoop xs (some x)
      | some (_, false) => error "Builtin '--' failed"
      | none => error "argument to builtin '--' has unsupported type"

/-- octaspire_dern_vm_builtin_minus_minus, stdlib.c:8360-8459 -/
def biDecr (args env : Ref) : Prog (Option Ref) := do
  let es ← verifyVec args
  verifyEnv env
  if es = [] then error "Builtin '--' expects at least one argument." else decrLoop es none

end Dern.Prog
