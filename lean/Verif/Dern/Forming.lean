import Verif.Dern.Conversions
import Verif.Core.HeapMethod
/-
The special forms `template` (stdlib.c:4045-4442), `generate` (stdlib.c:1551-2179) and `howto` (stdlib.c:12582-12776).
-/
namespace Dern.Prog
open Dern.Spec (Dbl)

/-! ### template -/

/-- `*result` of octaspire_dern_vm_private_template_helper: set if it is null, otherwise the vector to which the value is appended,
e.g. stdlib.c:4073-4084 -/
def intoResult (result : Option Ref) (x : Ref) : Prog (Option Ref) := do
  match result with
  | none => pure (some x)
  | some r => do
    append r x
    pure (some r)

/-- putting a value that is protected meanwhile into the result, e.g. stdlib.c:4110-4126 -/
def protectInto (result : Option Ref) (x : Ref) : Prog (Option Ref) := do
  push x
  let r ← intoResult result x
  pop x
  pure r

/-- `,@`: the elements of a vector, one after the other, or the value, stdlib.c:4188-4246 -/
def spliceInto (result : Option Ref) (x : Ref) : Prog (Option Ref) := do
  push x
  let r ←
    match (← read x).obj, result with
    | .vec es, some r => do
      appendAll r es
      pure (some r)
    | _, _ => intoResult result x
  pop x
  pure r

/-- the symbol of a name after a comma, stdlib.c:4253-4268 -/
def afterComma (s : Text) : Prog Ref := do
  match recode s with
  | none => fail .abort
  | some t =>
    match recode t.tail with
    | none => fail .abort
    | some u => alloc (.sym u)

/-- octaspire_dern_vm_private_template_helper, stdlib.c:4045-4369, with the argument at the index `i`: the result and the next index.
(A vector cannot be spliced into itself: the result is not accessible to the program yet.) -/
def templateOne (args env : Ref) (i : Nat) (result : Option Ref) : Prog (Option Ref × Nat) := do
  let es ← verifyVec args
  let value ← require es[i]?
  match (← read value).obj with
  | .sym s =>
    if s = txt "," ∨ s = txt ",@" then
      if i + 1 = es.length then do
        let e ← deref (← error "Special '%s' expects a value after %zu. argument ','.")
        let r ← protectInto result e
        pure (r, i + 1)
      else do
        let x ← evalReq args (i + 1) env
        let r ← if s = txt "," then protectInto result x else spliceInto result x
        pure (r, i + 2)
    else if s.head? = some 44 then do
      let name ← afterComma s
      push name
      let x ← require (← eval name env)
      let r ← protectInto result x
      pop name
      pure (r, i + 1)
    else do
      let r ← intoResult result value
      pure (r, i + 1)
  | .vec _ => do
    let inner ← alloc (.vec [])
    push inner
    let _ ← call (.aux .template [value, inner, env])
    let r ← intoResult result inner
    pop inner
    pure (r, i + 1)
  | _ => do
    let r ← intoResult result value
    pure (r, i + 1)

/-- the loops of octaspire_dern_vm_special_template, stdlib.c:4399-4420, and of the recursive step, stdlib.c:4311-4327, until the index
has reached `n`; `k` bounds the number of turns, in each of which the index grows -/
def templateLoop (args env : Ref) (n : Nat) : (k i : Nat) → Option Ref → Prog (Option Ref)
  | 0, _, _ => fail .abort
  | k + 1, i, result => do
    let (r, j) ← templateOne args env i result
    if n ≤ j then pure r else templateLoop args env n k j r

/-- the recursive step, stdlib.c:4302-4327: the vector `inner` is filled -/
def templateInner (value inner env : Ref) : Prog (Option Ref) := do
  let es ← verifyVec value
  templateLoop value env es.length (es.length + 1) 0 (some inner)

/-- octaspire_dern_vm_special_template, stdlib.c:4371-4442 -/
def spTemplate (args env : Ref) : Prog (Option Ref) := do
  let es ← verifyVec args
  verifyEnv env
  push args
  if 1 < es.length then do
    let r ← alloc (.vec [])
    push r
    let x ← templateLoop args env es.length (es.length + 1) 0 (some r)
    pop r
    pop args
    pure x
  else do
    let x ← templateLoop args env es.length (es.length + 1) 0 none
    pop args
    pure x

/-! ### generate -/

/-- the new collection for the symbol in `t`, stdlib.c:1599-1631, 1841-1873; null for other symbols -/
def generateNew (t : Text) : Prog (Option Ref) := do
  if t = txt "vector" then do
    let r ← alloc (.vec [])
    pure (some r)
  else if t = txt "string" then do
    let r ← alloc (.str [])
    pure (some r)
  else pure none

/-- octaspire_dern_value_as_vector_get_element_at_as_this_symbol_or_unpushed_error, value.c:4333-4388: null, or the error -/
def expectSymbol (args : Ref) (i : Nat) (s : Text) : Prog (Option Ref) := do
  let x ← require (← elemAt args i)
  if ← isSymbol x s then pure none else error "Builtin '%s' expects symbol '%s' as %d. argument."

/-- (size_t) of a number that is not negative: null if it is negative, stdlib.c:1668-1685.  Converting a double that is too large or not a
number is undefined behaviour (C11 6.3.1.4). -/
def toSize : Obj → Prog (Option Nat)
  | .int n => pure (if n < 0 then none else some n.toNat)
  | .real d =>
    match d.value with
    | some x =>
      if x < 0 then pure none
      else if d.exponent = 2047 then fail .ub
      else if x.tdiv (Dbl.unit : Int) < 2 ^ 64 then pure (some (x.tdiv (Dbl.unit : Int)).toNat) else fail .ub
    | none => fail .ub
  | _ => fail .ub

/-- octaspire_dern_value_as_collection_push_back_element, value.c:3627-3650, the result of which is verified -/
def collect (self x : Ref) : Prog Unit := do
  match (← read self).obj with
  | .vec es => setObj self (.vec (es ++ [x]))
  | .str s =>
    match (← read x).obj with
    | .chr t => do
      let c ← codeOf t
      setObj self (.str (s ++ [c]))
    | _ => fail .abort
  | .sym s =>
    match (← read x).obj with
    | .chr t => do
      let c ← codeOf t
      setObj self (.sym (s ++ [c]))
    | _ => fail .abort
  | _ => fail .abort

/-- one turn with a generator, stdlib.c:1706-1773 -/
def generateTurn (result gen env : Ref) (i : Nat) : Prog Unit := do
  let index ← alloc (.int (Int.bmod i (2 ^ 32)))
  push index
  let quote ← alloc (.vec [])
  push quote
  let symbol ← alloc (.sym (txt "quote"))
  append quote symbol
  append quote result
  let form ← alloc (.vec [])
  append form gen
  append form quote
  append form index
  push form
  let x ← require (← eval form env)
  collect result x
  pop form
  pop quote
  pop index

/-- the loop with a generator, stdlib.c:1704-1774: `k` turns from the index `i` on -/
def generateLoop (result gen env : Ref) : (k i : Nat) → Prog Unit
  | 0, _ => pure ()
  | k + 1, i => do
    generateTurn result gen env i
    generateLoop result gen env k (i + 1)

/-- the loop with a literal value, stdlib.c:1778-1784 -/
def repeatLoop (result x : Ref) : Nat → Prog Unit
  | 0 => pure ()
  | k + 1 => do
    collect result x
    repeatLoop result x k

/-- octaspire_dern_vm_private_special_generate_helper_generate, stdlib.c:1551-1798, after the collection has been made -/
def generateFill (args env type result : Ref) : Prog (Option Ref) := do
  match ← expectSymbol args 1 (txt "of") with
  | some e => do
    pop result
    pop type
    pure (some e)
  | none => do
    let number ← deref (← evalOpt (← elemAt args 2) env)
    match (← read number).obj with
    | .int _ | .real _ => do
      push number
      match ← toSize (← read number).obj with
      | none => do
        pop number
        pop result
        pop type
        error "Special '%s' expects non negative number as the third argument when used to generate values."
      | some n => do
        let gen ← require (← elemAt args 3)
        let g ← require (← eval gen env)
        push g
        if isCallable (← read g).obj then generateLoop result gen env n 0 else repeatLoop result g n
        pop g
        pop number
        pop result
        pop type
        pure (some result)
    | _ => do
      let e ← error "Builtin '%s' expects number as %d. argument. Type '%s' was given."
      pop result
      pop type
      pure e

/-- the loop over the vectors of `mapping`, stdlib.c:1951-1993, from the index `i` on: the error, or the largest length.  (An argument must be
a vector before it is evaluated, value.c:4182-4206.) -/
def mappingVectors (args env vectors : Ref) : (k i len : Nat) → Prog (Option Ref ⊕ Nat)
  | 0, _, len => pure (.inr len)
  | k + 1, i, len => do
    let x ← require (← elemAt args i)
    match (← read x).obj with
    | .vec _ => do
      let r ← deref (← eval x env)
      append vectors r
      let es ← verifyVec r
      mappingVectors args env vectors k (i + 1) (max len es.length)
    | _ => do
      let e ← error "Builtin '%s' expects vector as %d. argument. Type '%s' was given."
      pure (.inl e)

/-- the arguments of the call number `i`, stdlib.c:2016-2037 -/
def mappingArgs (form : Ref) (i : Nat) : List Ref → Prog Unit
  | [] => pure ()
  | y :: ys => do
    let x ← require (← elemAt y i)
    append form x
    mappingArgs form i ys

/-- the calls of `mapping`, stdlib.c:1995-2054 -/
def mappingLoop (result f vectors env : Ref) : (k i : Nat) → Prog Unit
  | 0, _ => pure ()
  | k + 1, i => do
    let form ← alloc (.vec [])
    push form
    append form f
    let ys ← verifyVec vectors
    mappingArgs form i ys
    let x ← require (← eval form env)
    let _ ← verifyVec result
    append result x
    pop form
    mappingLoop result f vectors env k (i + 1)

/-- octaspire_dern_vm_private_special_generate_helper_map, stdlib.c:1800-2131, after the collection has been made -/
def mappingFill (args env type result : Ref) (numArgs : Nat) : Prog (Option Ref) := do
  match ← expectSymbol args 1 (txt "mapping") with
  | some e => do
    pop result
    pop type
    pure (some e)
  | none => do
    let f ← evalReq args 2 env
    if isCallable (← read f).obj then do
      push f
      match ← expectSymbol args 3 (txt "on") with
      | some e => do
        pop f
        pop result
        pop type
        pure (some e)
      | none => do
        let vectors ← alloc (.vec [])
        push vectors
        match ← mappingVectors args env vectors (numArgs - 4) 4 0 with
        | .inl e => do
          pop vectors
          pop f
          pop result
          pop type
          pure e
        | .inr len => do
          mappingLoop result f vectors env len 0
          pop vectors
          pop f
          pop result
          pop type
          pure (some result)
    else do
      let e ← error "Function '%s' expects callable as %d. argument. Type '%s' was given."
      pop result
      pop type
      pure e

/-- octaspire_dern_vm_special_generate, stdlib.c:2133-2179, with the first parts of its two helpers, stdlib.c:1551-1631, 1800-1873 -/
def spGenerate (args env : Ref) : Prog (Option Ref) := do
  let es ← verifyVec args
  verifyEnv env
  if es.length < 4 then error "Special '%s' expects at least four arguments. %zu arguments were given."
  else do
    let type ← evalReq args 0 env
    push type
    match (← read type).obj with
    | .sym t =>
      match ← generateNew t with
      | none => do
        pop type
        error "Special '%s' expects symbol 'vector' or 'string' as the first argument when used to generate values. Symbol '%s' was given."
      | some result => do
        push result
        if es.length = 4 then generateFill args env type result else mappingFill args env type result es.length
    | _ => do
      pop type
      error "Special '%s' expects symbol as the first argument when used to generate values. Type '%s' was given."

/-! ### howto -/

/-- the arrangements of a list in the order in which octaspire_vector_permutation_iterator (amalgamated.c:4077-4210) goes through them, see C43 -/
def arrangements (es : List Ref) : List (List Ref) :=
  (HeapMethod.visits 1 (HeapMethod.moves es.length)).map fun p => (List.range es.length).filterMap fun i => es[p i]?

/-- the arguments of a form are copies, stdlib.c:12623-12635 -/
def howtoArgs (form : Ref) : List Ref → Prog Unit
  | [] => pure ()
  | x :: xs => do
    let y ← copyOf x
    append form y
    howtoArgs form xs

/-- trying the operator `value`, stdlib.c:12611-12692 -/
def howtoTry (value example_ expected env result : Ref) : Prog Unit := do
  let form ← alloc (.vec [])
  push form
  append form value
  let xs ← verifyVec example_
  howtoArgs form xs
  let c ← copyOf form
  let x ← deref (← eval c env)
  push x
  match (← read x).obj with
  | .err _ _ => do
    pop x
    pop form
  | _ => do
    let c ← copyOf expected
    let y ← deref (← eval c env)
    push y
    match (← read y).obj with
    | .err _ _ => do
      pop y
      pop x
      pop form
    | _ => do
      if ← equalValues y x then append result form
      pop y
      pop x
      pop form

/-- one turn of the loop of octaspire_dern_stdlib_private_special_howto_helper, stdlib.c:12594-12696, at the index `i` of the bindings of the
environment, through a pointer to its payload taken when its generation was `gen`.  The order of the bindings may differ from turn to turn
in the model. -/
def howtoTurn (example_ expected env result : Ref) (gen i : Nat) : Prog (Option Ref) := do
  let c ← read env
  if c.gen ≠ gen then fail .released
  else
    match c.obj with
    | .env bs _ =>
      if i < bs.length then do
        let (_, es) ← arrange (bs.map fun b => (b.key, b.val))
        match es[i]? with
        | some e => do
          let d ← read e.2
          match d.obj with
          | .builtin _ | .special _ | .fn _ => do
            if d.howto then howtoTry e.2 example_ expected env result
            call (.aux (.howto gen (i + 1)) [example_, expected, env, result])
          | _ => call (.aux (.howto gen (i + 1)) [example_, expected, env, result])
        | none => fail .null
      else pure none
    | _ => fail .released

/-- the loop over the arrangements of the arguments, stdlib.c:12756-12765 -/
def howtoLoop (example_ expected env result : Ref) : List (List Ref) → Prog Unit
  | [] => pure ()
  | xs :: rest => do
    setObj example_ (.vec xs)
    let c ← read env
    let _ ← call (.aux (.howto c.gen 0) [example_, expected, env, result])
    howtoLoop example_ expected env result rest

/-- octaspire_dern_vm_special_howto, stdlib.c:12707-12776 -/
def spHowto (args env : Ref) : Prog (Option Ref) := do
  let es ← verifyVec args
  verifyEnv env
  match es.getLast?, es.dropLast with
  | some expected, x :: xs => do
    let result ← alloc (.vec [])
    push result
    let example_ ← alloc (.vec [])
    push example_
    appendAll example_ (x :: xs)
    howtoLoop example_ expected env result (arrangements (x :: xs))
    pop example_
    pop result
    pure (some result)
  | _, _ => error "Builtin 'howto' expects at least two arguments."

end Dern.Prog
