import Verif.Dern.Env
/-
The special forms (stdlib.c).  `for` is in `For.lean`, `generate`, `template` and `howto` are in `Forming.lean`.

The checks that a function leaves the stack as high as it was (octaspire_helpers_verify_true
(stackLength == …)) are not part of the model: that they never fail is C24.  Vector elements and
evaluation results that the code requires not to be null abort the program otherwise.
-/
namespace Dern.Prog

/-- octaspire_helpers_verify_not_null -/
def require : Option Ref → Prog Ref
  | some r => pure r
  | none => fail .abort

/-- octaspire_dern_vm_eval of an element of the arguments followed by
octaspire_helpers_verify_not_null -/
def evalReq (args : Ref) (i : Nat) (env : Ref) : Prog Ref := do
  let x ← elemAt args i
  let r ← evalOpt x env
  require r

/-- octaspire_dern_value_is_symbol_and_equal_to_c_string of an element of the arguments -/
def isSymbolAt (args : Ref) (i : Nat) (s : Text) : Prog Bool := do
  match ← elemAt args i with
  | some r => isSymbol r s
  | none => fail .null

/-! ### quote, select, if, while -/

/-- octaspire_dern_vm_special_quote, stdlib.c:2181-2208 -/
def spQuote (args env : Ref) : Prog (Option Ref) := do
  let es ← verifyVec args
  verifyEnv env
  match es with
  | [x] => pure (some x)
  | _ => error "Special 'quote' expects one argument."

/-- the loop of octaspire_dern_vm_special_select, stdlib.c:2235-2326, with `k` pairs left from the
index `i` on -/
def selectLoop (args env : Ref) : (k i : Nat) → Prog (Option Ref)
  | 0, _ => do
    pop args
    let r ← alloc .nil
    pure (some r)
  | k + 1, i => do
    let test ← require (← elemAt args i)
    if ← isSymbol test (txt "default") then
      if k ≠ 0 then do
        pop args
        error "'default' must be the last selector in special 'select'."
      else do
        let r ← evalOpt (← elemAt args (i + 1)) env
        pop args
        pure r
    else do
      let t ← evalReq args i env
      match (← read t).obj with
      | .bool true => do
        let r ← evalOpt (← elemAt args (i + 1)) env
        pop args
        pure r
      | .bool false => selectLoop args env k (i + 2)
      | .err _ _ => do
        pop args
        pure (some t)
      | _ => do
        pop args
        error "Selectors of special 'select' must evaluate into booleans."

/-- octaspire_dern_vm_special_select, stdlib.c:2210-2332 -/
def spSelect (args env : Ref) : Prog (Option Ref) := do
  let es ← verifyVec args
  verifyEnv env
  if es.length < 2 ∨ es.length % 2 ≠ 0 then error "Special 'select' expects …"
  else do
    push args
    selectLoop args env (es.length / 2) 0

/-- the test of `if`, stdlib.c:2353-2387: a function given as the test is called -/
def ifTest (args env : Ref) : Prog Ref := do
  let t ← evalReq args 0 env
  push t
  match (← read t).obj with
  | .fn _ => do
    let w ← alloc (.vec [])
    push w
    append w t
    let t' ← eval w env
    pop w
    pop t
    require t'
  | _ => do
    pop t
    pure t

/-- octaspire_dern_vm_special_if, stdlib.c:2334-2441 -/
def spIf (args env : Ref) : Prog (Option Ref) := do
  let es ← verifyVec args
  verifyEnv env
  if es.length ≠ 2 ∧ es.length ≠ 3 then
    error "Special 'if' expects two or three arguments."
  else do
    push args
    let t ← ifTest args env
    match (← read t).obj with
    | .bool b => do
      let es ← verifyVec args
      if es.length = 2 ∧ b = false then
        let r ← getRoot .nil
        pop args
        pure (some r)
      else do
        let r ← evalOpt (← elemAt args (if b then 1 else 2)) env
        pop args
        let r ← require r
        pure (some r)
    | .err _ _ => do
      pop args
      pure (some t)
    | _ => do
      pop args
      error "First argument to special 'if' must evaluate into boolean value."

/-- the largest int32_t -/
def intMax : Int := 2147483647

/-- the body of `while`, stdlib.c:2505-2537, with `k` forms left from the index `i` on: null, or
the value with which the loop is left, after the arguments have been popped -/
def whileBody (args env : Ref) : (k i : Nat) → Prog (Option Ref)
  | 0, _ => pure none
  | k + 1, i => do
    let r ← evalReq args i env
    match (← read r).obj with
    | .err _ _ => do
      pop args
      pure (some r)
    | _ =>
      match ← getReturn with
      | some x => do
        pop args
        pure (some x)
      | none => whileBody args env k (i + 1)

/-- one turn of the loop of octaspire_dern_vm_special_while, stdlib.c:2469-2541; the last turn
creates the result, stdlib.c:2543-2546.  The counter overflowing is undefined behaviour. -/
def whileTurn (args env : Ref) (numArgs : Nat) (count : Int) : Prog (Option Ref) := do
  let t ← evalReq args 0 env
  match (← read t).obj with
  | .bool true => do
    match ← whileBody args env (numArgs - 1) 1 with
    | some r => pure (some r)
    | none =>
      if count = intMax then fail .ub
      else call (.whileLoop args env numArgs (count + 1))
  | .bool false => do
    pop args
    let r ← alloc (.int count)
    pure (some r)
  | .err _ _ => do
    pop args
    pure (some t)
  | _ => do
    pop args
    error "First argument to special 'while' must evaluate into boolean value."

/-- octaspire_dern_vm_special_while, stdlib.c:2443-2546 -/
def spWhile (args env : Ref) : Prog (Option Ref) := do
  let es ← verifyVec args
  verifyEnv env
  if es.length < 2 then error "Special 'while' expects at least two arguments."
  else do
    push args
    call (.whileLoop args env es.length 0)

/-! ### comparisons -/

/-- the loop of `==` and `===`, stdlib.c:3719-3737, 3779-3797, with `k` arguments left -/
def equalLoop (same : Ref → Ref → Prog Bool) (args env first : Ref) : (k i : Nat) → Prog Bool
  | 0, _ => pure true
  | k + 1, i => do
    let x ← evalElem args i env
    push x
    let b ← same first x
    pop x
    if b then equalLoop same args env first k (i + 1) else pure false

/-- octaspire_dern_vm_special_equals_equals and octaspire_dern_vm_special_equals_equals_equals,
stdlib.c:3689-3804 -/
def spEqual (same : Ref → Ref → Prog Bool) (args env : Ref) : Prog (Option Ref) := do
  let es ← verifyVec args
  verifyEnv env
  if es.length < 2 then error "expects at least two arguments."
  else do
    push args
    let first ← evalElem args 0 env
    push first
    let b ← equalLoop same args env first (es.length - 1) 1
    pop first
    pop args
    let r ← getRoot (if b then .true else .false)
    pure (some r)

/-- octaspire_dern_value_is_equal, value.c:1240-1248 -/
def equalValues (a b : Ref) : Prog Bool := do
  let c ← compare a b
  pure (c == 0)

/-- firstValue->uniqueId == secondValue->uniqueId, stdlib.c:3786 -/
def sameUid (a b : Ref) : Prog Bool := do
  let x ← read a
  let y ← read b
  pure (x.uid == y.uid)

/-- octaspire_dern_vm_special_exclamation_equals, stdlib.c:3806-3827 -/
def spNotEqual (args env : Ref) : Prog (Option Ref) := do
  let r ← deref (← spEqual equalValues args env)
  match (← read r).obj with
  | .err _ _ => pure (some r)
  | .bool b => do
    let r ← alloc (.bool (!b))
    pure (some r)
  | _ => fail .abort

/-- the loop of `<`, `<=`, `>` and `>=`, stdlib.c:3857-3873, 3911-3927, 3965-3981, 4019-4035 -/
def orderLoop (ok : Int → Bool) (args env first : Ref) : (k i : Nat) → Prog Bool
  | 0, _ => pure true
  | k + 1, i => do
    let x ← evalReq args i env
    let c ← compare first x
    if ok c then orderLoop ok args env first k (i + 1) else pure false

/-- octaspire_dern_vm_special_less_than and its three siblings, stdlib.c:3829-4043 -/
def spOrder (ok : Int → Bool) (args env : Ref) : Prog (Option Ref) := do
  let es ← verifyVec args
  verifyEnv env
  if es.length < 2 then error "expects at least two arguments."
  else do
    push args
    let first ← evalElem args 0 env
    push first
    let b ← orderLoop ok args env first (es.length - 1) 1
    pop first
    pop args
    let r ← getRoot (if b then .true else .false)
    pure (some r)

/-! ### and, or, do -/

/-- one turn of the loop of `and` and `or`, stdlib.c:5786-5812, 5834-5860 -/
def logicTurn (isAnd : Bool) (args env : Ref) (i : Nat) (last : Option Ref) :
    Prog (Option Ref) := do
  match ← elemAt args i with
  | none => pure last
  | some a => do
    let r ← eval a env
    match ← getReturn with
    | some x => pure (some x)
    | none => do
      let r ← deref r
      match (← read r).obj with
      | .bool b =>
        if b = isAnd then call (.logicLoop isAnd args env (i + 1) (some r)) else pure (some r)
      | _ => call (.logicLoop isAnd args env (i + 1) (some r))

/-- octaspire_dern_vm_special_and and octaspire_dern_vm_special_or, stdlib.c:5768-5862 -/
def spLogic (isAnd : Bool) (args env : Ref) : Prog (Option Ref) := do
  let es ← verifyVec args
  verifyEnv env
  if es = [] then do
    let r ← alloc (.bool isAnd)
    pure (some r)
  else call (.logicLoop isAnd args env 0 none)

/-- one turn of the loop of octaspire_dern_vm_special_do, stdlib.c:5884-5917 -/
def doTurn (args env : Ref) (i : Nat) (last : Option Ref) : Prog (Option Ref) := do
  match ← elemAt args i with
  | none => pure last
  | some a => do
    let r ← eval a env
    match ← getReturn with
    | some x => pure (some x)
    | none => do
      let r ← deref r
      match (← read r).obj with
      | .err _ _ => do
        annotate r
        pure (some r)
      | _ => call (.doLoop args env (i + 1) (some r))

/-- octaspire_dern_vm_special_do, stdlib.c:5864-5921 -/
def spDo (args env : Ref) : Prog (Option Ref) := do
  let es ← verifyVec args
  verifyEnv env
  if es = [] then error "Special 'do' expects at least one argument."
  else call (.doLoop args env 0 none)

/-! ### fn, macro -/

/-- copying the forms of the body, stdlib.c:4586-4610, 4704-4731: an error among them is returned -/
def fnBody (body : Ref) : List Ref → Prog (Option Ref)
  | [] => pure none
  | x :: xs => do
    match (← read x).obj with
    | .err _ _ => pure (some x)
    | _ => do
      append body x
      fnBody body xs

/-- the names of the formals, or an error, stdlib.c:4470-4509 -/
def fnFormals : List Ref → Prog (Option Ref × List Text)
  | [] => pure (none, [])
  | r :: rs => do
    match (← read r).obj with
    | .sym s => do
      let (e, ts) ← fnFormals rs
      pure (e, s :: ts)
    | _ => do
      let e ← error "Special 'fn' expects symbol for formal"
      pure (e, [])

/-- octaspire_dern_stdlib_private_validate_function, stdlib.c:4444-4542: null or an error.  (The
number of formals after the first `.` counts only the ones that are not `.` again.) -/
def fnValidate (fs : List Ref) : Prog (Option Ref) := do
  let (e, names) ← fnFormals fs
  match e with
  | some e => pure (some e)
  | none =>
    let dot : Text := txt "."
    let numDots := names.count dot
    let before := (names.takeWhile (· ≠ dot)).length
    if 1 < numDots then error "Function can have only one formal . for varargs."
    else if 1 < names.length - before - numDots then
      error "Function can have only one formal argument after . for varargs."
    else pure none

/-- octaspire_dern_vm_special_fn, stdlib.c:4544-4657, and octaspire_dern_vm_special_macro,
stdlib.c:4659-4791, with octaspire_dern_vm_create_new_value_function, vm.c:2644-2700 -/
def spFn (wrap : FnData → Obj) (args env : Ref) : Prog (Option Ref) := do
  let es ← verifyVec args
  verifyEnv env
  push args
  push env
  match es with
  | formals :: b :: bs =>
    match (← read formals).obj with
    | .vec fs => do
      let body ← alloc (.vec [])
      push body
      match ← fnBody body (b :: bs) with
      | some e => do
        pop body
        pop env
        pop args
        pure (some e)
      | none =>
        match ← fnValidate fs with
        | some e => do
          pop body
          pop env
          pop args
          pure (some e)
        | none => do
          let r ← alloc (wrap ⟨[], [], formals, body, env, false⟩)
          push r
          let d ← alloc (.str [])
          setDoc r (some d) none
          pop r
          pop body
          pop env
          pop args
          pure (some r)
    | _ => do
      pop env
      pop args
      error "First argument to special 'fn' must be vector (formals)."
  | _ => do
    pop env
    pop args
    error "Special 'fn' expects at least two arguments."

/-! ### define -/

/-- value->docstr = … -/
def setDocstr (r : Ref) (d : Ref) : Prog Unit := do
  let c ← read r
  setDoc r (some d) c.docvec

/-- the environment for the binding: the current one, or the one the argument at the index `i`
evaluates to, which is pushed; `false` if that is not an environment, stdlib.c:218-257, 567-605 -/
def defineTarget (inEnv : Bool) (args env : Ref) (i : Nat) : Prog (Ref × Bool) := do
  if inEnv then do
    let e ← evalElem args i env
    push e
    match (← read e).obj with
    | .env _ _ => pure (e, true)
    | _ => pure (e, false)
  else pure (env, true)

/-- popping the environment of `defineTarget` -/
def popTarget (inEnv : Bool) (e : Ref) : Prog Unit :=
  if inEnv then pop e else pure ()

/-- an error is created while `args` is on the stack, then `args` is popped -/
def errorPop (args : Ref) (what : String) : Prog (Option Ref) := do
  let r ← error what
  pop args
  pure r

/-- octaspire_dern_vm_special_private_define_var_no_env, stdlib.c:280-394, and
octaspire_dern_vm_special_private_define_var_in_env, stdlib.c:100-278 -/
def defineVar (inEnv : Bool) (first third args env : Ref) : Prog (Option Ref) := do
  let es ← verifyVec args
  verifyEnv env
  if es.length ≠ (if inEnv then 6 else 4) then error "Special 'define' expects …"
  else do
    push args
    let as ← isSymbolAt args 1 (txt "as")
    let isIn ← if inEnv then isSymbolAt args 4 (txt "in") else pure true
    if as = false then errorPop args "Special 'define' expects symbol 'as' …"
    else if isIn = false then errorPop args "Special 'define' expects symbol 'in' …"
    else do
      let d ← evalElem args 3 env
      push d
      match (← read d).obj with
      | .str _ => do
        let (target, ok) ← defineTarget inEnv args env 5
        if ok = false then do
          let r ← error "Special 'define' expects environment …"
          popTarget inEnv target
          pop d
          pop args
          pure r
        else do
          let val ← copyAtom third
          push val
          setDocstr val d
          envSet target first val
          pop val
          popTarget inEnv target
          pop d
          pop args
          let r ← alloc (.bool true)
          pure (some r)
      | _ => do
        let r ← error "Special 'define' expects documentation string …"
        pop d
        pop args
        pure r

/-- octaspire_dern_function_private_is_string_in_vector, value.c:281-348: is the formal mentioned
as it should be -/
def formalInDocvec (name : Text) : List Ref → Prog Bool
  | [] => pure false
  | [s] => do
    match (← read s).obj with
    | .sym _ => pure false
    | _ => fail .abort
  | s :: d :: rest => do
    match (← read s).obj with
    | .sym t =>
      if t = name then
        match (← read d).obj with
        | .str ds => pure (name ≠ dots ∨ ds = txt "varargs")
        | _ => pure false
      else formalInDocvec name rest
    | _ => fail .abort

/-- octaspire_dern_function_are_all_formals_mentioned_in_docvec, value.c:350-411 -/
def formalsInDocvec (ds : List Ref) : List Ref → Prog Bool
  | [] => pure true
  | f :: fs => do
    match (← read f).obj with
    | .sym t => do
      let b ← formalInDocvec t ds
      let bs ← formalsInDocvec ds fs
      pure (b && bs)
    | _ => fail .abort

/-- the text for the documentation vector, stdlib.c:980-1014: alternating symbols and strings -/
def docvecPairs : List Ref → Prog Unit
  | [] => pure ()
  | [_] => fail .abort
  | s :: d :: rest => do
    match (← read s).obj, (← read d).obj with
    | .sym _, .str _ => docvecPairs rest
    | _, _ => fail .abort

/-- the function record of a value -/
def fnOf (r : Ref) : Prog FnData := do
  match (← read r).obj with
  | .fn f | .mac f => pure f
  | _ => fail .ub

/-- octaspire_dern_function_set_howto_data, value.c:224-246, and the documentation of the value,
stdlib.c:1029-1038 -/
def setFunctionDoc (val first d dv : Ref) (howto : Bool) : Prog Unit := do
  setDoc val (some d) (some dv)
  setHowto val howto
  match (← read first).obj, (← read d).obj with
  | .sym name, .str doc =>
    match (← read val).obj with
    | .fn f => setObj val (.fn { f with name := name, docstr := doc, howto := howto })
    | .mac f => setObj val (.mac { f with name := name, docstr := doc, howto := howto })
    | _ => fail .ub
  | _, _ => fail .abort

/-- the symbol telling whether `howto` may use the function: is it one of the two, and which,
stdlib.c:818-879 -/
def howtoSymbol (args : Ref) (i : Nat) : Prog (Option Bool) := do
  if ← isSymbolAt args i (txt "howto-ok") then pure (some true)
  else if ← isSymbolAt args i (txt "howto-no") then pure (some false)
  else pure none

/-- the last part of the definition of a function: stdlib.c:945-1058, 641-757.  `target` is on the
stack if `inEnv`, above it the documentation vector; below are the documentation string and the
arguments. -/
def defineFunBind (inEnv : Bool) (first third args d dv target : Ref) (howto : Bool) :
    Prog (Option Ref) := do
  match (← read dv).obj with
  | .vec ds => do
    let f ← fnOf third
    let fs ← verifyVec f.formals
    if ← formalsInDocvec ds fs then do
      docvecPairs ds
      let t ← text "\nArguments are:…"
      match (← read d).obj with
      | .str s => do
        setObj d (.str (s ++ t))
        push third
        setFunctionDoc third first d dv howto
        envSet target first third
        pop third
        pop dv
        popTarget inEnv target
        pop d
        pop args
        let r ← alloc (.bool true)
        pure (some r)
      | _ => fail .ub
    else do
      pop dv
      popTarget inEnv target
      pop d
      pop args
      error "formal is not handled correctly in docvec"
  | _ => do
    let r ← error "Special 'define' expects documentation vector …"
    pop dv
    popTarget inEnv target
    pop d
    pop args
    pure r

/-- octaspire_dern_vm_special_private_define_fun_no_env, stdlib.c:761-1059, and
octaspire_dern_vm_special_private_define_fun_in_env, stdlib.c:397-758.  In the latter nothing checks
that the value is a function. -/
def defineFun (inEnv : Bool) (first third args env : Ref) : Prog (Option Ref) := do
  let es ← verifyVec args
  verifyEnv env
  if es.length ≠ (if inEnv then 8 else 6) then error "Special 'define' expects …"
  else do
    push args
    let as ← isSymbolAt args 1 (txt "as")
    let isIn ← if inEnv then isSymbolAt args 5 (txt "in") else pure true
    if as = false then errorPop args "Special 'define' expects symbol 'as' …"
    else if isIn = false then errorPop args "Special 'define' expects symbol 'in' …"
    else
      match ← howtoSymbol args (if inEnv then 7 else 5) with
      | none => errorPop args "Special 'define' expects symbol 'howto-ok' or 'howto-no' …"
      | some howto => do
        let d ← evalElem args 3 env
        push d
        match (← read d).obj with
        | .str _ => do
          let (target, ok) ← defineTarget inEnv args env 6
          if ok = false then do
            let r ← error "Special 'define' expects environment …"
            popTarget inEnv target
            pop d
            pop args
            pure r
          else do
            let dv ← evalElem args 4 env
            push dv
            defineFunBind inEnv first third args d dv target howto
        | _ => do
          let r ← error "Special 'define' expects documentation string …"
          pop d
          pop args
          pure r

/-- the name to define: a vector is evaluated, stdlib.c:1087-1105; the second component tells
whether it has been -/
def defineName (args env : Ref) : Prog (Ref × Bool) := do
  match ← elemAt args 0 with
  | none => fail .null
  | some f =>
    match (← read f).obj with
    | .vec _ => do
      let r ← deref (← eval f env)
      pure (r, true)
    | _ => pure (f, false)

/-- octaspire_dern_value_is_function and octaspire_dern_value_is_macro, value.c:1872-1882 -/
def isFunction : Obj → Bool
  | .fn _ | .mac _ => true
  | _ => false

/-- octaspire_dern_vm_special_define, stdlib.c:1062-1222 -/
def spDefine (args env : Ref) : Prog (Option Ref) := do
  let es ← verifyVec args
  verifyEnv env
  if es.length ≠ 4 ∧ es.length ≠ 6 ∧ es.length ≠ 8 then
    error "Special 'define' expects four, six or eight arguments."
  else do
    let (first, evaluated) ← defineName args env
    match (← read first).obj with
    | .sym _ => do
      push first
      let third ← evalElem args 2 env
      match (← read third).obj with
      | .err _ _ => do
        pop first
        pure (some third)
      | o => do
        push third
        let r ←
          if es.length = 4 then defineVar false first third args env
          else if es.length = 6 then
            if isFunction o then defineFun false first third args env
            else defineVar true first third args env
          else defineFun true first third args env
        pop third
        pop first
        pure r
    | .err _ _ =>
      if evaluated then pure (some first) else error "The first argument of special 'define' …"
    | _ => error "The first argument of special 'define' …"

/-! ### eval -/

/-- evaluating twice, the first result on the stack, stdlib.c:1436-1440, 1477-1484, 1490-1498 -/
def evalTwice (form env : Ref) : Prog (Option Ref) := do
  let r ← deref (← eval form env)
  push r
  let r' ← eval r env
  pop r
  pure r'

/-- octaspire_dern_vm_private_special_eval_helper_eval, stdlib.c:1389-1506 -/
def evalForm (args env : Ref) : Prog (Option Ref) := do
  let es ← verifyVec args
  verifyEnv env
  match es with
  | [form] => do
    push args
    let r ← evalTwice form env
    let r ← require r
    pop args
    pure (some r)
  | [form, e] => do
    push args
    match (← read e).obj with
    | .env _ _ => do
      let r ← evalTwice form e
      let r ← require r
      pop args
      pure (some r)
    | _ => do
      let e ← require (← eval e env)
      match (← read e).obj with
      | .err _ _ => do
        pop args
        pure (some e)
      | .env _ _ => do
        push e
        let r ← evalTwice form e
        pop e
        let r ← require r
        pop args
        pure (some r)
      | _ => do
        pop args
        error "Second argument to special 'eval' must evaluate into environment value."
  | _ => error "Special 'eval' expects one or two arguments."

/-- the arguments of `eval` used as apply, stdlib.c:1323-1365, with `k` left from the index `i` on:
vectors are spliced -/
def applyArgs (args env call : Ref) : (k i : Nat) → Prog Unit
  | 0, _ => pure ()
  | k + 1, i => do
    match ← evalOpt (← elemAt args i) env with
    | none => applyArgs args env call k (i + 1)
    | some x => do
      match (← read x).obj with
      | .vec xs => appendAll call xs
      | _ => append call x
      applyArgs args env call k (i + 1)

/-- octaspire_dern_value_is_callable, value.c:1846-1871 -/
def isCallable : Obj → Bool
  | .fn _ | .mac _ | .builtin _ | .special _ => true
  | _ => false

/-- octaspire_dern_vm_private_special_eval_helper_apply, stdlib.c:1224-1387 -/
def evalApply (args env : Ref) : Prog (Option Ref) := do
  let es ← verifyVec args
  verifyEnv env
  match es with
  | f :: e :: _ :: _ => do
    let f ← require (← eval f env)
    push f
    if isCallable (← read f).obj then do
      let e ← require (← eval e env)
      push e
      match (← read e).obj with
      | .env _ _ => do
        let form ← alloc (.vec [])
        push form
        append form f
        applyArgs args env form (es.length - 2) 2
        let r ← require (← eval form e)
        pop form
        pop e
        pop f
        pure (some r)
      | _ => do
        pop e
        pop f
        error "Special 'eval' expects environment value as the second argument when used as 'apply'."
    else do
      pop f
      error "Special 'eval' expects callable value as the first argument when used as 'apply'."
  | _ => error "Special 'eval' expects at least three arguments."

/-- octaspire_dern_vm_special_eval, stdlib.c:1508-1549 -/
def spEval (args env : Ref) : Prog (Option Ref) := do
  let es ← verifyVec args
  verifyEnv env
  if es.length < 1 then error "Special 'eval' expects at least one arguments."
  else if es.length ≤ 2 then evalForm args env
  else evalApply args env

end Dern.Prog
