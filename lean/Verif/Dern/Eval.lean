import Verif.Dern.For
import Verif.Dern.Conversions
import Verif.Dern.Forming
/-
The evaluator: octaspire_dern_vm_private_eval_impl (vm.c:3591-4256), octaspire_dern_vm_eval
(vm.c:4258-4312).

Not modelled: debug mode; the checks of the height of the stack (see C24).
-/
namespace Dern.Prog

/-- the special form behind a special value -/
def special (_L : Library) (s : Special) (args env : Ref) : Prog (Option Ref) :=
  match s with
  | .define => spDefine args env
  | .eval => spEval args env
  | .quote => spQuote args env
  | .select => spSelect args env
  | .if => spIf args env
  | .while => spWhile args env
  | .eq => spEqual equalValues args env
  | .eqq => spEqual sameUid args env
  | .ne => spNotEqual args env
  | .le => spOrder (· ≤ 0) args env
  | .lt => spOrder (· < 0) args env
  | .gt => spOrder (0 < ·) args env
  | .ge => spOrder (0 ≤ ·) args env
  | .fn => spFn .fn args env
  | .macro => spFn .mac args env
  | .and => spLogic true args env
  | .or => spLogic false args env
  | .do => spDo args env
  | .for => spFor args env
  | .generate => spGenerate args env
  | .template => spTemplate args env
  | .howto => spHowto args env

/-- the function behind a builtin value -/
def builtin (L : Library) (b : Builtin) (args env : Ref) : Prog (Option Ref) :=
  match b with
  | .assign => biAssign args env
  | .uid => biUid args env
  | .abort => biAbort args env
  | .not => biNot args env
  | .return => biReturn args env
  | .vector => biVector args env
  | .exit => biExit args env
  | .doc => biDoc args env
  | .len => biLen args env
  | .envNew => biEnvNew args env
  | .envCurrent => biEnvCurrent args env
  | .envGlobal => biEnvGlobal args env
  | .mod => biMod args env
  | .slash => biSlash args env
  | .times => biTimes args env
  | .plus => biPlus args env
  | .minus => biMinus args env
  | .plusPlus => biIncr args env
  | .minusMinus => biDecr args env
  | .plusEq => biPlusEq L args env
  | .minusEq => biMinusEq args env
  | .minusEqEq => biMinusEqEq args env
  | .popBack => biPop true args env
  | .popFront => biPop false args env
  | .hashMap => biHashMap args env
  | .queue => biQueue args env
  | .queueMax => biQueueMax args env
  | .list => biList args env
  | .find => biFind args env
  | .split => biSplit args env
  | .lnAt => biLnAt args env
  | .cpAt => biCpAt args env
  | .isA k => biIsA k args env
  | .max => biExtreme true args env
  | .min => biExtreme false args env
  | .startsWith => biStartsWith args env
  | .distance => biDistance args env
  | .math f => biMath f args env
  | .toInteger => biToInteger args env
  | .toReal => biToReal args env
  | .character => biCharacter args env
  | .stringFormat => biStringFormat args env
  | .toString => biToString args env
  | .print => biPrint args env
  | .println => biPrintln args env
  | .printReadably => biPrintReadably args env
  | .copy => biCopy args env
  | .other _ => L.builtin b args env

/-- using the vector record of `value` through a pointer taken when its generation was `gen`
(`vec`, vm.c:3790) -/
def payload (value : Ref) (gen : Nat) : Prog (List Ref) := do
  let c ← read value
  match c.obj with
  | .vec es => if c.gen = gen then pure es else fail .released
  | _ => fail .released

/-- one turn of the loop over the arguments, vm.c:3917-3951, 4012-4047: null, or the error that
ends it -/
def argTurn (value : Ref) (gen : Nat) (args env : Ref) (i : Nat) : Prog (Option Ref) := do
  let es ← payload value gen
  match es[i]? with
  | none => pure none
  | some x => do
    let r ← deref (← eval x env)
    match (← read r).obj with
    | .err _ _ => do
      annotate r
      pure (some r)
    | _ => do
      append args r
      call (.argLoop value gen args env (i + 1))

/-- one turn of the loop over the body of a function, vm.c:4119-4170 -/
def bodyTurn (operator : Ref) (gen : Nat) (env : Ref) (i : Nat) (last : Option Ref) (value : Ref) :
    Prog (Option Ref) := do
  let c ← read operator
  if c.gen ≠ gen then fail .released
  else
    match c.obj with
    | .fn f | .mac f =>
      match (← read f.body).obj with
      | .vec forms =>
        match forms[i]? with
        | none => pure last
        | some form => do
          push form
          let r ← deref (← eval form env)
          match (← read r).obj with
          | .err _ _ => do
            annotate r
            pop form
            pure (some r)
          | _ => do
            pop form
            match ← getReturn with
            | some x => do
              setReturn none
              pure (some x)
            | none => call (.bodyLoop operator gen value env (i + 1) (some r))
      | _ => fail .ub
    | _ => fail .released

/-- the arguments of a special form, not evaluated, vm.c:3851-3867: an error among them is the
result -/
def specialArgs (args : Ref) : List Ref → Prog (Option Ref)
  | [] => pure none
  | x :: xs => do
    match (← read x).obj with
    | .err _ _ => pure (some x)
    | _ => do
      append args x
      specialArgs args xs

/-- an error gets the form, vm.c:3880-3893, 3963-3977 -/
def annotateError (r : Ref) : Prog Unit := do
  match (← read r).obj with
  | .err _ _ => annotate r
  | _ => pure ()

/-- a call of a special form, vm.c:3831-3897 -/
def callSpecial (L : Library) (value : Ref) (gen : Nat) (s : Special) (env : Ref) :
    Prog (Option Ref) := do
  let args ← alloc (.vec [])
  push args
  let es ← payload value gen
  let e ← specialArgs args es.tail
  match e with
  | some e => do
    pop args
    pure (some e)
  | none => do
    let r ← deref (← special L s args env)
    annotateError r
    pop args
    pure (some r)

/-- the builtin function in a value: anything else there is undefined behaviour -/
def builtinOf (operator : Ref) : Prog Builtin := do
  match (← read operator).obj with
  | .builtin b => pure b
  | _ => fail .ub

/-- a call of a builtin function, vm.c:3899-3987 -/
def callBuiltin (L : Library) (value : Ref) (gen : Nat) (operator env : Ref) :
    Prog (Option Ref) := do
  let args ← alloc (.vec [])
  push args
  match ← call (.argLoop value gen args env 1) with
  | some e => do
    pop args
    pure (some e)
  | none => do
    let b ← builtinOf operator
    let r ← require (← builtin L b args env)
    annotateError r
    let b ← builtinOf operator
    if b = .return then setReturn (some r)
    pop args
    pure (some r)

/-- the call of a function or macro whose arguments are ready, vm.c:4062-4197; `flag` is
`*wasMacroCall` -/
def applyFn (value operator args : Ref) (flag : Bool) : Prog (Option Ref) := do
  let c ← read operator
  let f ← fnOf operator
  let env ← alloc (.env [] (some f.env))
  push env
  match ← extend env f.formals args with
  | some e => do
    pop env
    pop args
    pure (some e)
  | none => do
    let _ ← verifyVec f.body
    let r ← call (.bodyLoop operator c.gen value env 0 none)
    let r ←
      if flag then do
        let form ← deref r
        push form
        let r ← eval form env
        pop form
        pure r
      else pure r
    pop env
    pop args
    pure r

/-- a call of a function or macro, vm.c:3989-4203 -/
def callFn (value : Ref) (gen : Nat) (operator env : Ref) (isMacro flag : Bool) :
    Prog (Option Ref) := do
  let args ← alloc (.vec [])
  push args
  let e ←
    if isMacro then do
      let es ← payload value gen
      appendAll args es.tail
      pure none
    else call (.argLoop value gen args env 1)
  match e with
  | some e => do
    pop args
    pure (some e)
  | none => applyFn value operator args flag

/-- a call, vm.c:3787-4233, after the form and the environment have been pushed: the result and
`*wasMacroCall` -/
def evalCall (L : Library) (value env operator : Ref) (gen : Nat) (flag : Bool) :
    Prog (Option Ref × Bool) := do
  push operator
  let (r, flag) ←
    match (← read operator).obj with
    | .special s => do
      let r ← callSpecial L value gen s env
      pure (r, flag)
    | .builtin _ => do
      let r ← callBuiltin L value gen operator env
      pure (r, flag)
    | .fn _ => do
      let r ← callFn value gen operator env false flag
      pure (r, flag)
    | .mac _ => do
      let r ← callFn value gen operator env true true
      pure (r, true)
    | _ => do
      let r ← error "Cannot evaluate operator of type '%s' (%s)"
      pure (r, flag)
  pop operator
  pop env
  pop value
  pure (r, flag)

/-- the value of a symbol, vm.c:3665-3785 -/
def evalSymbol (env : Ref) (name : Text) : Prog (Option Ref) := do
  match ← call (.lookup env name) with
  | some r => pure (some r)
  | none => error "Unbound symbol '%s'. %s"

/-- the end of octaspire_dern_vm_private_eval_impl, vm.c:4249-4255 -/
def leave (value env : Ref) (r : Option Ref) (flag : Bool) : Prog (Option Ref × Bool) := do
  pop env
  pop value
  pure (r, flag)

/-- octaspire_dern_vm_private_eval_impl, vm.c:3591-4256; `flag` is `*wasMacroCall` before, the
second component of the result is `*wasMacroCall` afterwards -/
def evalImpl (L : Library) (value env : Ref) (flag : Bool) : Prog (Option Ref × Bool) := do
  if ← isQuit then
    let r ← alloc .nil
    pure (some r, flag)
  else do
    verifyEnv env
    push value
    push env
    let c ← read value
    match c.obj with
    | .sym name => do
      let r ← evalSymbol env name
      leave value env r flag
    | .vec [] => do
      pop env
      pop value
      let r ← error "Cannot evaluate empty vector '()'"
      pure (r, flag)
    | .vec (first :: _) => do
      match ← eval first env with
      | none => do
        pop env
        pop value
        pure (none, flag)
      | some operator => evalCall L value env operator c.gen flag
    | .hmap _ _ | .queue _ _ | .list _ | .env _ _ | .port _ | .cdata _ => do
      let r ← error "Cannot evaluate unknown type %i"
      leave value env r flag
    | _ => leave value env (some value) flag

/-- one turn of the loop of octaspire_dern_vm_eval, vm.c:4266-4311, with `wasMacroCall` before it -/
def evalTurn (L : Library) (value env : Ref) (flag : Bool) : Prog (Option Ref) := do
  let (r, flag) ← evalImpl L value env flag
  if flag = false then pure r
  else do
    let r ← deref r
    match (← read r).obj with
    | .vec (first :: _) => do
      push r
      let (o, _) ← evalImpl L first env true
      let o ← require o
      pop r
      match (← read o).obj with
      | .mac _ => call (.again r env)
      | _ => pure (some r)
    | _ => pure (some r)

/-- the procedures behind the calls -/
def body (L : Library) : Call → Prog (Option Ref)
  | .eval value env => evalTurn L value env false
  | .again value env => evalTurn L value env true
  | .lookup env name => envGet env name
  | .argLoop value gen args env i => argTurn value gen args env i
  | .bodyLoop operator gen value env i last => bodyTurn operator gen env i last value
  | .logicLoop isAnd args env i last => logicTurn isAnd args env i last
  | .doLoop args env i last => doTurn args env i last
  | .whileLoop args env numArgs count => whileTurn args env numArgs count
  | .copy value => copyValue value
  | .aux (.number asInt add) [self, x] => addNumber asInt add self x
  | .aux (.pushText isSym) [self, x] => pushText isSym self x
  | .aux (.copyVec i) [collection, pred, result, env] => copyVecTurn collection pred result env i
  | .aux (.copyStr i acc) [collection, pred, env] => copyStrTurn collection pred env i acc
  | .aux .template [value, inner, env] => templateInner value inner env
  | .aux (.howto gen i) [example_, expected, env, result] => howtoTurn example_ expected env result gen i
  | .aux _ _ => fail .null

end Dern.Prog

namespace Dern
open Prog (Library)

/-- Evaluating `form` in `env` from the state `v` ends with the result `r` in the state `w`; `tr`
are the evaluations made directly by it, in order. -/
def Evaluates (W : World) (L : Library) (v : Vm) (form env : Ref) (r : Option Ref) (w : Vm)
    (tr : List Event) : Prop :=
  ∃ n, run W n (handler W (Prog.body L) n) (Prog.body L (.eval form env)) v = .ok (r, w, tr)

end Dern
