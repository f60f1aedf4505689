import Verif.Dern.Containers
/-
The special form `for` (stdlib.c:2548-3557).

Simplifications: iterating a port is outside of the model.  Where the body has shortened the vector or
queue being iterated, the code binds the counter to a null pointer: that, too, is outside of the model
(`Fault.external`).  The order in which the bindings of an environment are visited may differ from
turn to turn in the model.
-/
namespace Dern.Prog

/-- the values of `i` in `for (i = 0; i < len; i += step)` -/
def indices (len step : Nat) : List Nat := (List.range ((len + step - 1) / step)).map (· * step)

/-- popping values in the given order -/
def popAll : List Ref → Prog Unit
  | [] => pure ()
  | r :: rs => do
    pop r
    popAll rs

/-- the forms of the body, e.g. stdlib.c:2748-2786, with `k` forms left from the index `i` on: null, or
the value with which the loop is left -/
def forBody (args env : Ref) : (k i : Nat) → Prog (Option Ref)
  | 0, _ => pure none
  | k + 1, i => do
    let r ← evalReq args i env
    match (← read r).obj with
    | .err _ _ => pure (some r)
    | _ =>
      match ← getReturn with
      | some x => pure (some x)
      | none => forBody args env k (i + 1)

/-- the turns for the indices given, e.g. stdlib.c:2731-2789: the number of completed turns, or the
value with which the loop is left.  `next` gives the value for the counter `sym`.  The number
overflowing is undefined behaviour. -/
def forTurns (next : Nat → Prog Ref) (args ext sym : Ref) (k first : Nat) :
    List Nat → Int → Prog (Ref ⊕ Int)
  | [], count => pure (.inr count)
  | i :: is, count => do
    let x ← next i
    envSet ext sym x
    match ← forBody args ext k first with
    | some r => pure (.inl r)
    | none =>
      if count = intMax then fail .ub else forTurns next args ext sym k first is (count + 1)

/-- a vector of two values: octaspire_dern_vm_create_new_value_vector_from_values, vm.c:2498-2517 -/
def pairVec (k v : Ref) : Prog Ref := do
  let r ← alloc (.vec [])
  append r k
  append r v
  pure r

/-- the value for the counter at the index `i` of a container, through a pointer to its payload taken
when its generation was `gen`: stdlib.c:2733-2746, 2812-2818, 2895-2905, 2964-2969, 3029-3040,
3100-3111 -/
def forElement (container : Ref) (gen : Nat) (i : Nat) : Prog Ref := do
  let c ← read container
  if c.gen ≠ gen then fail .released
  else
    match c.obj with
    | .str s =>
      match s[i]? with
      | some ch => alloc (.chr [ch])
      | none => fail .abort
    | .vec es | .queue _ es =>
      match es[i]? with
      | some x => pure x
      | none => fail .external
    | .list es =>
      match es[i]? with
      | some x => pure x
      | none => fail .abort
    | .hmap _ es =>
      match es[i]? with
      | some e => pairVec e.1 e.2
      | none => fail .null
    | .env bs _ => do
      let (_, es) ← arrange (bs.map fun b => (b.key, b.val))
      match es[i]? with
      | some e => pairVec e.1 e.2
      | none => fail .null
    | _ => fail .ub

/-- the value for the counter in the turn `i` from `start` upwards or downwards, stdlib.c:3429-3437,
3490-3498: the start is copied again in each turn -/
def forNumber (start : Ref) (up : Bool) (i : Nat) : Prog Ref := do
  let r ← copyOf start
  match (← read r).obj with
  | .int n => do
    setObj r (.int (Int.bmod (if up then n + i else n - i) (2 ^ 32)))
    pure r
  | _ => fail .ub

/-- the end of a loop, e.g. stdlib.c:2791-2795: `rest` is on the stack -/
def forEnd (rest : List Ref) : Ref ⊕ Int → Prog (Option Ref)
  | .inl r => do
    popAll rest
    pure (some r)
  | .inr n => do
    popAll rest
    let r ← alloc (.int n)
    pure (some r)

/-- the optional `step` and its size at the index `i`, stdlib.c:2652-2710, 3317-3394: the error
after which `rest` has been popped, or the size of the steps and the index at which the body begins.  (The size of the
steps is then evaluated as the first form of the body.) -/
def forStep (args : Ref) (i numArgs : Nat) (rest : List Ref) : Prog (Option Ref ⊕ Nat × Nat) := do
  let x ← require (← elemAt args i)
  if ← isSymbol x (txt "step") then
    if numArgs < i + 2 then do
      popAll rest
      let r ← error "Special 'for' expects at least %zu arguments with a given step size."
      pure (.inl r)
    else do
      let y ← require (← elemAt args (i + 1))
      match (← read y).obj with
      | .int n =>
        if n ≤ 0 then do
          let r ← error "The 'step' of special 'for' must be larger than zero."
          popAll rest
          pure (.inl r)
        else pure (.inr (n.toNat, i + 1))
      | _ => do
        let r ← error "argument to special 'for' using 'step' must be an integer step size."
        popAll rest
        pure (.inl r)
  else pure (.inr (1, i))

/-- how many turns a container is good for: null for values that `for` does not iterate -/
def forLength : Obj → Option Nat
  | .str s => some s.length
  | .vec es | .queue _ es | .list es => some es.length
  | .hmap _ es => some es.length
  | .env bs _ => some bs.length
  | _ => none

/-- `(for sym in container …)`, stdlib.c:2604-3254 -/
def forIn (args env sym : Ref) (numArgs : Nat) : Prog (Option Ref) := do
  let container ← evalReq args 2 env
  push container
  let c ← read container
  match c.obj, forLength c.obj with
  | .port _, _ => fail .external
  | _, none => do
    let r ← error "Third argument to special 'for' using 'in' must be a container or a port."
    popAll [container, args]
    pure r
  | _, some len => do
    match ← forStep args 3 numArgs [container, args] with
    | .inl r => pure r
    | .inr (step, first) => do
      let ext ← alloc (.env [] (some env))
      push ext
      let x ← forTurns (forElement container c.gen) args ext sym (numArgs - first) first
        (indices len step) 0
      forEnd [ext, container, args] x

/-- the integers of both ends of a range -/
def forRange (start stop : Ref) : Prog (Int × Int) := do
  match (← read start).obj, (← read stop).obj with
  | .int a, .int b => pure (a, b)
  | _, _ => fail .ub

/-- `(for sym from start to stop …)`, stdlib.c:3255-3552.  The comparison of the two ends
(value.c:4907-4911) and the number of turns (stdlib.c:3417-3418, 3478-3479) are differences of 32-bit
integers; if the first overflows, so does the second. -/
def forFrom (args env sym : Ref) (numArgs : Nat) : Prog (Option Ref) := do
  let start ← evalReq args 2 env
  push start
  match (← read start).obj with
  | .int _ => do
    let stop ← evalReq args 4 env
    push stop
    if (← read stop).obj.tag ≠ (← read start).obj.tag then do
      let r ← error "Fifth argument to special 'for' using 'from' must be of same type than the third."
      popAll [stop, start, args]
      pure r
    else do
      match ← forStep args 5 numArgs [stop, start, args] with
      | .inl r => pure r
      | .inr (step, first) => do
        let ext ← alloc (.env [] (some env))
        push ext
        let (a, b) ← forRange start stop
        let up := decide (a ≤ b)
        let n ← int32 (if up then b - a else a - b)
        let x ← forTurns (forNumber start up) args ext sym (numArgs - first) first
          (indices (n.toNat + 1) step) 0
        forEnd [ext, stop, start, args] x
  | _ => do
    let r ← error "Third argument to special 'for' using 'from' must be integer."
    popAll [start, args]
    pure r

/-- octaspire_dern_vm_special_for, stdlib.c:2548-3557.  With neither `in` nor `from` the result is a
null pointer, which the caller (vm.c:3869-3893) uses. -/
def spFor (args env : Ref) : Prog (Option Ref) := do
  let es ← verifyVec args
  verifyEnv env
  push args
  match es with
  | sym :: kind :: _ :: _ :: _ =>
    match (← read sym).obj with
    | .sym _ =>
      match (← read kind).obj with
      | .sym k =>
        if k = txt "in" then forIn args env sym es.length
        else if k = txt "from" then forFrom args env sym es.length
        else fail .null
      | _ => do
        pop args
        error "Second argument to special 'for' must be symbol 'in' or 'from'."
    | _ => do
      pop args
      error "First argument to special 'for' must be symbol value."
  | _ => do
    pop args
    error "Special 'for' expects at least four or five arguments."

end Dern.Prog
