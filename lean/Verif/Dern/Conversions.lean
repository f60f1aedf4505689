import Verif.Dern.Containers
/-
Builtin functions that tell kinds of values apart, convert, print and compare them
(stdlib.c:3560-3617, 6181-6720, 7328-8034, 11759-12478).

Simplification: the vector of arguments is read once; it is a fresh one that nothing else refers to.
-/
namespace Dern.Prog
open Spec (Dbl)

/-! ### kinds -/

/-- octaspire_dern_value_is_integer …, value.c:1712-1790 -/
def Kind.holds (k : Kind) : Obj → Bool
  | .int _ => k = .integer || k = .number
  | .real _ => k = .real || k = .number
  | .nil => k = .nil
  | .bool _ => k = .boolean
  | .chr _ => k = .character
  | .str _ => k = .string
  | .sym _ => k = .symbol
  | .vec _ => k = .vector
  | .hmap _ _ => k = .hashMap
  | _ => false

/-- octaspire_dern_vm_builtin_integer_question_mark …, stdlib.c:11759-11897, 11967-12138 -/
def biIsA (k : Kind) (args env : Ref) : Prog (Option Ref) := do
  let es ← verifyVec args
  verifyEnv env
  match es with
  | [x] => do
    let c ← read x
    let r ← alloc (.bool (Kind.holds k c.obj))
    pure (some r)
  | _ => error "Builtin '%s' expects one argument."

/-! ### comparing -/

/-- the loops of octaspire_dern_vm_builtin_max and octaspire_dern_vm_builtin_min,
stdlib.c:7476-7490, 7531-7545 -/
def extreme (isMax : Bool) (best : Ref) : List Ref → Prog Ref
  | [] => pure best
  | x :: xs => do
    let c ← compare x best
    if (if isMax then 0 < c else c < 0) then extreme isMax x xs else extreme isMax best xs

/-- octaspire_dern_vm_builtin_max, stdlib.c:7443-7496, and octaspire_dern_vm_builtin_min,
stdlib.c:7498-7551 -/
def biExtreme (isMax : Bool) (args env : Ref) : Prog (Option Ref) := do
  let es ← verifyVec args
  verifyEnv env
  match es with
  | x :: y :: xs => do
    let r ← extreme isMax x (y :: xs)
    pure (some r)
  | _ => error "Builtin '%s' expects at least %zu arguments. %zu arguments were given."

/-- octaspire_dern_vm_builtin_starts_with_question_mark, stdlib.c:3560-3617 -/
def biStartsWith (args env : Ref) : Prog (Option Ref) := do
  let es ← verifyVec args
  verifyEnv env
  match es with
  | [x, y] => do
    push args
    let cx ← read x
    let cy ← read y
    match cx.obj, cy.obj with
    | .str s, .str t => do
      pop args
      match Dern.startsWith s t with
      | none => fail .abort
      | some b => do
        let r ← alloc (.bool b)
        pure (some r)
    | _, _ => do
      pop args
      let r ← getRoot .false
      pure (some r)
  | _ => error "Builtin 'starts-with?' expects two arguments."

/-- the text of a string, a symbol or a character, octaspire_dern_value_as_text_get_string_const -/
def anyText : Obj → Option Text
  | .str s | .sym s | .chr s => some s
  | _ => none

/-- octaspire_dern_value_is_number, value.c:1724-1729 -/
def isNumber : Obj → Bool
  | .int _ | .real _ => true
  | _ => false

/-- octaspire_dern_vm_builtin_distance, stdlib.c:7328-7441 -/
def biDistance (args env : Ref) : Prog (Option Ref) := do
  let es ← verifyVec args
  verifyEnv env
  match es with
  | [x, y] => do
    let cx ← read x
    let cy ← read y
    match anyText cx.obj, anyText cy.obj with
    | some s, some t =>
      match levenshtein s t with
      | none => fail .abort
      | some n => do
        let r ← alloc (.int (Int.bmod n (2 ^ 32)))
        pure (some r)
    | _, _ =>
      if isNumber cx.obj && isNumber cy.obj then do
        let d ← real
        let r ← alloc (.real d)
        pure (some r)
      else error "The first argument to builtin '%s' must be a number or text."
  | _ => error "Builtin '%s' expects two arguments."

/-! ### mathematics -/

/-- `< 0` of a number -/
def isNegative : Obj → Bool
  | .int n => n < 0
  | .real d =>
    match d.value with
    | some x => x < 0
    | none => false
  | _ => false

/-- may the arguments of a function be of this number? `sqrt` and `pow` take exactly theirs, the
others at least one, stdlib.c:7565, 7913, 7977 -/
def MathFn.takes : MathFn → Nat → Bool
  | .pow, n => n = 2
  | .sqrt, n => n = 1
  | _, n => 1 ≤ n

/-- octaspire_dern_vm_builtin_cos … pow, stdlib.c:7553-8034 -/
def biMath (f : MathFn) (args env : Ref) : Prog (Option Ref) := do
  let es ← verifyVec args
  verifyEnv env
  match es with
  | [] => error "Builtin '%s' expects %zu arguments."
  | x :: xs =>
    if MathFn.takes f es.length then do
      let cx ← read x
      if isNumber cx.obj then
        match f, xs with
        | .sqrt, _ =>
          if isNegative cx.obj then error "First argument to builtin '%s' have to be non-negative."
          else do
            let d ← real
            let r ← alloc (.real d)
            pure (some r)
        | .pow, y :: _ => do
          let cy ← read y
          if isNumber cy.obj then do
            let d ← real
            let r ← alloc (.real d)
            pure (some r)
          else error "Second argument to builtin '%s' should be a number."
        | _, _ => do
          let d ← real
          let r ← alloc (.real d)
          pure (some r)
      else error "First argument to builtin '%s' should be a number."
    else error "Builtin '%s' expects %zu arguments."

/-! ### conversions -/

/-- isspace in the "C" locale -/
def isSpaceOctet (o : Nat) : Bool := o = 32 || (9 ≤ o && o ≤ 13)

/-- the nearest value of type intmax_t -/
def saturate (n : Int) : Int := if n < -2 ^ 63 then -2 ^ 63 else if 2 ^ 63 ≤ n then 2 ^ 63 - 1 else n

/-- strtoimax(…, 0, 10), C11 7.8.2.3: white space, a sign and digits -/
def strtoimax (o : List Nat) : Int :=
  match o.dropWhile isSpaceOctet with
  | 45 :: ds => saturate (-(digitsValue (leadingDigits ds)))
  | 43 :: ds => saturate (digitsValue (leadingDigits ds))
  | ds => saturate (digitsValue (leadingDigits ds))

/-- the octets of a C string -/
def octetsOf (t : Text) : Prog (List Nat) :=
  match getCString t with
  | none => fail .abort
  | some o => pure (o.map BitVec.toNat)

/-- `(int32_t)` of the value of a number -/
def numberToInt : Obj → Prog Int
  | .int n => pure n
  | .real d => truncate d
  | _ => fail .abort

/-- the conversion of a 64-bit or an unsigned number to `int32_t`, stdlib.c:6500, 6507-6516 -/
def toInt32 (n : Int) : Int := Int.bmod n (2 ^ 32)

/-- the integer for a value, stdlib.c:6482-6531: null for a value of another type -/
def objToInt (o : Obj) : Prog (Option Int) :=
  match o with
  | .int n => pure (some n)
  | .real d => do
    let n ← truncate d
    pure (some n)
  | .chr t => pure (some (toInt32 (t.head?.getD 0)))
  | .str t | .sym t => do
    let o ← octetsOf t
    pure (some (toInt32 (strtoimax o)))
  | _ => pure none

/-- octaspire_dern_vm_builtin_to_integer, stdlib.c:6456-6539 -/
def biToInteger (args env : Ref) : Prog (Option Ref) := do
  let es ← verifyVec args
  verifyEnv env
  match es with
  | [x] => do
    let c ← read x
    let n ← objToInt c.obj
    match n with
    | some n => do
      let r ← alloc (.int n)
      pure (some r)
    | none => error "First argument to 'to-integer' is currently unsupported type."
  | [] => error "Builtin 'to-integer' expects one or more arguments."
  | _ => error "Builtin 'to-integer' supports at the moment only one argument."

/-- `(double)` of an integer below 2^53 in magnitude (C11 6.3.1.4), as IEEE 754 binary64: exact -/
def exactDouble (n : Int) : Dbl :=
  if n = 0 then 0
  else BitVec.ofNat 64 ((if n < 0 then 2 ^ 63 else 0) + (1023 + n.natAbs.log2) * 2 ^ 52 +
    (n.natAbs * 2 ^ (52 - n.natAbs.log2) - 2 ^ 52))

/-- octaspire_dern_vm_builtin_to_real, stdlib.c:6365-6454; what strtod gives is not modelled -/
def biToReal (args env : Ref) : Prog (Option Ref) := do
  let es ← verifyVec args
  verifyEnv env
  match es with
  | [x] => do
    let c ← read x
    match c.obj with
    | .real d => do
      let r ← alloc (.real d)
      pure (some r)
    | .int n => do
      let r ← alloc (.real (exactDouble n))
      pure (some r)
    | .chr t => do
      let r ← alloc (.real (exactDouble (t.head?.getD 0)))
      pure (some r)
    | .str t | .sym t => do
      let _ ← octetsOf t
      let d ← real
      let r ← alloc (.real d)
      pure (some r)
    | _ => error "First argument to '%s' is currently unsupported type."
  | _ => error "Builtin '%s' expects %zu arguments."

/-- octaspire_dern_vm_builtin_character, stdlib.c:11899-11965.  Two characters have names. -/
def biCharacter (args env : Ref) : Prog (Option Ref) := do
  let es ← verifyVec args
  verifyEnv env
  match es with
  | [x] => do
    let c ← read x
    match anyText c.obj with
    | some t =>
      if t = txt "copyright sign" then do
        let r ← alloc (.chr [0xA9])
        pure (some r)
      else if t = txt "greek small letter lambda" then do
        let r ← alloc (.chr [0x3BB])
        pure (some r)
      else error "Builtin '%s' does not support character name '%s' that was given as the first argument."
    | none =>
      if isNumber c.obj then do
        let n ← numberToInt c.obj
        if n < 0 then error "Builtin '%s' expects non-negative number as the first argument."
        else do
          let r ← alloc (.chr [n.toNat])
          pure (some r)
      else error "Builtin '%s' expects number of text as the first argument."
  | _ => error "Builtin '%s' expects at one argument."

/-! ### printing -/

/-- the parts of a format string, stdlib.c:6222-6303, 6617-6687: characters, and null for the place
of an argument; `prev` is `prevChar` -/
def formatParts (prev : Nat) : Text → List (Option Ch)
  | [] => []
  | 39 :: cs => if prev = 39 then some 39 :: formatParts 0 cs else some 39 :: formatParts 39 cs
  | 123 :: 125 :: cs =>
    if prev = 39 then some 123 :: some 125 :: formatParts 125 cs
    else none :: formatParts 123 cs
  | c :: cs => some c :: formatParts c cs

/-- filling in the arguments, printed without delimiters at the top, stdlib.c:6222-6303; null if
there are not enough of them -/
def fillFormat : List (Option Ch) → List Ref → Text → Prog (Option Text)
  | [], _, acc => pure (some acc)
  | some c :: ps, xs, acc => fillFormat ps xs (acc ++ [c])
  | none :: _, [], _ => pure none
  | none :: ps, x :: xs, acc => do
    let t ← print true x
    match recode t with
    | none => fail .abort
    | some t => fillFormat ps xs (acc ++ t)

/-- octaspire_dern_vm_builtin_string_format, stdlib.c:6181-6317 -/
def biStringFormat (args env : Ref) : Prog (Option Ref) := do
  let es ← verifyVec args
  verifyEnv env
  match es with
  | [] => error "Builtin 'string-format' expects one or more arguments."
  | [x] => do
    let t ← print false x
    let r ← alloc (.str t)
    pure (some r)
  | x :: xs =>
    match (← read x).obj with
    | .str s => do
      match ← fillFormat (formatParts 0 s) xs [] with
      | some t => do
        let r ← alloc (.str t)
        pure (some r)
      | none => error "Not enough arguments for the format string of 'string-format'."
    | _ => error "First argument to builtin 'string-format' must be format string if there are more than one argument."

/-- the loop of octaspire_dern_vm_builtin_to_string, stdlib.c:6346-6359 -/
def printAll (acc : Text) : List Ref → Prog Text
  | [] => pure acc
  | x :: xs => do
    let t ← print false x
    match recode t with
    | none => fail .abort
    | some t => printAll (acc ++ t) xs

/-- octaspire_dern_vm_builtin_to_string, stdlib.c:6319-6363 -/
def biToString (args env : Ref) : Prog (Option Ref) := do
  let es ← verifyVec args
  verifyEnv env
  match es with
  | [] => error "Builtin 'to-string' expects one or more arguments."
  | x :: xs => do
    let t ← print false x
    let t ← printAll t xs
    let r ← alloc (.str t)
    pure (some r)

/-- printing a value, octaspire_dern_value_print, value.c:1930-1938 -/
def emitValue (x : Ref) : Prog Unit := do
  let t ← print false x
  let o ← octetsOf t
  emit o

/-- printing the parts of a format string with the arguments filled in, stdlib.c:6617-6689; a
character is converted to a `char`.  Are there enough arguments? -/
def emitFormat : List (Option Ch) → List Ref → Prog Bool
  | [], _ => pure true
  | some c :: ps, xs => do
    emit [c % 256]
    emitFormat ps xs
  | none :: _, [] => pure false
  | none :: ps, x :: xs => do
    emitValue x
    emitFormat ps xs

/-- octaspire_dern_vm_builtin_print, stdlib.c:6591-6695 -/
def biPrint (args env : Ref) : Prog (Option Ref) := do
  let es ← verifyVec args
  verifyEnv env
  match es with
  | [] => error "Builtin 'print' expects one or more arguments."
  | [x] => do
    emitValue x
    let r ← getRoot .true
    pure (some r)
  | x :: xs =>
    match (← read x).obj with
    | .str s => do
      if ← emitFormat (formatParts 0 s) xs then do
        let r ← getRoot .true
        pure (some r)
      else error "Not enough arguments for the format string of 'println'."
    | _ => do
      emitValue x
      let r ← getRoot .true
      pure (some r)

/-- octaspire_dern_vm_builtin_println, stdlib.c:6697-6720 -/
def biPrintln (args env : Ref) : Prog (Option Ref) := do
  let es ← verifyVec args
  match es with
  | [] => do
    emit [10]
    let r ← getRoot .true
    pure (some r)
  | _ => do
    let r ← biPrint args env
    emit [10]
    pure r

/-- octaspire_dern_vm_builtin_print_readably, stdlib.c:6541-6589 -/
def biPrintReadably (args env : Ref) : Prog (Option Ref) := do
  let es ← verifyVec args
  verifyEnv env
  match es with
  | [] => do
    let b ← readably
    let r ← alloc (.bool b)
    pure (some r)
  | [x] => do
    push args
    match (← read x).obj with
    | .bool b => do
      setReadably b
      pop args
      let b ← readably
      let r ← alloc (.bool b)
      pure (some r)
    | _ => do
      pop args
      error "Builtin 'print-readably' expects boolean argument or no arguments."
  | _ => error "Builtin 'print-readably' expects zero or one argument."

/-! ### copying -/

/-- asking the predicate of `copy` about an element, stdlib.c:12198-12231, 12291-12318 -/
def askPredicate (pred x env : Ref) (i : Nat) : Prog Ref := do
  let form ← alloc (.vec [])
  push form
  append form pred
  append form x
  let n ← alloc (.int (Int.bmod i (2 ^ 32)))
  append form n
  let r ← eval form env
  pop form
  require r

/-- one turn of the loop of `copy` with a predicate on a vector, stdlib.c:12189-12262; the new vector
is `result`.  Null at the end, or the answer that is not a boolean.  (If the predicate has made
something else of the vector, octaspire_helpers_verify_true aborts.) -/
def copyVecTurn (collection pred result env : Ref) (i : Nat) : Prog (Option Ref) := do
  match (← read collection).obj with
  | .vec es =>
    match es[i]? with
    | none => pure none
    | some x => do
      let a ← askPredicate pred x env i
      match (← read a).obj with
      | .bool true => do
        let y ← deref (← call (.copy x))
        append result y
        call (.aux (.copyVec (i + 1)) [collection, pred, result, env])
      | .bool false => call (.aux (.copyVec (i + 1)) [collection, pred, result, env])
      | _ => pure (some a)
  | o =>
    match objLength o with
    | some n => if i < n then fail .abort else pure none
    | none => fail .external

/-- `copy` with a predicate on a vector -/
def copyVecIf (collection pred env : Ref) : Prog (Option Ref) := do
  let r ← alloc (.vec [])
  push r
  match ← call (.aux (.copyVec 0) [collection, pred, r, env]) with
  | none => do
    pop r
    pure (some r)
  | some _ => do
    pop r
    error "Second argument to builtin 'copy' must be a function that returns boolean value."

/-- one turn of the loop of `copy` with a predicate on a string, stdlib.c:12279-12352, with the
characters selected so far.  (Using a value that is no string anymore as one is undefined.) -/
def copyStrTurn (collection pred env : Ref) (i : Nat) (acc : Text) : Prog (Option Ref) := do
  match (← read collection).obj with
  | .str s =>
    match s[i]? with
    | none => do
      let r ← alloc (.str acc)
      pure (some r)
    | some c => do
      let x ← alloc (.chr [c])
      push x
      let a ← askPredicate pred x env i
      match (← read a).obj with
      | .bool true => do
        pop x
        match (← read collection).obj with
        | .str s' =>
          match s'[i]? with
          | some c' => call (.aux (.copyStr (i + 1) (acc ++ [c'])) [collection, pred, env])
          | none => fail .abort
        | _ => fail .ub
      | .bool false => do
        pop x
        call (.aux (.copyStr (i + 1) acc) [collection, pred, env])
      | _ => do
        pop x
        error "Second argument to builtin 'copy' must be a function that returns boolean value."
  | o =>
    match objLength o with
    | some n =>
      if i < n then fail .ub
      else do
        let r ← alloc (.str acc)
        pure (some r)
    | none => fail .external

/-- copies of all elements of a vector, stdlib.c:12167-12262 without a predicate -/
def copyVecAll (es : List Ref) : Prog (Option Ref) := do
  let r ← alloc (.vec [])
  push r
  appendCopies r es
  pop r
  pure (some r)

/-- octaspire_dern_vm_builtin_copy, stdlib.c:12140-12478.  Copying C data is outside of the model. -/
def biCopy (args env : Ref) : Prog (Option Ref) := do
  let es ← verifyVec args
  verifyEnv env
  match es with
  | [x] =>
    match (← read x).obj with
    | .vec es => copyVecAll es
    | .str s => do
      let r ← alloc (.str s)
      pure (some r)
    | .int n => do
      let r ← alloc (.int n)
      pure (some r)
    | .cdata _ => fail .external
    | _ => error "Builtin 'copy' does not support copying of type '%s' at the moment."
  | [x, p] =>
    match (← read p).obj with
    | .fn _ =>
      match (← read x).obj with
      | .vec _ => copyVecIf x p env
      | .str _ => call (.aux (.copyStr 0 []) [x, p, env])
      | .int _ => error "Builtin 'copy' expects one argument when used with integer."
      | .cdata _ => fail .abort
      | _ => error "Builtin 'copy' does not support copying of type '%s' at the moment."
    | _ => error "Builtin 'copy' expects function (predicate) as second argument."
  | _ => error "Builtin 'copy' expects one or two arguments."

end Dern.Prog
