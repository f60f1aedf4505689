import Verif.Dern.Builtins
/-
Builtin functions on containers and texts (stdlib.c:6811-7326, 8036-8308, 10033-10462, 10765-11702;
vm.c:4694-5160).

Simplification: the vector of arguments is read once; it is a fresh one that nothing else refers to.
-/
namespace Dern.Prog
open Spec (Dbl Version Ident)

/-! ### adding and removing -/

/-- octaspire_dern_vm_builtin_port_write for one value of `+=`, stdlib.c:8157-8176 -/
def writePort (L : Library) (self env x : Ref) : Prog Unit := do
  let tmp ← alloc (.vec [])
  push tmp
  append tmp self
  append tmp x
  let _ ← L.builtin (.other "port-write") tmp env
  pop tmp

/-- `+=` on a hash map, stdlib.c:8237-8276 -/
def plusEqMap (self : Ref) (xs : List Ref) : Prog (Option Ref) := do
  match xs with
  | [x] =>
    if ← mapAdd self x then pure (some self) else error "Builtin '+=' failed"
  | [k, v] =>
    if ← mapAddPair self k v then pure (some self) else error "Builtin '+=' failed"
  | _ => error "Builtin '+=' expects one or two additional arguments for hash map"

/-- `+=` on a character, stdlib.c:8066-8087: the second argument is added, the others are pushed to
the string the character has become -/
def plusEqChar (self : Ref) (xs : List Ref) : Prog Unit := do
  match xs with
  | [] => pure ()
  | x :: xs => do
    addChar self x
    each (fun x => do let _ ← pushText false self x) xs

/-- octaspire_dern_vm_builtin_plus_equals, stdlib.c:8036-8308 -/
def biPlusEq (L : Library) (args env : Ref) : Prog (Option Ref) := do
  let es ← verifyVec args
  verifyEnv env
  match es with
  | [] => error "Builtin '+=' expects at least one argument."
  | self :: xs =>
    match (← read self).obj with
    | .chr _ => do
      plusEqChar self xs
      pure (some self)
    | .real _ => do
      each (fun x => do let _ ← addNumber false true self x) xs
      pure (some self)
    | .int _ => do
      each (fun x => do let _ ← addNumber true true self x) xs
      pure (some self)
    | .vec _ => do
      each (fun x => append self x) xs
      pure (some self)
    | .list _ | .queue _ _ => do
      each (fun x => pushElement self x) xs
      pure (some self)
    | .port _ => do
      each (fun x => writePort L self env x) xs
      pure (some self)
    | .str _ => do
      each (fun x => do let _ ← pushText false self x) xs
      pure (some self)
    | .sym _ => do
      each (fun x => do let _ ← pushText true self x) xs
      pure (some self)
    | .semver _ => do
      each (fun x => do let _ ← addVersion true self x) xs
      pure (some self)
    | .hmap _ _ => plusEqMap self xs
    | .err _ _ => pure (some self)
    | _ => error "First argument to builtin '+=' cannot be of type '%s'."

/-- `-=` on a character, stdlib.c:6841-6862 -/
def minusEqChar (self : Ref) (xs : List Ref) : Prog Unit := do
  match xs with
  | [] => pure ()
  | x :: xs => do
    subChar self x
    each (fun _ => popString self) xs

/-- something that fails with an error of `-=` -/
def orFail (p : Prog Bool) : Prog (Option Ref) := do
  if ← p then pure none else error "Builtin '-=' failed"

/-- the first error, or the first argument -/
def unlessError (self : Ref) : Option Ref → Prog (Option Ref)
  | some e => pure (some e)
  | none => pure (some self)

/-- octaspire_dern_vm_builtin_minus_equals, stdlib.c:6811-7016 -/
def biMinusEq (args env : Ref) : Prog (Option Ref) := do
  let es ← verifyVec args
  verifyEnv env
  match es with
  | [] => error "Builtin '-=' expects at least one argument."
  | self :: xs =>
    match (← read self).obj with
    | .chr _ => do
      minusEqChar self xs
      pure (some self)
    | .real _ => do
      each (fun x => do let _ ← addNumber false false self x) xs
      pure (some self)
    | .int _ => do
      each (fun x => do let _ ← addNumber true false self x) xs
      pure (some self)
    | .vec _ => do
      each (fun x => removeElements (fun y => equalValues x y) self) xs
      pure (some self)
    | .str _ => do
      let e ← eachUntil (fun x => orFail (stripText self x)) xs
      unlessError self e
    | .hmap _ _ => do
      let e ← eachUntil (fun x => orFail (mapRemove self x)) xs
      unlessError self e
    | .semver _ => do
      let e ← eachUntil (fun x => orFail (addVersion false self x)) xs
      unlessError self e
    | .err _ _ => pure (some self)
    | _ => error "First argument to builtin '-=' cannot be of type '%s'."

/-- octaspire_dern_vm_builtin_minus_equals_equals, stdlib.c:7018-7113 -/
def biMinusEqEq (args env : Ref) : Prog (Option Ref) := do
  let es ← verifyVec args
  verifyEnv env
  match es with
  | [] => error "Builtin '-==' expects at least one argument."
  | self :: xs =>
    match (← read self).obj with
    | .vec _ => do
      each (fun x => removeElements (fun y => sameUid x y) self) xs
      pure (some self)
    | .err _ _ => pure (some self)
    | _ => error "First argument to builtin '-==' cannot be of type '%s'."

/-- octaspire_dern_vm_builtin_pop_back, stdlib.c:7115-7222, and octaspire_dern_vm_builtin_pop_front,
stdlib.c:7224-7326 -/
def biPop (back : Bool) (args env : Ref) : Prog (Option Ref) := do
  let es ← verifyVec args
  verifyEnv env
  match es with
  | [self] =>
    match (← read self).obj with
    | .err _ _ => pure (some self)
    | o =>
      match Obj.less back o with
      | some (o', _) => do
        setObj self o'
        pure (some self)
      | none => error "First argument to builtin 'pop-back' cannot be of type '%s'."
  | _ => error "Builtin 'pop-back' expects exactly one argument."

/-! ### making containers -/

/-- the loop of octaspire_dern_vm_builtin_hash_map, stdlib.c:10255-10291; `r` is the new hash map -/
def hashMapLoop (r : Ref) : List Ref → Prog (Option Ref)
  | k :: v :: l => do
    mapPut r k v
    hashMapLoop r l
  | [_] => do
    pop r
    error "Builtin 'hash-map' expects key here."
  | [] => do
    pop r
    pure (some r)

/-- octaspire_dern_vm_builtin_hash_map, stdlib.c:10238-10296.  A new map has 128 buckets. -/
def biHashMap (args env : Ref) : Prog (Option Ref) := do
  let es ← verifyVec args
  verifyEnv env
  let r ← alloc (.hmap 128 [])
  push r
  hashMapLoop r es

/-- filling a new container -/
def fillNew (o : Obj) (xs : List Ref) : Prog (Option Ref) := do
  let r ← alloc o
  push r
  each (fun x => pushElement r x) xs
  pop r
  pure (some r)

/-- octaspire_dern_vm_builtin_queue, stdlib.c:10298-10338 -/
def biQueue (args env : Ref) : Prog (Option Ref) := do
  let es ← verifyVec args
  verifyEnv env
  fillNew (.queue none []) es

/-- octaspire_dern_vm_builtin_queue_with_max_length, stdlib.c:10340-10420 -/
def biQueueMax (args env : Ref) : Prog (Option Ref) := do
  let es ← verifyVec args
  verifyEnv env
  match es with
  | [] => error "Builtin 'queue-with-max-length' expects at least one argument."
  | x :: xs =>
    match (← read x).obj with
    | .int n =>
      if n < 0 then error "The first argument to builtin 'queue-with-max-length' must be non negative integer."
      else fillNew (.queue (some n.toNat) []) xs
    | _ => error "The first argument to builtin 'queue-with-max-length' must be integer."

/-- octaspire_dern_vm_builtin_list, stdlib.c:10422-10462 -/
def biList (args env : Ref) : Prog (Option Ref) := do
  let es ← verifyVec args
  verifyEnv env
  fillNew (.list []) es

/-! ### searching -/

/-- appending new integers to a vector: (int32_t) of a size_t keeps the low 32 bits -/
def appendInts (r : Ref) : List Nat → Prog Unit
  | [] => pure ()
  | n :: ns => do
    let i ← alloc (.int (Int.bmod n (2 ^ 32)))
    append r i
    appendInts r ns

/-- octaspire_dern_vm_helper_create_new_value_vector_of_integers_from_vector_of_size_t,
vm.c:4694-4739; a null pointer aborts -/
def indexVector (found : Option (List Nat)) : Prog (Option Ref) := do
  match found with
  | none => fail .abort
  | some ns => do
    let r ← alloc (.vec [])
    push r
    appendInts r ns
    pop r
    pure (some r)

/-- octaspire_string_find_string of a whole text -/
def findWhole (s t : Text) : Option (List Nat) := findString s t 0 t.length

/-- octaspire_dern_vm_find_from_value on a string or a symbol, vm.c:4757-5015 -/
def findInText (isSym : Bool) (s : Text) (key : Ref) : Prog (Option Ref) := do
  match (← read key).obj with
  | .chr t => indexVector (findChar s t 0)
  | .str t =>
    if isSym = false ∧ findWhole s t = none then do
      let r ← alloc (.vec [])
      pure (some r)
    else indexVector (findWhole s t)
  | .sym t => indexVector (findWhole s t)
  | .int n => indexVector (findWhole s (printInt n))
  | .real _ => do
    let t ← text "%g"
    indexVector (findWhole s t)
  | _ => error "Type '%s' cannot be searched from type 'string'"

/-- the loop of octaspire_dern_vm_find_from_value on a vector, vm.c:5031-5048, from position `i` on -/
def findInVec (key r : Ref) : Nat → List Ref → Prog Unit
  | _, [] => pure ()
  | i, x :: xs => do
    if ← equalValues x key then do
      let n ← alloc (.int (Int.bmod i (2 ^ 32)))
      append r n
      findInVec key r (i + 1) xs
    else findInVec key r (i + 1) xs

/-- a value, or nil in place of a null pointer -/
def orNil : Option Ref → Prog (Option Ref)
  | some r => pure (some r)
  | none => do
    let r ← getRoot .nil
    pure (some r)

/-- octaspire_dern_vm_find_from_value, vm.c:4741-5108.  A key of an environment that is not a symbol
is outside of the model. -/
def findFrom (container key : Ref) : Prog (Option Ref) := do
  match (← read container).obj with
  | .str s => findInText false s key
  | .sym s => findInText true s key
  | .vec es => do
    let r ← alloc (.vec [])
    push r
    findInVec key r 0 es
    pop r
    pure (some r)
  | .hmap _ _ => do
    let r ← mapGet container key
    orNil r
  | .env _ _ =>
    match (← read key).obj with
    | .sym name => do
      let r ← call (.lookup container name)
      orNil r
    | _ => fail .external
  | _ => error "'find' doesn't support search from type '%s'"

/-- the loop of octaspire_dern_vm_builtin_find, stdlib.c:10068-10087 -/
def findEach (container r : Ref) : List Ref → Prog Unit
  | [] => pure ()
  | key :: keys => do
    let x ← findFrom container key
    let x ← deref x
    append r x
    findEach container r keys

/-- octaspire_dern_vm_builtin_find, stdlib.c:10033-10107 -/
def biFind (args env : Ref) : Prog (Option Ref) := do
  let es ← verifyVec args
  verifyEnv env
  push args
  push env
  match es with
  | [] | [_] => do
    pop env
    pop args
    error "Builtin 'find' expects at least two arguments."
  | [container, key] => do
    let r ← findFrom container key
    pop env
    pop args
    pure r
  | container :: keys => do
    let r ← alloc (.vec [])
    push r
    findEach container r keys
    pop r
    pop env
    pop args
    pure (some r)

/-- appending new strings to a vector -/
def appendStrs (r : Ref) : List Text → Prog Unit
  | [] => pure ()
  | t :: ts => do
    let x ← alloc (.str t)
    append r x
    appendStrs r ts

/-- octaspire_dern_vm_builtin_split, stdlib.c:10109-10236.  The delimiter is passed as a C string
and becomes a string again (amalgamated.c:6489-6520). -/
def biSplit (args env : Ref) : Prog (Option Ref) := do
  let es ← verifyVec args
  verifyEnv env
  match es with
  | [container, by_] =>
    match (← read container).obj with
    | .str s =>
      match (← read by_).obj with
      | .chr d => do
        let r ← alloc (.vec [])
        push r
        match recode d with
        | none => fail .abort
        | some d =>
          match Dern.split s d with
          | none => fail .assert
          | some ts => do
            appendStrs r ts
            pop r
            pure (some r)
      | _ => error "The second argument to builtin 'split' must be a character when the first is a string."
    | _ => error "The first argument to builtin 'split' must be a container."
  | _ => error "Builtin 'split' expects two arguments."

/-! ### elements -/

/-- octaspire_vector_is_valid_index, amalgamated.c, and octaspire_list_get_at: the position that an
index denotes in a sequence of `n` elements; negative ones count from the back -/
def indexIn (n : Nat) (i : Int) : Option Nat :=
  if 0 ≤ i then (if i < n then some i.toNat else none)
  else if (n : Int) + i < 0 then none else some ((n : Int) + i).toNat

/-- the buckets of a hash map that are not empty, from the elements in the order of iteration: the
elements in one bucket follow each other -/
def bucketsOf (nb : Nat) : List (Ref × Ref) → Prog (List (Nat × List (Ref × Ref)))
  | [] => pure []
  | e :: es => do
    let h ← hashOf e.1
    match ← bucketsOf nb es with
    | (b, l) :: bs => if b = h.toNat % nb then pure ((b, e :: l) :: bs) else pure ((h.toNat % nb, [e]) :: (b, l) :: bs)
    | [] => pure [(h.toNat % nb, [e])]

/-- the loop of octaspire_map_get_at_index for negative indices, amalgamated.c:7991-8014, on the
buckets from the last one on; the index into a bucket is `-(idx - counter)`, where `-0` is the first
element -/
def fromBack (idx : Nat) : List (List (Ref × Ref)) → Nat → Option (Ref × Ref)
  | [], _ => none
  | b :: bs, counter =>
    if idx ≤ counter + b.length - 1 then
      (if idx - counter = 0 then b[0]? else b[b.length - (idx - counter)]?)
    else fromBack idx bs (counter + b.length)

/-- octaspire_map_get_at_index, amalgamated.c:7978-8044 -/
def mapAt (nb : Nat) (es : List (Ref × Ref)) (i : Int) : Prog (Option (Ref × Ref)) := do
  if 0 ≤ i then pure es[i.toNat]?
  else do
    let bs ← bucketsOf nb es
    pure (fromBack (-(i + 1)).toNat (bs.reverse.map (·.2)) 0)

/-- the element of a hash map that `ln@` and `cp@` are asked for, stdlib.c:10855-10937, 11408-11496:
null and an error, or the value -/
def mapElement (m index how : Ref) : Prog (Option Ref × Option Ref) := do
  match (← read how).obj with
  | .sym t =>
    if t = txt "index" then
      match (← read index).obj with
      | .int i =>
        match (← read m).obj with
        | .hmap nb es => do
          match ← mapAt nb es i with
          | some e => pure (some e.2, none)
          | none => do
            let e ← error "Builtin 'ln@' could not find the requested element from hash map."
            pure (none, e)
        | _ => fail .abort
      | _ => do
        let e ← error "Builtin 'ln@' expects integer as second argument when indexing a hash map with given symbol 'index'."
        pure (none, e)
    else if t = txt "hash" then do
      match ← mapGet m index with
      | some r => pure (some r, none)
      | none => do
        let e ← error "Builtin 'ln@' could not find the requested element from hash map."
        pure (none, e)
    else do
      let e ← error "Builtin 'ln@' expects symbol 'hash' or 'index' as third argument when indexing a hash map."
      pure (none, e)
  | _ => do
    let e ← error "Builtin 'ln@' expects symbol as third argument when indexing a hash map."
    pure (none, e)

/-- octaspire_dern_vm_builtin_ln_at_sign, stdlib.c:10765-11046 -/
def biLnAt (args env : Ref) : Prog (Option Ref) := do
  let es ← verifyVec args
  verifyEnv env
  match es with
  | self :: index :: rest =>
    match (← read self).obj with
    | .str _ => error "Builtin 'ln@' cannot be used with strings. Use 'cp@' instead."
    | .vec es =>
      if rest ≠ [] then error "Builtin 'ln@' expects exactly two arguments when used with vector."
      else
        match (← read index).obj with
        | .int i =>
          match (indexIn es.length i).bind (es[·]?) with
          | some x => pure (some x)
          | none => error "Index to builtin 'ln@' is not valid for the given vector."
        | _ => error "Builtin 'ln@' expects integer as second argument when indexing a vector."
    | .hmap _ _ =>
      match rest with
      | [how] => do
        let (x, e) ← mapElement self index how
        match x with
        | some x => pure (some x)
        | none => pure e
      | _ => error "Builtin 'ln@' expects exactly three arguments when used with hash map."
    | .queue _ _ => fail .abort
    | .list es =>
      if rest ≠ [] then error "Builtin 'ln@' expects exactly two arguments when used with list."
      else
        match (← read index).obj with
        | .int i => pure ((indexIn es.length i).bind (es[·]?))
        | _ => error "Builtin 'ln@' expects integer as second argument when indexing a list."
    | _ => error "Builtin 'ln@' expects vector, hash map, queue or list as first argument."
  | _ => error "Builtin 'ln@' expects at least two arguments."

/-- rounding a magnitude to 24 significant bits, to even in the middle between two candidates -/
def round24 (n : Nat) : Nat :=
  if n < 2 ^ 24 then n
  else
    let k := n.log2 - 23
    let q := n / 2 ^ k
    let r := n % 2 ^ k
    (if 2 ^ (k - 1) < r ∨ (r = 2 ^ (k - 1) ∧ q % 2 = 1) then q + 1 else q) * 2 ^ k

/-- conversion to `float`, IEEE 754 binary32, of an integer or of a value in units of a power of two;
the magnitudes of interest are far from the ends of its range -/
def toFloat (x : Int) : Int := if 0 ≤ x then round24 x.natAbs else -(round24 x.natAbs)

/-- an index of `cp@`: octaspire_dern_number_or_unpushed_error_const_t.number is a `float`
(value.h:683-689, value.c:3853-3891), which is then converted to ptrdiff_t.  Null for a value that is
not a number. -/
def indexOf (o : Obj) : Prog (Option Int) :=
  match o with
  | .int n => pure (some (toFloat n))
  | .real d =>
    match d.value with
    | some x =>
      if d.exponent = 2047 then fail .ub
      else do
        let i ← int64 ((toFloat x).tdiv (Dbl.unit : Int))
        pure (some i)
    | none => fail .ub
  | _ => pure none

/-- appending new characters to a vector -/
def appendChars (r : Ref) : Text → Prog Unit
  | [] => pure ()
  | c :: cs => do
    let x ← alloc (.chr [c])
    append r x
    appendChars r cs

/-- `cp@` on a text, stdlib.c:11074-11223.  Nothing protects the new vector from the garbage
collector. -/
def cpText (s : Text) (i j : Int) : Prog (Option Ref) := do
  match textIndex s i with
  | none => error "First index to builtin '%s' is not valid for the given text value (string or symbol)."
  | some a =>
    match textIndex s j with
    | none => error "Second index to builtin '%s' is not valid for the given text value (string or symbol)."
    | some b =>
      if i = j then
        match s[a]? with
        | some c => do
          let r ← alloc (.chr [c])
          pure (some r)
        | none => fail .abort
      else do
        let r ← alloc (.vec [])
        if b < a then fail .abort
        else do
          appendChars r ((s.drop a).take (b + 1 - a))
          pure (some r)

/-- `cp@` on a vector, stdlib.c:11282-11406, after the checks of the indices.  Nothing protects the
new vector from the garbage collector; with the indices in reverse order the loop runs off the end of
the vector and copies a null pointer. -/
def cpVec (es : List Ref) (i j : Int) (a b : Nat) : Prog (Option Ref) := do
  if i = j then
    match es[a]? with
    | some x => call (.copy x)
    | none => fail .null
  else do
    let r ← alloc (.vec [])
    if b < a then do
      appendCopies r (es.drop a)
      fail .null
    else do
      appendCopies r ((es.drop a).take (b + 1 - a))
      pure (some r)

/-- the payload of a new string or integer for an element of a version, vm.c:2333-2405; null if
there is none.  Every position of the pre-release part gives its first identifier. -/
def versionObj (v : Version) (k : Nat) : Prog (Option Obj) := do
  if k = 0 then pure (some (.int (Int.bmod v.major (2 ^ 32))))
  else if k = 1 then pure (some (.int (Int.bmod v.minor (2 ^ 32))))
  else if k = 2 then pure (some (.int (Int.bmod v.patch (2 ^ 32))))
  else if k - 3 < v.pre.length then
    match v.pre.head? with
    | some (Ident.num n) => pure (some (.int (Int.bmod n (2 ^ 32))))
    | some (Ident.lex t) =>
      match recode t with
      | some u => pure (some (.str u))
      | none => fail .abort
    | none => pure none
  else
    match v.build[k - 3 - v.pre.length]? with
    | some t =>
      match recode t with
      | some u => pure (some (.str u))
      | none => fail .abort
    | none => pure none

/-- octaspire_semver_get_length -/
def versionLength (v : Version) : Nat := 3 + v.pre.length + v.build.length

/-- the element of a version, octaspire_dern_vm_value_as_semver_create_value_for_element_at,
vm.c:2303-2411 -/
def versionAt (v : Version) (i : Int) : Prog (Option Ref) := do
  if versionLength v ≤ i.natAbs then error "Index is outside the SemVer length."
  else
    match ← versionObj v (if i < 0 then ((versionLength v : Int) + i).toNat else i.toNat) with
    | some o => do
      let r ← alloc o
      pure (some r)
    | none => error "Bad index for SemVer."

/-- a bit of an integer, stdlib.c:11656-11666: `(bits & (mask << realIndex)) ? 1 : 0` -/
def bitOf (n i : Int) : Int :=
  if (n.emod (2 ^ 32)).toNat.testBit (if 0 ≤ i then i else 32 + i).toNat then 1 else 0

/-- `cp@` on an integer, stdlib.c:11638-11667 -/
def bitAt (n i : Int) : Prog (Option Ref) := do
  if i < -32 ∨ 31 < i then error "Index to builtin 'cp@' must be between -32 .. 31 (inclusive) when indexing an integer."
  else do
    let r ← alloc (.int (bitOf n i))
    pure (some r)

/-- the indices of `cp@`: those that are given, or null and an error -/
def cpIndices (index : Ref) (rest : List Ref) : Prog (Option (Int × Int) × Option Ref) := do
  match ← indexOf (← read index).obj with
  | none => do
    let e ← error "Builtin '%s' expects number as %d. argument."
    pure (none, e)
  | some i =>
    match rest with
    | [] => pure (some (i, i), none)
    | index2 :: _ => do
      match ← indexOf (← read index2).obj with
      | none => do
        let e ← error "Builtin '%s' expects number as %d. argument."
        pure (none, e)
      | some j => pure (some (i, j), none)

/-- `cp@` on a text: the number of arguments and the indices -/
def cpAtText (s : Text) (index : Ref) (rest : List Ref) : Prog (Option Ref) := do
  if 1 < rest.length then error "Builtin '%s' expects two or three arguments when used with text (string or symbol)."
  else do
    let (ij, e) ← cpIndices index rest
    match ij with
    | none => pure e
    | some (i, j) => cpText s i j

/-- `cp@` on a vector, stdlib.c:11225-11406: the first index is checked before the second one is
looked at -/
def cpAtVec (es : List Ref) (index : Ref) (rest : List Ref) : Prog (Option Ref) := do
  if 1 < rest.length then error "Builtin '%s' expects two or three arguments when used with vector."
  else do
    match ← indexOf (← read index).obj with
    | none => error "Builtin '%s' expects number as %d. argument."
    | some i =>
      match indexIn es.length i with
      | none => error "First index to builtin '%s' is not valid for the given vector value."
      | some a =>
        match rest with
        | [] => cpVec es i i a a
        | index2 :: _ => do
          match ← indexOf (← read index2).obj with
          | none => error "Builtin '%s' expects number as %d. argument."
          | some j =>
            match indexIn es.length j with
            | none => error "Second index to builtin '%s' is not valid for the given vector value."
            | some b => cpVec es i j a b

/-- octaspire_dern_vm_builtin_cp_at_sign, stdlib.c:11048-11702 -/
def biCpAt (args env : Ref) : Prog (Option Ref) := do
  let es ← verifyVec args
  verifyEnv env
  match es with
  | self :: index :: rest =>
    match (← read self).obj with
    | .str s | .sym s => cpAtText s index rest
    | .vec es => cpAtVec es index rest
    | .hmap _ _ =>
      match rest with
      | [how] => do
        let (x, e) ← mapElement self index how
        match x with
        | some x => call (.copy x)
        | none => pure e
      | _ => error "Builtin 'cp@' expects exactly three arguments when used with hash map."
    | .queue _ _ => fail .abort
    | .list es =>
      if rest ≠ [] then error "Builtin 'cp@' expects exactly two arguments when used with list."
      else
        match (← read index).obj with
        | .int i =>
          match (indexIn es.length i).bind (es[·]?) with
          | some x => call (.copy x)
          | none => fail .null
        | _ => error "Builtin 'cp@' expects integer as second argument when indexing a list."
    | .semver v =>
      if rest ≠ [] then error "Builtin 'cp@' expects exactly two arguments when used with semver."
      else
        match (← read index).obj with
        | .int i => versionAt v i
        | _ => error "Builtin 'cp@' expects integer as second argument when indexing a semver."
    | .nil =>
      if rest ≠ [] then error "Builtin 'cp@' expects exactly two arguments when used with nil."
      else do
        let r ← alloc .nil
        pure (some r)
    | .int n =>
      if rest ≠ [] then error "Builtin 'cp@' expects exactly two arguments when used with integer."
      else
        match (← read index).obj with
        | .int i => bitAt n i
        | _ => error "Builtin 'cp@' expects integer as second argument when indexing an integer value."
    | _ => error "Builtin 'cp@' expects vector, hash map, queue or list as first argument."
  | _ => error "Builtin 'cp@' expects at least two arguments."

end Dern.Prog
