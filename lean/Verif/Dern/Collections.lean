import Verif.Dern.Special
import Verif.Core.Search
import Verif.Core.Levenshtein
/-
Operations on values that hold other values or texts, which several builtin functions share
(value.c:2021-3100, 3607-3700; stdlib.c).

Simplifications: the hash under which a hash map keeps an element is that of the key as it is now
(the code keeps the hash of the key at the time of insertion); a second value under one key
(octaspire_map_put of a key that is present) is outside of the model (`Fault.external`).
-/
namespace Dern.Prog
open Spec (Dbl Version)

/-! ### numbers -/

/-- does it fit into an int32_t -/
def fits (n : Int) : Bool := -2147483648 ≤ n && n ≤ 2147483647

/-- signed 32-bit arithmetic: overflow is undefined behaviour -/
def int32 (n : Int) : Prog Int := if fits n then pure n else fail .ub

/-- `(int32_t)` of a double: the integral part, if it fits (C11 6.3.1.4) -/
def truncate (d : Dbl) : Prog Int :=
  match d.value with
  | some x => if d.exponent = 2047 then fail .ub else int32 (x.tdiv (Dbl.unit : Int))
  | none => fail .ub

/-- the digits at the front of a text -/
def leadingDigits (t : Text) : Text := t.takeWhile fun c => 48 ≤ c && c ≤ 57

/-- the value of a text of digits -/
def digitsValue (t : Text) : Nat := t.foldl (fun n c => 10 * n + (c - 48)) 0

/-- a result of type `long` -/
def int64 (n : Int) : Prog Int := if -2 ^ 63 ≤ n ∧ n < 2 ^ 63 then pure n else fail .ub

/-- the number at the front of a text: an optional minus sign and digits -/
def leadingInt : Text → Int
  | 45 :: ds => -(digitsValue (leadingDigits ds))
  | t => digitsValue (leadingDigits t)

/-- atol of a text of digits, `-` and `.`.  A value that is not representable in a `long` is
undefined behaviour (C11 7.22.1). -/
def atol (t : Text) : Prog Int := int64 (leadingInt t)

/-- doing something with each of some values -/
def each (f : Ref → Prog Unit) : List Ref → Prog Unit
  | [] => pure ()
  | x :: xs => do
    f x
    each f xs

/-- doing something with each of some values until one gives a result -/
def eachUntil (f : Ref → Prog (Option Ref)) : List Ref → Prog (Option Ref)
  | [] => pure none
  | x :: xs => do
    match ← f x with
    | some e => pure (some e)
    | none => eachUntil f xs

/-- the characters of the texts that octaspire_dern_value_as_integer_add and its like take -/
def numeric : Text := txt "-0123456789."

/-- adding to or subtracting from a `long`, the result stored in an `int32_t` -/
def addLong (add : Bool) (n k : Int) : Prog Int := do
  let m ← int64 (if add then n + k else n - k)
  pure (Int.bmod m (2 ^ 32))

/-- octaspire_dern_value_as_integer_add, _integer_subtract, _real_add and _real_subtract,
value.c:2367-2578, 2644-2853.  The results of these functions are not used by their callers. -/
def addNumber (asInt add : Bool) (self other : Ref) : Prog (Option Ref) := do
  match asInt, (← read self).obj with
  | true, .int n =>
    match (← read other).obj with
    | .str t =>
      if containsOnly t numeric then
        if containsChar t 46 then do
          let d ← real
          setObj self (.real d)
          pure none
        else do
          let k ← atol t
          let m ← addLong add n k
          setObj self (.int m)
          pure none
      else pure none
    | .int k => do
      let m ← int32 (if add then n + k else n - k)
      setObj self (.int m)
      pure none
    | .real _ => do
      let d ← real
      setObj self (.real d)
      pure none
    | .vec es => do
      each (fun x => do let _ ← call (.aux (.number asInt add) [self, x])) es
      pure none
    | _ => pure none
  | false, .real _ =>
    match (← read other).obj with
    | .str t =>
      if containsOnly t numeric then do
        if containsChar t 46 = false then
          let _ ← atol t
        let d ← real
        setObj self (.real d)
        pure none
      else pure none
    | .int _ | .real _ => do
      let d ← real
      setObj self (.real d)
      pure none
    | .vec es => do
      each (fun x => do let _ ← call (.aux (.number asInt add) [self, x])) es
      pure none
    | _ => pure none
  | _, _ => fail .abort

/-! ### texts -/

/-- octaspire_string_concatenate, amalgamated.c:5738-5793: the text of `self` with the text of
`other` at the end.  Appending a text to itself reads octets that have been released. -/
def joined (self other : Ref) (s t : Text) : Prog Text :=
  match getCString t with
  | none => fail .abort
  | some [] => pure s
  | some _ =>
    if self = other then fail .ub
    else
      match recode t with
      | none => fail .abort
      | some u => pure (s ++ u)

/-- the text of a string (or of a symbol, if `isSym`) -/
def textOf (isSym : Bool) : Obj → Option Text
  | .str s => if isSym then none else some s
  | .sym s => if isSym then some s else none
  | _ => none

/-- the string or symbol with the given text -/
def ofText (isSym : Bool) (s : Text) : Obj := if isSym then .sym s else .str s

/-- octaspire_dern_value_as_string_push_back and octaspire_dern_value_as_symbol_push_back,
value.c:2855-3025.  The results of these functions are not used by their callers. -/
def pushText (isSym : Bool) (self value : Ref) : Prog (Option Ref) := do
  match textOf isSym (← read self).obj with
  | none => fail .abort
  | some s =>
    match (← read value).obj with
    | .str t | .sym t | .chr t => do
      let u ← joined self value s t
      setObj self (ofText isSym u)
      pure none
    | .vec es => do
      each (fun x => do let _ ← call (.aux (.pushText isSym) [self, x])) es
      pure none
    | _ => do
      let t ← print false value
      match recode t with
      | none => fail .abort
      | some u => setObj self (ofText isSym (s ++ u))
      pure none

/-- the code of a character; octaspire_string_get_ucs_character_at_index aborts if there is none -/
def codeOf : Text → Prog Nat
  | [] => fail .abort
  | c :: _ => pure c

/-- octaspire_dern_value_as_character_add, value.c:2216-2290 -/
def addChar (self other : Ref) : Prog Unit := do
  match (← read self).obj with
  | .chr s =>
    match (← read other).obj with
    | .int n => do
      let c ← codeOf s
      let m ← int32 (Int.bmod c (2 ^ 32) + n)
      setObj self (.chr [(m.emod (2 ^ 32)).toNat])
    | .chr t => do
      if self = other then fail .ub
      else do
        let u ← joined self other s t
        setObj self (.str u)
    | _ => pure ()
  | _ => fail .abort

/-- octaspire_dern_value_as_character_subtract, value.c:2292-2365 -/
def subChar (self other : Ref) : Prog Unit := do
  match (← read self).obj with
  | .chr s =>
    match (← read other).obj with
    | .int n => do
      let c ← codeOf s
      let m ← int32 (Int.bmod c (2 ^ 32) - n)
      setObj self (.chr [(m.emod (2 ^ 32)).toNat])
    | .chr t => do
      let c ← codeOf s
      let d ← codeOf t
      setObj self (.chr [(((c : Int) - d).emod (2 ^ 32)).toNat])
    | _ => pure ()
  | _ => fail .abort

/-- octaspire_dern_value_as_string_pop_back_ucs_character, value.c:3041-3047 -/
def popString (self : Ref) : Prog Unit := do
  match (← read self).obj with
  | .str s => setObj self (.str s.dropLast)
  | _ => fail .abort

/-- octaspire_dern_value_as_string_remove_all_substrings, value.c:3077-3125: `false` for a value that
is not text -/
def stripText (self value : Ref) : Prog Bool := do
  match (← read self).obj with
  | .str s =>
    match (← read value).obj with
    | .str t | .chr t =>
      match removeAll (s.length + 1) s t 0 with
      | some r => do
        setObj self (.str r.1)
        pure true
      | none => fail .fuel
    | _ => pure false
  | _ => fail .abort

/-- octaspire_string_overwrite_with_string_at, amalgamated.c:6443-6486, from a valid position or from
beyond the end: each character replaces the one at its position or is appended -/
def overwriteFrom : Text → Nat → Text → Text
  | s, _, [] => s
  | s, k, c :: cs => overwriteFrom (if k < s.length then s.set k c else s ++ [c]) (k + 1) cs

/-- octaspire_string_overwrite_with_string_at, amalgamated.c:6443-6486: null if it fails -/
def overwriteText (s : Text) (i : Int) (t : Text) : Option Text :=
  match textIndex s i with
  | some k => some (overwriteFrom s k t)
  | none => if i < 0 then none else some (overwriteFrom s i.toNat t)

/-- octaspire_dern_value_as_semver_add_or_subtract, value.c:2580-2627; with itself see
octaspire_semver_add_or_subtract, amalgamated.c: the loop over the identifiers of `other` does not
end, respectively uses removed ones -/
def addVersion (add : Bool) (self other : Ref) : Prog Bool := do
  match (← read self).obj with
  | .semver v =>
    match (← read other).obj with
    | .semver w =>
      if self = other ∧ v.pre ≠ [] then fail (if add then .fuel else .ub)
      else do
        let r := Semver.addOrSubtract v w add
        setObj self (.semver r.2)
        pure r.1
    | _ => pure false
  | _ => fail .abort

/-! ### containers -/

/-- adding an element at the end of a container -/
def Obj.snoc (x : Ref) : Obj → Option Obj
  | .vec es => some (.vec (es ++ [x]))
  | .queue max es => some (.queue max (es ++ [x]))
  | .list es => some (.list (es ++ [x]))
  | _ => none

/-- octaspire_vector_push_back_element, octaspire_queue_push and octaspire_list_push_back on a
container that has no maximal length -/
def addElement (r x : Ref) : Prog Unit := do
  match Obj.snoc x (← read r).obj with
  | some o => setObj r o
  | none => fail .ub

/-- the elements of a queue that stay, amalgamated.c:4848-5118 (`Queue.ensure`, C20) -/
def trimmed : Option Nat → List Ref → List Ref
  | none, es => es
  | some n, es => es.drop (es.length - n)

/-- octaspire_dern_value_as_queue_push and octaspire_dern_value_as_list_push_back,
value.c:2151-2200: atoms are copied -/
def pushElement (self x : Ref) : Prog Unit := do
  let y ← copyAtom x
  match (← read self).obj with
  | .queue max es => setObj self (.queue max (trimmed max (es ++ [y])))
  | .list es => setObj self (.list (es ++ [y]))
  | _ => fail .abort

/-- octaspire_map_put of a key that is not in the map: the map may be rearranged -/
def addPair (r k v : Ref) : Prog Unit := do
  match (← read r).obj with
  | .hmap _ es => do
    let (n, es) ← arrange (es ++ [(k, v)])
    setObj r (.hmap n es)
  | _ => fail .ub

/-- octaspire_dern_value_get_hash, value.c:1156-1237 -/
def hashOf (r : Ref) : Prog (BitVec 32) := do
  match hashObj r (← read r).obj with
  | .ok h => pure h
  | .error _ => fail .abort

/-- octaspire_map_get, amalgamated.c:7916-8010: the elements before the first one in the bucket of
the hash `h` whose key is equal to `k`, that one, and those after it; null if there is none -/
def findKey (h : BitVec 32) (nb : Nat) (k : Ref) :
    List (Ref × Ref) → Prog (Option (List (Ref × Ref) × (Ref × Ref) × List (Ref × Ref)))
  | [] => pure none
  | e :: es => do
    let h' ← hashOf e.1
    if h.toNat % nb = h'.toNat % nb then do
      if (← compare k e.1) = 0 then pure (some ([], e, es))
      else
        match ← findKey h nb k es with
        | some (xs, e', ys) => pure (some (e :: xs, e', ys))
        | none => pure none
    else
      match ← findKey h nb k es with
      | some (xs, e', ys) => pure (some (e :: xs, e', ys))
      | none => pure none

/-- octaspire_dern_value_as_hash_map_get, value.c: the value of a key, or null -/
def mapGet (m k : Ref) : Prog (Option Ref) := do
  match (← read m).obj with
  | .hmap nb es => do
    let h ← hashOf k
    match ← findKey h nb k es with
    | some (_, e, _) => pure (some e.2)
    | none => pure none
  | _ => fail .abort

/-- octaspire_dern_value_as_hash_map_put, value.c:4538-4546, octaspire_map_put,
amalgamated.c:7799-7862 -/
def mapPut (m k v : Ref) : Prog Unit := do
  match (← read m).obj with
  | .hmap nb es => do
    let h ← hashOf k
    match ← findKey h nb k es with
    | some _ => fail .external
    | none => addPair m k v
  | _ => fail .abort

/-- octaspire_dern_value_as_hash_map_remove, value.c:2021-2031, octaspire_map_remove,
amalgamated.c:7666-7732: was there such a key -/
def mapRemove (m k : Ref) : Prog Bool := do
  match (← read m).obj with
  | .hmap nb es => do
    let h ← hashOf k
    match ← findKey h nb k es with
    | some (xs, _, ys) => do
      setObj m (.hmap nb (xs ++ ys))
      pure true
    | none => pure false
  | _ => fail .abort

/-- putting pairs into a hash map one after the other -/
def mapPutAll (m : Ref) : List (Ref × Ref) → Prog Unit
  | [] => pure ()
  | (k, v) :: l => do
    mapPut m k v
    mapPutAll m l

/-- the elements of a vector two by two -/
def inPairs : List Ref → List (Ref × Ref)
  | k :: v :: l => (k, v) :: inPairs l
  | _ => []

/-- octaspire_dern_value_as_hash_map_add, value.c:2047-2149, with one value: a hash map is merged (the
loop over the elements of a map that is merged with itself does not end), the elements of a vector
are keys and values by turns -/
def mapAdd (m x : Ref) : Prog Bool := do
  match (← read x).obj with
  | .hmap _ es =>
    if m = x ∧ es ≠ [] then fail .fuel
    else do
      mapPutAll m es
      pure true
  | .vec es =>
    if es.length % 2 ≠ 0 then pure false
    else do
      mapPutAll m (inPairs es)
      pure true
  | _ => pure false

/-- octaspire_dern_value_as_hash_map_add, value.c:2047-2149, with key and value -/
def mapAddPair (m k v : Ref) : Prog Bool := do
  match (← read k).obj with
  | .hmap _ _ | .vec _ => fail .abort
  | _ => do
    mapPut m k v
    pure true

/-- removing elements of a vector, stdlib.c:6889-6913, 7076-7099: those before the loop's position
that are kept, and the rest -/
def removeLoop (eq : Ref → Prog Bool) (self : Ref) : List Ref → List Ref → Prog Unit
  | _, [] => pure ()
  | kept, x :: xs => do
    if ← eq x then do
      setObj self (.vec (kept ++ xs))
      removeLoop eq self kept xs
    else removeLoop eq self (kept ++ [x]) xs

/-- removing every element of a vector that `eq` holds for -/
def removeElements (eq : Ref → Prog Bool) (self : Ref) : Prog Unit := do
  match (← read self).obj with
  | .vec es => removeLoop eq self [] es
  | _ => fail .abort

/-- taking one element or character away, at the end (`back`) or at the front: the rest, and whether
there was one; null for values that have none.  octaspire_dern_value_as_queue_pop and its like,
value.c:2165-2205, 3027-3055, 3690-3715; octaspire_semver_pop_back and _pop_front,
amalgamated.c:9862-9900 -/
def Obj.less (back : Bool) : Obj → Option (Obj × Bool)
  | .vec es => some (.vec (if back then es.dropLast else es.tail), !es.isEmpty)
  | .list es => some (.list (if back then es.dropLast else es.tail), !es.isEmpty)
  | .queue max es => if back then some (.queue max es.tail, !es.isEmpty) else none
  | .str s => some (.str (if back then s.dropLast else s.tail), !s.isEmpty)
  | .sym s => some (.sym (if back then s.dropLast else s.tail), !s.isEmpty)
  | .semver v =>
    if back then
      if v.build ≠ [] then some (.semver { v with build := v.build.dropLast }, true)
      else some (.semver { v with pre := v.pre.dropLast }, !v.pre.isEmpty)
    else
      if v.build ≠ [] then some (.semver { v with build := v.build.tail }, true)
      else some (.semver { v with pre := v.pre.tail }, !v.pre.isEmpty)
  | _ => none

end Dern.Prog
