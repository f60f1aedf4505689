import Verif.Dern.Heap
import Verif.Dern.Tree
/-
Hashing and comparison of values (value.c:1156-1289, 4859-5146, helpers.c:27-72,
environment.c:597-611).
-/
namespace Dern
open Spec (Version Dbl)
open Utf8 (Octet)

/-! ### hashing -/

/-- one step of the loop of jenkins_one_at_a_time_hash, amalgamated.c:1878-1884 -/
def jenkinsStep (h : BitVec 32) (o : Octet) : BitVec 32 :=
  let h := h + o.zeroExtend 32
  let h := h + (h <<< 10)
  h ^^^ (h >>> 6)

/-- jenkins_one_at_a_time_hash, amalgamated.c:1875-1891 -/
def jenkins (data : List Octet) : BitVec 32 :=
  let h := data.foldl jenkinsStep 0
  let h := h + (h <<< 3)
  let h := h ^^^ (h >>> 11)
  h + (h <<< 15)

/-- the octets of an object of `n` octets in memory, least significant first -/
def leBytes (n : Nat) (w : Nat) : List Octet :=
  (List.range n).map fun i : Nat => BitVec.ofNat 8 (w / 256 ^ i)

/-- octaspire_string_get_hash, amalgamated.c:6326-6349: the octets including the closing NUL; 0 if
not even the first character could be encoded.  (If a later one cannot be encoded, an assert about
the closing NUL fails, which is not modelled.) -/
def stringHash (s : Text) : BitVec 32 :=
  if ensureOctets s = [] then 0 else jenkins (ensureOctets s)

/-- octaspire_semver_to_string, amalgamated.c:9420-9522; `none` is `abort()` -/
def semverText (v : Version) : Option Text := do
  let pre ← v.pre.mapM fun
    | .num n => some (decDigits n)
    | .lex s => fmtS [] s []
  let build ← v.build.mapM fun s => fmtS [] s []
  let dotted (l : List Text) : Text := (l.intersperse [46]).flatten
  some (decDigits v.major ++ 46 :: decDigits v.minor ++ 46 :: decDigits v.patch ++
    (if pre = [] then [] else 45 :: dotted pre) ++ (if build = [] then [] else 43 :: dotted build))

/-- octaspire_dern_value_get_hash, value.c:1156-1237 -/
def hashObj (r : Ref) : Obj → Res (BitVec 32)
  | .nil => .ok (jenkins [0])
  | .bool b => .ok (jenkins [if b then 1 else 0])
  | .int n => .ok (jenkins (leBytes 4 (n.emod (2 ^ 32)).toNat))
  | .real d => .ok (jenkins (leBytes 8 d.toNat))
  | .str s | .chr s | .sym s => .ok (stringHash s)
  | .err msg _ => .ok (stringHash msg)
  | .semver v =>
    match semverText v with
    | some t => .ok (stringHash t)
    | none => .error .abort
  | _ => .ok (jenkins (leBytes 8 r))

def hashRef (m : Mem) (r : Ref) : Res (BitVec 32) := do
  let c ← m.read r
  hashObj r c.obj

/-! ### comparison -/

/-- a number, octaspire_dern_value_is_number -/
def Obj.number : Obj → Option (Int ⊕ Dbl)
  | .int n => some (.inl n)
  | .real d => some (.inr d)
  | _ => none

/-- octaspire_dern_value_as_number_get_value as a double: an `int32_t` is converted exactly -/
def numberValue : Int ⊕ Dbl → Option Int
  | .inl n => some (Dbl.ofInt n)
  | .inr d => d.value

/-- the comparison of two doubles, value.c:4900-4914 and 4951-4963: a NaN is neither smaller nor
greater -/
def compareDoubles (a b : Int ⊕ Dbl) : Int :=
  match numberValue a, numberValue b with
  | some x, some y => if x < y then -1 else if y < x then 1 else 0
  | _, _ => 0

/-- subtraction of two `int32_t`: undefined behaviour on overflow -/
def subInt32 (a b : Int) : Res Int :=
  if -2 ^ 31 ≤ a - b ∧ a - b < 2 ^ 31 then .ok (a - b) else .error .ub

/-- value.c:4892-4920 -/
def compareNumbers : Int ⊕ Dbl → Int ⊕ Dbl → Res Int
  | .inl a, .inl b => subInt32 a b
  | a, b => .ok (compareDoubles a b)

def orAbort : Option α → Res α
  | some a => .ok a
  | none => .error .abort

/-- octaspire_dern_value_private_compare_void_pointers, value.c:4859-4876 -/
def comparePointers (a b : Ref) : Int := if a < b then -1 else if b < a then 1 else 0

/-- the element by element loops of value.c:4998-5021, 5047-5075 and 5087-5115 (equal lengths) -/
def compareElements (rec : Ref → Ref → Res Int) : List Ref → List Ref → Res Int
  | a :: as, b :: bs => do
    let c ← rec a b
    if c ≠ 0 then .ok c else compareElements rec as bs
  | _, _ => .ok 0

/-- vectors, queues and lists: value.c:4990-5116.  The difference of the lengths is converted from
`size_t` to `int`. -/
def compareSeqs (rec : Ref → Ref → Res Int) (as bs : List Ref) : Res Int :=
  if as.length ≠ bs.length then .ok (Semver.intDiff as.length bs.length)
  else compareElements rec as bs

/-- octaspire_map_get_const on a map of values, amalgamated.c:7916-7965: the first element in
the bucket of the key's hash whose key is equal (hashes are not compared).  With no buckets, as
used for environments, whose keys are symbols, hashes are compared. -/
def findEntry (rec : Ref → Ref → Res Int) (hash : Ref → Res (BitVec 32)) (nb : Nat) (k : Ref) :
    List (Ref × Ref) → Res (Option Ref)
  | [] => .ok none
  | (k', v') :: es => do
    let h ← hash k
    let h' ← hash k'
    if h.toNat % nb = h'.toNat % nb then
      let c ← rec k k'
      if c = 0 then .ok (some v') else findEntry rec hash nb k es
    else findEntry rec hash nb k es

/-- the loop of octaspire_dern_helpers_compare_value_hash_maps, helpers.c:38-69 -/
def compareEntries (rec : Ref → Ref → Res Int) (hash : Ref → Res (BitVec 32))
    (nb : Nat) (other : List (Ref × Ref)) : List (Ref × Ref) → Res Int
  | [] => .ok 0
  | (k, v) :: es => do
    match ← findEntry rec hash nb k other with
    | none => .ok 1
    | some v' =>
      let c ← rec v v'
      if c ≠ 0 then .ok c else compareEntries rec hash nb other es

/-- octaspire_dern_helpers_compare_value_hash_maps, helpers.c:27-72 -/
def compareMaps (rec : Ref → Ref → Res Int) (hash : Ref → Res (BitVec 32))
    (nb : Nat) (as bs : List (Ref × Ref)) : Res Int :=
  if as.length ≠ bs.length then .ok (Semver.intDiff as.length bs.length)
  else compareEntries rec hash nb bs as

/-- octaspire_dern_function_compare, value.c:175-222 -/
def compareFns (rec : Ref → Ref → Res Int) (f g : FnData) : Res Int := do
  let c ← orAbort (stringCompare f.name g.name)
  if c ≠ 0 then .ok c else
  let c ← orAbort (stringCompare f.docstr g.docstr)
  if c ≠ 0 then .ok c else
  let c ← rec f.formals g.formals
  if c ≠ 0 then .ok c else
  let c ← rec f.body g.body
  if c ≠ 0 then .ok c else
  let c ← rec f.env g.env
  if c ≠ 0 then .ok c else
  .ok ((f.howto.toNat : Int) - g.howto.toNat)

/-- octaspire_dern_value_compare, value.c:4878-5146, after the comparison of the addresses; `rec`
compares two other values -/
def compareObjs (rec : Ref → Ref → Res Int) (hash : Ref → Res (BitVec 32)) (a b : Ref) (x y : Obj) :
    Res Int :=
  match x.number, y.number with
  | some p, some q => compareNumbers p q
  | _, _ =>
  if x.tag ≠ y.tag then .ok ((x.tag : Int) - y.tag) else
  match x, y with
  | .bool p, .bool q => .ok ((p.toNat : Int) - q.toNat)
  | .str s, .str t => orAbort (stringCompare s t)
  | .chr s, .chr t => orAbort (stringCompare s t)
  | .sym s, .sym t => orAbort (stringCompare s t)
  | .err s k, .err t l => do
    let c ← orAbort (stringCompare s t)
    if c ≠ 0 then .ok c else .ok (Semver.intDiff k l)
  | .vec as, .vec bs => compareSeqs rec as bs
  | .queue _ as, .queue _ bs => compareSeqs rec as bs
  | .list as, .list bs => compareSeqs rec as bs
  | .hmap _ as, .hmap nb bs => compareMaps rec hash nb as bs
  | .env as _, .env bs _ =>
    compareMaps rec hash 0 (as.map fun b => (b.key, b.val)) (bs.map fun b => (b.key, b.val))
  | .fn f, .fn g => compareFns rec f g
  | .mac f, .mac g => compareFns rec f g
  | .special _, .special _ => .ok (comparePointers a b)
  | .builtin _, .builtin _ => .ok (comparePointers a b)
  | .port _, .port _ => .ok (comparePointers a b)
  | .cdata _, .cdata _ => .error .external
  | .semver v, .semver w => orAbort (Semver.compare v w)
  | _, _ => .ok 0

/-- octaspire_dern_value_compare, value.c:4878-5146; the recursion is bounded by the first
argument, because values may be cyclic -/
def compareRef (m : Mem) : Nat → Ref → Ref → Res Int
  | 0, _, _ => .error .fuel
  | n + 1, a, b =>
    if a = b then .ok 0 else do
      let ca ← m.read a
      let cb ← m.read b
      compareObjs (compareRef m n) (hashRef m) a b ca.obj cb.obj

/-! ### printing -/

/-- the loops over the elements of vectors, queues and lists, value.c:1424-1452, 1560-1588,
1605-1634: elements are separated by one space; concatenation re-encodes every printed element -/
def printSeq (rec : Ref → Res Text) : List Ref → Res Text
  | [] => .ok []
  | [x] => do
    let t ← rec x
    orAbort (fmtS [] t [])
  | x :: y :: l => do
    let t ← rec x
    let t ← orAbort (fmtS [] t [])
    let u ← printSeq rec (y :: l)
    .ok (t ++ 32 :: u)

/-- one element of a hash map -/
def printPair (rec : Ref → Res Text) (e : Ref × Ref) : Res Text := do
  let k ← rec e.1
  let k ← orAbort (fmtS [] k [])
  let v ← rec e.2
  let v ← orAbort (fmtS [] v [])
  .ok (k ++ 32 :: v)

/-- the loop over the elements of a hash map, value.c:1470-1543 -/
def printPairs (rec : Ref → Res Text) : List (Ref × Ref) → Res Text
  | [] => .ok []
  | [e] => printPair rec e
  | e :: f :: l => do
    let t ← printPair rec e
    let u ← printPairs rec (f :: l)
    .ok (t ++ txt "\n          " ++ u)

/-- a number in print-readably mode, value.c:1320-1355 -/
def inBraces (positive : Bool) (t : Text) : Text :=
  (if positive then txt "{D+" else txt "{D") ++ t ++ txt "}"

/-- is a double `>= 0`? -/
def isNonNegative (d : Dbl) : Bool :=
  match d.value with
  | some x => decide (0 ≤ x)
  | none => false

/-- a character, value.c:1369-1403 -/
def printChar (bare : Bool) (s : Text) : Res Text :=
  if isCString1 s 124 then .ok (if bare then [124] else txt "|bar|")
  else if isCString1 s 10 then .ok (if bare then [10] else txt "|newline|")
  else if isCString1 s 9 then .ok (if bare then [9] else txt "|tab|")
  else orAbort (if bare then fmtS [] s [] else fmtS (txt "|") s (txt "|"))

/-- octaspire_dern_private_value_to_string, value.c:1290-1696; `rec` prints an element.  `fmt` gives
the texts that are not modelled: reals printed with `%g`, the names of builtins and specials.
Printing environments, ports and C data is outside of the model. -/
def printObj (fmt : Obj → Text) (readably plain : Bool) (rec : Ref → Res Text) : Obj → Res Text
  | .nil => .ok (txt "nil")
  | .bool b => .ok (if b then txt "true" else txt "false")
  | .int n => .ok (if readably then inBraces (decide (0 ≤ n)) (printInt n) else printInt n)
  | .real d => .ok (if readably then inBraces (isNonNegative d) (fmt (.real d)) else fmt (.real d))
  | .str s => orAbort (if plain || !readably then fmtS [] s [] else fmtS (txt "[") s (txt "]"))
  | .semver v => orAbort (semverText v)
  | .chr s => printChar (plain || !readably) s
  | .sym s => orAbort (fmtS [] s [])
  | .err msg _ => orAbort (fmtS (txt "<error>: ") msg [])
  | .vec es => do
    let t ← printSeq rec es
    .ok (40 :: t ++ [41])
  | .hmap _ es => do
    let t ← printPairs rec es
    .ok (txt "(hash-map " ++ t ++ [41])
  | .queue _ es => do
    let t ← printSeq rec es
    .ok (txt "(queue " ++ t ++ [41])
  | .list es => do
    let t ← printSeq rec es
    .ok (txt "(list " ++ t ++ [41])
  | .fn f => orAbort (fmtS [] f.name [])
  | .mac f => orAbort (fmtS (txt "macro ") f.name [])
  | .builtin b => .ok (fmt (.builtin b))
  | .special s => .ok (fmt (.special s))
  | .port _ | .cdata _ | .env _ _ => .error .external

/-- octaspire_dern_private_value_to_string, value.c:1290-1696; the recursion is bounded by the
number, because values may be cyclic -/
def printRef (m : Mem) (fmt : Obj → Text) (readably : Bool) : Nat → Bool → Ref → Res Text
  | 0, _, _ => .error .fuel
  | n + 1, plain, r => do
    let c ← m.read r
    printObj fmt readably plain (printRef m fmt readably n false) c.obj

/-- octaspire_dern_value_is_equal … is_greater_than_or_equal, value.c:1239-1288 -/
def isEqual (m : Mem) (n : Nat) (a b : Ref) : Res Bool := (compareRef m n a b).map (· == 0)
def isLessThan (m : Mem) (n : Nat) (a b : Ref) : Res Bool := (compareRef m n a b).map (· < 0)
def isGreaterThan (m : Mem) (n : Nat) (a b : Ref) : Res Bool := (compareRef m n a b).map (· > 0)
def isLessOrEqual (m : Mem) (n : Nat) (a b : Ref) : Res Bool := (compareRef m n a b).map (· ≤ 0)
def isGreaterOrEqual (m : Mem) (n : Nat) (a b : Ref) : Res Bool := (compareRef m n a b).map (· ≥ 0)

end Dern
