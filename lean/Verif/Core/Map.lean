import Verif.Spec.FiniteMap
/-
octaspire_map (amalgamated.c:7165-8251): a hash table with chained buckets.

Modelled: the buckets with their elements in order, the counters, growth and rehashing, lookup by
key and by index, iteration.  `none` as a result stands for a failed `assert`, `abort()` or
undefined behaviour.  Buckets and value vectors are plain lists (the vectors they are made of are
modelled in `Verif/Core/Vector.lean`); keys and values are abstract; the caller's hash function is
a parameter (`hash`, a uint32_t, the same for every call with an equal key — the caller passes it
with every key); the load factor is computed exactly instead of in `float` (equal below 2^24
buckets); allocation never fails.  Not modelled: the key and value release callbacks.
-/
namespace Dern

/-- the functions a map is created with, amalgamated.c:7552-7562: the compare function gets the
looked-up key first -/
structure KeyFns (κ : Type) where
  hash : κ → Nat
  eqv : κ → κ → Bool

/-- octaspire_map_element_t, amalgamated.c:7186-7197. -/
structure MapElem (κ ν : Type) where
  hash : Nat
  key : κ
  values : List ν
  deriving DecidableEq, Repr

/-- octaspire_map_t, amalgamated.c:7325-7340. -/
structure HMap (κ ν : Type) where
  buckets : List (List (MapElem κ ν))
  inUse : Nat
  num : Nat
  deriving DecidableEq, Repr

namespace HMap
variable {κ ν : Type}

/-- octaspire_map_new, amalgamated.c:7552-7596, with OCTASPIRE_MAP_SMALLEST_SIZE buckets (7342). -/
def new : HMap κ ν := ⟨List.replicate 128 [], 0, 0⟩

/-- octaspire_map_element_get_value, amalgamated.c:7300-7307: asserts that there are fewer than two
values. -/
def elemValue (e : MapElem κ ν) : Option (Option ν) :=
  if e.values.length < 2 then some e.values.head? else none

/-- the search in a bucket, amalgamated.c:7929-7965: a bucket of one element is treated separately -/
def findIn (F : KeyFns κ) (bucket : List (MapElem κ ν)) (k : κ) : Option Nat :=
  match bucket with
  | [e] => if F.eqv k e.key then some 0 else none
  | _ => bucket.findIdx? fun e => F.eqv k e.key

/-- octaspire_map_get, amalgamated.c:7916-7965: bucket index, index in the bucket and the element.
The outer `none` is the remainder by zero when there are no buckets. -/
def get (F : KeyFns κ) (m : HMap κ ν) (k : κ) : Option (Option (Nat × Nat × MapElem κ ν)) :=
  if m.buckets.length = 0 then none else
  let b := F.hash k % m.buckets.length
  match m.buckets[b]? with
  | none => none
  | some bucket =>
    match findIn F bucket k with
    | none => some none
    | some i => match bucket[i]? with
      | none => none
      | some e => some (some (b, i, e))

/-- one step of the loop of octaspire_map_private_rehash, amalgamated.c:7390-7422 -/
def rehashOne (n : Nat) (m : HMap κ ν) (e : MapElem κ ν) : HMap κ ν :=
  let b := e.hash % n
  { buckets := m.buckets.modify b (· ++ [e])
    inUse := if (m.buckets[b]?.getD []).isEmpty then m.inUse + 1 else m.inUse
    num := m.num + 1 }

/-- load factor ≥ 0.75, amalgamated.c:7343, 7437-7441 -/
def overloaded (m : HMap κ ν) : Bool := 3 * m.buckets.length ≤ 4 * m.inUse

/-- octaspire_map_private_rehash, amalgamated.c:7363-7435: every element of every bucket moves to
twice as many buckets; asserts the load factor afterwards. -/
def rehash (m : HMap κ ν) : Option (HMap κ ν) :=
  let n := m.buckets.length * 2
  let m' := m.buckets.flatten.foldl (rehashOne n) ⟨List.replicate n [], 0, 0⟩
  if m'.overloaded then none else some m'

/-- octaspire_map_put, amalgamated.c:7799-7861. -/
def put (F : KeyFns κ) (m : HMap κ ν) (k : κ) (v : ν) : Option (HMap κ ν) :=
  match m.get F k with
  | none => none
  | some (some (b, i, _)) =>
    some { m with buckets :=
      m.buckets.modify b fun bucket => bucket.modify i fun e => { e with values := e.values ++ [v] } }
  | some none =>
    let b := F.hash k % m.buckets.length
    match m.buckets[b]? with
    | none => none
    | some bucket =>
      let m : HMap κ ν :=
        { buckets := m.buckets.modify b (· ++ [⟨F.hash k, k, [v]⟩])
          inUse := if bucket.isEmpty then m.inUse + 1 else m.inUse
          num := m.num + 1 }
      if m.overloaded then m.rehash else some m

/-- octaspire_map_remove, amalgamated.c:7666-7736: the first element of the bucket with an equal
key; `numBucketsInUse` stays. -/
def remove (F : KeyFns κ) (m : HMap κ ν) (k : κ) : Option (HMap κ ν × Bool) :=
  if m.buckets.length = 0 then none else
  let b := F.hash k % m.buckets.length
  match m.buckets[b]? with
  | none => none
  | some bucket =>
    match bucket.findIdx? fun e => F.eqv k e.key with
    | none => some (m, false)
    | some i =>
      if m.num = 0 then none   -- size_t would wrap around
      else some ({ m with buckets := m.buckets.modify b (·.eraseIdx i), num := m.num - 1 }, true)

/-- octaspire_map_clear, amalgamated.c:7738-7765. -/
def clear (_ : HMap κ ν) : HMap κ ν := new

/-- the loop of octaspire_map_get_at_index for index ≥ 0, amalgamated.c:8021-8042 -/
def atIndexLoop (idx : Nat) : List (List (MapElem κ ν)) → Nat → Option (MapElem κ ν)
  | [], _ => none
  | b :: bs, counter =>
    if b.length ≠ 0 then
      if idx ≤ counter + b.length - 1 then b[idx - counter]?
      else atIndexLoop idx bs (counter + b.length)
    else atIndexLoop idx bs counter

/-- the loop of octaspire_map_get_at_index for index < 0, amalgamated.c:7987-8017, on the reversed
bucket list; the vector index is `-(index - counter)`, where `-0` is the first element -/
def atNegIndexLoop (idx : Nat) : List (List (MapElem κ ν)) → Nat → Option (MapElem κ ν)
  | [], _ => none
  | b :: bs, counter =>
    if b.length ≠ 0 then
      if idx ≤ counter + b.length - 1 then
        (if idx - counter = 0 then b[0]? else b[b.length - (idx - counter)]?)
      else atNegIndexLoop idx bs (counter + b.length)
    else atNegIndexLoop idx bs counter

/-- octaspire_map_get_at_index, amalgamated.c:7978-8044. -/
def atIndex (m : HMap κ ν) (i : Int) : Option (MapElem κ ν) :=
  if i < 0 then atNegIndexLoop (-(i + 1)).toNat m.buckets.reverse 0
  else atIndexLoop i.toNat m.buckets 0

/-- the common loop of octaspire_map_element_iterator_init and _next, amalgamated.c:8057-8092 and
8104-8139: the next element at or after element `e` of bucket `b`; `fuel` bounds the number of
buckets visited -/
def seek (m : HMap κ ν) : Nat → Nat → Nat → Option (Nat × Nat × MapElem κ ν)
  | 0, _, _ => none
  | fuel + 1, b, e =>
    match m.buckets[b]? with
    | none => none
    | some bucket => match bucket[e]? with
      | some x => some (b, e, x)
      | none => seek m fuel (b + 1) 0

/-- all elements an iterator yields: octaspire_map_element_iterator_init and then
octaspire_map_element_iterator_next until there is no element, amalgamated.c:8046-8142; `fuel` bounds
the number of elements -/
def iterateFrom (m : HMap κ ν) : Nat → Nat → Nat → List (MapElem κ ν)
  | 0, _, _ => []
  | fuel + 1, b, e =>
    match m.seek (m.buckets.length + 1 - b) b e with
    | none => []
    | some (b', e', x) => x :: iterateFrom m fuel b' (e' + 1)

/-- everything the iterator visits -/
def iterate (m : HMap κ ν) : List (MapElem κ ν) := m.iterateFrom (m.num + 1) 0 0

def apply (F : KeyFns κ) (m : HMap κ ν) : Spec.MapOp κ ν → Option (HMap κ ν)
  | .put k v => m.put F k v
  | .remove k => (m.remove F k).map (·.1)
  | .clear => some m.clear

def run (F : KeyFns κ) : HMap κ ν → List (Spec.MapOp κ ν) → Option (HMap κ ν)
  | m, [] => some m
  | m, op :: ops => match m.apply F op with
    | none => none
    | some m => run F m ops

end HMap
end Dern
