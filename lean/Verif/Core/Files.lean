import Verif.Spec.Stdio
import Verif.Core.Input
import Verif.Core.Utf8
/-
The allocator and the reading of whole files (amalgamated.c:1897-2144, 2164-2235, 8291-8346, 8506-8580).

The allocator can be told to refuse some of the next requests ("rigged"), and so can the reader; otherwise the C library decides (`grants`; `Sys`).  Blocks are numbered, and the ones
not yet freed are remembered, as is the number of open streams.  Custom allocation functions are the C library's here.  The contents of blocks other than the buffer of a file are left
out.  MSVC's `fopen_s` is not modelled.
-/
namespace Dern.Files
open Dern.Stdio
open Utf8 (Octet)

/-- octaspire_allocator_t, amalgamated.c:1917-1925; `grants` says what the C library answers to its n-th request, `asked` counts the requests, `live` are the blocks not freed -/
structure Allocator where
  rigged : Nat := 0
  bitIndex : Nat := 0
  bitQueue : List Nat := List.replicate 20 0
  grants : Nat → Bool
  asked : Nat := 0
  live : List Nat := []

/-- octaspire_helpers_test_bit, amalgamated.c:2164-2168 -/
def testBit (bitSet index : Nat) : Bool := bitSet &&& (1 <<< index) ≠ 0

/-- octaspire_allocator_private_test_bit, amalgamated.c:1987-1994.  The division in `float` is exact for these numbers.  Behind the array there is an `assert`. -/
def Allocator.testBit (a : Allocator) : Res Bool :=
  match a.bitQueue[a.bitIndex / 32]? with
  | none => .error .assert
  | some w => .ok (Files.testBit w (a.bitIndex % 8))

/-- is the request refused because it is rigged?  The first lines of octaspire_allocator_malloc and _realloc, amalgamated.c:2000-2011, 2038-2049 -/
def Allocator.refuses (a : Allocator) : Res (Bool × Allocator) :=
  if a.rigged ≠ 0 then do
    let a := { a with rigged := a.rigged - 1 }
    let b ← a.testBit
    .ok (!b, { a with bitIndex := a.bitIndex + 1 })
  else .ok (false, a)

/-- octaspire_allocator_malloc, amalgamated.c:1996-2032: the number of the block.  The size (never 0) does not matter. -/
def Allocator.malloc (a : Allocator) : Res (Option Nat × Allocator) := do
  let (no, a) ← a.refuses
  if no then .ok (none, a)
  else if a.grants a.asked then .ok (some a.asked, { a with asked := a.asked + 1, live := a.asked :: a.live })
  else .ok (none, { a with asked := a.asked + 1 })

/-- octaspire_allocator_realloc, amalgamated.c:2034-2052: the old block stays if the request is refused -/
def Allocator.realloc (a : Allocator) (block : Option Nat) : Res (Option Nat × Allocator) := do
  let (no, a) ← a.refuses
  if no then .ok (none, a)
  else if a.grants a.asked then
    .ok (some a.asked, { a with asked := a.asked + 1, live := a.asked :: (match block with | none => a.live | some b => a.live.erase b) })
  else .ok (none, { a with asked := a.asked + 1 })

/-- octaspire_allocator_free, amalgamated.c:2054-2061; freeing a block that is not there is undefined, the null pointer is ignored -/
def Allocator.free (a : Allocator) : Option Nat → Res Allocator
  | none => .ok a
  | some b => if b ∈ a.live then .ok { a with live := a.live.erase b } else .error .ub

/-- octaspire_allocator_set_number_and_type_of_future_allocations_to_be_rigged, amalgamated.c:2063-2078 -/
def Allocator.rig (a : Allocator) (count bitQueue0 : Nat) : Allocator :=
  { a with rigged := count, bitIndex := 0, bitQueue := bitQueue0 :: List.replicate 19 0 }

/-- octaspire_allocator_set_number_and_type_of_future_allocations_to_be_rigged_when_larger_than_32, amalgamated.c:2080-2133 -/
def Allocator.rigMany (a : Allocator) (count : Nat) (bitQueue : List Nat) : Allocator :=
  { a with rigged := count, bitIndex := 0, bitQueue := bitQueue }

/-- octaspire_stdio_t, amalgamated.c:8506-8513 -/
structure Reader where
  rigged : Nat := 0
  bitIndex : Nat := 0
  bitQueue : Nat := 0

/-- octaspire_stdio_set_number_and_type_of_future_reads_to_be_rigged, amalgamated.c:8566-8574 -/
def Reader.rig (_ : Reader) (count bitQueue : Nat) : Reader := { rigged := count, bitIndex := 0, bitQueue := bitQueue }

/-- what a host has: the C library, the allocator, the reader, and the number of open streams -/
structure Host where
  sys : Sys
  alloc : Allocator
  reader : Reader
  streams : Nat := 0

/-- computations of a host -/
abbrev Hx (α : Type) := StateT Host (Except Fault) α

/-- a function of the C library -/
def io {α : Type} (p : Io α) : Hx α := fun s =>
  match p s.sys with
  | .error e => .error e
  | .ok (a, y) => .ok (a, { s with sys := y })

/-- a function of the allocator -/
def malloc : Hx (Option Nat) := fun s =>
  match s.alloc.malloc with
  | .error e => .error e
  | .ok (a, y) => .ok (a, { s with alloc := y })

def free (b : Option Nat) : Hx Unit := fun s =>
  match s.alloc.free b with
  | .error e => .error e
  | .ok y => .ok ((), { s with alloc := y })

/-- fopen for reading, with the number of open streams -/
def openFile (path : Text) : Hx (Option Stream) := do
  match ← io (fopen path true false) with
  | none => pure none
  | some f => fun s => .ok (some f, { s with streams := s.streams + 1 })

/-- fclose; its result is not looked at -/
def closeFile (f : Stream) : Hx Unit := do
  let _ ← io (fclose f)
  fun s => .ok ((), { s with streams := s.streams - 1 })

/-- octaspire_stdio_fread, amalgamated.c:8543-8564.  There is an `assert` for the bits after the 32. -/
def readFile (f : Stream) (n : Nat) : Hx (List Octet × Stream) := fun s =>
  if s.reader.rigged ≠ 0 then
    if s.reader.bitIndex ≥ 32 then .error .assert
    else if testBit s.reader.bitQueue s.reader.bitIndex then
      io (fread f n) { s with reader := { s.reader with rigged := s.reader.rigged - 1, bitIndex := s.reader.bitIndex + 1 } }
    else .ok (([], f), { s with reader := { s.reader with rigged := s.reader.rigged - 1, bitIndex := s.reader.bitIndex + 1 } })
  else io (fread f n) s

/-- octaspire_helpers_path_to_buffer, amalgamated.c:2170-2235: the buffer and its octets, and `octetsAllocated`.  The results of the seeks are not looked at. -/
def pathToBuffer (path : Text) : Hx (Option (Nat × List Octet) × Nat) := do
  match ← openFile path with
  | none => pure (none, 0)
  | some f => do
    let (_, f) ← io (fseek f 0 .end_)
    let length ← io (ftell f)
    if length ≤ 0 then do
      closeFile f
      pure (none, 0)
    else do
      let (_, f) ← io (fseek f 0 .set)
      match ← malloc with
      | none => do
        closeFile f
        pure (none, 0)
      | some b => do
        let (os, f) ← readFile f length.toNat
        if os.length ≠ length.toNat then do
          closeFile f
          free (some b)
          pure (none, 0)
        else do
          closeFile f
          pure (some (b, os), length.toNat)

/-- octaspire_input_new_from_path, amalgamated.c:8322-8346, with octaspire_input_new_from_buffer (8291-8320): the block of the input and the input; the allocations of its string are
always granted here and not counted.  A decoding error of the string is not looked at. -/
def inputFromPath (path : Text) : Hx (Option (Nat × Input)) := do
  match ← pathToBuffer path with
  | (none, _) => pure none
  | (some (b, os), _) => do
    let i ← malloc
    let r ← match i with
      | none => pure none
      | some i =>
        match Utf8.fromBuffer os with
        | none => throw .fuel
        | some t => pure (some (i, Input.new (t.chars.map BitVec.toNat)))
    free (some b)
    pure r

end Dern.Files
