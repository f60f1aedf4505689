import Verif.Dern.Heap
/-
What the C library does with streams (C11 7.21, POSIX where C leaves it open), as far as octaspire_dern_port.c uses it: a trusted description.

Files are sequences of octets that only this program changes.  Whenever a function of the library may fail it asks `fails`; how much of the buffered output
goes to the file, and how much is done when something fails, is up to `amount`.  Both are arbitrary.  A stream opened for appending writes at the end of the
file, wherever its position is.  Between output and input on the same stream there must be a flush or a seek, and between input and output a seek, unless the
input has reached the end of the file: otherwise the behaviour is undefined (7.21.5.3 paragraph 7).
-/
namespace Dern.Stdio
open Utf8 (Octet)

/-- the files, and the choices of the library; `tick` counts the choices made -/
structure Sys where
  disk : Text → Option (List Octet)
  fails : Nat → Bool
  amount : Nat → Nat
  tick : Nat

/-- the octets of a file; none if it does not exist -/
def Sys.content (s : Sys) (f : Text) : List Octet := (s.disk f).getD []

/-- the library never fails -/
def Sys.Reliable (s : Sys) : Prop := ∀ t, s.fails t = false

/-- a computation that uses the C library -/
abbrev Io (α : Type) := StateT Sys (Except Fault) α

/-- what the last operation on a stream was; after output there can be octets that are not yet in the file -/
inductive Last where
  | idle
  | input (eof : Bool)
  | output (pending : List Octet)
  deriving DecidableEq

/-- a stream: `rb` is for input, `a` for output, `a+b` for both -/
structure Stream where
  path : Text
  input : Bool
  output : Bool
  pos : Nat
  last : Last := .idle
  deriving DecidableEq

/-- the octets not yet in the file -/
def Stream.pending (st : Stream) : List Octet :=
  match st.last with
  | .output os => os
  | _ => []

/-- does the next operation fail? -/
def failing : Io Bool := fun s => .ok (s.fails s.tick, { s with tick := s.tick + 1 })

/-- a number at most `n` -/
def upTo (n : Nat) : Io Nat := fun s => .ok (min n (s.amount s.tick), { s with tick := s.tick + 1 })

def content (f : Text) : Io (List Octet) := fun s => .ok (s.content f, s)

/-- some octets go to the end of a file -/
def addTo (f : Text) (os : List Octet) : Io Unit := fun s =>
  .ok ((), { s with disk := fun g => if g = f then some (s.content f ++ os) else s.disk g })

/-- The octets not yet in the file go there, all of them or (`whole = false`) only some.  When they are all there the position is the end of the file. -/
def put (st : Stream) (whole : Bool) : Io Stream := do
  if st.pending = [] then pure st
  else do
    let k ← if whole then pure st.pending.length else upTo st.pending.length
    addTo st.path (st.pending.take k)
    if k = st.pending.length then do
      let c ← content st.path
      pure { st with pos := c.length, last := .output [] }
    else pure { st with last := .output (st.pending.drop k) }

/-- 7.21.5.3: a missing file cannot be opened for input; it is created for appending.  The position of a stream for appending is at the start or at the end. -/
def fopen (f : Text) (input output : Bool) : Io (Option Stream) := do
  if ← failing then pure none
  else
    if output then do
      addTo f []
      let c ← content f
      let k ← upTo 1
      pure (some { path := f, input := input, output := output, pos := if k = 1 then c.length else 0 })
    else fun s =>
      match s.disk f with
      | none => .ok (none, s)
      | some _ => .ok (some { path := f, input := input, output := output, pos := 0 }, s)

/-- 7.21.5.1: was it closed without failure?  The stream is gone in any case. -/
def fclose (st : Stream) : Io Bool := do
  let bad ← failing
  let _ ← put st (!bad)
  pure (!bad)

/-- 7.21.5.2, and POSIX for streams whose last operation was input -/
def fflush (st : Stream) : Io (Bool × Stream) := do
  let bad ← failing
  let st ← put st (!bad)
  match st.last with
  | .output [] => pure (!bad, { st with last := .idle })
  | _ => pure (!bad, st)

inductive Whence where
  | set | cur | end_

/-- where a seek starts: at the beginning, at the position or at the end of the file -/
def Whence.base (w : Whence) (pos length : Nat) : Nat :=
  match w with
  | .set => 0
  | .cur => pos
  | .end_ => length

/-- 7.21.9.4: the position of the stream, or -1 for a failure -/
def ftell (st : Stream) : Io Int := do
  if ← failing then pure (-1)
  else
    match st.pending with
    | [] => pure st.pos
    | os => do
      let c ← content st.path
      pure ((c.length + os.length : Nat) : Int)

/-- 7.21.9.2: the octets not yet in the file go there; then the position is changed.  A position before the start of the file is a failure. -/
def fseek (st : Stream) (offset : Int) (whence : Whence) : Io (Bool × Stream) := do
  let bad ← failing
  let st ← put st (!bad)
  let c ← content st.path
  if bad = true ∨ (whence.base st.pos c.length : Int) + offset < 0 then pure (false, st)
  else pure (true, { st with pos := ((whence.base st.pos c.length : Int) + offset).toNat, last := .idle })

/-- 7.21.8.1: the octets read.  The stream is open for input. -/
def fread (st : Stream) (n : Nat) : Io (List Octet × Stream) := do
  if n = 0 then pure ([], st)
  else
    match st.last with
    | .output _ => throw .ub
    | _ => do
      let c ← content st.path
      let m := min n (c.length - st.pos)
      let k ← if ← failing then upTo m else pure m
      pure ((c.drop st.pos).take k, { st with pos := st.pos + k, last := .input (k < n && k = c.length - st.pos) })

/-- 7.21.8.2: the number of octets written.  The stream is open for appending.  The library may put some of the octets that are not yet in the file there. -/
def fwrite (st : Stream) (os : List Octet) : Io (Nat × Stream) := do
  if os = [] then pure (0, st)
  else
    match st.last with
    | .input false => throw .ub
    | _ => do
      let k ← if ← failing then upTo os.length else pure os.length
      let st ← put { st with last := .output (st.pending ++ os.take k) } false
      pure (k, st)

end Dern.Stdio
