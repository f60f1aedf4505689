import Verif.Spec.Stdio
/-
octaspire_dern_port.c: ports on files.  The C library is described in `Verif/Spec/Stdio.lean`.  Memory allocation does not fail; the octets of the name of a
port are those of the path it was opened with.
-/
namespace Dern.Ports
open Utf8 (Octet)
open Dern.Stdio

/-- octaspire_dern_port_tag_t, dern_port.h -/
inductive Tag where
  | input | output | io | notOpen
  deriving DecidableEq

/-- struct octaspire_dern_port_t, port.c:26-40; `length` is `lengthInOctets`, and `file` is null for a port that is not open -/
structure Port where
  name : Text
  length : Int
  file : Option Stream
  tag : Tag
  deriving DecidableEq

/-- octaspire_helpers_verify_true -/
def verify (b : Bool) : Io Unit := if b then pure () else throw .abort

/-- `fseek` to the end, `ftell`, `fseek` to the start: port.c:71-73, 87-89, 141-143, 200-202 -/
def measure (st : Stream) : Io (Int × Stream) := do
  let (ok, st) ← fseek st 0 .end_
  verify ok
  let n ← ftell st
  let (ok, st) ← fseek st 0 .set
  verify ok
  pure (n, st)

/-- octaspire_dern_port_new_input_file, port.c:117-146 -/
def newInput (path : Text) : Io Port := do
  match ← fopen path true false with
  | none => pure { name := path, length := -1, file := none, tag := .notOpen }
  | some st => do
    let (n, st) ← measure st
    pure { name := path, length := n, file := some st, tag := .input }

/-- octaspire_dern_port_new_output_file, port.c:148-174 -/
def newOutput (path : Text) : Io Port := do
  match ← fopen path false true with
  | none => pure { name := path, length := -1, file := none, tag := .notOpen }
  | some st => do
    let n ← ftell st
    pure { name := path, length := n, file := some st, tag := .output }

/-- octaspire_dern_port_new_io_file, port.c:176-205 -/
def newIo (path : Text) : Io Port := do
  match ← fopen path true true with
  | none => pure { name := path, length := -1, file := none, tag := .notOpen }
  | some st => do
    let (n, st) ← measure st
    pure { name := path, length := n, file := some st, tag := .io }

/-- octaspire_dern_port_new_copy, port.c:42-115: when the file cannot be opened again, fseek and ftell are called with a null pointer; the length of a copy of
a port that is not open is that of the port, and its file is not initialised (it is not used) -/
def copy (p : Port) : Io Port :=
  match p.tag with
  | .io => do
    match ← fopen p.name true true with
    | none => throw .null
    | some st => do
      let (n, st) ← measure st
      pure { p with length := n, file := some st }
  | .input => do
    match ← fopen p.name true false with
    | none => throw .null
    | some st => do
      let (n, st) ← measure st
      pure { p with length := n, file := some st }
  | .output => do
    match ← fopen p.name false true with
    | none => throw .null
    | some st => do
      let n ← ftell st
      pure { p with length := n, file := some st }
  | .notOpen => pure { p with file := none }

/-- the stream of a port that is open: octaspire_helpers_verify_not_null -/
def stream (p : Port) : Io Stream :=
  match p.file with
  | some st => pure st
  | none => throw .abort

/-- octaspire_dern_port_release, port.c:207-228 -/
def release (p : Port) : Io Unit :=
  match p.tag with
  | .notOpen => pure ()
  | _ => do
    let st ← stream p
    verify (← fclose st)

/-- octaspire_dern_port_write, port.c:230-249: the result, and the port as it is then -/
def write (p : Port) (os : List Octet) : Io (Int × Port) :=
  if p.tag = .io ∨ p.tag = .output then do
    let st ← stream p
    let (k, st) ← fwrite st os
    pure (k, { p with file := some st })
  else pure (-1, p)

/-- octaspire_dern_port_read, port.c:251-270: the result, the octets in the buffer, and the port as it is then -/
def read (p : Port) (n : Nat) : Io ((Int × List Octet) × Port) :=
  if p.tag = .input ∨ p.tag = .io then do
    let st ← stream p
    let (os, st) ← fread st n
    pure ((os.length, os), { p with file := some st })
  else pure ((-1, []), p)

/-- octaspire_dern_port_close, port.c:272-296 -/
def close (p : Port) : Io (Bool × Port) :=
  match p.tag with
  | .notOpen => pure (false, p)
  | _ => do
    let st ← stream p
    let ok ← fclose st
    pure (ok, { p with file := none, length := -1, tag := .notOpen })

/-- octaspire_dern_port_get_length_in_octets, port.c:298-302 -/
def length (p : Port) : Int := p.length

/-- octaspire_dern_port_seek, port.c:366-404 -/
def seek (p : Port) (amount : Int) (fromCurrent : Bool) : Io (Bool × Port) :=
  match p.tag with
  | .notOpen => pure (false, p)
  | _ => do
    let st ← stream p
    if amount < 0 then do
      let (ok, st) ← fseek st (if fromCurrent then amount else amount + 1) (if fromCurrent then .cur else .end_)
      pure (ok, { p with file := some st })
    else do
      let (ok, st) ← fseek st amount (if fromCurrent then .cur else .set)
      pure (ok, { p with file := some st })

/-- octaspire_dern_port_flush, port.c:406-428 -/
def flush (p : Port) : Io (Bool × Port) :=
  match p.tag with
  | .notOpen => pure (false, p)
  | _ => do
    let st ← stream p
    let (ok, st) ← fflush st
    pure (ok, { p with file := some st })

/-- octaspire_dern_port_distance, port.c:430-452 -/
def distance (p : Port) : Io Int :=
  match p.tag with
  | .notOpen => pure (-1)
  | _ => do
    let st ← stream p
    ftell st

/-- octaspire_dern_port_supports_output, port.c:454-476 -/
def supportsOutput (p : Port) : Io Bool :=
  match p.tag with
  | .io | .output => do
    let _ ← stream p
    pure true
  | _ => pure false

/-- octaspire_dern_port_supports_input, port.c:478-500 -/
def supportsInput (p : Port) : Io Bool :=
  match p.tag with
  | .io | .input => do
    let _ ← stream p
    pure true
  | _ => pure false

end Dern.Ports
