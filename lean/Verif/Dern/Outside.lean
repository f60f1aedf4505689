import Verif.Dern.Read
/-
The builtin functions that talk to the outside: ports (stdlib.c:4871-5645), read-and-eval-path and read-and-eval-string
(stdlib.c:6097-6179), require (stdlib.c:10464-10763, 11703-11757; lib.c:55-98), host-get-* (stdlib.c:12480-12580).

What the operating system answers is arbitrary: it is taken from `text`, i.e. from the world of the machine (`World.text`), at every
question anew.  So neither the contents of files nor the states of ports (open, closed, direction, position) are modelled, only what these
functions do with the values of the machine.

Loading a shared library runs code from outside (`Fault.external`).
-/
namespace Dern.Prog

/-- an arbitrary answer: a truth value -/
def answerBool (what : String) : Prog Bool := do
  let t ← text what
  pure (t != [])

/-- an arbitrary answer: a number -/
def answerNat (what : String) : Prog Nat := do
  let t ← text what
  pure t.length

/-- an arbitrary answer: a number of 32 bits -/
def answerInt (what : String) : Prog Int := do
  let n ← answerNat what
  pure (Int.bmod n (2 ^ 32))

/-! ### opening and asking ports -/

/-- octaspire_dern_vm_builtin_input_file_open and _output_file_open, stdlib.c:4871-4953.  With an argument that is no string the vector of
arguments is left on the stack, and the check of the height of the stack in the next line (stdlib.c:4898, 4940) aborts. -/
def biFileOpen (args env : Ref) : Prog (Option Ref) := do
  let es ← verifyVec args
  verifyEnv env
  match es with
  | [x] => do
    push args
    match (← read x).obj with
    | .str _ => do
      let n ← answerNat "port"
      let r ← alloc (.port n)
      pop args
      pure (some r)
    | _ => fail .abort
  | _ => error "Builtin 'input-file-open' expects one argument."

/-- octaspire_dern_vm_builtin_io_file_open, stdlib.c:4955-5008; as above -/
def biIoFileOpen (args env : Ref) : Prog (Option Ref) := do
  let es ← verifyVec args
  verifyEnv env
  match es with
  | [x] => do
    push args
    match (← read x).obj with
    | .str _ => do
      let n ← answerNat "port"
      let r ← alloc (.port n)
      if ← answerBool "opened" then do
        pop args
        pure (some r)
      else do
        let e ← error "Builtin 'io-file-open' failed to open file '%s': %s."
        pop args
        pure e
    | _ => fail .abort
  | _ => error "Builtin 'io-file-open' expects one argument."

/-- octaspire_dern_vm_builtin_port_supports_output_question_mark, _port_supports_input_question_mark, stdlib.c:5010-5090, and _port_flush,
stdlib.c:5605-5645 -/
def biPortAsk (args env : Ref) : Prog (Option Ref) := do
  let es ← verifyVec args
  verifyEnv env
  match es with
  | [x] => do
    push args
    match (← read x).obj with
    | .port _ => do
      let b ← answerBool "port"
      pop args
      let r ← alloc (.bool b)
      pure (some r)
    | _ => do
      pop args
      error "Builtin 'port-supports-output?' expects port argument."
  | _ => error "Builtin 'port-supports-output?' expects one argument."

/-- octaspire_dern_vm_builtin_port_close, stdlib.c:5092-5130: as biFileOpen, with an argument that is no port the check of the height of the
stack (stdlib.c:5119) aborts -/
def biPortClose (args env : Ref) : Prog (Option Ref) := do
  let es ← verifyVec args
  verifyEnv env
  match es with
  | [x] => do
    push args
    match (← read x).obj with
    | .port _ => do
      let b ← answerBool "closed"
      pop args
      let r ← alloc (.bool b)
      pure (some r)
    | _ => fail .abort
  | _ => error "Builtin 'port-close' expects one argument."

/-- octaspire_dern_vm_builtin_port_dist and _port_length, stdlib.c:5519-5603 -/
def biPortNumber (args env : Ref) : Prog (Option Ref) := do
  let es ← verifyVec args
  verifyEnv env
  match es with
  | [x] => do
    push args
    match (← read x).obj with
    | .port _ => do
      let n ← answerInt "port"
      pop args
      let r ← alloc (.int n)
      pure (some r)
    | _ => do
      pop args
      error "The first argument to builtin 'port-dist' must be a port. Now type %s was given."
  | _ => error "Builtin 'port-dist' expects exactly one argument."

/-- octaspire_dern_vm_builtin_port_seek, stdlib.c:5438-5517 -/
def biPortSeek (args env : Ref) : Prog (Option Ref) := do
  let es ← verifyVec args
  verifyEnv env
  match es with
  | x :: y :: zs =>
    if zs.length ≤ 1 then do
      push args
      match (← read x).obj with
      | .port _ => do
        match (← read y).obj with
        | .int _ => do
          match zs with
          | z :: _ => do
            match (← read z).obj with
            | .sym _ => do
              let b ← answerBool "seek"
              pop args
              let r ← alloc (.bool b)
              pure (some r)
            | _ => do
              pop args
              error "The third argument to builtin 'port-seek' must be symbol 'from-current'. Now type %s was given."
          | [] => do
            let b ← answerBool "seek"
            pop args
            let r ← alloc (.bool b)
            pure (some r)
        | _ => do
          pop args
          error "The second argument to builtin 'port-seek' must be an integer. Now type %s was given."
      | _ => do
        pop args
        error "The first argument to builtin 'port-seek' must be a port. Now type %s was given."
    else error "Builtin 'port-seek' expects two or three arguments."
  | _ => error "Builtin 'port-seek' expects two or three arguments."

/-! ### reading and writing -/

/-- the loop of octaspire_dern_vm_builtin_port_read, stdlib.c:5194-5217 -/
def readOctets (result : Ref) : Nat → Prog Unit
  | 0 => pure ()
  | n + 1 => do
    if ← answerBool "read" then do
      let c ← answerNat "octet"
      let e ← alloc (.int (Int.bmod c (2 ^ 8)))
      push e
      append result e
      pop e
      readOctets result n
    else pure ()

/-- octaspire_dern_vm_builtin_port_read, stdlib.c:5132-5248 -/
def biPortRead (args env : Ref) : Prog (Option Ref) := do
  let es ← verifyVec args
  verifyEnv env
  match es with
  | x :: ys =>
    if ys.length ≤ 1 then do
      push args
      match (← read x).obj with
      | .port _ => do
        match ys with
        | y :: _ => do
          match (← read y).obj with
          | .int n => do
            let r ← alloc (.vec [])
            push r
            readOctets r n.toNat
            pop r
            pop args
            pure (some r)
          | _ => do
            pop args
            error "The second argument to builtin 'port-read' must be an integer. Now type %s was given."
        | [] => do
          if ← answerBool "read" then do
            let c ← answerNat "octet"
            let r ← alloc (.int (Int.bmod c (2 ^ 8)))
            pop args
            pure (some r)
          else do
            pop args
            error "Builtin 'port-read' failed to read the requested one octet."
      | _ => do
        pop args
        error "The first argument to builtin 'port-read' must be a port. Now type %s was given."
    else error "Builtin 'port-read' expects one or two arguments."
  | [] => error "Builtin 'port-read' expects one or two arguments."

/-- writing a text, stdlib.c:5314-5380; octaspire_string_get_length_in_octets, amalgamated.c:5608-5621 -/
def writeText (args : Ref) (s : Text) : Prog (Option Ref) := do
  match getCString s with
  | none => fail .abort
  | some _ => do
    if ← answerBool "written" then do
      pop args
      let r ← alloc (.int (Int.bmod ((ensureOctets s).length - 1 : Nat) (2 ^ 32)))
      pure (some r)
    else do
      pop args
      error "Writing of %zu octets of string failed. Only %zu octets were written."

/-- the loop over the elements of a vector, stdlib.c:5382-5425, where `write` is octaspire_dern_vm_builtin_port_write; the vector is read once,
nothing changes it -/
def writeElements (write : Ref → Prog (Option Ref)) (args port : Ref) : List Ref → Int → Prog (Option Ref)
  | [], n => do
    pop args
    let r ← alloc (.int n)
    pure (some r)
  | x :: xs, n => do
    let tmp ← alloc (.vec [])
    push tmp
    append tmp port
    append tmp x
    let c ← write tmp
    pop tmp
    let c ← require c
    match (← read c).obj with
    | .err _ _ => do
      pop args
      pure (some c)
    | .int k => do
      let n ← int32 (n + k)
      writeElements write args port xs n
    | _ => fail .abort

/-- octaspire_dern_vm_builtin_port_write, stdlib.c:5250-5436; the first argument bounds the depth of the vectors -/
def biPortWrite : Nat → (args env : Ref) → Prog (Option Ref)
  | 0, _, _ => fail .fuel
  | d + 1, args, env => do
    let es ← verifyVec args
    verifyEnv env
    match es with
    | [port, x] => do
      push args
      match (← read port).obj with
      | .port _ => do
        if ← answerBool "output" then do
          match (← read x).obj with
          | .int _ => do
            let n ← answerInt "written"
            if n < 0 then fail .abort
            else do
              pop args
              let r ← alloc (.int n)
              pure (some r)
          | .chr s => writeText args s
          | .str s => writeText args s
          | .vec xs => writeElements (fun tmp => biPortWrite d tmp env) args port xs 0
          | _ => do
            pop args
            error "The second argument to builtin 'port-write' must be an integer, character, string or a vector of these types. Now type %s was given."
        else do
          pop args
          error "The first argument to builtin 'port-write' must be a port supporting writing."
      | _ => do
        pop args
        error "The first argument to builtin 'port-write' must be a port. Now type %s was given."
    | _ => error "Builtin 'port-write' expects exactly two arguments. %zu argument were given."

/-! ### evaluating texts -/

/-- octaspire_dern_vm_read_from_buffer_and_eval_in_global_environment, vm.c:4393-4420, on the text of an input; allocation failure is left
out -/
def evalText (ct : Ctype) (turns : Nat) (t : Text) : Prog (Option Ref) := readAll ct turns t

/-- octaspire_dern_vm_builtin_read_and_eval_string, stdlib.c:6139-6179 -/
def biReadString (ct : Ctype) (turns : Nat) (args env : Ref) : Prog (Option Ref) := do
  let es ← verifyVec args
  verifyEnv env
  match es with
  | [x] => do
    match (← read x).obj with
    | .str s => do
      match getCString s with
      | none => fail .abort
      | some o => do
        match inputText o with
        | none => fail .abort
        | some t => evalText ct turns t
    | _ => error "First argument to builtin 'read-and-eval-string' must be string (to be evaluated). Type '%s' was given."
  | _ => error "Builtin 'read-and-eval-string' expects one argument. %zu arguments were given."

/-- octaspire_dern_vm_builtin_read_and_eval_path, stdlib.c:6097-6137; octaspire_dern_vm_read_from_path_and_eval_in_global_environment,
vm.c:4422-4442: the text of the file is arbitrary, empty if the file cannot be read -/
def biReadPath (ct : Ctype) (turns : Nat) (args env : Ref) : Prog (Option Ref) := do
  let es ← verifyVec args
  verifyEnv env
  match es with
  | [x] => do
    match (← read x).obj with
    | .str s => do
      match getCString s with
      | none => fail .abort
      | some _ => do
        let t ← text "file"
        evalText ct turns t
    | _ => error "First argument to builtin 'read-and-eval-path' must be string (path). Type '%s' was given."
  | _ => error "Builtin 'read-and-eval-path' expects one argument. %zu arguments were given."

/-- octaspire_dern_vm_builtin_private_require_source_file and _binary_file, stdlib.c:10509-10763, octaspire_dern_lib_new_source,
lib.c:55-98; null if there is no such file -/
def requireFile (ct : Ctype) (turns : Nat) (name : Text) : Prog (Option Ref) := do
  if ← answerBool "source file" then do
    let t ← text "file"
    let r ← require (← evalText ct turns t)
    match (← read r).obj with
    | .err _ _ => error "Source library '%s' failed to load: %s"
    | _ => do
      match recode name with
      | none => fail .abort
      | some s => do
        let r ← alloc (.str (s ++ txt ".dern"))
        pure (some r)
  else do
    if ← answerBool "binary library" then fail .external
    else error "Binary library '%s' failed to load: %s"

/-- octaspire_dern_vm_builtin_require, stdlib.c:11703-11757, with octaspire_dern_vm_builtin_private_require_is_already_loaded,
stdlib.c:10464-10507 -/
def biRequire (ct : Ctype) (turns : Nat) (args env : Ref) : Prog (Option Ref) := do
  let es ← verifyVec args
  verifyEnv env
  match es with
  | [x] => do
    match (← read x).obj with
    | .sym s => do
      if ← answerBool "loaded" then do
        let r ← alloc (.bool true)
        pure (some r)
      else requireFile ct turns s
    | _ => error "The first argument to builtin 'require' must be a symbol. Type '%s' was given."
  | _ => error "Builtin 'require' expects exactly one argument."

/-! ### the host -/

/-- the loops of octaspire_dern_vm_builtin_host_get_command_line_arguments and _host_get_environment_variables, stdlib.c:12507-12521,
12559-12573 -/
def hostTexts (result : Ref) : Nat → Prog Unit
  | 0 => pure ()
  | n + 1 => do
    let t ← text "host"
    let x ← alloc (.str t)
    append result x
    hostTexts result n

/-- octaspire_dern_vm_builtin_host_get_command_line_arguments and _host_get_environment_variables, stdlib.c:12480-12580 -/
def biHost (args env : Ref) : Prog (Option Ref) := do
  let es ← verifyVec args
  verifyEnv env
  match es with
  | [] => do
    let r ← alloc (.vec [])
    push r
    let n ← answerNat "host"
    hostTexts r n
    pop r
    pure (some r)
  | _ => error "Builtin 'host-get-command-line-arguments' expects zero arguments. %zu arguments were given."

/-- The functions behind the names that `Dern.Prog.builtin` leaves to the library.  Names outside of the standard library belong to code of
an embedding program or of a plugin. -/
def outside (ct : Ctype) (bound : Nat) (name : String) (args env : Ref) : Prog (Option Ref) :=
  match name with
  | "input-file-open" | "output-file-open" => biFileOpen args env
  | "io-file-open" => biIoFileOpen args env
  | "port-supports-output?" | "port-supports-input?" | "port-flush" => biPortAsk args env
  | "port-close" => biPortClose args env
  | "port-read" => biPortRead args env
  | "port-write" => biPortWrite bound args env
  | "port-seek" => biPortSeek args env
  | "port-dist" | "port-length" => biPortNumber args env
  | "read-and-eval-path" => biReadPath ct bound args env
  | "read-and-eval-string" => biReadString ct bound args env
  | "require" => biRequire ct bound args env
  | "host-get-command-line-arguments" | "host-get-environment-variables" => biHost args env
  | _ => fail .external

/-- The library of the machine.  `bound` limits the number of forms in one text and the depth of the vectors that are written; theorems hold
for every bound. -/
def outsideLibrary (ct : Ctype) (bound : Nat) : Library where
  builtin
    | .other name, args, env => outside ct bound name args env
    | _, _, _ => fail .external

end Dern.Prog
