import Verif.Dern.Outside
/-
The program `dern` (octaspire_dern_repl.c): its options, the texts it evaluates, and the interactive loop.

Left out: colours (`useColors` is taken to be false), the banner, the version and the usage, debug output on the standard error stream,
failures of the allocator, and the environment variables and command line arguments handed to the machine.
-/
namespace Dern
open Utf8 (Octet)

/-- octaspire_stdio_read_line, amalgamated.c:8582-8615, on what is left of the standard input: the octets of the next line, with the
newline.  At the end of the input there is no line, and what follows the last newline is lost. -/
def readLine : List Octet → Option (List Octet × List Octet)
  | [] => none
  | o :: os =>
    if o = 10 then some ([o], os)
    else (readLine os).map fun p => (o :: p.1, p.2)

theorem readLine_length : ∀ {os l rest : List Octet}, readLine os = some (l, rest) → rest.length < os.length := by
  intro os
  induction os with
  | nil => intro l rest h; cases h
  | cons o os ih =>
    intro l rest h
    unfold readLine at h
    split at h
    · cases h; simp
    · cases hr : readLine os with
      | none => rw [hr] at h; cases h
      | some p =>
        rw [hr] at h
        cases h
        have := ih (l := p.1) (rest := p.2) hr
        simp; omega

/-- what octaspire_input_push_back_from_string, amalgamated.c:8445-8458, adds to the input: octaspire_string_get_c_string and
octaspire_string_concatenate_c_string, amalgamated.c:5747-5791; `none` is `abort()` -/
def pushedText (l : Text) : Option Text := do
  let o ← getCString l
  inputText o

/-- the start of an error message of octaspire_dern_repl_print_message_c_str, repl.c:109-117, after reading all but `rest` of the
text `whole`: octaspire_input_get_line_number and so on -/
def whereText (whole rest : Text) : Text :=
  txt "At line " ++ decDigits ((Input.new whole).advance (whole.length - rest.length)).line ++
  txt ", column " ++ decDigits ((Input.new whole).advance (whole.length - rest.length)).column ++
  txt " (character index " ++ decDigits ((Input.new whole).advance (whole.length - rest.length)).index ++
  txt " from the start of the stream):\n"

namespace Prog

/-- One turn of the loop, on the whole text of the input, repl.c:621-688: is the form complete (then the input is cleared, repl.c:688)?
On a text without any token the variable `str` is used uninitialised, repl.c:626-629, 682-685. -/
def replTurn (ct : Ctype) (t : Text) : Prog Bool :=
  match lex ct t with
  | (.null, _) => fail .ub
  | (.abort, _) => fail .abort
  | (.ub, _) => fail .ub
  | (.tok k, rest) => do
    let (x, rest) ← parseTok ct (2 * t.length + 2) k rest
    match x with
    | none => do
      emit (txt "| ")
      pure false
    | some x => do
      push x
      let env ← root .globalEnv
      match ← eval x env with
      | none => do
        emit (txt "| ")
        pop x
        pure false
      | some r => do
        let s ← print false r
        let o ← octetsOf s
        match (← read x).obj with
        | .err _ _ => emit (whereText t rest ++ o)
        | _ => emit o
        pop x
        emit [10]
        pure true

/-- The loop, repl.c:604-694, on what is left of the standard input (octets) and with the text already in the input.  The prompt of
the next turn is written at the end of a turn here, so the first prompt is `replLoop`'s caller's.  The first argument bounds the number of
lines. -/
def replLoop (ct : Ctype) : Nat → List Octet → Text → Prog Unit
  | 0, _, _ => fail .fuel
  | n + 1, os, acc =>
    match readLine os with
    | none => pure ()
    | some (o, os) =>
      match inputText o with
      | none => fail .abort
      | some [] => do
        if ← isQuit then pure ()
        else do
          emit (txt "> ")
          replLoop ct n os acc
      | some (c :: cs) =>
        match pushedText (c :: cs) with
        | none => fail .abort
        | some s => do
          if ← replTurn ct (acc ++ s) then
            if ← isQuit then pure ()
            else do
              emit (txt "> ")
              replLoop ct n os []
          else replLoop ct n os (acc ++ s)

/-- the interactive part of the program, repl.c:604-694 -/
def repl (ct : Ctype) (os : List Octet) : Prog Unit := do
  emit (txt "> ")
  replLoop ct (os.length + 1) os []

end Prog

/-- The options of the program; `strings` are those of `-e`, `dirs` those of `-I`. -/
structure Options where
  colors : Bool := false
  interactive : Bool := false
  debug : Bool := false
  keepLibraries : Bool := false
  strings : List Text := []
  dirs : List Text := []
  file : Option Text := none
  deriving DecidableEq, Repr

/-- what becomes of the command line: the program goes on, or prints the version or the usage and ends -/
inductive CommandLine where
  | go (o : Options)
  | version
  | help
  | unknown
  deriving DecidableEq, Repr

/-- what the next argument is: an argument of its own, or the operand of `-e` or `-I` (the variables `evaluate` and `include`) -/
inductive Awaiting where
  | nothing | string | dir
  deriving DecidableEq

/-- the loop over the arguments, repl.c:327-423 -/
def readOptions : List Text → Awaiting → Options → CommandLine
  | [], _, o => .go o
  | a :: as, .string, o => readOptions as .nothing { o with strings := o.strings ++ [a] }
  | a :: as, .dir, o => readOptions as .nothing { o with dirs := o.dirs ++ [a] }
  | a :: as, .nothing, o =>
    if a = txt "-c" ∨ a = txt "--color-diagnostics" then readOptions as .nothing { o with colors := true }
    else if a = txt "-i" ∨ a = txt "--interactive" then readOptions as .nothing { o with interactive := true }
    else if a = txt "-I" ∨ a = txt "--include" then readOptions as .dir o
    else if a = txt "-e" ∨ a = txt "--evaluate" then readOptions as .string o
    else if a = txt "-v" ∨ a = txt "--version" then .version
    else if a = txt "-h" ∨ a = txt "--help" then .help
    else if a = txt "-g" ∨ a = txt "--debug" then readOptions as .nothing { o with debug := true }
    else if a = txt "-d" ∨ a = txt "--no-dlclose" then readOptions as .nothing { o with keepLibraries := true }
    else if a.head? = some 45 then .unknown
    else .go { o with file := some a }

namespace Prog

/-- printing an error, repl.c:493-510, 564-581: octaspire_dern_repl_print_message and a newline -/
def replError (pos : Text) (r : Ref) : Prog Unit := do
  let s ← print false r
  let o ← octetsOf s
  emit (pos ++ o)
  emit [10]

/-- Evaluating the strings of `-e`, repl.c:461-511: has one failed?  The input of the messages is the empty one of repl.c:441. -/
def replStrings (ct : Ctype) (turns : Nat) : List Text → Prog Bool
  | [] => pure false
  | s :: ss =>
    match pushedText s with
    | none => fail .abort
    | some t => do
      match ← evalText ct turns t with
      | none => do
        emit (whereText [] [] ++ txt "Incomplete input")
        emit [10]
        pure true
      | some r => do
        match (← read r).obj with
        | .err _ _ => do
          replError (whereText [] []) r
          pure true
        | _ => replStrings ct turns ss

/-- Evaluating the file, repl.c:513-582: has it failed?  Whether it can be read and its text are arbitrary; the position in the message is
that of the input after reading and is left arbitrary too. -/
def replFile (ct : Ctype) (turns : Nat) : Option Text → Prog Bool
  | none => pure false
  | some _ => do
    if ← answerBool "path can be read" then do
      let t ← text "file"
      let r ← require (← evalText ct turns t)
      match (← read r).obj with
      | .err _ _ => do
        let pos ← text "position"
        replError pos r
        pure true
      | _ => pure false
    else do
      let msg ← text "Path '%s' cannot be read"
      emit msg
      emit [10]
      pure true

/-- The program after the options have been read, repl.c:461-694: has it failed?  The standard input is `os`. -/
def replMain (ct : Ctype) (turns : Nat) (o : Options) (os : List Octet) : Prog Bool := do
  if ← replStrings ct turns o.strings then pure true
  else do
    if ← replFile ct turns o.file then pure true
    else do
      if (o.strings ≠ [] ∨ o.file ≠ none) ∧ o.interactive = false then pure false
      else do
        repl ct os
        pure false

end Prog

/-- the exit code of the program, repl.c:490, 509, 544, 580 (`EXIT_FAILURE`) and 703-715 (octaspire_dern_vm_get_exit_code) -/
def exitStatus (failed : Bool) (w : Vm) : Int := if failed then 1 else w.exitCode

end Dern
