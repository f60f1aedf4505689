import Verif.Dern.Eval
import Verif.Dern.Parser
import Verif.Core.Input
/-
The reader on the heap (octaspire_dern_vm_parse_token and octaspire_dern_vm_parse, vm.c:3065-3475) and
octaspire_dern_vm_read_from_octaspire_input_and_eval_in_global_environment, vm.c:4315-4376.

The parser itself is `Verif/Dern/Parser.lean`; here it allocates the values, with the pushes and pops that
protect them.  Messages of errors and the values of reals are arbitrary (`text`, `real`).
-/
namespace Dern.Prog

/-- a value made of a token that holds a text, vm.c:3392-3424 -/
def textToken (f : Text → Obj) (s : Text) : Prog (Option Ref) :=
  match (do let o ← getCString s; inputText o) with
  | none => fail .abort
  | some s' => do
    let r ← alloc (f s')
    pure (some r)

/-- the tokens that are values by themselves, vm.c:3352-3468 -/
def atomToken : Token → Prog (Option Ref)
  | .true_ => do
    let r ← getRoot .true
    pure (some r)
  | .false_ => do
    let r ← getRoot .false
    pure (some r)
  | .nil_ => do
    let r ← getRoot .nil
    pure (some r)
  | .integer i => do
    let r ← alloc (.int i)
    pure (some r)
  | .real _ => do
    let d ← real
    let r ← alloc (.real d)
    pure (some r)
  | .string s => textToken .str s
  | .character s => textToken .chr s
  | .symbol s => textToken .sym s
  | .semver a b c => do
    let r ← alloc (.semver { major := a, minor := b, patch := c, pre := [], build := [] })
    pure (some r)
  | .error msg => error msg
  | .moreInput _ => pure none
  | .rparen => error "unexpected %s"
  | .lparen | .quote | .backQuote => fail .fuel

mutual
/-- octaspire_dern_vm_parse_token, vm.c:3065-3470; pushing and popping a null pointer (vm.c:3281, 3349) is left
out -/
def parseTok (ct : Ctype) : Nat → Token → Text → Prog (Option Ref × Text)
  | 0, _, _ => fail .fuel
  | fuel + 1, k, t =>
    match k with
    | .lparen => do
      let r ← alloc (.vec [])
      push r
      parseList ct fuel r t
    | .quote => do
      let r ← alloc (.vec [])
      push r
      let q ← alloc (.sym (txt "quote"))
      append r q
      let (x, t) ← parseNext ct fuel t
      match x with
      | none => do
        pop r
        pure (none, t)
      | some x => do
        match (← read x).obj with
        | .err _ _ => do
          pop r
          pure (some x, t)
        | _ => do
          append r x
          pop r
          pure (some r, t)
    | .backQuote => do
      let (x, t) ← parseNext ct fuel t
      match x with
      | none => pure (none, t)
      | some x => do
        push x
        match (← read x).obj with
        | .err _ _ => do
          pop x
          pure (some x, t)
        | .vec _ => do
          let s ← alloc (.sym (txt "template"))
          push s
          let es ← verifyVec x
          setObj x (.vec (s :: es))
          pop s
          pop x
          pure (some x, t)
        | _ => do
          let s ← alloc (.sym (txt "template"))
          push s
          let r ← alloc (.vec [])
          push r
          append r s
          append r x
          pop r
          pop s
          pop x
          pure (some r, t)
    | k => do
      let x ← atomToken k
      pure (x, t)
/-- the loop for a list, vm.c:3102-3221; `r` is the vector under construction -/
def parseList (ct : Ctype) : Nat → Ref → Text → Prog (Option Ref × Text)
  | 0, _, _ => fail .fuel
  | fuel + 1, r, t =>
    match lex ct t with
    | (.null, t) => do
      pop r
      let e ← error balancingError
      pure (e, t)
    | (.abort, _) => fail .abort
    | (.ub, _) => fail .ub
    | (.tok (.error msg), t) => do
      pop r
      let e ← error msg
      pure (e, t)
    | (.tok .rparen, t) => do
      pop r
      pure (some r, t)
    | (.tok k, t) => do
      let (x, t) ← parseTok ct fuel k t
      match x with
      | none => do
        pop r
        let e ← error balancingError
        pure (e, t)
      | some x => do
        match (← read x).obj with
        | .err _ _ => do
          pop r
          pure (some x, t)
        | _ => do
          append r x
          parseList ct fuel r t
/-- octaspire_dern_vm_parse, vm.c:3472-3486 -/
def parseNext (ct : Ctype) : Nat → Text → Prog (Option Ref × Text)
  | 0, _ => fail .fuel
  | fuel + 1, t =>
    match lex ct t with
    | (.null, t) => pure (none, t)
    | (.abort, _) => fail .abort
    | (.ub, _) => fail .ub
    | (.tok k, t) => parseTok ct fuel k t
end

/-- octaspire_dern_vm_parse on a text, with the depth of `Dern.parse` -/
def parse (ct : Ctype) (t : Text) : Prog (Option Ref × Text) := parseNext ct (2 * t.length + 3) t

/-- octaspire_input_get_line_number when `rest` of the text `whole` has not been read -/
def lineAt (whole rest : Text) : Nat := ((Input.new whole).advance (whole.length - rest.length)).line

/-- octaspire_dern_vm_eval with a value that may be null (vm.c:3599-3637): nil after an exit, otherwise null -/
def evalNull (x : Option Ref) (env : Ref) : Prog (Option Ref) := do
  match x with
  | some x => eval x env
  | none => do
    if ← isQuit then
      let r ← alloc .nil
      pure (some r)
    else do
      verifyEnv env
      pure none

/-- popping `lastGoodResult`, vm.c:4339-4342, 4363, 4369-4372 -/
def popLast : Option Ref → Prog Unit
  | some x => pop x
  | none => pure ()

/-- the loop of octaspire_dern_vm_read_from_octaspire_input_and_eval_in_global_environment, vm.c:4329-4375, with the text
not yet read and `lastGoodResult`; the first argument bounds the number of turns -/
def readLoop (ct : Ctype) (whole : Text) : Nat → Text → Option Ref → Prog (Option Ref)
  | 0, _, _ => fail .fuel
  | n + 1, t, last =>
    if t = [] then do
      popLast last
      pure last
    else do
      let (x, t) ← parse ct t
      let env ← root .globalEnv
      match ← evalNull x env with
      | none => do
        popLast last
        pure last
      | some r => do
        popLast last
        push r
        match (← read r).obj with
        | .err m _ => do
          setObj r (.err m (lineAt whole t))
          pop r
          pure (some r)
        | _ => readLoop ct whole n t (some r)

/-- octaspire_dern_vm_read_from_octaspire_input_and_eval_in_global_environment, vm.c:4315-4376, on a fresh input
(as octaspire_dern_vm_read_from_buffer_and_eval_in_global_environment, vm.c:4393-4420, makes it) -/
def readAll (ct : Ctype) (n : Nat) (t : Text) : Prog (Option Ref) :=
  if t = [] then error "No input" else readLoop ct t n t none

end Dern.Prog

namespace Dern
open Prog (Library)

/-- Reading and evaluating the text `t` from the state `v` ends with the result `r` in the state `w`; `tr` are the
evaluations made for its forms, in order. -/
def Reads (W : World) (L : Library) (ct : Ctype) (v : Vm) (t : Text) (r : Option Ref) (w : Vm) (tr : List Event) : Prop :=
  ∃ n k, run W n (handler W (Prog.body L) n) (Prog.readAll ct k t) v = .ok (r, w, tr)

end Dern
