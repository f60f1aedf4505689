import Verif.Dern.Tree
/-
Model of the parser, vm.c:3065-3475 (octaspire_dern_vm_parse_token and octaspire_dern_vm_parse).
The values it builds are trees here; positions in error messages are left out.
-/
namespace Dern

/-- result of the parser: a value, an error value (its message), the null pointer, `abort()`,
undefined behaviour; `oof`: the fuel of the model ran out (never, see `parse_no_oof`). -/
inductive ParseOut
  | val (t : Tree)
  | err (msg : String)
  | null
  | abort
  | ub
  | oof
  deriving Repr

/-- a value made of a token that holds a text: octaspire_string_new of its C string
(vm.c:3392-3424) -/
def textValue (f : Text → Tree) (s : Text) : ParseOut :=
  match (do let o ← getCString s; inputText o) with
  | none => .abort
  | some s' => .val (f s')

/-- the tokens that are values by themselves, vm.c:3352-3468 -/
def parseAtom : Token → ParseOut
  | .true_ => .val (.bool true)
  | .false_ => .val (.bool false)
  | .nil_ => .val .nil
  | .integer i => .val (.int i)
  | .real r => .val (.real r)
  | .string s => textValue .str s
  | .character s => textValue .chr s
  | .symbol s => textValue .sym s
  | .semver a b c => .val (.semver a b c)
  | .error msg => .err msg
  | .moreInput _ => .null
  | .rparen => .err "unexpected %s"
  | .lparen => .oof
  | .quote => .oof
  | .backQuote => .oof

/-- vm.c:3277-3350: the value with `template` in front -/
def templateOf : Tree → Tree
  | .vec es => .vec (.sym (txt "template") :: es)
  | t => .vec [.sym (txt "template"), t]

def balancingError : String := "Balancing right parenthesis ')' missing for left parenthesis given at column %zu of line %zu"

mutual
/-- octaspire_dern_vm_parse_token, vm.c:3065-3470 (the stack pushes and pops that protect values
under construction are left out) -/
def parseTok (ct : Ctype) : Nat → Token → Text → ParseOut × Text
  | 0, _, t => (.oof, t)
  | fuel + 1, k, t =>
    match k with
    | .lparen => parseList ct fuel [] t
    | .quote =>
      match parseNext ct fuel t with
      | (.val v, r) => (.val (.vec [.sym (txt "quote"), v]), r)
      | o => o
    | .backQuote =>
      match parseNext ct fuel t with
      | (.val v, r) => (.val (templateOf v), r)
      | o => o
    | k => (parseAtom k, t)
/-- the loop for a list, vm.c:3102-3221; `acc` are the elements so far -/
def parseList (ct : Ctype) : Nat → List Tree → Text → ParseOut × Text
  | 0, _, t => (.oof, t)
  | fuel + 1, acc, t =>
    match lex ct t with
    | (.null, r) => (.err balancingError, r)
    | (.abort, r) => (.abort, r)
    | (.ub, r) => (.ub, r)
    | (.tok (.error msg), r) => (.err msg, r)
    | (.tok .rparen, r) => (.val (.vec acc), r)
    | (.tok k, r) =>
      match parseTok ct fuel k r with
      | (.null, r) => (.err balancingError, r)
      | (.val v, r) => parseList ct fuel (acc ++ [v]) r
      | o => o
/-- octaspire_dern_vm_parse, vm.c:3472-3486 -/
def parseNext (ct : Ctype) : Nat → Text → ParseOut × Text
  | 0, t => (.oof, t)
  | fuel + 1, t =>
    match lex ct t with
    | (.null, r) => (.null, r)
    | (.abort, r) => (.abort, r)
    | (.ub, r) => (.ub, r)
    | (.tok k, r) => parseTok ct fuel k r
end

/-- octaspire_dern_vm_parse on a text: what it returns and the unread rest.  Every recursive call
but one per token reads a token, so that this fuel is enough. -/
def parse (ct : Ctype) (t : Text) : ParseOut × Text := parseNext ct (2 * t.length + 3) t

end Dern
