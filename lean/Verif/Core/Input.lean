import Verif.Core.Text
/-
octaspire_input (amalgamated.c:8252-8486): a text, the index of the next unread character, and
line and column numbers.  The model keeps the unread part `rest` of the text instead of the whole
text (`text = consumed ++ rest`, `index = consumed.length`); nothing but `rewind` looks at the
consumed part.
-/
namespace Dern

/-- octaspire_input_t, amalgamated.c:8272-8279. -/
structure Input where
  index : Nat
  line : Nat
  column : Nat
  rest : Text
  deriving DecidableEq, Repr

/-- octaspire_input_new_from_buffer, amalgamated.c:8286-8318 (on the decoded text). -/
def Input.new (text : Text) : Input := { index := 0, line := 1, column := 1, rest := text }

/-- octaspire_input_is_good, amalgamated.c:8433-8436. -/
def Input.isGood (i : Input) : Bool := !i.rest.isEmpty

/-- octaspire_input_peek_next_ucs_character, amalgamated.c:8378-8388 (0 at the end). -/
def Input.peek (i : Input) : Ch := i.rest.headD 0

/-- octaspire_input_peek_next_next_ucs_character, amalgamated.c:8390-8400. -/
def Input.peek2 (i : Input) : Ch := i.rest.tail.headD 0

/-- octaspire_input_pop_next_ucs_character, amalgamated.c:8402-8431.  Line and column change only
if there is a character left to read. -/
def Input.pop (i : Input) : Input × Bool :=
  match i.rest with
  | [] => (i, false)
  | c :: cs =>
    let j := { i with index := i.index + 1, rest := cs }
    if cs.isEmpty then (j, true)
    else if c = 10 then ({ j with column := 1, line := i.line + 1 }, true)
    else ({ j with column := i.column + 1 }, true)

/-- octaspire_input_push_back_from_c_string, amalgamated.c:8455-8459 (on decoded text). -/
def Input.pushBack (i : Input) (t : Text) : Input := { i with rest := i.rest ++ t }

/-- pop `n` times -/
def Input.advance : Nat → Input → Input
  | 0, i => i
  | n + 1, i => (i.pop.1).advance n

end Dern
