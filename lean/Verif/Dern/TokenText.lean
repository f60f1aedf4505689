import Verif.Dern.Tree
import Verif.Core.StringCompare
import Verif.Spec.Texts
/-
Tokens with their positions: when two are equal, and the text that describes one (it is part of the message about an unexpected token, vm.c:3441-3456).

`Real` stands for `double`, `shows` for `%g`.  Formatting with `%s` gives the text up to its first NUL (see C72 for the function that formats).
-/
namespace Dern.TokenText
open Dern
open Dern.Spec (beforeNul)
variable {Real : Type}

/-- the tag and the value of a token, lexer.c:33-56 and lexer.h:34-53; the lexer makes semantic versions of three numbers only (`Lexer.lean`) -/
inductive Content (Real : Type)
  | lparen | rparen | quote | backQuote | true_ | false_ | nil_
  | integer (i : Int)
  | real (r : Real)
  | string (s : Text)
  | character (s : Text)
  | symbol (s : Text)
  | error (s : Text)
  | moreInput (s : Text)
  | comment (s : Text)
  | semver (major minor patch : Nat)

/-- octaspire_dern_lexer_token_position_t, lexer.h:57-62 -/
structure Place where
  start : Nat
  stop : Nat

/-- octaspire_dern_lexer_token_t, lexer.c:33-56; every token has the same allocator here -/
structure PlacedToken (Real : Type) where
  line : Place
  column : Place
  ucsIndex : Place
  content : Content Real

/-- the tag as a number, lexer.h:34-53 -/
def tag : Content Real → Nat
  | .lparen => 0 | .rparen => 1 | .quote => 2 | .backQuote => 3 | .true_ => 4 | .false_ => 5 | .nil_ => 6
  | .integer _ => 7 | .real _ => 8 | .string _ => 9 | .character _ => 10 | .symbol _ => 11 | .error _ => 12
  | .moreInput _ => 13 | .comment _ => 14 | .semver _ _ _ => 15

/-- octaspire_dern_lexer_private_token_tag_types_as_c_strings, lexer.c:58-76 -/
def tagNames : List Text := [
  txt "OCTASPIRE_DERN_LEXER_TOKEN_TAG_LPAREN",
  txt "OCTASPIRE_DERN_LEXER_TOKEN_TAG_RPAREN",
  txt "OCTASPIRE_DERN_LEXER_TOKEN_TAG_QUOTE",
  txt "OCTASPIRE_DERN_LEXER_TOKEN_TAG_BACK_QUOTE",
  txt "OCTASPIRE_DERN_LEXER_TOKEN_TAG_TRUE",
  txt "OCTASPIRE_DERN_LEXER_TOKEN_TAG_FALSE",
  txt "OCTASPIRE_DERN_LEXER_TOKEN_TAG_NIL",
  txt "OCTASPIRE_DERN_LEXER_TOKEN_TAG_INTEGER",
  txt "OCTASPIRE_DERN_LEXER_TOKEN_TAG_REAL",
  txt "OCTASPIRE_DERN_LEXER_TOKEN_TAG_STRING",
  txt "OCTASPIRE_DERN_LEXER_TOKEN_TAG_CHARACTER",
  txt "OCTASPIRE_DERN_LEXER_TOKEN_TAG_SYMBOL",
  txt "OCTASPIRE_DERN_LEXER_TOKEN_TAG_ERROR",
  txt "OCTASPIRE_DERN_LEXER_TOKEN_TAG_MORE_INPUT_REQUIRED",
  txt "OCTASPIRE_DERN_LEXER_TOKEN_TAG_MULTILINE_COMMENT",
  txt "OCTASPIRE_DERN_LEXER_TOKEN_TAG_SEMVER"]

/-- octaspire_dern_lexer_token_position_is_equal, lexer.c:160-166 -/
def placeIsEqual (a b : Place) : Bool := a.start == b.start && a.stop == b.stop

/-- the values of two tokens of the same tag, lexer.c:601-676; `le` is `<=` of the C language on `double` -/
def contentIsEqual (le : Real → Real → Bool) : Content Real → Content Real → Bool
  | .string s, .string t => stringIsEqual s t
  | .character s, .character t => stringIsEqual s t
  | .symbol s, .symbol t => stringIsEqual s t
  | .error s, .error t => stringIsEqual s t
  | .moreInput s, .moreInput t => stringIsEqual s t
  | .integer i, .integer j => i == j
  | .real x, .real y => le y x && le x y
  | .comment s, .comment t => stringIsEqual s t
  | .semver a b c, .semver d e f => a == d && b == e && c == f
  | _, _ => true

/-- octaspire_dern_lexer_token_is_equal, lexer.c:572-677 -/
def isEqual (le : Real → Real → Bool) (a b : PlacedToken Real) : Bool :=
  if !placeIsEqual a.line b.line then false
  else if !placeIsEqual a.column b.column then false
  else if !placeIsEqual a.ucsIndex b.ucsIndex then false
  else if tag a.content ≠ tag b.content then false
  else contentIsEqual le a.content b.content

/-- the part of the text after `value=`, lexer.c:694-943 -/
def contentText (shows : Real → Text) : Content Real → Text
  | .lparen => txt "left parenthesis"
  | .rparen => txt "right parenthesis"
  | .quote => txt "quote"
  | .backQuote => txt "back quote"
  | .true_ => txt "true"
  | .false_ => txt "false"
  | .nil_ => txt "nil"
  | .integer i => txt "integer " ++ printInt i
  | .real r => txt "real " ++ shows r
  | .string s => txt "[" ++ beforeNul s ++ txt "]"
  | .character s =>
    if s = txt "|" then txt "|bar|"
    else if s = txt "\n" then txt "|newline|"
    else if s = txt "\t" then txt "|tab|"
    else if s = txt "[" then txt "|string-start|"
    else if s = txt "]" then txt "|string-end|"
    else txt "|" ++ beforeNul s ++ txt "|"
  | .symbol s => beforeNul s
  | .error s => txt "error: " ++ beforeNul s
  | .comment s => beforeNul s
  | .semver a b c => decDigits a ++ txt "." ++ decDigits b ++ txt "." ++ decDigits c
  | .moreInput s => txt "more input required: " ++ beforeNul s

/-- octaspire_dern_lexer_token_to_string, lexer.c:679-944 -/
def toText (shows : Real → Text) (t : PlacedToken Real) : Text :=
  txt "token: line=" ++ decDigits t.line.start ++ txt "," ++ decDigits t.line.stop ++
    txt " column=" ++ decDigits t.column.start ++ txt "," ++ decDigits t.column.stop ++
    txt " ucsIndex=" ++ decDigits t.ucsIndex.start ++ txt "," ++ decDigits t.ucsIndex.stop ++
    txt " type=" ++ tagNames.getD (tag t.content) [] ++ txt " value=" ++ contentText shows t.content

end Dern.TokenText
