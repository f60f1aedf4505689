import Verif.Core.Map
import Verif.Core.Levenshtein
import Verif.Core.StringCompare
import Verif.Spec.Texts
import Verif.Dern.Registry
/-
The value of a symbol in an environment, and the message when it has none, with the hash maps of the environments and the names in the message.

(The evaluator in `Eval.lean` keeps the bindings of an environment as a list and leaves the text of this message out.)  `none` stands for `abort()`.  An
environment is the hash map of its bindings here; the symbols used as keys are their texts; a chain of environments is the list of their maps,
innermost first.  `H` is the hash of symbols.  Formatting a text with `%s` gives the text up to its first NUL (see C72 for the function that formats).
-/
namespace Dern.SymbolValue
open Dern Dern.Registry
open Dern.Spec (beforeNul)
variable {V : Type}

/-- octaspire_dern_environment_set, environment.c:376-392 -/
def assign (H : Text → Nat) (m : HMap Text V) (name : Text) (v : V) : Option (HMap Text V) :=
  match m.remove (keys H) name with
  | none => none
  | some (m, _) => m.put (keys H) name v

/-- octaspire_dern_environment_get, environment.c:353-374 -/
def find (H : Text → Nat) : List (HMap Text V) → Text → Option (Option V)
  | [], _ => some none
  | m :: ms, name =>
    match m.get (keys H) name with
    | none => none
    | some (some (_, _, e)) => HMap.elemValue e
    | some none => find H ms name

/-- the loop of octaspire_dern_environment_get_all_names_to_vector, environment.c:628-646, in one environment; the text of a symbol is
octaspire_dern_value_to_string, value.c:1405-1427 -/
def ownNames (m : HMap Text V) : Option (List Text) :=
  (List.range m.num).mapM fun (i : Nat) => (m.atIndex i).map (·.key)

/-- octaspire_dern_environment_get_all_names, environment.c:613-671: the names of the enclosing environments come first -/
def visibleNames : List (HMap Text V) → Option (List Text)
  | [] => some []
  | m :: ms =>
    match visibleNames ms with
    | none => none
    | some outer =>
      match ownNames m with
      | none => none
      | some own => some (outer ++ own)

/-- the loop that finds the shortest distance, vm.c:3691-3704 -/
def shortest (name : Text) : List Text → Nat → Option Nat
  | [], best => some best
  | n :: ns, best =>
    match levenshtein name n with
    | none => none
    | some dist => shortest name ns (if dist < best then dist else best)

/-- the loop that counts the best alternatives, vm.c:3706-3721 -/
def countBest (name : Text) (best : Nat) : List Text → Nat → Option Nat
  | [], k => some k
  | n :: ns, k =>
    match levenshtein name n with
    | none => none
    | some dist => countBest name best ns (if dist = best then k + 1 else k)

/-- the loop that collects the best alternatives, vm.c:3723-3765; `k` is numBestAdded and `text` is bestNames -/
def collectBest (name : Text) (best total : Nat) : List Text → Nat → Text → Option Text
  | [], _, text => some text
  | n :: ns, k, text =>
    match levenshtein name n with
    | none => none
    | some dist =>
      if dist = best then
        let piece :=
          if k = 0 then txt "Did you mean '" ++ beforeNul n ++ txt "'" ++ (if k = total - 1 then txt "?" else [])
          else if k = total - 1 then txt " or '" ++ beforeNul n ++ txt "'?"
          else txt ", '" ++ beforeNul n ++ txt "'"
        collectBest name best total ns (k + 1) (text ++ piece)
      else collectBest name best total ns k text

/-- the message, vm.c:3674-3776; INT_MAX is 2147483647 -/
def message (name : Text) (names : List Text) : Option Text :=
  match shortest name names 2147483647 with
  | none => none
  | some best =>
    match countBest name best names 0 with
    | none => none
    | some total =>
      match collectBest name best total names 0 [] with
      | none => none
      | some bestNames => some (txt "Unbound symbol '" ++ beforeNul name ++ txt "'. " ++ beforeNul bestNames)

/-- what a symbol evaluates to: a value, or an error with a message -/
inductive Evaluated (V : Type) where
  | value (v : V)
  | error (msg : Text)
  deriving DecidableEq

/-- the evaluation of a symbol, vm.c:3665-3785 -/
def symbol (H : Text → Nat) (envs : List (HMap Text V)) (name : Text) : Option (Evaluated V) :=
  match find H envs name with
  | none => none
  | some (some v) => some (.value v)
  | some none =>
    match visibleNames envs with
    | none => none
    | some names => (message name names).map .error

end Dern.SymbolValue
