import Verif.Dern.Conversions
import Verif.Dern.SafeElements
/-
`Ok` for the builtin functions that convert, print and compare.
-/
namespace Dern.Prog
variable {P : Ref → Prop} {s : List Ref}

theorem ok_biIsA {k} {args : Ref} {env : Ref} {Q} (hargs : P args) (henv : P env)  (h' : ∀ a, PubOpt P a → Q a s) :
    Ok P (biIsA k args env) s Q := by
  unfold biIsA
  ok
  all_goals ok_side
macro_rules | `(tactic| ok_rule) => `(tactic| with_reducible refine ok_biIsA ?_ ?_ fun a ha => ?_)

theorem ok_extreme {isMax : Bool} {xs : List Ref} : ∀ {best : Ref} {Q : Ref → List Ref → Prop}, P best → (∀ x ∈ xs, P x) →
    (∀ r, P r → Q r s) → Ok P (extreme isMax best xs) s Q := by
  induction xs with
  | nil => intro best Q h _ h'; exact h' _ h
  | cons x xs ih =>
    intro best Q h h1 h'
    unfold extreme
    ok
    all_goals first | ok_side | skip
    all_goals exact ih (by ok_side) (by ok_side) h'
macro_rules | `(tactic| ok_rule) => `(tactic| with_reducible refine ok_extreme ?_ ?_ fun r hr => ?_)

theorem ok_biExtreme {isMax} {args : Ref} {env : Ref} {Q} (hargs : P args) (henv : P env)  (h' : ∀ a, PubOpt P a → Q a s) :
    Ok P (biExtreme isMax args env) s Q := by
  unfold biExtreme
  ok
  all_goals ok_side
macro_rules | `(tactic| ok_rule) => `(tactic| with_reducible refine ok_biExtreme ?_ ?_ fun a ha => ?_)

theorem ok_biStartsWith {args : Ref} {env : Ref} {Q} (hargs : P args) (henv : P env)  (h' : ∀ a, PubOpt P a → Q a s) :
    Ok P (biStartsWith args env) s Q := by
  unfold biStartsWith
  ok
  all_goals ok_side
macro_rules | `(tactic| ok_rule) => `(tactic| with_reducible refine ok_biStartsWith ?_ ?_ fun a ha => ?_)

theorem ok_biDistance {args : Ref} {env : Ref} {Q} (hargs : P args) (henv : P env)  (h' : ∀ a, PubOpt P a → Q a s) :
    Ok P (biDistance args env) s Q := by
  unfold biDistance
  ok
  all_goals ok_side
macro_rules | `(tactic| ok_rule) => `(tactic| with_reducible refine ok_biDistance ?_ ?_ fun a ha => ?_)

theorem ok_biMath {f} {args : Ref} {env : Ref} {Q} (hargs : P args) (henv : P env)  (h' : ∀ a, PubOpt P a → Q a s) :
    Ok P (biMath f args env) s Q := by
  unfold biMath
  ok
  all_goals ok_side
macro_rules | `(tactic| ok_rule) => `(tactic| with_reducible refine ok_biMath ?_ ?_ fun a ha => ?_)

theorem ok_octetsOf {t} {Q}   (h' : ∀ b, Q b s) :
    Ok P (octetsOf t) s Q := by
  unfold octetsOf
  ok
  all_goals ok_side
macro_rules | `(tactic| ok_rule) => `(tactic| with_reducible refine ok_octetsOf fun b => ?_)

theorem ok_numberToInt {o} {Q}   (h' : ∀ b, Q b s) :
    Ok P (numberToInt o) s Q := by
  unfold numberToInt
  ok
  all_goals ok_side
macro_rules | `(tactic| ok_rule) => `(tactic| with_reducible refine ok_numberToInt fun b => ?_)

theorem ok_objToInt {o} {Q}   (h' : ∀ b, Q b s) :
    Ok P (objToInt o) s Q := by
  unfold objToInt
  ok
  all_goals ok_side
macro_rules | `(tactic| ok_rule) => `(tactic| with_reducible refine ok_objToInt fun b => ?_)

theorem ok_biToInteger {args : Ref} {env : Ref} {Q} (hargs : P args) (henv : P env)  (h' : ∀ a, PubOpt P a → Q a s) :
    Ok P (biToInteger args env) s Q := by
  unfold biToInteger
  ok
  all_goals ok_side
macro_rules | `(tactic| ok_rule) => `(tactic| with_reducible refine ok_biToInteger ?_ ?_ fun a ha => ?_)

theorem ok_biToReal {args : Ref} {env : Ref} {Q} (hargs : P args) (henv : P env)  (h' : ∀ a, PubOpt P a → Q a s) :
    Ok P (biToReal args env) s Q := by
  unfold biToReal
  ok
  all_goals ok_side
macro_rules | `(tactic| ok_rule) => `(tactic| with_reducible refine ok_biToReal ?_ ?_ fun a ha => ?_)

theorem ok_biCharacter {args : Ref} {env : Ref} {Q} (hargs : P args) (henv : P env)  (h' : ∀ a, PubOpt P a → Q a s) :
    Ok P (biCharacter args env) s Q := by
  unfold biCharacter
  ok
  all_goals ok_side
macro_rules | `(tactic| ok_rule) => `(tactic| with_reducible refine ok_biCharacter ?_ ?_ fun a ha => ?_)

theorem ok_fillFormat {ps : List (Option Ch)} : ∀ {xs : List Ref} {acc : Text} {Q : Option Text → List Ref → Prop}, (∀ x ∈ xs, P x) →
    (∀ r, Q r s) → Ok P (fillFormat ps xs acc) s Q := by
  induction ps with
  | nil => intro xs acc Q _ h; unfold fillFormat; exact h _
  | cons p ps ih =>
    intro xs acc Q h h'
    cases p with
    | some c => unfold fillFormat; exact ih h h'
    | none =>
      cases xs with
      | nil => unfold fillFormat; exact h' _
      | cons x xs =>
        unfold fillFormat
        ok
        all_goals first | ok_side | skip
        all_goals exact ih (by ok_side) h'
macro_rules | `(tactic| ok_rule) => `(tactic| with_reducible refine ok_fillFormat ?_ fun b => ?_)

theorem ok_biStringFormat {args : Ref} {env : Ref} {Q} (hargs : P args) (henv : P env)  (h' : ∀ a, PubOpt P a → Q a s) :
    Ok P (biStringFormat args env) s Q := by
  unfold biStringFormat
  ok
  all_goals ok_side
macro_rules | `(tactic| ok_rule) => `(tactic| with_reducible refine ok_biStringFormat ?_ ?_ fun a ha => ?_)

theorem ok_printAll {xs : List Ref} : ∀ {acc : Text} {Q : Text → List Ref → Prop}, (∀ x ∈ xs, P x) →
    (∀ r, Q r s) → Ok P (printAll acc xs) s Q := by
  induction xs with
  | nil => intro acc Q _ h; exact h _
  | cons x xs ih =>
    intro acc Q h h'
    unfold printAll
    ok
    all_goals first | ok_side | skip
    all_goals exact ih (by ok_side) h'
macro_rules | `(tactic| ok_rule) => `(tactic| with_reducible refine ok_printAll ?_ fun b => ?_)

theorem ok_biToString {args : Ref} {env : Ref} {Q} (hargs : P args) (henv : P env)  (h' : ∀ a, PubOpt P a → Q a s) :
    Ok P (biToString args env) s Q := by
  unfold biToString
  ok
  all_goals ok_side
macro_rules | `(tactic| ok_rule) => `(tactic| with_reducible refine ok_biToString ?_ ?_ fun a ha => ?_)

theorem ok_emitValue {x : Ref} {Q} (hx : P x)  (h' : Q () s) :
    Ok P (emitValue x) s Q := by
  unfold emitValue
  ok
  all_goals ok_side
macro_rules | `(tactic| ok_rule) => `(tactic| with_reducible refine ok_emitValue ?_ ?_)

theorem ok_emitFormat {ps : List (Option Ch)} : ∀ {xs : List Ref} {Q : Bool → List Ref → Prop}, (∀ x ∈ xs, P x) →
    (∀ r, Q r s) → Ok P (emitFormat ps xs) s Q := by
  induction ps with
  | nil => intro xs Q _ h; unfold emitFormat; exact h _
  | cons p ps ih =>
    intro xs Q h h'
    cases p with
    | some c =>
      unfold emitFormat
      ok
      exact ih h h'
    | none =>
      cases xs with
      | nil => unfold emitFormat; exact h' _
      | cons x xs =>
        unfold emitFormat
        ok
        all_goals first | ok_side | skip
        all_goals exact ih (by ok_side) h'
macro_rules | `(tactic| ok_rule) => `(tactic| with_reducible refine ok_emitFormat ?_ fun b => ?_)

theorem ok_biPrint {args : Ref} {env : Ref} {Q} (hargs : P args) (henv : P env)  (h' : ∀ a, PubOpt P a → Q a s) :
    Ok P (biPrint args env) s Q := by
  unfold biPrint
  ok
  all_goals ok_side
macro_rules | `(tactic| ok_rule) => `(tactic| with_reducible refine ok_biPrint ?_ ?_ fun a ha => ?_)

theorem ok_biPrintln {args : Ref} {env : Ref} {Q} (hargs : P args) (henv : P env)  (h' : ∀ a, PubOpt P a → Q a s) :
    Ok P (biPrintln args env) s Q := by
  unfold biPrintln
  ok
  all_goals ok_side
macro_rules | `(tactic| ok_rule) => `(tactic| with_reducible refine ok_biPrintln ?_ ?_ fun a ha => ?_)

theorem ok_biPrintReadably {args : Ref} {env : Ref} {Q} (hargs : P args) (henv : P env)  (h' : ∀ a, PubOpt P a → Q a s) :
    Ok P (biPrintReadably args env) s Q := by
  unfold biPrintReadably
  ok
  all_goals ok_side
macro_rules | `(tactic| ok_rule) => `(tactic| with_reducible refine ok_biPrintReadably ?_ ?_ fun a ha => ?_)

theorem ok_askPredicate {pred : Ref} {x : Ref} {env : Ref} {i} {Q} (hpred : P pred) (hx : P x) (henv : P env)  (h' : ∀ r, P r → Q r s) :
    Ok P (askPredicate pred x env i) s Q := by
  unfold askPredicate
  ok
  all_goals ok_side
macro_rules | `(tactic| ok_rule) => `(tactic| with_reducible refine ok_askPredicate ?_ ?_ ?_ fun r hr => ?_)

theorem ok_copyVecTurn {collection : Ref} {pred : Ref} {result : Ref} {env : Ref} {i} {Q} (hcollection : P collection) (hpred : P pred) (hresult : P result) (henv : P env)  (h' : ∀ a, PubOpt P a → Q a s) :
    Ok P (copyVecTurn collection pred result env i) s Q := by
  unfold copyVecTurn
  ok
  all_goals first | ok_side | grind [List.mem_of_getElem?, PubObj, PubCell]
macro_rules | `(tactic| ok_rule) => `(tactic| with_reducible refine ok_copyVecTurn ?_ ?_ ?_ ?_ fun a ha => ?_)

theorem ok_copyVecIf {collection : Ref} {pred : Ref} {env : Ref} {Q} (hcollection : P collection) (hpred : P pred) (henv : P env)  (h' : ∀ a, PubOpt P a → Q a s) :
    Ok P (copyVecIf collection pred env) s Q := by
  unfold copyVecIf
  ok
  all_goals ok_side
macro_rules | `(tactic| ok_rule) => `(tactic| with_reducible refine ok_copyVecIf ?_ ?_ ?_ fun a ha => ?_)

theorem ok_copyStrTurn {collection : Ref} {pred : Ref} {env : Ref} {i} {acc} {Q} (hcollection : P collection) (hpred : P pred) (henv : P env)  (h' : ∀ a, PubOpt P a → Q a s) :
    Ok P (copyStrTurn collection pred env i acc) s Q := by
  unfold copyStrTurn
  ok
  all_goals ok_side
macro_rules | `(tactic| ok_rule) => `(tactic| with_reducible refine ok_copyStrTurn ?_ ?_ ?_ fun a ha => ?_)

theorem ok_copyVecAll {es : List Ref} {Q} (hes : ∀ x ∈ es, P x)  (h' : ∀ a, PubOpt P a → Q a s) :
    Ok P (copyVecAll es) s Q := by
  unfold copyVecAll
  ok
  all_goals ok_side
macro_rules | `(tactic| ok_rule) => `(tactic| with_reducible refine ok_copyVecAll ?_ fun a ha => ?_)

theorem ok_biCopy {args : Ref} {env : Ref} {Q} (hargs : P args) (henv : P env)  (h' : ∀ a, PubOpt P a → Q a s) :
    Ok P (biCopy args env) s Q := by
  unfold biCopy
  ok
  all_goals ok_side
macro_rules | `(tactic| ok_rule) => `(tactic| with_reducible refine ok_biCopy ?_ ?_ fun a ha => ?_)

end Dern.Prog
