import Verif.Dern.Containers
import Verif.Dern.SafeBuiltins
/-
`Ok` for the builtin functions on containers.
-/
namespace Dern.Prog
variable {P : Ref → Prop} {s : List Ref}

/-- closes the goals of a loop over the arguments whose step is known to be fine -/
macro "ok_loop" : tactic => `(tactic|
  (refine ok_each (fun x hx Q' h' => ?_) (by ok_side) ?_ <;> (ok <;> ok_side)))

macro "ok_until" : tactic => `(tactic|
  (refine ok_eachUntil (fun x hx Q' h' => ?_) (by ok_side) fun a ha => ?_))

theorem ok_writePort {L : Library} {self : Ref} {env : Ref} {x : Ref} {Q} (hL : L.Safe) (hself : P self) (henv : P env) (hx : P x)  (h' : Q () s) :
    Ok P (writePort L self env x) s Q := by
  unfold writePort
  ok
  all_goals ok_side
macro_rules | `(tactic| ok_rule) => `(tactic| with_reducible refine ok_writePort ?_ ?_ ?_ ?_ ?_)

theorem ok_plusEqMap {self : Ref} {xs : List Ref} {Q} (hself : P self) (hxs : ∀ x ∈ xs, P x)  (h' : ∀ a, PubOpt P a → Q a s) :
    Ok P (plusEqMap self xs) s Q := by
  unfold plusEqMap
  ok
  all_goals ok_side
macro_rules | `(tactic| ok_rule) => `(tactic| with_reducible refine ok_plusEqMap ?_ ?_ fun a ha => ?_)

theorem ok_plusEqChar {self : Ref} {xs : List Ref} {Q} (hself : P self) (hxs : ∀ x ∈ xs, P x)  (h' : Q () s) :
    Ok P (plusEqChar self xs) s Q := by
  unfold plusEqChar
  ok
  all_goals first | ok_side | ok_loop
macro_rules | `(tactic| ok_rule) => `(tactic| with_reducible refine ok_plusEqChar ?_ ?_ ?_)

theorem ok_biPlusEq {L : Library} {args : Ref} {env : Ref} {Q} (hL : L.Safe) (hargs : P args) (henv : P env)  (h' : ∀ a, PubOpt P a → Q a s) :
    Ok P (biPlusEq L args env) s Q := by
  unfold biPlusEq
  ok
  all_goals first | ok_side | ok_loop
macro_rules | `(tactic| ok_rule) => `(tactic| with_reducible refine ok_biPlusEq ?_ ?_ ?_ fun a ha => ?_)

theorem ok_minusEqChar {self : Ref} {xs : List Ref} {Q} (hself : P self) (hxs : ∀ x ∈ xs, P x)  (h' : Q () s) :
    Ok P (minusEqChar self xs) s Q := by
  unfold minusEqChar
  ok
  all_goals first | ok_side | ok_loop
macro_rules | `(tactic| ok_rule) => `(tactic| with_reducible refine ok_minusEqChar ?_ ?_ ?_)

theorem ok_unlessError {self : Ref} {e : Option Ref} {Q} (hself : P self) (he : PubOpt P e)  (h' : ∀ a, PubOpt P a → Q a s) :
    Ok P (unlessError self e) s Q := by
  unfold unlessError
  ok
  all_goals ok_side
macro_rules | `(tactic| ok_rule) => `(tactic| with_reducible refine ok_unlessError ?_ ?_ fun a ha => ?_)

theorem ok_biMinusEq {args env : Ref} {Q} (hargs : P args) (henv : P env) (h' : ∀ a, PubOpt P a → Q a s) :
    Ok P (biMinusEq args env) s Q := by
  unfold biMinusEq
  ok
  all_goals first
    | ok_side
    | ok_loop
    | (refine ok_each (fun x hx Q' h' => ok_removeElements ?_ (fun y hy Q'' h'' => ok_equalValues ?_ ?_ h'') h') (by ok_side) ?_ <;> (ok <;> ok_side))
    | (refine ok_eachUntil (fun x hx Q' h' => ?_) (by ok_side) fun a ha => ?_
       · unfold orFail; ok <;> ok_side
       · ok <;> ok_side)
macro_rules | `(tactic| ok_rule) => `(tactic| with_reducible refine ok_biMinusEq ?_ ?_ fun a ha => ?_)

theorem ok_biMinusEqEq {args env : Ref} {Q} (hargs : P args) (henv : P env) (h' : ∀ a, PubOpt P a → Q a s) :
    Ok P (biMinusEqEq args env) s Q := by
  unfold biMinusEqEq
  ok
  all_goals first
    | ok_side
    | (refine ok_each (fun x hx Q' h' => ok_removeElements ?_ (fun y hy Q'' h'' => ok_sameUid ?_ ?_ h'') h') (by ok_side) ?_ <;> (ok <;> ok_side))
macro_rules | `(tactic| ok_rule) => `(tactic| with_reducible refine ok_biMinusEqEq ?_ ?_ fun a ha => ?_)

theorem ok_biPop {back} {args : Ref} {env : Ref} {Q} (hargs : P args) (henv : P env)  (h' : ∀ a, PubOpt P a → Q a s) :
    Ok P (biPop back args env) s Q := by
  unfold biPop
  ok
  all_goals first | exact pub_less (PubCell.obj ‹_›) ‹_› | ok_side
macro_rules | `(tactic| ok_rule) => `(tactic| with_reducible refine ok_biPop ?_ ?_ fun a ha => ?_)

theorem ok_hashMapLoop {r : Ref} (hr : P r) : ∀ {xs : List Ref} {Q : Option Ref → List Ref → Prop}, (∀ x ∈ xs, P x) →
    (∀ a, PubOpt P a → Q a s) → Ok P (hashMapLoop r xs) (r :: s) Q
  | [], Q, _, h' => by
    unfold hashMapLoop
    ok
    all_goals ok_side
  | [_], Q, _, h' => by
    unfold hashMapLoop
    ok
    all_goals ok_side
  | k :: v :: l, Q, h, h' => by
    unfold hashMapLoop
    ok
    all_goals first | ok_side | skip
    exact ok_hashMapLoop hr (by ok_side) h'
macro_rules | `(tactic| ok_rule) => `(tactic| with_reducible refine ok_hashMapLoop ?_ ?_ fun a ha => ?_)

theorem ok_biHashMap {args : Ref} {env : Ref} {Q} (hargs : P args) (henv : P env)  (h' : ∀ a, PubOpt P a → Q a s) :
    Ok P (biHashMap args env) s Q := by
  unfold biHashMap
  ok
  all_goals ok_side
macro_rules | `(tactic| ok_rule) => `(tactic| with_reducible refine ok_biHashMap ?_ ?_ fun a ha => ?_)

theorem ok_fillNew {o} {xs : List Ref} {Q} (hxs : ∀ x ∈ xs, P x) (ho : PubObj P o) (h' : ∀ a, PubOpt P a → Q a s) :
    Ok P (fillNew o xs) s Q := by
  unfold fillNew
  ok
  all_goals first | ok_side | ok_loop
macro_rules | `(tactic| ok_rule) => `(tactic| with_reducible refine ok_fillNew ?_ ?_ fun a ha => ?_)

theorem ok_biQueue {args : Ref} {env : Ref} {Q} (hargs : P args) (henv : P env)  (h' : ∀ a, PubOpt P a → Q a s) :
    Ok P (biQueue args env) s Q := by
  unfold biQueue
  ok
  all_goals ok_side
macro_rules | `(tactic| ok_rule) => `(tactic| with_reducible refine ok_biQueue ?_ ?_ fun a ha => ?_)

theorem ok_biQueueMax {args : Ref} {env : Ref} {Q} (hargs : P args) (henv : P env)  (h' : ∀ a, PubOpt P a → Q a s) :
    Ok P (biQueueMax args env) s Q := by
  unfold biQueueMax
  ok
  all_goals ok_side
macro_rules | `(tactic| ok_rule) => `(tactic| with_reducible refine ok_biQueueMax ?_ ?_ fun a ha => ?_)

theorem ok_biList {args : Ref} {env : Ref} {Q} (hargs : P args) (henv : P env)  (h' : ∀ a, PubOpt P a → Q a s) :
    Ok P (biList args env) s Q := by
  unfold biList
  ok
  all_goals ok_side
macro_rules | `(tactic| ok_rule) => `(tactic| with_reducible refine ok_biList ?_ ?_ fun a ha => ?_)

theorem ok_appendInts {r : Ref} (hr : P r) {xs : List Nat} : ∀ {Q : Unit → List Ref → Prop}, Q () s →
    Ok P (appendInts r xs) s Q := by
  induction xs with
  | nil => intro Q h; exact h
  | cons x xs ih =>
    intro Q h'
    unfold appendInts
    ok
    all_goals first | ok_side | skip
    all_goals exact ih h'
macro_rules | `(tactic| ok_rule) => `(tactic| with_reducible refine ok_appendInts ?_ ?_)

theorem ok_indexVector {found} {Q}   (h' : ∀ a, PubOpt P a → Q a s) :
    Ok P (indexVector found) s Q := by
  unfold indexVector
  ok
  all_goals ok_side
macro_rules | `(tactic| ok_rule) => `(tactic| with_reducible refine ok_indexVector fun a ha => ?_)

theorem ok_findInText {isSym} {t} {key : Ref} {Q} (hkey : P key)  (h' : ∀ a, PubOpt P a → Q a s) :
    Ok P (findInText isSym t key) s Q := by
  unfold findInText
  ok
  all_goals ok_side
macro_rules | `(tactic| ok_rule) => `(tactic| with_reducible refine ok_findInText ?_ fun a ha => ?_)

theorem ok_findInVec {key r : Ref} (hkey : P key) (hr : P r) {xs : List Ref} : ∀ {i : Nat} {Q : Unit → List Ref → Prop}, (∀ x ∈ xs, P x) →
    Q () s → Ok P (findInVec key r i xs) s Q := by
  induction xs with
  | nil => intro i Q _ h; exact h
  | cons x xs ih =>
    intro i Q h h'
    unfold findInVec
    ok
    all_goals first | ok_side | skip
    all_goals exact ih (by ok_side) h'
macro_rules | `(tactic| ok_rule) => `(tactic| with_reducible refine ok_findInVec ?_ ?_ ?_ ?_)

theorem ok_orNil {x : Option Ref} {Q} (hx : PubOpt P x)  (h' : ∀ a, PubOpt P a → Q a s) :
    Ok P (orNil x) s Q := by
  unfold orNil
  ok
  all_goals ok_side
macro_rules | `(tactic| ok_rule) => `(tactic| with_reducible refine ok_orNil ?_ fun a ha => ?_)

theorem ok_findFrom {container : Ref} {key : Ref} {Q} (hcontainer : P container) (hkey : P key)  (h' : ∀ a, PubOpt P a → Q a s) :
    Ok P (findFrom container key) s Q := by
  unfold findFrom
  ok
  all_goals ok_side
macro_rules | `(tactic| ok_rule) => `(tactic| with_reducible refine ok_findFrom ?_ ?_ fun a ha => ?_)

theorem ok_findEach {container r : Ref} (hkey : P container) (hr : P r) {xs : List Ref} : ∀ {Q : Unit → List Ref → Prop}, (∀ x ∈ xs, P x) →
    Q () s → Ok P (findEach container r xs) s Q := by
  induction xs with
  | nil => intro Q _ h; exact h
  | cons x xs ih =>
    intro Q h h'
    unfold findEach
    ok
    all_goals first | ok_side | skip
    all_goals exact ih (by ok_side) h'
macro_rules | `(tactic| ok_rule) => `(tactic| with_reducible refine ok_findEach ?_ ?_ ?_ ?_)

theorem ok_biFind {args : Ref} {env : Ref} {Q} (hargs : P args) (henv : P env)  (h' : ∀ a, PubOpt P a → Q a s) :
    Ok P (biFind args env) s Q := by
  unfold biFind
  ok
  all_goals ok_side
macro_rules | `(tactic| ok_rule) => `(tactic| with_reducible refine ok_biFind ?_ ?_ fun a ha => ?_)

theorem ok_appendStrs {r : Ref} (hr : P r) {xs : List Text} : ∀ {Q : Unit → List Ref → Prop}, Q () s →
    Ok P (appendStrs r xs) s Q := by
  induction xs with
  | nil => intro Q h; exact h
  | cons x xs ih =>
    intro Q h'
    unfold appendStrs
    ok
    all_goals first | ok_side | skip
    all_goals exact ih h'
macro_rules | `(tactic| ok_rule) => `(tactic| with_reducible refine ok_appendStrs ?_ ?_)

theorem ok_biSplit {args : Ref} {env : Ref} {Q} (hargs : P args) (henv : P env)  (h' : ∀ a, PubOpt P a → Q a s) :
    Ok P (biSplit args env) s Q := by
  unfold biSplit
  ok
  all_goals ok_side
macro_rules | `(tactic| ok_rule) => `(tactic| with_reducible refine ok_biSplit ?_ ?_ fun a ha => ?_)

end Dern.Prog
