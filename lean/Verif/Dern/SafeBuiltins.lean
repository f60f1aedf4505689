import Verif.Dern.Builtins
import Verif.Dern.SafeCollections
/-
`Ok` for copying, assignment and the builtin functions.
-/
namespace Dern.Prog
variable {P : Ref → Prop} {s : List Ref}

/-- The code without a model keeps the stack as it is and does not make up references. -/
structure Library.Safe (L : Library) : Prop where
  builtin : ∀ (P : Ref → Prop) (x : Builtin) (args env : Ref) (s : List Ref), P args → P env →
    Ok P (L.builtin x args env) s fun a s' => s' = s ∧ PubOpt P a

theorem ok_libBuiltin {L : Library} {x : Builtin} {args env : Ref} {Q} (hL : L.Safe) (h1 : P args) (h2 : P env)
    (h' : ∀ a, PubOpt P a → Q a s) : Ok P (L.builtin x args env) s Q :=
  (hL.builtin P x args env s h1 h2).mono (by rintro a _ ⟨rfl, h⟩; exact h' a h)
macro_rules | `(tactic| ok_rule) => `(tactic| with_reducible refine ok_libBuiltin ?_ ?_ ?_ fun a ha => ?_)

theorem pub_shell {o : Obj} (h : PubObj P o) : PubObj P (shell o) := by
  cases o <;> simp_all [shell, PubObj]

theorem ok_copyElements {value r : Ref} (hvalue : P value) (hr : P r) {xs : List Ref} : ∀ {Q}, (∀ x ∈ xs, P x) →
    (Q () s) → Ok P (copyElements value r xs) s Q := by
  induction xs with
  | nil =>
    intros
    unfold copyElements
    ok
    all_goals ok_side
  | cons x xs ih =>
    intros
    unfold copyElements
    ok
    all_goals first | ok_side | skip
    all_goals with_reducible refine ih ?_ ?_
    all_goals ok_side
macro_rules | `(tactic| ok_rule) => `(tactic| with_reducible refine ok_copyElements ?_ ?_ ?_ ?_)

theorem ok_copyPairs {value r : Ref} (hvalue : P value) (hr : P r) {xs : List (Ref × Ref)} : ∀ {Q}, (∀ e ∈ xs, P e.1 ∧ P e.2) →
    (Q () s) → Ok P (copyPairs value r xs) s Q := by
  induction xs with
  | nil =>
    intros
    unfold copyPairs
    ok
    all_goals ok_side
  | cons x xs ih =>
    intros
    unfold copyPairs
    ok
    all_goals first | ok_side | skip
    all_goals with_reducible refine ih ?_ ?_
    all_goals ok_side
macro_rules | `(tactic| ok_rule) => `(tactic| with_reducible refine ok_copyPairs ?_ ?_ ?_ ?_)

theorem ok_copyDocs {value r : Ref} {Q} (hvalue : P value) (hr : P r) (h' : Q () s) :
    Ok P (copyDocs value r) s Q := by
  unfold copyDocs
  ok
  all_goals ok_side
macro_rules | `(tactic| ok_rule) => `(tactic| with_reducible refine ok_copyDocs ?_ ?_ ?_)

theorem ok_copyValue {value : Ref} {Q} (hvalue : P value) (h' : ∀ a, PubOpt P a → Q a s) :
    Ok P (copyValue value) s Q := by
  unfold copyValue
  ok
  all_goals first | exact pub_shell (PubCell.obj ‹_›) | ok_side
macro_rules | `(tactic| ok_rule) => `(tactic| with_reducible refine ok_copyValue ?_ fun a ha => ?_)

theorem ok_setElements {value self : Ref} (hvalue : P value) (hself : P self) {xs : List Ref} : ∀ {Q}, (∀ x ∈ xs, P x) →
    (Q () s) → Ok P (setElements value self xs) s Q := by
  induction xs with
  | nil =>
    intros
    unfold setElements
    ok
    all_goals ok_side
  | cons x xs ih =>
    intros
    unfold setElements
    ok
    all_goals first | ok_side | skip
    all_goals with_reducible refine ih ?_ ?_
    all_goals ok_side
macro_rules | `(tactic| ok_rule) => `(tactic| with_reducible refine ok_setElements ?_ ?_ ?_ ?_)

theorem ok_setPairs {value self : Ref} (hvalue : P value) (hself : P self) {xs : List (Ref × Ref)} : ∀ {Q}, (∀ e ∈ xs, P e.1 ∧ P e.2) →
    (Q () s) → Ok P (setPairs value self xs) s Q := by
  induction xs with
  | nil =>
    intros
    unfold setPairs
    ok
    all_goals ok_side
  | cons x xs ih =>
    intros
    unfold setPairs
    ok
    all_goals first | ok_side | skip
    all_goals with_reducible refine ih ?_ ?_
    all_goals ok_side
macro_rules | `(tactic| ok_rule) => `(tactic| with_reducible refine ok_setPairs ?_ ?_ ?_ ?_)

theorem ok_setDocs {value self : Ref} {Q} (hvalue : P value) (hself : P self) (h' : Q () s) :
    Ok P (setDocs value self) s Q := by
  unfold setDocs
  ok
  all_goals ok_side
macro_rules | `(tactic| ok_rule) => `(tactic| with_reducible refine ok_setDocs ?_ ?_ ?_)

theorem ok_valueSet {self value : Ref} {Q} (hself : P self) (hvalue : P value) (h' : ∀ b, Q b s) :
    Ok P (valueSet self value) s Q := by
  unfold valueSet
  ok
  all_goals ok_side
macro_rules | `(tactic| ok_rule) => `(tactic| with_reducible refine ok_valueSet ?_ ?_ fun b => ?_)

theorem ok_fillNil {self : Ref} (h : P self) {k : Nat} : ∀ {Q}, Q () s → Ok P (fillNil self k) s Q := by
  induction k with
  | zero => intro Q h'; exact h'
  | succ k ih =>
    intro Q h'
    unfold fillNil
    ok
    all_goals first | exact ih h' | ok_side
macro_rules | `(tactic| ok_rule) => `(tactic| with_reducible refine ok_fillNil ?_ ?_)

theorem ok_setCollection {self index value : Ref} {Q} (hself : P self) (hindex : P index) (hvalue : P value) (h' : ∀ b, Q b s) :
    Ok P (setCollection self index value) s Q := by
  unfold setCollection
  ok
  all_goals first | ok_side | skip
  all_goals grind [PubObj, PubOpt, PubCell, List.mem_or_eq_of_mem_set]
macro_rules | `(tactic| ok_rule) => `(tactic| with_reducible refine ok_setCollection ?_ ?_ ?_ fun b => ?_)

theorem ok_biAssign {args : Ref} {env : Ref} {Q} (hargs : P args) (henv : P env)  (h' : ∀ a, PubOpt P a → Q a s) :
    Ok P (biAssign args env) s Q := by
  unfold biAssign
  ok
  all_goals ok_side
macro_rules | `(tactic| ok_rule) => `(tactic| with_reducible refine ok_biAssign ?_ ?_ fun a ha => ?_)

theorem ok_biUid {args env : Ref} {Q} (hargs : P args) (henv : P env) (h' : ∀ a, PubOpt P a → Q a s) :
    Ok P (biUid args env) s Q := by
  unfold biUid
  ok
  all_goals ok_side
macro_rules | `(tactic| ok_rule) => `(tactic| with_reducible refine ok_biUid ?_ ?_ fun a ha => ?_)

theorem ok_biAbort {args env : Ref} {Q} (hargs : P args) (henv : P env) (h' : ∀ a, PubOpt P a → Q a s) :
    Ok P (biAbort args env) s Q := by
  unfold biAbort
  ok
  all_goals ok_side
macro_rules | `(tactic| ok_rule) => `(tactic| with_reducible refine ok_biAbort ?_ ?_ fun a ha => ?_)

theorem ok_biNot {args env : Ref} {Q} (hargs : P args) (henv : P env) (h' : ∀ a, PubOpt P a → Q a s) :
    Ok P (biNot args env) s Q := by
  unfold biNot
  ok
  all_goals ok_side
macro_rules | `(tactic| ok_rule) => `(tactic| with_reducible refine ok_biNot ?_ ?_ fun a ha => ?_)

theorem ok_setReturnOnce {r : Ref} {Q} (hr : P r) (h' : Q () s) :
    Ok P (setReturnOnce r) s Q := by
  unfold setReturnOnce
  ok
  all_goals ok_side
macro_rules | `(tactic| ok_rule) => `(tactic| with_reducible refine ok_setReturnOnce ?_ ?_)

theorem ok_biReturn {args env : Ref} {Q} (hargs : P args) (henv : P env) (h' : ∀ a, PubOpt P a → Q a s) :
    Ok P (biReturn args env) s Q := by
  unfold biReturn
  ok
  all_goals ok_side
macro_rules | `(tactic| ok_rule) => `(tactic| with_reducible refine ok_biReturn ?_ ?_ fun a ha => ?_)

theorem ok_vectorLoop {r : Ref} (hr : P r) {xs : List Ref} : ∀ {Q}, (∀ x ∈ xs, P x) →
    (Q () s) → Ok P (vectorLoop r xs) s Q := by
  induction xs with
  | nil =>
    intros
    unfold vectorLoop
    ok
    all_goals ok_side
  | cons x xs ih =>
    intros
    unfold vectorLoop
    ok
    all_goals first | ok_side | skip
    all_goals with_reducible refine ih ?_ ?_
    all_goals ok_side
macro_rules | `(tactic| ok_rule) => `(tactic| with_reducible refine ok_vectorLoop ?_ ?_ ?_)

theorem ok_biVector {args env : Ref} {Q} (hargs : P args) (henv : P env) (h' : ∀ a, PubOpt P a → Q a s) :
    Ok P (biVector args env) s Q := by
  unfold biVector
  ok
  all_goals ok_side
macro_rules | `(tactic| ok_rule) => `(tactic| with_reducible refine ok_biVector ?_ ?_ fun a ha => ?_)

theorem ok_biExit {args env : Ref} {Q} (hargs : P args) (henv : P env) (h' : ∀ a, PubOpt P a → Q a s) :
    Ok P (biExit args env) s Q := by
  unfold biExit
  ok
  all_goals ok_side
macro_rules | `(tactic| ok_rule) => `(tactic| with_reducible refine ok_biExit ?_ ?_ fun a ha => ?_)

theorem ok_docOf {x : Ref} {Q} (hx : P x) (h' : ∀ r, P r → Q r s) :
    Ok P (docOf x) s Q := by
  unfold docOf
  ok
  all_goals ok_side
macro_rules | `(tactic| ok_rule) => `(tactic| with_reducible refine ok_docOf ?_ fun r hr => ?_)

theorem ok_docLoop {r : Ref} (hr : P r) {xs : List Ref} : ∀ {Q}, (∀ x ∈ xs, P x) →
    (Q () s) → Ok P (docLoop r xs) s Q := by
  induction xs with
  | nil =>
    intros
    unfold docLoop
    ok
    all_goals ok_side
  | cons x xs ih =>
    intros
    unfold docLoop
    ok
    all_goals first | ok_side | skip
    all_goals with_reducible refine ih ?_ ?_
    all_goals ok_side
macro_rules | `(tactic| ok_rule) => `(tactic| with_reducible refine ok_docLoop ?_ ?_ ?_)

theorem ok_biDoc {args env : Ref} {Q} (hargs : P args) (henv : P env) (h' : ∀ a, PubOpt P a → Q a s) :
    Ok P (biDoc args env) s Q := by
  unfold biDoc
  ok
  all_goals ok_side
macro_rules | `(tactic| ok_rule) => `(tactic| with_reducible refine ok_biDoc ?_ ?_ fun a ha => ?_)

theorem ok_countFormals {xs : List Ref} : ∀ {Q : Nat → List Ref → Prop}, (∀ x ∈ xs, P x) →
    (∀ n, Q n s) → Ok P (countFormals xs) s Q := by
  induction xs with
  | nil => intro Q _ h; exact h _
  | cons x xs ih =>
    intro Q h h'
    unfold countFormals
    ok
    all_goals first | ok_side | skip
    refine ih (by ok_side) fun n => ?_
    ok
    exact h' _
macro_rules | `(tactic| ok_rule) => `(tactic| with_reducible refine ok_countFormals ?_ fun n => ?_)

theorem ok_fnLength {o : Obj} {Q : Nat → List Ref → Prop} (ho : PubObj P o) (h' : ∀ n, Q n s) : Ok P (fnLength o) s Q := by
  unfold fnLength
  ok
  all_goals ok_side
macro_rules | `(tactic| ok_rule) => `(tactic| with_reducible refine ok_fnLength ?_ fun n => ?_)

theorem ok_lengthOf {x : Ref} {Q} (hx : P x) (h' : ∀ b, Q b s) :
    Ok P (lengthOf x) s Q := by
  unfold lengthOf
  ok
  all_goals first | assumption | exact h' _ | exact PubCell.obj ‹_›
macro_rules | `(tactic| ok_rule) => `(tactic| with_reducible refine ok_lengthOf ?_ fun b => ?_)

theorem ok_lenLoop {r : Ref} (hr : P r) {xs : List Ref} : ∀ {Q}, (∀ x ∈ xs, P x) →
    (Q () s) → Ok P (lenLoop r xs) s Q := by
  induction xs with
  | nil =>
    intros
    unfold lenLoop
    ok
    all_goals ok_side
  | cons x xs ih =>
    intros
    unfold lenLoop
    ok
    all_goals first | ok_side | skip
    all_goals with_reducible refine ih ?_ ?_
    all_goals ok_side
macro_rules | `(tactic| ok_rule) => `(tactic| with_reducible refine ok_lenLoop ?_ ?_ ?_)

theorem ok_biLen {args : Ref} {env : Ref} {Q} (hargs : P args) (henv : P env)  (h' : ∀ a, PubOpt P a → Q a s) :
    Ok P (biLen args env) s Q := by
  unfold biLen
  ok
  all_goals ok_side
macro_rules | `(tactic| ok_rule) => `(tactic| with_reducible refine ok_biLen ?_ ?_ fun a ha => ?_)

theorem ok_biEnvNew {args env : Ref} {Q} (hargs : P args) (henv : P env) (h' : ∀ a, PubOpt P a → Q a s) :
    Ok P (biEnvNew args env) s Q := by
  unfold biEnvNew
  ok
  all_goals ok_side
macro_rules | `(tactic| ok_rule) => `(tactic| with_reducible refine ok_biEnvNew ?_ ?_ fun a ha => ?_)

theorem ok_biEnvCurrent {args env : Ref} {Q} (hargs : P args) (henv : P env) (h' : ∀ a, PubOpt P a → Q a s) :
    Ok P (biEnvCurrent args env) s Q := by
  unfold biEnvCurrent
  ok
  all_goals ok_side
macro_rules | `(tactic| ok_rule) => `(tactic| with_reducible refine ok_biEnvCurrent ?_ ?_ fun a ha => ?_)

theorem ok_biEnvGlobal {args env : Ref} {Q} (hargs : P args) (henv : P env) (h' : ∀ a, PubOpt P a → Q a s) :
    Ok P (biEnvGlobal args env) s Q := by
  unfold biEnvGlobal
  ok
  all_goals ok_side
macro_rules | `(tactic| ok_rule) => `(tactic| with_reducible refine ok_biEnvGlobal ?_ ?_ fun a ha => ?_)

theorem ok_numLoop {op : Nat → Int → Int → Int} {xs : List Ref} : ∀ {i : Nat} {n : Int} {b : Bool} {Q},
    (∀ x ∈ xs, P x) → (∀ a, PubOpt P a → Q a s) → Ok P (numLoop op xs i n b) s Q := by
  induction xs with
  | nil =>
    intro i n b Q _ h'
    cases b <;> unfold numLoop <;> ok
    all_goals ok_side
  | cons x xs ih =>
    intro i n b Q h h'
    unfold numLoop
    ok
    all_goals first | ok_side | skip
    all_goals exact ih (by ok_side) h'
macro_rules | `(tactic| ok_rule) => `(tactic| with_reducible refine ok_numLoop ?_ fun a ha => ?_)

theorem ok_plusNumerical {args env : Ref} {Q} (hargs : P args) (henv : P env) (h' : ∀ a, PubOpt P a → Q a s) :
    Ok P (plusNumerical args env) s Q := by
  unfold plusNumerical
  ok
  all_goals ok_side
macro_rules | `(tactic| ok_rule) => `(tactic| with_reducible refine ok_plusNumerical ?_ ?_ fun a ha => ?_)

theorem ok_minusNumerical {args env : Ref} {Q} (hargs : P args) (henv : P env) (h' : ∀ a, PubOpt P a → Q a s) :
    Ok P (minusNumerical args env) s Q := by
  unfold minusNumerical
  ok
  all_goals ok_side
macro_rules | `(tactic| ok_rule) => `(tactic| with_reducible refine ok_minusNumerical ?_ ?_ fun a ha => ?_)

theorem ok_plusTexts {isSym : Bool} {r : Ref} (hr : P r) {xs : List Ref} : ∀ {Q : Option Ref → List Ref → Prop}, (∀ x ∈ xs, P x) →
    (∀ a, PubOpt P a → Q a s) → Ok P (plusTexts isSym r xs) (r :: s) Q := by
  induction xs with
  | nil =>
    intro Q _ h
    unfold plusTexts
    ok
    all_goals ok_side
  | cons x xs ih =>
    intro Q h h'
    unfold plusTexts
    ok
    all_goals first | exact pub_ofText | ok_side | skip
    all_goals exact ih (by ok_side) h'
macro_rules | `(tactic| ok_rule) => `(tactic| with_reducible refine ok_plusTexts ?_ ?_ fun a ha => ?_)

theorem ok_plusTextual {isSym : Bool} {t : Text} {xs : List Ref} {Q : Option Ref → List Ref → Prop} (h : ∀ x ∈ xs, P x)
    (h' : ∀ a, PubOpt P a → Q a s) : Ok P (plusTextual isSym t xs) s Q := by
  unfold plusTextual
  ok
  all_goals first | exact pub_ofText | ok_side
macro_rules | `(tactic| ok_rule) => `(tactic| with_reducible refine ok_plusTextual ?_ fun a ha => ?_)

theorem ok_sumVersions {add : Bool} {r : Ref} (hr : P r) {xs : List Ref} : ∀ {Q : Option Ref → List Ref → Prop}, (∀ x ∈ xs, P x) →
    (∀ a, PubOpt P a → Q a s) → Ok P (sumVersions add r xs) (r :: s) Q := by
  induction xs with
  | nil =>
    intro Q _ h
    unfold sumVersions
    ok
    all_goals ok_side
  | cons x xs ih =>
    intro Q h h'
    unfold sumVersions
    ok
    all_goals first | ok_side | skip
    all_goals exact ih (by ok_side) h'
macro_rules | `(tactic| ok_rule) => `(tactic| with_reducible refine ok_sumVersions ?_ ?_ fun a ha => ?_)

theorem ok_sumSemver {add} {v} {xs : List Ref} {Q} (hxs : ∀ x ∈ xs, P x)  (h' : ∀ a, PubOpt P a → Q a s) :
    Ok P (sumSemver add v xs) s Q := by
  unfold sumSemver
  ok
  all_goals ok_side
macro_rules | `(tactic| ok_rule) => `(tactic| with_reducible refine ok_sumSemver ?_ fun a ha => ?_)

theorem ok_appendCopies {r : Ref} (hr : P r) {xs : List Ref} : ∀ {Q : Unit → List Ref → Prop}, (∀ x ∈ xs, P x) →
    Q () s → Ok P (appendCopies r xs) s Q := by
  induction xs with
  | nil => intro Q _ h; exact h
  | cons x xs ih =>
    intro Q h h'
    unfold appendCopies
    ok
    all_goals first | ok_side | skip
    all_goals exact ih (by ok_side) h'
macro_rules | `(tactic| ok_rule) => `(tactic| with_reducible refine ok_appendCopies ?_ ?_ ?_)

theorem ok_plusVector {x : Ref} {xs : List Ref} {Q} (hx : P x) (hxs : ∀ x ∈ xs, P x)  (h' : ∀ a, PubOpt P a → Q a s) :
    Ok P (plusVector x xs) s Q := by
  unfold plusVector
  ok
  all_goals ok_side
macro_rules | `(tactic| ok_rule) => `(tactic| with_reducible refine ok_plusVector ?_ ?_ fun a ha => ?_)

theorem ok_putCopies {r : Ref} (hr : P r) {xs : List (Ref × Ref)} : ∀ {Q : Unit → List Ref → Prop}, (∀ x ∈ xs, P x.1 ∧ P x.2) →
    Q () s → Ok P (putCopies r xs) s Q := by
  induction xs with
  | nil => intro Q _ h; exact h
  | cons x xs ih =>
    intro Q h h'
    unfold putCopies
    ok
    all_goals first | ok_side | skip
    all_goals exact ih (by ok_side) h'
macro_rules | `(tactic| ok_rule) => `(tactic| with_reducible refine ok_putCopies ?_ ?_ ?_)

theorem ok_plusHashMap {x : Ref} {xs : List Ref} {Q} (hx : P x) (hxs : ∀ x ∈ xs, P x)  (h' : ∀ a, PubOpt P a → Q a s) :
    Ok P (plusHashMap x xs) s Q := by
  unfold plusHashMap
  ok
  all_goals first | exact pub_inPairs hxs | ok_side
macro_rules | `(tactic| ok_rule) => `(tactic| with_reducible refine ok_plusHashMap ?_ ?_ fun a ha => ?_)

theorem ok_minusTextual {x : Ref} (hx : P x) {xs : List Ref} : ∀ {Q : Option Ref → List Ref → Prop}, (∀ x ∈ xs, P x) →
    (∀ a, PubOpt P a → Q a s) → Ok P (minusTextual x xs) s Q := by
  induction xs with
  | nil => intro Q _ h; exact h _ (pubOpt_some hx)
  | cons x xs ih =>
    intro Q h h'
    unfold minusTextual
    ok
    all_goals first | ok_side | skip
    all_goals exact ih (by ok_side) h'
macro_rules | `(tactic| ok_rule) => `(tactic| with_reducible refine ok_minusTextual ?_ ?_ fun a ha => ?_)

theorem ok_biPlus {args : Ref} {env : Ref} {Q} (hargs : P args) (henv : P env)  (h' : ∀ a, PubOpt P a → Q a s) :
    Ok P (biPlus args env) s Q := by
  unfold biPlus
  ok
  all_goals ok_side
macro_rules | `(tactic| ok_rule) => `(tactic| with_reducible refine ok_biPlus ?_ ?_ fun a ha => ?_)

theorem ok_biMinus {args : Ref} {env : Ref} {Q} (hargs : P args) (henv : P env)  (h' : ∀ a, PubOpt P a → Q a s) :
    Ok P (biMinus args env) s Q := by
  unfold biMinus
  ok
  all_goals ok_side
macro_rules | `(tactic| ok_rule) => `(tactic| with_reducible refine ok_biMinus ?_ ?_ fun a ha => ?_)

theorem ok_biTimes {args env : Ref} {Q} (hargs : P args) (henv : P env) (h' : ∀ a, PubOpt P a → Q a s) :
    Ok P (biTimes args env) s Q := by
  unfold biTimes
  ok
  all_goals ok_side
macro_rules | `(tactic| ok_rule) => `(tactic| with_reducible refine ok_biTimes ?_ ?_ fun a ha => ?_)

theorem ok_biMod {args env : Ref} {Q} (hargs : P args) (henv : P env) (h' : ∀ a, PubOpt P a → Q a s) :
    Ok P (biMod args env) s Q := by
  unfold biMod
  ok
  all_goals ok_side
macro_rules | `(tactic| ok_rule) => `(tactic| with_reducible refine ok_biMod ?_ ?_ fun a ha => ?_)

theorem ok_slashLoop {xs : List Ref} : ∀ {i : Nat} {Q},
    (∀ x ∈ xs, P x) → (∀ a, PubOpt P a → Q a s) → Ok P (slashLoop xs i) s Q := by
  induction xs with
  | nil =>
    intro i Q _ h'
    unfold slashLoop; ok
    all_goals ok_side
  | cons x xs ih =>
    intro i Q h h'
    unfold slashLoop
    ok
    all_goals first | ok_side | skip
    all_goals exact ih (by ok_side) h'
macro_rules | `(tactic| ok_rule) => `(tactic| with_reducible refine ok_slashLoop ?_ fun a ha => ?_)

theorem ok_incrLoop {xs : List Ref} : ∀ {last : Option Ref} {Q},
    (∀ x ∈ xs, P x) → PubOpt P last → (∀ a, PubOpt P a → Q a s) → Ok P (incrLoop xs last) s Q := by
  induction xs with
  | nil => intro last Q _ h h'; exact h' _ h
  | cons x xs ih =>
    intro last Q h h1 h'
    unfold incrLoop
    ok
    all_goals first | ok_side | skip
    all_goals exact ih (by ok_side) (by ok_side) h'
macro_rules | `(tactic| ok_rule) => `(tactic| with_reducible refine ok_incrLoop ?_ ?_ fun a ha => ?_)

theorem ok_decrLoop {xs : List Ref} : ∀ {last : Option Ref} {Q},
    (∀ x ∈ xs, P x) → PubOpt P last → (∀ a, PubOpt P a → Q a s) → Ok P (decrLoop xs last) s Q := by
  induction xs with
  | nil => intro last Q _ h h'; exact h' _ h
  | cons x xs ih =>
    intro last Q h h1 h'
    unfold decrLoop
    ok
    all_goals first | ok_side | exact pub_less (PubCell.obj ‹_›) ‹_› | skip
    all_goals exact ih (by ok_side) (by ok_side) h'
macro_rules | `(tactic| ok_rule) => `(tactic| with_reducible refine ok_decrLoop ?_ ?_ fun a ha => ?_)

theorem ok_biSlash {args env : Ref} {Q} (hargs : P args) (henv : P env) (h' : ∀ a, PubOpt P a → Q a s) :
    Ok P (biSlash args env) s Q := by
  unfold biSlash
  ok
  all_goals ok_side
macro_rules | `(tactic| ok_rule) => `(tactic| with_reducible refine ok_biSlash ?_ ?_ fun a ha => ?_)

theorem ok_biIncr {args env : Ref} {Q} (hargs : P args) (henv : P env) (h' : ∀ a, PubOpt P a → Q a s) :
    Ok P (biIncr args env) s Q := by
  unfold biIncr
  ok
  all_goals ok_side
macro_rules | `(tactic| ok_rule) => `(tactic| with_reducible refine ok_biIncr ?_ ?_ fun a ha => ?_)

theorem ok_biDecr {args : Ref} {env : Ref} {Q} (hargs : P args) (henv : P env)  (h' : ∀ a, PubOpt P a → Q a s) :
    Ok P (biDecr args env) s Q := by
  unfold biDecr
  ok
  all_goals ok_side
macro_rules | `(tactic| ok_rule) => `(tactic| with_reducible refine ok_biDecr ?_ ?_ fun a ha => ?_)
end Dern.Prog
