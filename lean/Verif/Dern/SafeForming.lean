import Verif.Dern.Forming
import Verif.Dern.SafeFor
import Verif.Dern.SafeConversions
/-
`Ok` for `template`, `generate` and `howto`.
-/
namespace Dern.Prog
variable {P : Ref → Prop} {s : List Ref}

theorem ok_intoResult {result : Option Ref} {x : Ref} {Q} (hr : PubOpt P result) (hx : P x) (h' : ∀ a, PubOpt P a → Q a s) :
    Ok P (intoResult result x) s Q := by
  unfold intoResult
  ok
  all_goals ok_side
macro_rules | `(tactic| ok_rule) => `(tactic| with_reducible refine ok_intoResult ?_ ?_ fun a ha => ?_)

theorem ok_protectInto {result : Option Ref} {x : Ref} {Q} (hr : PubOpt P result) (hx : P x) (h' : ∀ a, PubOpt P a → Q a s) :
    Ok P (protectInto result x) s Q := by
  unfold protectInto
  ok
  all_goals ok_side
macro_rules | `(tactic| ok_rule) => `(tactic| with_reducible refine ok_protectInto ?_ ?_ fun a ha => ?_)

theorem ok_spliceInto {result : Option Ref} {x : Ref} {Q} (hr : PubOpt P result) (hx : P x) (h' : ∀ a, PubOpt P a → Q a s) :
    Ok P (spliceInto result x) s Q := by
  unfold spliceInto
  ok
  all_goals ok_side
macro_rules | `(tactic| ok_rule) => `(tactic| with_reducible refine ok_spliceInto ?_ ?_ fun a ha => ?_)

theorem ok_afterComma {t : Text} {Q} (h' : ∀ r, P r → Q r s) : Ok P (afterComma t) s Q := by
  unfold afterComma
  ok
  all_goals ok_side
macro_rules | `(tactic| ok_rule) => `(tactic| with_reducible refine ok_afterComma fun r hr => ?_)

theorem ok_templateOne {args env : Ref} {i : Nat} {result : Option Ref} {Q} (ha : P args) (he : P env) (hr : PubOpt P result)
    (h' : ∀ a : Option Ref × Nat, PubOpt P a.1 → Q a s) : Ok P (templateOne args env i result) s Q := by
  unfold templateOne
  ok
  all_goals ok_side
macro_rules | `(tactic| ok_rule) => `(tactic| with_reducible refine ok_templateOne ?_ ?_ ?_ fun a ha => ?_)

theorem ok_templateLoop {args env : Ref} {n : Nat} (ha : P args) (he : P env) {k : Nat} : ∀ {i : Nat} {result : Option Ref}
    {Q : Option Ref → List Ref → Prop}, PubOpt P result → (∀ a, PubOpt P a → Q a s) → Ok P (templateLoop args env n k i result) s Q := by
  induction k with
  | zero => intro i r Q h1 h2; exact ok_fail (by simp)
  | succ k ih =>
    intro i r Q h1 h2
    unfold templateLoop
    ok
    all_goals first | exact ih ‹_› h2 | ok_side
macro_rules | `(tactic| ok_rule) => `(tactic| with_reducible refine ok_templateLoop ?_ ?_ ?_ fun a ha => ?_)

theorem ok_templateInner {value inner env : Ref} {Q} (h1 : P value) (h2 : P inner) (he : P env) (h' : ∀ a, PubOpt P a → Q a s) :
    Ok P (templateInner value inner env) s Q := by
  unfold templateInner
  ok
  all_goals ok_side

theorem ok_spTemplate {args env : Ref} {Q} (ha : P args) (he : P env) (h' : ∀ a, PubOpt P a → Q a s) :
    Ok P (spTemplate args env) s Q := by
  unfold spTemplate
  ok
  all_goals ok_side
macro_rules | `(tactic| ok_rule) => `(tactic| with_reducible refine ok_spTemplate ?_ ?_ fun a ha => ?_)

theorem ok_generateNew {t : Text} {Q} (h' : ∀ a, PubOpt P a → Q a s) : Ok P (generateNew t) s Q := by
  unfold generateNew
  ok
  all_goals ok_side
macro_rules | `(tactic| ok_rule) => `(tactic| with_reducible refine ok_generateNew fun a ha => ?_)

theorem ok_expectSymbol {args : Ref} {i t} {Q} (ha : P args) (h' : ∀ a, PubOpt P a → Q a s) : Ok P (expectSymbol args i t) s Q := by
  unfold expectSymbol
  ok
  all_goals ok_side
macro_rules | `(tactic| ok_rule) => `(tactic| with_reducible refine ok_expectSymbol ?_ fun a ha => ?_)

theorem ok_toSize {o : Obj} {Q} (h' : ∀ a, Q a s) : Ok P (toSize o) s Q := by
  unfold toSize
  ok
  all_goals ok_side
macro_rules | `(tactic| ok_rule) => `(tactic| with_reducible refine ok_toSize fun a => ?_)

theorem ok_collect {self x : Ref} {Q} (h1 : P self) (h2 : P x) (h' : Q () s) : Ok P (collect self x) s Q := by
  unfold collect
  ok
  all_goals ok_side
macro_rules | `(tactic| ok_rule) => `(tactic| with_reducible refine ok_collect ?_ ?_ ?_)

theorem ok_generateTurn {result gen env : Ref} {i} {Q} (h1 : P result) (h2 : P gen) (he : P env) (h' : Q () s) :
    Ok P (generateTurn result gen env i) s Q := by
  unfold generateTurn
  ok
  all_goals ok_side
macro_rules | `(tactic| ok_rule) => `(tactic| with_reducible refine ok_generateTurn ?_ ?_ ?_ ?_)

theorem ok_generateLoop {result gen env : Ref} (h1 : P result) (h2 : P gen) (he : P env) {k : Nat} : ∀ {i : Nat} {Q},
    Q () s → Ok P (generateLoop result gen env k i) s Q := by
  induction k with
  | zero => intro i Q h; exact h
  | succ k ih =>
    intro i Q h
    unfold generateLoop
    ok
    all_goals first | exact ih h | ok_side
macro_rules | `(tactic| ok_rule) => `(tactic| with_reducible refine ok_generateLoop ?_ ?_ ?_ ?_)

theorem ok_repeatLoop {result x : Ref} (h1 : P result) (h2 : P x) {k : Nat} : ∀ {Q},
    Q () s → Ok P (repeatLoop result x k) s Q := by
  induction k with
  | zero => intro Q h; exact h
  | succ k ih =>
    intro Q h
    unfold repeatLoop
    ok
    all_goals first | exact ih h | ok_side
macro_rules | `(tactic| ok_rule) => `(tactic| with_reducible refine ok_repeatLoop ?_ ?_ ?_)

theorem ok_generateFill {args env type result : Ref} {Q} (ha : P args) (he : P env) (h1 : P type) (h2 : P result)
    (h' : ∀ a, PubOpt P a → Q a s) : Ok P (generateFill args env type result) (result :: type :: s) Q := by
  unfold generateFill
  ok
  all_goals ok_side
macro_rules | `(tactic| ok_rule) => `(tactic| with_reducible refine ok_generateFill ?_ ?_ ?_ ?_ fun a ha => ?_)

theorem ok_mappingVectors {args env vectors : Ref} (ha : P args) (he : P env) (h1 : P vectors) {k : Nat} : ∀ {i len : Nat}
    {Q : Option Ref ⊕ Nat → List Ref → Prop}, (∀ x : Option Ref ⊕ Nat, (∀ r, x = .inl r → PubOpt P r) → Q x s) →
    Ok P (mappingVectors args env vectors k i len) s Q := by
  induction k with
  | zero => intro i len Q h; exact h _ (by simp)
  | succ k ih =>
    intro i len Q h
    unfold mappingVectors
    ok
    all_goals first | exact ih h | ok_side

theorem ok_mappingArgs {form : Ref} {i : Nat} (h1 : P form) {xs : List Ref} : ∀ {Q}, (∀ x ∈ xs, P x) →
    Q () s → Ok P (mappingArgs form i xs) s Q := by
  induction xs with
  | nil => intro Q _ h; exact h
  | cons x xs ih =>
    intro Q hx h
    unfold mappingArgs
    ok
    all_goals first | exact ih (fun y hy => hx y (.tail _ hy)) h | exact hx _ (.head _) | ok_side
macro_rules | `(tactic| ok_rule) => `(tactic| with_reducible refine ok_mappingArgs ?_ ?_ ?_)

theorem ok_mappingLoop {result f vectors env : Ref} (h1 : P result) (h2 : P f) (h3 : P vectors) (he : P env) {k : Nat} : ∀ {i : Nat} {Q},
    Q () s → Ok P (mappingLoop result f vectors env k i) s Q := by
  induction k with
  | zero => intro i Q h; exact h
  | succ k ih =>
    intro i Q h
    unfold mappingLoop
    ok
    all_goals first | exact ih h | ok_side
macro_rules | `(tactic| ok_rule) => `(tactic| with_reducible refine ok_mappingLoop ?_ ?_ ?_ ?_ ?_)

theorem ok_mappingFill {args env type result : Ref} {n} {Q} (ha : P args) (he : P env) (h1 : P type) (h2 : P result)
    (h' : ∀ a, PubOpt P a → Q a s) : Ok P (mappingFill args env type result n) (result :: type :: s) Q := by
  unfold mappingFill
  ok
  all_goals first | ok_side | skip
  refine ok_mappingVectors ha he ‹_› fun x hx => ?_
  rcases x with e | len
  · ok
    all_goals first | exact h' _ (hx _ rfl) | ok_side
  · ok
    all_goals ok_side
macro_rules | `(tactic| ok_rule) => `(tactic| with_reducible refine ok_mappingFill ?_ ?_ ?_ ?_ fun a ha => ?_)

theorem ok_spGenerate {args env : Ref} {Q} (ha : P args) (he : P env) (h' : ∀ a, PubOpt P a → Q a s) :
    Ok P (spGenerate args env) s Q := by
  unfold spGenerate
  ok
  all_goals ok_side
macro_rules | `(tactic| ok_rule) => `(tactic| with_reducible refine ok_spGenerate ?_ ?_ fun a ha => ?_)

theorem ok_howtoArgs {form : Ref} (h1 : P form) {xs : List Ref} : ∀ {Q}, (∀ x ∈ xs, P x) →
    Q () s → Ok P (howtoArgs form xs) s Q := by
  induction xs with
  | nil => intro Q _ h; exact h
  | cons x xs ih =>
    intro Q hx h
    unfold howtoArgs
    ok
    all_goals first | exact ih (fun y hy => hx y (.tail _ hy)) h | exact hx _ (.head _) | ok_side
macro_rules | `(tactic| ok_rule) => `(tactic| with_reducible refine ok_howtoArgs ?_ ?_ ?_)

theorem ok_howtoTry {value example_ expected env result : Ref} {Q} (h0 : P value) (h1 : P example_) (h2 : P expected) (he : P env)
    (h3 : P result) (h' : Q () s) : Ok P (howtoTry value example_ expected env result) s Q := by
  unfold howtoTry
  ok
  all_goals ok_side
macro_rules | `(tactic| ok_rule) => `(tactic| with_reducible refine ok_howtoTry ?_ ?_ ?_ ?_ ?_ ?_)

theorem ok_howtoTurn {example_ expected env result : Ref} {gen i} {Q} (h1 : P example_) (h2 : P expected) (he : P env) (h3 : P result)
    (h' : ∀ a, PubOpt P a → Q a s) : Ok P (howtoTurn example_ expected env result gen i) s Q := by
  unfold howtoTurn
  ok
  all_goals ok_side

theorem ok_howtoLoop {example_ expected env result : Ref} (h1 : P example_) (h2 : P expected) (he : P env) (h3 : P result)
    {xss : List (List Ref)} : ∀ {Q}, (∀ xs ∈ xss, ∀ x ∈ xs, P x) → Q () s → Ok P (howtoLoop example_ expected env result xss) s Q := by
  induction xss with
  | nil => intro Q _ h; exact h
  | cons x xs ih =>
    intro Q hx h
    unfold howtoLoop
    ok
    all_goals first | exact ih (fun y hy => hx y (.tail _ hy)) h | exact hx _ (.head _) | ok_side

theorem arrangements_pub {es : List Ref} (h : ∀ x ∈ es, P x) : ∀ xs ∈ arrangements es, ∀ x ∈ xs, P x := by
  intro xs hxs x hx
  unfold arrangements at hxs
  obtain ⟨p, -, rfl⟩ := List.mem_map.mp hxs
  obtain ⟨i, -, hi⟩ := List.mem_filterMap.mp hx
  exact h x (List.mem_of_getElem? hi)

theorem ok_spHowto {args env : Ref} {Q} (ha : P args) (he : P env) (h' : ∀ a, PubOpt P a → Q a s) :
    Ok P (spHowto args env) s Q := by
  unfold spHowto
  refine ok_bind (ok_verifyVec ha fun es hes => ok_bind (ok_verifyEnv he ?_))
  split
  · rename_i expected x xs h1 h2
    have q1 : P expected := hes _ (List.mem_of_getLast? h1)
    have q2 : ∀ y ∈ x :: xs, P y := fun y hy => hes y (List.dropLast_subset es (h2 ▸ hy))
    refine ok_bind (ok_alloc (by ok_side) fun r hr => ok_bind (ok_push hr (ok_bind (ok_alloc (by ok_side) fun ex hex => ok_bind (ok_push hex
      (ok_bind (ok_appendAll hex q2 (ok_bind (ok_howtoLoop hex q1 he hr (arrangements_pub q2) ?_)))))))))
    ok
    all_goals ok_side
  · ok
    all_goals ok_side
macro_rules | `(tactic| ok_rule) => `(tactic| with_reducible refine ok_spHowto ?_ ?_ fun a ha => ?_)

end Dern.Prog
