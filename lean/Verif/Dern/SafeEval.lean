import Verif.Dern.SafeForming
import Verif.Dern.SafeConversions
import Verif.Dern.Eval
/-
`Ok` for the evaluator.
-/
namespace Dern.Prog
variable {P : Ref → Prop} {s : List Ref}

theorem ok_special {L : Library} {x : Special} {args env : Ref} {Q} (hL : L.Safe) (h1 : P args) (h2 : P env)
    (h' : ∀ a, PubOpt P a → Q a s) : Ok P (special L x args env) s Q := by
  cases x <;> unfold special
  case eq => exact ok_spEqual h1 h2 (fun s x y Q hx hy h => ok_equalValues hx hy h) h'
  case eqq => exact ok_spEqual h1 h2 (fun s x y Q hx hy h => ok_sameUid hx hy h) h'
  case ne => exact ok_spNotEqual h1 h2 h'
  case fn => exact ok_spFn h1 h2 (fun f h1 h2 h3 => ⟨h1, h2, h3⟩) h'
  case «macro» => exact ok_spFn h1 h2 (fun f h1 h2 h3 => ⟨h1, h2, h3⟩) h'
  all_goals ok
  all_goals ok_side
macro_rules | `(tactic| ok_rule) => `(tactic| with_reducible refine ok_special ?_ ?_ ?_ fun a ha => ?_)

theorem ok_builtin {L : Library} {x : Builtin} {args env : Ref} {Q} (hL : L.Safe) (h1 : P args) (h2 : P env)
    (h' : ∀ a, PubOpt P a → Q a s) : Ok P (builtin L x args env) s Q := by
  cases x
  case assign => first | exact ok_biAssign h1 h2 h' | exact ok_biAssign hL h1 h2 h' | exact ok_biAssign h1 h2 hL h' | (unfold builtin; ok; all_goals ok_side)
  case uid => first | exact ok_biUid h1 h2 h' | exact ok_biUid hL h1 h2 h' | exact ok_biUid h1 h2 hL h' | (unfold builtin; ok; all_goals ok_side)
  case abort => first | exact ok_biAbort h1 h2 h' | exact ok_biAbort hL h1 h2 h' | exact ok_biAbort h1 h2 hL h' | (unfold builtin; ok; all_goals ok_side)
  case not => first | exact ok_biNot h1 h2 h' | exact ok_biNot hL h1 h2 h' | exact ok_biNot h1 h2 hL h' | (unfold builtin; ok; all_goals ok_side)
  case «return» => first | exact ok_biReturn h1 h2 h' | exact ok_biReturn hL h1 h2 h' | exact ok_biReturn h1 h2 hL h' | (unfold builtin; ok; all_goals ok_side)
  case vector => first | exact ok_biVector h1 h2 h' | exact ok_biVector hL h1 h2 h' | exact ok_biVector h1 h2 hL h' | (unfold builtin; ok; all_goals ok_side)
  case exit => first | exact ok_biExit h1 h2 h' | exact ok_biExit hL h1 h2 h' | exact ok_biExit h1 h2 hL h' | (unfold builtin; ok; all_goals ok_side)
  case doc => first | exact ok_biDoc h1 h2 h' | exact ok_biDoc hL h1 h2 h' | exact ok_biDoc h1 h2 hL h' | (unfold builtin; ok; all_goals ok_side)
  case len => first | exact ok_biLen h1 h2 h' | exact ok_biLen hL h1 h2 h' | exact ok_biLen h1 h2 hL h' | (unfold builtin; ok; all_goals ok_side)
  case envNew => first | exact ok_biEnvNew h1 h2 h' | exact ok_biEnvNew hL h1 h2 h' | exact ok_biEnvNew h1 h2 hL h' | (unfold builtin; ok; all_goals ok_side)
  case envCurrent => first | exact ok_biEnvCurrent h1 h2 h' | exact ok_biEnvCurrent hL h1 h2 h' | exact ok_biEnvCurrent h1 h2 hL h' | (unfold builtin; ok; all_goals ok_side)
  case envGlobal => first | exact ok_biEnvGlobal h1 h2 h' | exact ok_biEnvGlobal hL h1 h2 h' | exact ok_biEnvGlobal h1 h2 hL h' | (unfold builtin; ok; all_goals ok_side)
  case mod => first | exact ok_biMod h1 h2 h' | exact ok_biMod hL h1 h2 h' | exact ok_biMod h1 h2 hL h' | (unfold builtin; ok; all_goals ok_side)
  case slash => first | exact ok_biSlash h1 h2 h' | exact ok_biSlash hL h1 h2 h' | exact ok_biSlash h1 h2 hL h' | (unfold builtin; ok; all_goals ok_side)
  case times => first | exact ok_biTimes h1 h2 h' | exact ok_biTimes hL h1 h2 h' | exact ok_biTimes h1 h2 hL h' | (unfold builtin; ok; all_goals ok_side)
  case plus => first | exact ok_biPlus h1 h2 h' | exact ok_biPlus hL h1 h2 h' | exact ok_biPlus h1 h2 hL h' | (unfold builtin; ok; all_goals ok_side)
  case minus => first | exact ok_biMinus h1 h2 h' | exact ok_biMinus hL h1 h2 h' | exact ok_biMinus h1 h2 hL h' | (unfold builtin; ok; all_goals ok_side)
  case plusPlus => first | exact ok_biIncr h1 h2 h' | exact ok_biIncr hL h1 h2 h' | exact ok_biIncr h1 h2 hL h' | (unfold builtin; ok; all_goals ok_side)
  case minusMinus => first | exact ok_biDecr h1 h2 h' | exact ok_biDecr hL h1 h2 h' | exact ok_biDecr h1 h2 hL h' | (unfold builtin; ok; all_goals ok_side)
  case plusEq => first | exact ok_biPlusEq h1 h2 h' | exact ok_biPlusEq hL h1 h2 h' | exact ok_biPlusEq h1 h2 hL h' | (unfold builtin; ok; all_goals ok_side)
  case minusEq => first | exact ok_biMinusEq h1 h2 h' | exact ok_biMinusEq hL h1 h2 h' | exact ok_biMinusEq h1 h2 hL h' | (unfold builtin; ok; all_goals ok_side)
  case minusEqEq => first | exact ok_biMinusEqEq h1 h2 h' | exact ok_biMinusEqEq hL h1 h2 h' | exact ok_biMinusEqEq h1 h2 hL h' | (unfold builtin; ok; all_goals ok_side)
  case popBack => first | exact ok_biPop h1 h2 h' | exact ok_biPop hL h1 h2 h' | exact ok_biPop h1 h2 hL h' | (unfold builtin; ok; all_goals ok_side)
  case popFront => first | exact ok_biPop h1 h2 h' | exact ok_biPop hL h1 h2 h' | exact ok_biPop h1 h2 hL h' | (unfold builtin; ok; all_goals ok_side)
  case hashMap => first | exact ok_biHashMap h1 h2 h' | exact ok_biHashMap hL h1 h2 h' | exact ok_biHashMap h1 h2 hL h' | (unfold builtin; ok; all_goals ok_side)
  case queue => first | exact ok_biQueue h1 h2 h' | exact ok_biQueue hL h1 h2 h' | exact ok_biQueue h1 h2 hL h' | (unfold builtin; ok; all_goals ok_side)
  case queueMax => first | exact ok_biQueueMax h1 h2 h' | exact ok_biQueueMax hL h1 h2 h' | exact ok_biQueueMax h1 h2 hL h' | (unfold builtin; ok; all_goals ok_side)
  case list => first | exact ok_biList h1 h2 h' | exact ok_biList hL h1 h2 h' | exact ok_biList h1 h2 hL h' | (unfold builtin; ok; all_goals ok_side)
  case find => first | exact ok_biFind h1 h2 h' | exact ok_biFind hL h1 h2 h' | exact ok_biFind h1 h2 hL h' | (unfold builtin; ok; all_goals ok_side)
  case split => first | exact ok_biSplit h1 h2 h' | exact ok_biSplit hL h1 h2 h' | exact ok_biSplit h1 h2 hL h' | (unfold builtin; ok; all_goals ok_side)
  case lnAt => first | exact ok_biLnAt h1 h2 h' | exact ok_biLnAt hL h1 h2 h' | exact ok_biLnAt h1 h2 hL h' | (unfold builtin; ok; all_goals ok_side)
  case cpAt => first | exact ok_biCpAt h1 h2 h' | exact ok_biCpAt hL h1 h2 h' | exact ok_biCpAt h1 h2 hL h' | (unfold builtin; ok; all_goals ok_side)
  case isA => first | exact ok_biIsA h1 h2 h' | exact ok_biIsA hL h1 h2 h' | exact ok_biIsA h1 h2 hL h' | (unfold builtin; ok; all_goals ok_side)
  case max => first | exact ok_biExtreme h1 h2 h' | exact ok_biExtreme hL h1 h2 h' | exact ok_biExtreme h1 h2 hL h' | (unfold builtin; ok; all_goals ok_side)
  case min => first | exact ok_biExtreme h1 h2 h' | exact ok_biExtreme hL h1 h2 h' | exact ok_biExtreme h1 h2 hL h' | (unfold builtin; ok; all_goals ok_side)
  case startsWith => first | exact ok_biStartsWith h1 h2 h' | exact ok_biStartsWith hL h1 h2 h' | exact ok_biStartsWith h1 h2 hL h' | (unfold builtin; ok; all_goals ok_side)
  case distance => first | exact ok_biDistance h1 h2 h' | exact ok_biDistance hL h1 h2 h' | exact ok_biDistance h1 h2 hL h' | (unfold builtin; ok; all_goals ok_side)
  case math => first | exact ok_biMath h1 h2 h' | exact ok_biMath hL h1 h2 h' | exact ok_biMath h1 h2 hL h' | (unfold builtin; ok; all_goals ok_side)
  case toInteger => first | exact ok_biToInteger h1 h2 h' | exact ok_biToInteger hL h1 h2 h' | exact ok_biToInteger h1 h2 hL h' | (unfold builtin; ok; all_goals ok_side)
  case toReal => first | exact ok_biToReal h1 h2 h' | exact ok_biToReal hL h1 h2 h' | exact ok_biToReal h1 h2 hL h' | (unfold builtin; ok; all_goals ok_side)
  case character => first | exact ok_biCharacter h1 h2 h' | exact ok_biCharacter hL h1 h2 h' | exact ok_biCharacter h1 h2 hL h' | (unfold builtin; ok; all_goals ok_side)
  case stringFormat => first | exact ok_biStringFormat h1 h2 h' | exact ok_biStringFormat hL h1 h2 h' | exact ok_biStringFormat h1 h2 hL h' | (unfold builtin; ok; all_goals ok_side)
  case toString => first | exact ok_biToString h1 h2 h' | exact ok_biToString hL h1 h2 h' | exact ok_biToString h1 h2 hL h' | (unfold builtin; ok; all_goals ok_side)
  case print => first | exact ok_biPrint h1 h2 h' | exact ok_biPrint hL h1 h2 h' | exact ok_biPrint h1 h2 hL h' | (unfold builtin; ok; all_goals ok_side)
  case println => first | exact ok_biPrintln h1 h2 h' | exact ok_biPrintln hL h1 h2 h' | exact ok_biPrintln h1 h2 hL h' | (unfold builtin; ok; all_goals ok_side)
  case printReadably => first | exact ok_biPrintReadably h1 h2 h' | exact ok_biPrintReadably hL h1 h2 h' | exact ok_biPrintReadably h1 h2 hL h' | (unfold builtin; ok; all_goals ok_side)
  case copy => first | exact ok_biCopy h1 h2 h' | exact ok_biCopy hL h1 h2 h' | exact ok_biCopy h1 h2 hL h' | (unfold builtin; ok; all_goals ok_side)
  case other => unfold builtin; ok; all_goals ok_side
macro_rules | `(tactic| ok_rule) => `(tactic| with_reducible refine ok_builtin ?_ ?_ ?_ fun a ha => ?_)

theorem ok_callArgs {value args env : Ref} {g i Q} (h1 : P value) (h2 : P args) (h3 : P env)
    (h' : ∀ a, PubOpt P a → Q a s) : Ok P (call (.argLoop value g args env i)) s Q :=
  ok_call (by simp [Call.refs, h1, h2, h3]) rfl h'
macro_rules | `(tactic| ok_rule) => `(tactic| with_reducible refine ok_callArgs ?_ ?_ ?_ fun a ha => ?_)

theorem ok_callBody {operator value env : Ref} {g i last Q} (h1 : P operator) (h2 : P value) (h3 : P env)
    (h4 : PubOpt P last)
    (h' : ∀ a, PubOpt P a → Q a s) : Ok P (call (.bodyLoop operator g value env i last)) s Q :=
  ok_call (by
    intro x hx
    simp only [Call.refs, List.mem_cons, Option.mem_toList] at hx
    rcases hx with rfl | rfl | rfl | hx
    · exact h1
    · exact h2
    · exact h3
    · exact h4 x hx) rfl h'
macro_rules | `(tactic| ok_rule) => `(tactic| with_reducible refine ok_callBody ?_ ?_ ?_ ?_ fun a ha => ?_)

theorem ok_callAgain {value env : Ref} {Q} (h1 : P value) (h3 : P env)
    (h' : ∀ a, PubOpt P a → Q a s) : Ok P (call (.again value env)) s Q :=
  ok_call (by simp [Call.refs, h1, h3]) rfl h'
macro_rules | `(tactic| ok_rule) => `(tactic| with_reducible refine ok_callAgain ?_ ?_ fun a ha => ?_)

theorem ok_payload {value : Ref} {g} {Q} (hvalue : P value) (h' : ∀ es, (∀ x ∈ es, P x) → Q es s) :
    Ok P (payload value g) s Q := by
  unfold payload
  ok
  all_goals ok_side
macro_rules | `(tactic| ok_rule) => `(tactic| with_reducible refine ok_payload ?_ fun es hes => ?_)

theorem ok_argTurn {value args env : Ref} {g i} {Q} (hvalue : P value) (hargs : P args) (henv : P env) (h' : ∀ a, PubOpt P a → Q a s) :
    Ok P (argTurn value g args env i) s Q := by
  unfold argTurn
  ok
  all_goals first | ok_side | grind [List.mem_of_getElem?]
macro_rules | `(tactic| ok_rule) => `(tactic| with_reducible refine ok_argTurn ?_ ?_ ?_ fun a ha => ?_)

theorem ok_bodyTurn {operator env value : Ref} {g i last} {Q} (hoperator : P operator) (henv : P env) (hvalue : P value) (hl : PubOpt P last) (h' : ∀ a, PubOpt P a → Q a s) :
    Ok P (bodyTurn operator g env i last value) s Q := by
  unfold bodyTurn
  ok
  all_goals first | ok_side | grind [List.mem_of_getElem?, PubObj, PubCell]
macro_rules | `(tactic| ok_rule) => `(tactic| with_reducible refine ok_bodyTurn ?_ ?_ ?_ ?_ fun a ha => ?_)

theorem ok_specialArgs {args : Ref} (h : P args) {xs : List Ref} : ∀ {Q}, (∀ x ∈ xs, P x) →
    (∀ a, PubOpt P a → Q a s) → Ok P (specialArgs args xs) s Q := by
  induction xs with
  | nil => intro Q _ h; exact h _ pubOpt_none
  | cons x xs ih =>
    intro Q h2 h'
    unfold specialArgs
    ok
    all_goals ok_side
macro_rules | `(tactic| ok_rule) => `(tactic| with_reducible refine ok_specialArgs ?_ ?_ fun a ha => ?_)

theorem ok_annotateError {r : Ref} {Q} (hr : P r) (h' : Q () s) :
    Ok P (annotateError r) s Q := by
  unfold annotateError
  ok
  all_goals ok_side
macro_rules | `(tactic| ok_rule) => `(tactic| with_reducible refine ok_annotateError ?_ ?_)

theorem ok_callSpecial {value env : Ref} {L : Library} {g x} {Q} (hvalue : P value) (henv : P env) (hL : L.Safe) (h' : ∀ a, PubOpt P a → Q a s) :
    Ok P (callSpecial L value g x env) s Q := by
  unfold callSpecial
  ok
  all_goals first | ok_side | grind [List.mem_of_mem_tail]
macro_rules | `(tactic| ok_rule) => `(tactic| with_reducible refine ok_callSpecial ?_ ?_ ?_ fun a ha => ?_)

theorem ok_builtinOf {operator : Ref} {Q} (hoperator : P operator) (h' : ∀ b, Q b s) :
    Ok P (builtinOf operator) s Q := by
  unfold builtinOf
  ok
  all_goals ok_side
macro_rules | `(tactic| ok_rule) => `(tactic| with_reducible refine ok_builtinOf ?_ fun b => ?_)

theorem ok_callBuiltin {value operator env : Ref} {L : Library} {g} {Q} (hvalue : P value) (hoperator : P operator) (henv : P env) (hL : L.Safe) (h' : ∀ a, PubOpt P a → Q a s) :
    Ok P (callBuiltin L value g operator env) s Q := by
  unfold callBuiltin
  ok
  all_goals ok_side
macro_rules | `(tactic| ok_rule) => `(tactic| with_reducible refine ok_callBuiltin ?_ ?_ ?_ ?_ fun a ha => ?_)

theorem ok_applyFn {value operator args : Ref} {b} {Q} (hvalue : P value) (hoperator : P operator) (hargs : P args) (h' : ∀ a, PubOpt P a → Q a s) :
    Ok P (applyFn value operator args b) (args :: s) Q := by
  unfold applyFn
  ok
  all_goals ok_side
macro_rules | `(tactic| ok_rule) => `(tactic| with_reducible refine ok_applyFn ?_ ?_ ?_ fun a ha => ?_)

theorem ok_callFn {value operator env : Ref} {g m b} {Q} (hvalue : P value) (hoperator : P operator) (henv : P env) (h' : ∀ a, PubOpt P a → Q a s) :
    Ok P (callFn value g operator env m b) s Q := by
  unfold callFn
  ok
  all_goals first | ok_side | grind [List.mem_of_mem_tail]
macro_rules | `(tactic| ok_rule) => `(tactic| with_reducible refine ok_callFn ?_ ?_ ?_ fun a ha => ?_)

theorem ok_evalCall {value env operator : Ref} {L : Library} {g b} {Q} (hvalue : P value) (henv : P env) (hoperator : P operator) (hL : L.Safe) (h' : ∀ x : Option Ref × Bool, PubOpt P x.1 → Q x s) :
    Ok P (evalCall L value env operator g b) (env :: value :: s) Q := by
  unfold evalCall
  ok
  all_goals ok_side
macro_rules | `(tactic| ok_rule) => `(tactic| with_reducible refine ok_evalCall ?_ ?_ ?_ ?_ fun x hx => ?_)

theorem ok_evalSymbol {env : Ref} {t} {Q} (henv : P env) (h' : ∀ a, PubOpt P a → Q a s) :
    Ok P (evalSymbol env t) s Q := by
  unfold evalSymbol
  ok
  all_goals ok_side
macro_rules | `(tactic| ok_rule) => `(tactic| with_reducible refine ok_evalSymbol ?_ fun a ha => ?_)

theorem ok_leave {value env : Ref} {r b} {Q} (hvalue : P value) (henv : P env) (h : PubOpt P r) (h' : ∀ x : Option Ref × Bool, PubOpt P x.1 → Q x s) :
    Ok P (leave value env r b) (env :: value :: s) Q := by
  unfold leave
  ok
  all_goals ok_side
macro_rules | `(tactic| ok_rule) => `(tactic| with_reducible refine ok_leave ?_ ?_ ?_ fun x hx => ?_)

theorem ok_evalImpl {value env : Ref} {L : Library} {b} {Q} (hvalue : P value) (henv : P env) (hL : L.Safe) (h' : ∀ x : Option Ref × Bool, PubOpt P x.1 → Q x s) :
    Ok P (evalImpl L value env b) s Q := by
  unfold evalImpl
  ok
  all_goals ok_side
macro_rules | `(tactic| ok_rule) => `(tactic| with_reducible refine ok_evalImpl ?_ ?_ ?_ fun x hx => ?_)

theorem ok_evalTurn {value env : Ref} {L : Library} {b} {Q} (hvalue : P value) (henv : P env) (hL : L.Safe) (h' : ∀ a, PubOpt P a → Q a s) :
    Ok P (evalTurn L value env b) s Q := by
  unfold evalTurn
  ok
  all_goals ok_side
macro_rules | `(tactic| ok_rule) => `(tactic| with_reducible refine ok_evalTurn ?_ ?_ ?_ fun a ha => ?_)

theorem ok_body {L : Library} (hL : L.Safe) (c : Call) (h : ∀ x ∈ c.refs, P x) (s s' : List Ref)
    (he : c.Effect s s') : Ok P (body L c) s fun a t => t = s' ∧ PubOpt P a := by
  cases c with
  | eval value env => cases he; exact ok_evalTurn (h _ (by simp [Call.refs])) (h _ (by simp [Call.refs])) hL fun a ha => ⟨rfl, ha⟩
  | again value env => cases he; exact ok_evalTurn (h _ (by simp [Call.refs])) (h _ (by simp [Call.refs])) hL fun a ha => ⟨rfl, ha⟩
  | lookup env t => cases he; exact ok_envGet (h _ (by simp [Call.refs])) fun a ha => ⟨rfl, ha⟩
  | argLoop value g args env i =>
    cases he
    exact ok_argTurn (h _ (by simp [Call.refs])) (h _ (by simp [Call.refs])) (h _ (by simp [Call.refs])) fun a ha => ⟨rfl, ha⟩
  | bodyLoop operator g value env i last =>
    cases he
    exact ok_bodyTurn (h _ (by simp [Call.refs])) (h _ (by simp [Call.refs])) (h _ (by simp [Call.refs]))
      (fun x hx => h x (by simp [Call.refs, hx])) fun a ha => ⟨rfl, ha⟩
  | logicLoop b args env i last =>
    cases he
    exact ok_logicTurn (h _ (by simp [Call.refs])) (h _ (by simp [Call.refs]))
      (fun x hx => h x (by simp [Call.refs, hx])) fun a ha => ⟨rfl, ha⟩
  | doLoop args env i last =>
    cases he
    exact ok_doTurn (h _ (by simp [Call.refs])) (h _ (by simp [Call.refs]))
      (fun x hx => h x (by simp [Call.refs, hx])) fun a ha => ⟨rfl, ha⟩
  | whileLoop args env m i =>
    have he : s = args :: s' := he
    subst he
    exact ok_whileTurn (h _ (by simp [Call.refs])) (h _ (by simp [Call.refs])) fun a ha => ⟨rfl, ha⟩
  | copy value => cases he; exact ok_copyValue (h _ (by simp [Call.refs])) fun a ha => ⟨rfl, ha⟩
  | aux k refs =>
    cases he
    unfold body
    split <;> try contradiction
    · rename_i e
      injection e with e1 e2
      subst e2
      exact ok_addNumber (h _ (by simp [Call.refs])) (h _ (by simp [Call.refs])) fun a ha => ⟨rfl, ha⟩
    · rename_i e
      injection e with e1 e2
      subst e2
      exact ok_pushText (h _ (by simp [Call.refs])) (h _ (by simp [Call.refs])) fun a ha => ⟨rfl, ha⟩
    · rename_i e
      injection e with e1 e2
      subst e2
      exact ok_copyVecTurn (h _ (by simp [Call.refs])) (h _ (by simp [Call.refs])) (h _ (by simp [Call.refs])) (h _ (by simp [Call.refs])) fun a ha => ⟨rfl, ha⟩
    · rename_i e
      injection e with e1 e2
      subst e2
      exact ok_copyStrTurn (h _ (by simp [Call.refs])) (h _ (by simp [Call.refs])) (h _ (by simp [Call.refs])) fun a ha => ⟨rfl, ha⟩
    · rename_i e
      injection e with e1 e2
      subst e2
      exact ok_templateInner (h _ (by simp [Call.refs])) (h _ (by simp [Call.refs])) (h _ (by simp [Call.refs])) fun a ha => ⟨rfl, ha⟩
    · rename_i e
      injection e with e1 e2
      subst e2
      exact ok_howtoTurn (h _ (by simp [Call.refs])) (h _ (by simp [Call.refs])) (h _ (by simp [Call.refs])) (h _ (by simp [Call.refs])) fun a ha => ⟨rfl, ha⟩
    · exact ok_fail (by simp)

end Dern.Prog
