import Verif.Dern.Safe
/-
`Ok` for environments and helpers.
-/
namespace Dern.Prog
variable {P : Ref → Prop} {s : List Ref}

theorem PubCell.vec {c : Cell} {es : List Ref} (h : PubCell P c) (e : c.obj = .vec es) : ∀ x ∈ es, P x := by
  have := h.obj; rw [e] at this; exact this

syntax "ok_rule" : tactic
syntax "ok_side" : tactic
syntax "ok_step" : tactic
syntax "ok" : tactic

macro_rules | `(tactic| ok_side) => `(tactic| grind [PubObj, PubOpt, PubCell])
macro_rules | `(tactic| ok_side) => `(tactic| trivial)

macro_rules | `(tactic| ok_rule) => `(tactic| with_reducible refine ok_pure ?_)
macro_rules | `(tactic| ok_rule) => `(tactic| with_reducible refine ok_alloc ?_ fun r hr => ?_)
macro_rules | `(tactic| ok_rule) => `(tactic| with_reducible refine ok_read ?_ fun c hc => ?_)
macro_rules | `(tactic| ok_rule) => `(tactic| with_reducible refine ok_setObj ?_ ?_ ?_)
macro_rules | `(tactic| ok_rule) => `(tactic| with_reducible refine ok_replace ?_ ?_ ?_)
macro_rules | `(tactic| ok_rule) => `(tactic| with_reducible refine ok_setDoc ?_ ?_ ?_ ?_)
macro_rules | `(tactic| ok_rule) => `(tactic| with_reducible refine ok_setHowto ?_ ?_)
macro_rules | `(tactic| ok_rule) => `(tactic| with_reducible refine ok_push ?_ ?_)
macro_rules | `(tactic| ok_rule) => `(tactic| with_reducible refine ok_pop ?_)
macro_rules | `(tactic| ok_rule) => `(tactic| with_reducible refine ok_getReturn fun a ha => ?_)
macro_rules | `(tactic| ok_rule) => `(tactic| with_reducible refine ok_setReturn ?_ ?_)
macro_rules | `(tactic| ok_rule) => `(tactic| with_reducible refine ok_isQuit fun b => ?_)
macro_rules | `(tactic| ok_rule) => `(tactic| with_reducible refine ok_quit ?_)
macro_rules | `(tactic| ok_rule) => `(tactic| with_reducible refine ok_root fun r hr => ?_)
macro_rules | `(tactic| ok_rule) => `(tactic| with_reducible refine ok_emit ?_)
macro_rules | `(tactic| ok_rule) => `(tactic| with_reducible refine ok_text fun t => ?_)
macro_rules | `(tactic| ok_rule) => `(tactic| with_reducible refine ok_compare ?_ ?_ fun n => ?_)
macro_rules | `(tactic| ok_rule) => `(tactic| with_reducible refine ok_print ?_ fun t => ?_)
macro_rules | `(tactic| ok_rule) => `(tactic| with_reducible refine ok_readably fun b => ?_)
macro_rules | `(tactic| ok_rule) => `(tactic| with_reducible refine ok_setReadably ?_)
macro_rules | `(tactic| ok_rule) => `(tactic| with_reducible refine ok_arrange ?_ fun x hx => ?_)
macro_rules | `(tactic| ok_rule) => `(tactic| with_reducible refine ok_real fun d => ?_)
macro_rules | `(tactic| ok_rule) => `(tactic| with_reducible refine ok_fail ?_)
macro_rules | `(tactic| ok_rule) => `(tactic| with_reducible refine ok_eval ?_ ?_ fun a ha => ?_)
macro_rules | `(tactic| ok_rule) => `(tactic| with_reducible refine ok_callWhile ?_ ?_ fun a ha => ?_)
macro_rules | `(tactic| ok_rule) => `(tactic| with_reducible refine ok_deref ?_ fun r hr => ?_)
macro_rules | `(tactic| ok_rule) => `(tactic| with_reducible refine ok_require ?_ fun r hr => ?_)

macro_rules | `(tactic| ok_step) => `(tactic| split)
macro_rules | `(tactic| ok_step) => `(tactic| ok_rule)
macro_rules | `(tactic| ok_step) => `(tactic| with_reducible refine ok_bind ?_)

macro_rules | `(tactic| ok) => `(tactic| repeat' first | ok_step | (beta_reduce; ok_step))

theorem ok_error {w Q} (h' : ∀ a, PubOpt P a → Q a s) : Ok P (error w) s Q := by
  unfold error; ok
  · trivial
  · exact h' _ (pubOpt_some ‹_›)
macro_rules | `(tactic| ok_rule) => `(tactic| with_reducible refine ok_error fun a ha => ?_)

theorem ok_verifyVec {r Q} (h : P r) (h' : ∀ es, (∀ x ∈ es, P x) → Q es s) : Ok P (verifyVec r) s Q := by
  unfold verifyVec
  ok
  all_goals ok_side
macro_rules | `(tactic| ok_rule) => `(tactic| with_reducible refine ok_verifyVec ?_ fun es hes => ?_)

theorem ok_verifyEnv {r Q} (h : P r) (h' : Q () s) : Ok P (verifyEnv r) s Q := by
  unfold verifyEnv
  ok
  all_goals ok_side
macro_rules | `(tactic| ok_rule) => `(tactic| with_reducible refine ok_verifyEnv ?_ ?_)

theorem ok_elemAt {r i Q} (h : P r) (h' : ∀ a, PubOpt P a → Q a s) : Ok P (elemAt r i) s Q := by
  unfold elemAt
  ok
  · exact h
  · exact h' _ fun x hx => by grind [List.mem_of_getElem?]
macro_rules | `(tactic| ok_rule) => `(tactic| with_reducible refine ok_elemAt ?_ fun a ha => ?_)

theorem ok_evalOpt {x env Q} (h1 : PubOpt P x) (h2 : P env) (h' : ∀ a, PubOpt P a → Q a s) :
    Ok P (evalOpt x env) s Q := by
  unfold evalOpt
  ok
  all_goals ok_side
macro_rules | `(tactic| ok_rule) => `(tactic| with_reducible refine ok_evalOpt ?_ ?_ fun a ha => ?_)

theorem ok_evalElem {args i env Q} (h1 : P args) (h2 : P env) (h' : ∀ r, P r → Q r s) :
    Ok P (evalElem args i env) s Q := by
  unfold evalElem
  ok
  all_goals ok_side
macro_rules | `(tactic| ok_rule) => `(tactic| with_reducible refine ok_evalElem ?_ ?_ fun r hr => ?_)

theorem ok_append {r x Q} (h1 : P r) (h2 : P x) (h' : Q () s) : Ok P (append r x) s Q := by
  unfold append
  ok
  all_goals ok_side
macro_rules | `(tactic| ok_rule) => `(tactic| with_reducible refine ok_append ?_ ?_ ?_)

theorem ok_appendAll {r xs} (h1 : P r) : ∀ {Q}, (∀ x ∈ xs, P x) → Q () s → Ok P (appendAll r xs) s Q := by
  induction xs with
  | nil => intro Q _ h; exact h
  | cons x xs ih =>
    intro Q h2 h'
    unfold appendAll
    ok
    · exact h1
    · ok_side
    · exact ih (by ok_side) h'
macro_rules | `(tactic| ok_rule) => `(tactic| with_reducible refine ok_appendAll ?_ ?_ ?_)

theorem ok_annotate {r Q} (h1 : P r) (h' : Q () s) : Ok P (annotate r) s Q := by
  unfold annotate
  ok
  all_goals ok_side
macro_rules | `(tactic| ok_rule) => `(tactic| with_reducible refine ok_annotate ?_ ?_)

theorem ok_callCopy {r Q} (h1 : P r) (h' : ∀ a, PubOpt P a → Q a s) : Ok P (call (.copy r)) s Q :=
  ok_call (by simp [Call.refs, h1]) rfl h'
macro_rules | `(tactic| ok_rule) => `(tactic| with_reducible refine ok_callCopy ?_ fun a ha => ?_)

theorem ok_copyOf {r Q} (h1 : P r) (h' : ∀ r, P r → Q r s) : Ok P (copyOf r) s Q := by
  unfold copyOf
  ok
  all_goals ok_side
macro_rules | `(tactic| ok_rule) => `(tactic| with_reducible refine ok_copyOf ?_ fun r hr => ?_)

theorem ok_getRoot {w Q} (h' : ∀ r, P r → Q r s) : Ok P (getRoot w) s Q := by
  unfold getRoot
  ok
  all_goals ok_side
macro_rules | `(tactic| ok_rule) => `(tactic| with_reducible refine ok_getRoot fun r hr => ?_)

theorem ok_copyAtom {r Q} (h1 : P r) (h' : ∀ r, P r → Q r s) : Ok P (copyAtom r) s Q := by
  unfold copyAtom
  ok
  all_goals ok_side
macro_rules | `(tactic| ok_rule) => `(tactic| with_reducible refine ok_copyAtom ?_ fun r hr => ?_)

theorem ok_isSymbol {r t Q} (h1 : P r) (h' : ∀ b, Q b s) : Ok P (isSymbol r t) s Q := by
  unfold isSymbol
  ok
  all_goals ok_side
macro_rules | `(tactic| ok_rule) => `(tactic| with_reducible refine ok_isSymbol ?_ fun b => ?_)

theorem ok_envSet {env key val Q} (h1 : P env) (h2 : P key) (h3 : P val) (h' : Q () s) :
    Ok P (envSet env key val) s Q := by
  unfold envSet
  ok
  all_goals try ok_side
  rename_i c hc _ _ _ h
  have := hc.obj
  rw [h] at this
  refine ⟨?_, this.2⟩
  intro b hb
  unfold setBinding at hb
  rcases List.mem_append.mp hb with hb | hb
  · exact this.1 b (List.mem_filter.mp hb).1
  · simp at hb; subst hb; exact ⟨h2, h3⟩
macro_rules | `(tactic| ok_rule) => `(tactic| with_reducible refine ok_envSet ?_ ?_ ?_ ?_)

theorem ok_lookup {env name Q} (h1 : P env) (h' : ∀ a, PubOpt P a → Q a s) :
    Ok P (call (.lookup env name)) s Q := ok_call (by simp [Call.refs, h1]) rfl h'
macro_rules | `(tactic| ok_rule) => `(tactic| with_reducible refine ok_lookup ?_ fun a ha => ?_)

theorem ok_envGet {env name Q} (h1 : P env) (h' : ∀ a, PubOpt P a → Q a s) :
    Ok P (envGet env name) s Q := by
  unfold envGet
  ok
  all_goals ok_side

theorem ok_formalNames {rs : List Ref} : ∀ {Q}, (∀ x ∈ rs, P x) → (∀ ts, Q ts s) →
    Ok P (formalNames rs) s Q := by
  induction rs with
  | nil => intro Q _ h; exact h _
  | cons x xs ih =>
    intro Q h2 h'
    unfold formalNames
    ok
    · ok_side
    · refine ih (by ok_side) fun ts => ?_
      exact h' _
    · ok_side
macro_rules | `(tactic| ok_rule) => `(tactic| with_reducible refine ok_formalNames ?_ fun ts => ?_)

theorem ok_bindFormals {env} (h1 : P env) {l : List (Ref × Ref)} : ∀ {Q}, (∀ e ∈ l, P e.1 ∧ P e.2) → Q () s →
    Ok P (bindFormals env l) s Q := by
  induction l with
  | nil => intro Q _ h; exact h
  | cons x xs ih =>
    intro Q h2 h'
    unfold bindFormals
    ok
    · exact h1
    · ok_side
    · ok_side
    · exact ih (by ok_side) h'
macro_rules | `(tactic| ok_rule) => `(tactic| with_reducible refine ok_bindFormals ?_ ?_ ?_)

theorem ok_bindArgs {env fs as n b Q} (h1 : P env) (h2 : ∀ x ∈ fs, P x) (h3 : ∀ x ∈ as, P x)
    (h' : ∀ a, PubOpt P a → Q a s) : Ok P (bindArgs env fs as n b) s Q := by
  unfold bindArgs
  dsimp only
  ok
  all_goals try ok_side
  · intro e he
    have := List.of_mem_zip he
    exact ⟨h2 _ (List.mem_of_mem_take this.1), h3 _ (List.mem_of_mem_take this.2)⟩
macro_rules | `(tactic| ok_rule) => `(tactic| with_reducible refine ok_bindArgs ?_ ?_ ?_ fun a ha => ?_)

theorem ok_extend {env formals arguments Q} (h1 : P env) (h2 : P formals) (h3 : P arguments)
    (h' : ∀ a, PubOpt P a → Q a s) : Ok P (extend env formals arguments) s Q := by
  unfold extend
  dsimp only
  ok
  all_goals ok_side
macro_rules | `(tactic| ok_rule) => `(tactic| with_reducible refine ok_extend ?_ ?_ ?_ fun a ha => ?_)

end Dern.Prog
