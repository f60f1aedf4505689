import Verif.Dern.Functions
import Verif.Props.Calling
/-
C28: arguments are evaluated once, left to right, and the first error ends the call.

For every reachable state and every call of a builtin function or a function, by name or through any
operator form (see `Calling.lean` for the vocabulary).  Apart from collecting the values in a new vector
`args` nothing happens between the evaluations.

`ArgsFrom` (in `Apply.lean`) takes each argument from the call form as it is at that moment, because
evaluating an argument may change the form; `c28_once` and `c28_stops` spell out the case that it does not.
-/
namespace Dern.Props
open Dern
open Dern.Prog (Library)
variable {W : World} {L : Library}

/-- What a call does whose operator has been evaluated, in the state `v`: a new vector `args` is created;
then either one of the arguments evaluates to an error, which is the result, and nothing else is evaluated,
or all of them have values, and then the callee does what `Callee ts u r w tr'` says: `ts` the values, `u`
the state after the evaluation of the arguments, `r` the result, `w` the state at the end. -/
def ArgumentsFirst (W : World) (form env : Ref) (Callee : List Ref → Vm → Option Ref → Vm → List Event → Prop)
    (v : Vm) (r : Option Ref) (w : Vm) (tr : List Event) : Prop :=
  ∃ args v1, ¬ v.Old W args ∧ Vm.Quiet W nobody v v1 ∧ v1.births = v.births + 1 ∧
    ((∃ x, r = some x ∧ ArgsFail W args form env x w 1 v1 tr) ∨
    ∃ tr1 tr2 ts u, tr = tr1 ++ tr2 ∧ ArgsFrom W args form env u 1 v1 tr1 ts ∧ Callee ts u r w tr2)

/-- the builtin function `op` is run with the values `ts` -/
def RunsBuiltin (W : World) (L : Library) (op env : Ref) (ts : List Ref) (u : Vm) (r : Option Ref) (w : Vm) (tr : List Event) : Prop :=
  ∃ r', r = some r' ∧ CalledBuiltin W L op ts env u r' w tr

theorem c28_builtin_aux {form op env : Ref} {v w : Vm} {r : Option Ref} {tr : List Event}
    (h : BuiltinCall W L form op env v r w tr) : ArgumentsFirst W form env (RunsBuiltin W L op env) v r w tr := by
  obtain ⟨args, v1, h1, h2, h3, h⟩ := h
  refine ⟨args, v1, h1, h2, h3, h.imp id ?_⟩
  rintro ⟨tr1, tr2, ts, u, r', h4, h5, h6, h7⟩
  exact ⟨tr1, tr2, ts, u, h4, h5, r', h6, h7⟩

/-- What evaluating a call `(name x…)` does, if the name is bound to `op`: looking up the name has no
effect; then `Run v r w tr` follows. -/
def NamedOpCall (W : World) (Run : Vm → Option Ref → Vm → List Event → Prop)
    (v : Vm) (env op : Ref) (r : Option Ref) (w : Vm) (tr : List Event) : Prop :=
  ∃ e0 tr', tr = e0 :: tr' ∧ e0.env = env ∧ e0.result = some op ∧ e0.post = e0.pre ∧ e0.post.mem = v.mem ∧
    e0.post.births = v.births ∧ Vm.Quiet W nobody v e0.post ∧ Run e0.post r w tr'

/-- a builtin function, called by name -/
theorem c28_builtin (hL : L.Safe) {v w : Vm} (rv : v.Reached W L) {form env op : Ref} {name : Text} {xs : List Ref} {b : Builtin}
    (nc : NamedCall W v form env name op xs) (hop : v.HasObj op (.builtin b))
    {r : Option Ref} {tr : List Event} (ev : Evaluates W L v form env r w tr) :
    NamedOpCall W (ArgumentsFirst W form env (RunsBuiltin W L op env)) v env op r w tr := by
  obtain ⟨sv, cv⟩ := rv.good hL
  obtain ⟨e0, tr', rfl, o, h1, _⟩ := ev.named_call hL sv cv nc
  exact ⟨e0, tr', rfl, o.env, o.result, o.post, by rw [o.post, o.same], by rw [o.post, o.births], by rw [o.post]; exact o.step.quiet,
    c28_builtin_aux (h1 b hop)⟩

/-- a function, called by name -/
theorem c28_function (hL : L.Safe) {v w : Vm} (rv : v.Reached W L) {form env op : Ref} {name : Text} {xs : List Ref} {f : FnData}
    (nc : NamedCall W v form env name op xs) (hop : v.HasObj op (.fn f))
    {r : Option Ref} {tr : List Event} (ev : Evaluates W L v form env r w tr) :
    NamedOpCall W (ArgumentsFirst W form env (FnApply W op)) v env op r w tr := by
  obtain ⟨sv, cv⟩ := rv.good hL
  obtain ⟨e0, tr', rfl, o, _, h2⟩ := ev.named_call hL sv cv nc
  exact ⟨e0, tr', rfl, o.env, o.result, o.post, by rw [o.post, o.same], by rw [o.post, o.births], by rw [o.post]; exact o.step.quiet,
    h2 f hop⟩

/-- The operator being given by any form: it is evaluated first (`e0`), and if its value is a builtin
function or a function, the arguments follow. -/
theorem c28_operator (hL : L.Safe) {v w : Vm} (rv : v.Reached W L) {form env first : Ref} {rest : List Ref}
    (hq : v.quit = false) (hf : v.HasVec form (first :: rest)) (of : v.Old W form) (oe : v.Old W env)
    {r : Option Ref} {tr : List Event} (ev : Evaluates W L v form env r w tr) :
    ∃ e0 tr', tr = e0 :: tr' ∧ e0.form = first ∧ e0.env = env ∧ e0.pre.mem = v.mem ∧ Vm.Quiet W nobody v e0.pre ∧
      (∀ op b, e0.result = some op → e0.post.HasObj op (.builtin b) →
        ArgumentsFirst W form env (RunsBuiltin W L op env) e0.post r w tr') ∧
      ∀ op f, e0.result = some op → e0.post.HasObj op (.fn f) → ArgumentsFirst W form env (FnApply W op) e0.post r w tr' := by
  obtain ⟨sv, cv⟩ := rv.good hL
  obtain ⟨e0, tr', rfl, o, h1, h2⟩ := ev.call hL sv cv hq hf of oe
  exact ⟨e0, tr', rfl, o.form, o.env, o.same, o.step.quiet, fun op b hr ho => c28_builtin_aux (h1 op b hr ho),
    fun op f hr ho => h2 op f hr ho⟩

/-- If the call form stays as it is, then the forms evaluated are exactly the arguments, in order, each
once, in the environment of the call; their values are the values the callee gets, none of them an error. -/
theorem c28_once {args form env : Ref} {w v : Vm} {i : Nat} {tr : List Event} {ts es : List Ref}
    (a : ArgsFrom W args form env w i v tr ts) (hv : v.HasVec form es) (hs : ∀ e ∈ tr, e.post.HasVec form es) :
    tr.map (·.form) = es.drop i ∧ tr.map (·.result) = ts.map some ∧ (∀ e ∈ tr, e.env = env) ∧
      ∀ e ∈ tr, ∀ t, e.result = some t → ¬ e.post.IsErr t := by
  induction a with
  | @done i v es' h1 h2 _ =>
    have : es' = es := by
      obtain ⟨c, hc, ho⟩ := h1
      obtain ⟨c', hc', ho'⟩ := hv
      rw [hc] at hc'; cases hc'
      rw [ho] at ho'; cases ho'; rfl
    subst this
    simp [h2]
  | @next i v es' x e t tr ts h1 h2 h3 h4 h5 _ h7 _ ih =>
    have : es' = es := by
      obtain ⟨c, hc, ho⟩ := h1
      obtain ⟨c', hc', ho'⟩ := hv
      rw [hc] at hc'; cases hc'
      rw [ho] at ho'; cases ho'; rfl
    subst this
    obtain ⟨i1, i2, i3, i4⟩ := ih (hs e (by simp)) fun e' he' => hs e' (by simp [he'])
    have hlt : i < es'.length := by
      by_contra hh
      rw [List.getElem?_eq_none (by omega)] at h2; cases h2
    rw [List.drop_eq_getElem_cons hlt]
    rw [List.getElem?_eq_getElem hlt] at h2
    cases h2
    refine ⟨by simp [h3, i1], by simp [h5, i2], ?_, ?_⟩
    · intro e' he'
      rcases List.mem_cons.mp he' with rfl | he'
      · exact h4
      · exact i3 e' he'
    · intro e' he' t' ht'
      rcases List.mem_cons.mp he' with rfl | he'
      · rw [h5] at ht'; cases ht'; exact h7
      · exact i4 e' he' t' ht'

/-- The same if an argument evaluates to an error: the forms evaluated are the arguments up to that one;
only its value is an error, it is the result `r`, and after its evaluation nothing happens any more. -/
theorem c28_stops {args form env r : Ref} {w v : Vm} {i : Nat} {tr : List Event} {es : List Ref}
    (a : ArgsFail W args form env r w i v tr) (hv : v.HasVec form es) (hs : ∀ e ∈ tr, e.post.HasVec form es) :
    ∃ (k : Nat) (l : List Event) (e : Event), tr = l ++ [e] ∧ i + k < es.length ∧ tr.map (·.form) = (es.drop i).take (k + 1) ∧
      (∀ e ∈ tr, e.env = env) ∧ (∀ e ∈ l, ∃ t, e.result = some t ∧ ¬ e.post.IsErr t) ∧ e.result = some r ∧ e.post.IsErr r ∧ Ends e.post w := by
  induction a with
  | @failed i v es' x e h1 h2 h3 h4 h5 _ h7 h8 =>
    have : es' = es := by
      obtain ⟨c, hc, ho⟩ := h1
      obtain ⟨c', hc', ho'⟩ := hv
      rw [hc] at hc'; cases hc'
      rw [ho] at ho'; cases ho'; rfl
    subst this
    have hlt : i < es'.length := by
      by_contra hh
      rw [List.getElem?_eq_none (by omega)] at h2; cases h2
    rw [List.getElem?_eq_getElem hlt] at h2
    cases h2
    exact ⟨0, [], e, rfl, hlt, by rw [List.drop_eq_getElem_cons hlt, List.take_succ_cons]; simp [h3], by simp [h4], by simp, h5, h7, h8⟩
  | @next i v es' x e t tr h1 h2 h3 h4 h5 _ h7 _ ih =>
    have : es' = es := by
      obtain ⟨c, hc, ho⟩ := h1
      obtain ⟨c', hc', ho'⟩ := hv
      rw [hc] at hc'; cases hc'
      rw [ho] at ho'; cases ho'; rfl
    subst this
    obtain ⟨k, l, e', i1, i2, i3, i4, i5, i6, i7, i8⟩ := ih (hs e (by simp)) fun e' he' => hs e' (by simp [he'])
    have hlt : i < es'.length := by omega
    rw [List.getElem?_eq_getElem hlt] at h2
    cases h2
    refine ⟨k + 1, e :: l, e', by rw [i1]; rfl, by omega, by rw [List.drop_eq_getElem_cons hlt, List.take_succ_cons, List.map_cons, h3, i3], ?_, ?_, i6, i7, i8⟩
    · intro e' he'
      rcases List.mem_cons.mp he' with rfl | he'
      · exact h4
      · exact i4 e' he'
    · intro e' he'
      rcases List.mem_cons.mp he' with rfl | he'
      · exact ⟨t, h5, h7⟩
      · exact i5 e' he'

/-- the result of a call one of whose arguments fails is an error -/
theorem c28_error_is_result {args form env r : Ref} {w v : Vm} {i : Nat} {tr : List Event}
    (a : ArgsFail W args form env r w i v tr) : w.IsErr r := by
  induction a with
  | failed _ _ _ _ _ _ h7 h8 => exact h8.isErr h7
  | next _ _ _ _ _ _ _ _ ih => exact ih

/-- the hypotheses hold for the call `(+ (+ 1 2) 3 4)`, whose value is 10, with four evaluations -/
example : ∃ (v w : Vm) (form op : Ref) (xs : List Ref) (r : Option Ref) (tr : List Event), v.Reached world library ∧
    NamedCall world v form v.globalEnv (txt "+") op xs ∧ v.HasObj op (.builtin .plus) ∧
    Evaluates world library v form v.globalEnv r w tr ∧ objAt w r = some (.int 10) ∧ tr.length = 4 := by
  obtain ⟨v, form, r, w, tr, hr, of, oe, ev, h⟩ := stage_exists (table := kit) (forms := []) (fuel := 40)
    (last := .vec [.sym "+", .vec [.sym "+", .int 1, .int 2], .int 3, .int 4])
    (P := fun v f r w tr => namedCheck v f "+" (.builtin .plus) &&
      (decide (objAt w r = some (.int 10)) && tr.length == 4)) kit_plain (by decide +kernel)
  simp only [Bool.and_eq_true, decide_eq_true_eq, beq_iff_eq] at h
  obtain ⟨op, xs, h1, h2, h3⟩ := named_of_check h.1 of oe
  exact ⟨v, w, form, op, xs, r, tr, hr, h1, h2, ev, h.2⟩

/-- and in `(+ 1 nope (++ 2))` the third argument is not evaluated -/
example : stageCheck kit [] (.vec [.sym "+", .int 1, .sym "nope", .vec [.sym "++", .int 2]]) 40
    (fun _ _ r w tr => (match objAt w r with | some (.err _ _) => true | _ => false) && tr.length == 3) = true := by
  decide +kernel

end Dern.Props
