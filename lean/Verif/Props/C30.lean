import Verif.Props.Calling
/-
C30: `and` and `or` stop as soon as they are decided.

For every reachable state and every call of `and` or `or` (see `Calling.lean` for the vocabulary): the
arguments are evaluated from left to right, up to and including the first false (`and`) or true (`or`)
one; nothing after it is evaluated.  A pending `return` ends the form, too.  Values that are not
booleans do not decide; the result is the value of the last argument evaluated.
-/
namespace Dern.Props
open Dern
open Dern.Prog (Library)
variable {W : World} {L : Library}

/-- Evaluating the arguments `xs` from the state `v` on: `stop` is the boolean that decides, `last` the
value of the argument before (if any), `r` the result, `w` the state afterwards. -/
inductive LogicFrom (W : World) (stop : Bool) (env r : Ref) (w : Vm) : Option Ref → Vm → List Ref → List Event → Prop
  | all {v} : Vm.Quiet W nobody v w → LogicFrom W stop env r w (some r) v [] []
  | decided {last v x rest e} : Evals W v x env e r → e.post.functionReturn = none → e.post.HasObj r (.bool stop) →
      Ends e.post w → LogicFrom W stop env r w last v (x :: rest) [e]
  | next {last v x rest e t tr} : Evals W v x env e t → e.post.functionReturn = none → ¬ e.post.HasObj t (.bool stop) →
      LogicFrom W stop env r w (some t) e.post rest tr → LogicFrom W stop env r w last v (x :: rest) (e :: tr)
  | returned {last v x rest e} : e.form = x → e.env = env → Vm.Quiet W nobody v e.pre → e.post.functionReturn = some r →
      Ends e.post w → LogicFrom W stop env r w last v (x :: rest) [e]

/-- What `and` (`isAnd`) and `or` do with the arguments `xs` in the state `v`. -/
def LogicRun (W : World) (isAnd : Bool) (v : Vm) (xs : List Ref) (env r : Ref) (w : Vm) (tr : List Event) : Prop :=
  xs = [] ∧ tr = [] ∧ Vm.Quiet W nobody v w ∧ ¬ v.Old W r ∧ w.HasObj r (.bool isAnd) ∨
    xs ≠ [] ∧ LogicFrom W (!isAnd) env r w none v xs tr

theorem c30_loop_aux (hL : L.Safe) {isAnd : Bool} {args env : Ref} {xs : List Ref} :
    ∀ n i last v0 v, Held W args xs env v → Vm.Step W (fun x => x = args) nobody v0 v →
    ∀ a u t, handle W L n (.logicLoop isAnd args env i last) v = .ok (a, u, t) →
    ∀ r w, a = some r → Ends u w → LogicFrom W (!isAnd) env r w last v0 (xs.drop i) t := by
  intro n
  induction n with
  | zero => intro i last v0 v k g a u t e; cases e
  | succ n ih =>
    intro i last v0 v k g a u t e
    have F : Fine W (handle W L n) := handler_fine hL n
    suffices H : Wp W n (handle W L n) (Prog.logicTurn isAnd args env i last) v fun a u t => ∀ r w, a = some r → Ends u w →
        LogicFrom W (!isAnd) env r w last v0 (xs.drop i) t from H a u t (handle_succ (by simp) e)
    clear e a u t
    unfold Prog.logicTurn
    refine wp_bind (wp_elemAt_vec k.vec fun _ => ?_)
    by_cases hi : i < xs.length
    · rw [List.getElem?_eq_getElem hi, List.drop_eq_getElem_cons hi]
      simp only [List.nil_append]
      refine wp_bind (wps_eval F g (k.pub _ (List.getElem_mem hi)) k.env fun a w gw hs hp => ?_)
      have kw := k.good gw
      refine wp_bind (wp_getReturn ?_)
      split
      · rename_i x hx
        refine wp_pure ?_
        rintro r w' e he
        cases e
        exact .returned (e := ⟨xs[i], env, v, a, w⟩) rfl rfl g.quiet hx he
      · rename_i hx
        refine wp_bind (wp_deref fun t ht => ?_)
        subst ht
        have ev : Evals W v0 xs[i] env ⟨xs[i], env, v, some t, w⟩ t := ⟨rfl, rfl, rfl, g.quiet⟩
        refine wp_bind (wp_read fun c hc => ?_)
        have next : ¬ w.HasObj t (.bool (!isAnd)) → Wp W n (handle W L n) (Prog.call (.logicLoop isAnd args env (i + 1) (some t))) w
            fun a u t' => ∀ r w', a = some r → Ends u w' →
              LogicFrom W (!isAnd) env r w' last v0 (xs[i] :: xs.drop (i + 1)) (⟨xs[i], env, v, some t, w⟩ :: t') := by
          intro hn
          refine wp_call fun a u t' e r w' ha hw => ?_
          exact .next ev hx hn (ih (i + 1) (some t) w w kw kw.here a u t' e r w' ha hw)
        simp only [List.nil_append, List.append_nil]
        split
        · rename_i b ho
          split
          · rename_i hb
            subst hb
            refine next ?_
            rintro ⟨c', hc', ho'⟩
            obtain rfl := same_cell hc hc'
            rw [ho] at ho'
            cases b <;> cases ho'
          · rename_i hb
            refine wp_pure ?_
            rintro r w' e he
            cases e
            refine .decided ev hx ⟨c, hc, ?_⟩ he
            rw [ho]
            cases b <;> cases isAnd <;> simp_all
        · rename_i hno
          refine next ?_
          rintro ⟨c', hc', ho'⟩
          obtain rfl := same_cell hc hc'
          exact hno _ ho'
    · rw [List.getElem?_eq_none (by omega), List.drop_eq_nil_of_le (by omega)]
      refine wp_pure ?_
      rintro r w' rfl he
      exact .all (g.quiet.trans g.sane0 he.quiet)

theorem c30_logic_aux (hL : L.Safe) {isAnd : Bool} {n : Nat} {args env : Ref} {xs : List Ref} {v0 v : Vm}
    (k : Held W args xs env v) (g : Vm.Step W (fun x => x = args) nobody v0 v) :
    Wp W n (handle W L n) (Prog.spLogic isAnd args env) v fun a u t => ∀ r w, a = some r → Ends u w →
      LogicRun W isAnd v0 xs env r w t := by
  unfold Prog.spLogic
  refine wp_bind (wp_verifyVec_vec k.vec fun _ => wp_bind (wp_verifyEnv fun _ => ?_))
  simp only [List.nil_append]
  split
  · rename_i hxs
    refine wp_bind (wp_alloc k.sane fun r w a => wp_pure ?_)
    rintro r' w' e he
    cases e
    exact .inl ⟨hxs, rfl, (g.quiet.trans g.sane0 (a.quiet g.sane)).trans g.sane0 he.quiet,
      fun hh => a.fresh (hh.mono g.quiet.births), he.hasObj ⟨_, a.cell, rfl⟩ (by simp)⟩
  · rename_i hxs
    exact wp_call fun a u t e r w ha hw => .inr ⟨hxs, c30_loop_aux hL n 0 none v0 v k g a u t e r w ha hw⟩

/-- `and`, called by name -/
theorem c30_and (hL : L.Safe) {v w : Vm} (rv : v.Reached W L) {form env op : Ref} {name : Text} {xs : List Ref}
    (nc : NamedCall W v form env name op xs) (hop : v.HasObj op (.special .and)) (hargs : ∀ x ∈ xs, ¬ v.IsErr x)
    {r : Option Ref} {tr : List Event} (ev : Evaluates W L v form env r w tr) :
    NamedFormCall W (LogicRun W true) v xs env op r w tr :=
  namedFormCall_aux hL (fun _ _ _ _ _ _ _ _ k g _ _ _ => c30_logic_aux hL k g) rv nc hop hargs ev

/-- `or`, called by name -/
theorem c30_or (hL : L.Safe) {v w : Vm} (rv : v.Reached W L) {form env op : Ref} {name : Text} {xs : List Ref}
    (nc : NamedCall W v form env name op xs) (hop : v.HasObj op (.special .or)) (hargs : ∀ x ∈ xs, ¬ v.IsErr x)
    {r : Option Ref} {tr : List Event} (ev : Evaluates W L v form env r w tr) :
    NamedFormCall W (LogicRun W false) v xs env op r w tr :=
  namedFormCall_aux hL (fun _ _ _ _ _ _ _ _ k g _ _ _ => c30_logic_aux hL k g) rv nc hop hargs ev

/-- `and`, the operator being given by any form -/
theorem c30_and_operator (hL : L.Safe) {v w : Vm} (rv : v.Reached W L) {form env first : Ref} {rest : List Ref}
    (hq : v.quit = false) (hf : v.HasVec form (first :: rest)) (of : v.Old W form) (oe : v.Old W env)
    {r : Option Ref} {tr : List Event} (ev : Evaluates W L v form env r w tr) :
    FormCall W .and (LogicRun W true) v form first env r w tr :=
  formCall_aux hL (fun _ _ _ _ _ _ _ _ k g _ _ _ => c30_logic_aux hL k g) rv hq hf of oe ev

/-- `or`, the operator being given by any form -/
theorem c30_or_operator (hL : L.Safe) {v w : Vm} (rv : v.Reached W L) {form env first : Ref} {rest : List Ref}
    (hq : v.quit = false) (hf : v.HasVec form (first :: rest)) (of : v.Old W form) (oe : v.Old W env)
    {r : Option Ref} {tr : List Event} (ev : Evaluates W L v form env r w tr) :
    FormCall W .or (LogicRun W false) v form first env r w tr :=
  formCall_aux hL (fun _ _ _ _ _ _ _ _ k g _ _ _ => c30_logic_aux hL k g) rv hq hf of oe ev

/-- in words of events: if an evaluation by `and` or `or` is followed by another one, its value was not
the deciding one -/
theorem c30_nothing_after {stop : Bool} {env r : Ref} {w : Vm} {last : Option Ref} {v : Vm} {xs : List Ref} {tr : List Event}
    (h : LogicFrom W stop env r w last v xs tr) : ∀ pre e e' post, tr = pre ++ e :: e' :: post →
    ∃ t, e.result = some t ∧ ¬ e.post.HasObj t (.bool stop) := by
  induction h with
  | all => intro pre e e' post h; simp at h
  | decided => intro pre e e' post h; cases pre <;> simp at h
  | returned => intro pre e e' post h; cases pre <;> simp at h
  | next hev _ hn _ ih =>
    intro pre e e' post h
    cases pre with
    | nil =>
      simp only [List.nil_append, List.cons.injEq] at h
      obtain ⟨rfl, _⟩ := h
      exact ⟨_, hev.result, hn⟩
    | cons p pre =>
      simp only [List.cons_append, List.cons.injEq] at h
      exact ih pre e e' post h.2

/-- the hypotheses hold for the call `(and 1 false (exit 7))`, whose value is false; there is no exit -/
example : ∃ (v w : Vm) (form op : Ref) (xs : List Ref) (r : Option Ref) (tr : List Event), v.Reached world library ∧
    NamedCall world v form v.globalEnv (txt "and") op xs ∧ v.HasObj op (.special .and) ∧ (∀ x ∈ xs, ¬ v.IsErr x) ∧
    Evaluates world library v form v.globalEnv r w tr ∧ objAt w r = some (.bool false) ∧ w.quit = false ∧ tr.length = 3 := by
  obtain ⟨v, form, r, w, tr, hr, of, oe, ev, h⟩ := stage_exists (table := kit) (forms := []) (fuel := 40)
    (last := .vec [.sym "and", .int 1, .sym "false", .vec [.sym "exit", .int 7]])
    (P := fun v f r w tr => namedCheck v f "and" (.special .and) &&
      (decide (objAt w r = some (.bool false)) && (!w.quit && tr.length == 3))) kit_plain (by decide +kernel)
  simp only [Bool.and_eq_true, decide_eq_true_eq, Bool.not_eq_true', beq_iff_eq] at h
  obtain ⟨op, xs, h1, h2, h3⟩ := named_of_check h.1 of oe
  exact ⟨v, w, form, op, xs, r, tr, hr, h1, h2, h3, ev, h.2⟩

/-- the hypotheses hold for the call `(or false true (exit 7))`, whose value is true; there is no exit -/
example : ∃ (v w : Vm) (form op : Ref) (xs : List Ref) (r : Option Ref) (tr : List Event), v.Reached world library ∧
    NamedCall world v form v.globalEnv (txt "or") op xs ∧ v.HasObj op (.special .or) ∧ (∀ x ∈ xs, ¬ v.IsErr x) ∧
    Evaluates world library v form v.globalEnv r w tr ∧ objAt w r = some (.bool true) ∧ w.quit = false ∧ tr.length = 3 := by
  obtain ⟨v, form, r, w, tr, hr, of, oe, ev, h⟩ := stage_exists (table := kit) (forms := []) (fuel := 40)
    (last := .vec [.sym "or", .sym "false", .sym "true", .vec [.sym "exit", .int 7]])
    (P := fun v f r w tr => namedCheck v f "or" (.special .or) &&
      (decide (objAt w r = some (.bool true)) && (!w.quit && tr.length == 3))) kit_plain (by decide +kernel)
  simp only [Bool.and_eq_true, decide_eq_true_eq, Bool.not_eq_true', beq_iff_eq] at h
  obtain ⟨op, xs, h1, h2, h3⟩ := named_of_check h.1 of oe
  exact ⟨v, w, form, op, xs, r, tr, hr, h1, h2, h3, ev, h.2⟩

end Dern.Props
