import Verif.Props.Calling
/-
C39: `do` evaluates its forms in order and returns the value of the last one.

For every reachable state and every call of `do` (see `Calling.lean` for the vocabulary).  The first error
or pending `return` ends it.
-/
namespace Dern.Props
open Dern
open Dern.Prog (Library)
variable {W : World} {L : Library}

/-- Evaluating the forms `xs` from the state `v` on: `last` is the value of the form before (if any), `r` the
result, `w` the state afterwards. -/
inductive DoFrom (W : World) (env r : Ref) (w : Vm) : Option Ref → Vm → List Ref → List Event → Prop
  | all {v} : Vm.Quiet W nobody v w → DoFrom W env r w (some r) v [] []
  | next {last v x rest e t tr} : Evals W v x env e t → e.post.functionReturn = none → ¬ e.post.IsErr t →
      DoFrom W env r w (some t) e.post rest tr → DoFrom W env r w last v (x :: rest) (e :: tr)
  | failed {last v x rest e} : Evals W v x env e r → e.post.functionReturn = none → e.post.IsErr r →
      Ends e.post w → DoFrom W env r w last v (x :: rest) [e]
  | returned {last v x rest e} : e.form = x → e.env = env → Vm.Quiet W nobody v e.pre → e.post.functionReturn = some r →
      Ends e.post w → DoFrom W env r w last v (x :: rest) [e]

/-- What `do` does with the arguments `xs` in the state `v`. -/
def DoRun (W : World) (v : Vm) (xs : List Ref) (env r : Ref) (w : Vm) (tr : List Event) : Prop :=
  xs = [] ∧ tr = [] ∧ Vm.Quiet W nobody v w ∧ w.IsErr r ∨ xs ≠ [] ∧ DoFrom W env r w none v xs tr

theorem c39_loop_aux (hL : L.Safe) {args env : Ref} {xs : List Ref} :
    ∀ n i last v0 v, Held W args xs env v → Vm.Step W (fun x => x = args) nobody v0 v →
    ∀ a u t, handle W L n (.doLoop args env i last) v = .ok (a, u, t) →
    ∀ r w, a = some r → Ends u w → DoFrom W env r w last v0 (xs.drop i) t := by
  intro n
  induction n with
  | zero => intro i last v0 v k g a u t e; cases e
  | succ n ih =>
    intro i last v0 v k g a u t e
    have F : Fine W (handle W L n) := handler_fine hL n
    suffices H : Wp W n (handle W L n) (Prog.doTurn args env i last) v fun a u t => ∀ r w, a = some r → Ends u w →
        DoFrom W env r w last v0 (xs.drop i) t from H a u t (handle_succ (by simp) e)
    clear e a u t
    unfold Prog.doTurn
    refine wp_bind (wp_elemAt_vec k.vec fun _ => ?_)
    by_cases hi : i < xs.length
    · rw [List.getElem?_eq_getElem hi, List.drop_eq_getElem_cons hi]
      simp only [List.nil_append]
      refine wp_bind (wps_eval F g (k.pub _ (List.getElem_mem hi)) k.env fun a w gw hs hp => ?_)
      have kw := k.good gw
      refine wp_bind (wp_getReturn ?_)
      split
      · rename_i x hx
        refine wp_pure ?_
        rintro r w' e he
        cases e
        exact .returned (e := ⟨xs[i], env, v, a, w⟩) rfl rfl g.quiet hx he
      · rename_i hx
        refine wp_bind (wp_deref fun t ht => ?_)
        subst ht
        have ev : Evals W v0 xs[i] env ⟨xs[i], env, v, some t, w⟩ t := ⟨rfl, rfl, rfl, g.quiet⟩
        refine wp_bind (wp_read fun c hc => ?_)
        simp only [List.nil_append, List.append_nil]
        split
        · rename_i m l ho
          refine wp_bind (wp_annotate fun w2 h2 => wp_pure ?_)
          rintro r w' e he
          cases e
          exact .failed ev hx ⟨m, l, c, hc, ho⟩ (h2.trans he)
        · rename_i hno
          refine wp_call fun a u t' e r w' ha hw => ?_
          refine .next ev hx ?_ (ih (i + 1) (some t) w w kw kw.here a u t' e r w' ha hw)
          rintro ⟨m, l, c', hc', ho'⟩
          obtain rfl := same_cell hc hc'
          exact hno _ _ ho'
    · rw [List.getElem?_eq_none (by omega), List.drop_eq_nil_of_le (by omega)]
      refine wp_pure ?_
      rintro r w' rfl he
      exact .all (g.quiet.trans g.sane0 he.quiet)

theorem c39_do_aux (hL : L.Safe) {n : Nat} {args env : Ref} {xs : List Ref} {v0 v : Vm}
    (k : Held W args xs env v) (g : Vm.Step W (fun x => x = args) nobody v0 v) :
    Wp W n (handle W L n) (Prog.spDo args env) v fun a u t => ∀ r w, a = some r → Ends u w → DoRun W v0 xs env r w t := by
  unfold Prog.spDo
  refine wp_bind (wp_verifyVec_vec k.vec fun _ => wp_bind (wp_verifyEnv fun _ => ?_))
  simp only [List.nil_append]
  split
  · rename_i hxs
    refine wps_error g fun r w t gw hp hm _ => ?_
    rintro r' w' e he
    cases e
    exact .inl ⟨hxs, rfl, gw.quiet.trans g.sane0 he.quiet, he.isErr ⟨_, _, _, hm, rfl⟩⟩
  · rename_i hxs
    exact wp_call fun a u t e r w ha hw => .inr ⟨hxs, c39_loop_aux hL n 0 none v0 v k g a u t e r w ha hw⟩

/-- `do`, called by name -/
theorem c39_do (hL : L.Safe) {v w : Vm} (rv : v.Reached W L) {form env op : Ref} {name : Text} {xs : List Ref}
    (nc : NamedCall W v form env name op xs) (hop : v.HasObj op (.special .do)) (hargs : ∀ x ∈ xs, ¬ v.IsErr x)
    {r : Option Ref} {tr : List Event} (ev : Evaluates W L v form env r w tr) : NamedFormCall W (DoRun W) v xs env op r w tr :=
  namedFormCall_aux hL (fun _ _ _ _ _ _ _ _ k g _ _ _ => c39_do_aux hL k g) rv nc hop hargs ev

/-- `do`, the operator being given by any form -/
theorem c39_do_operator (hL : L.Safe) {v w : Vm} (rv : v.Reached W L) {form env first : Ref} {rest : List Ref}
    (hq : v.quit = false) (hf : v.HasVec form (first :: rest)) (of : v.Old W form) (oe : v.Old W env)
    {r : Option Ref} {tr : List Event} (ev : Evaluates W L v form env r w tr) :
    FormCall W .do (DoRun W) v form first env r w tr :=
  formCall_aux hL (fun _ _ _ _ _ _ _ _ k g _ _ _ => c39_do_aux hL k g) rv hq hf of oe ev

/-- The forms evaluated are an initial part of the arguments, in order. -/
theorem c39_prefix {env r : Ref} {w : Vm} {last : Option Ref} {v : Vm} {xs : List Ref} {tr : List Event}
    (h : DoFrom W env r w last v xs tr) : tr.map (·.form) <+: xs := by
  induction h with
  | all => simp
  | next ev _ _ _ ih => simp [ev.form, ih]
  | failed ev => simp [ev.form]
  | returned e => simp [e]

/-- the hypotheses hold for the call `(do (+ 1 2) (+ 3 4))`, whose value is 7 -/
example : ∃ (v w : Vm) (form op : Ref) (xs : List Ref) (r : Option Ref) (tr : List Event), v.Reached world library ∧
    NamedCall world v form v.globalEnv (txt "do") op xs ∧ v.HasObj op (.special .do) ∧ (∀ x ∈ xs, ¬ v.IsErr x) ∧
    Evaluates world library v form v.globalEnv r w tr ∧ objAt w r = some (.int 7) ∧ tr.length = 3 := by
  obtain ⟨v, form, r, w, tr, hr, of, oe, ev, h⟩ := stage_exists (table := kit) (forms := []) (fuel := 40)
    (last := .vec [.sym "do", .vec [.sym "+", .int 1, .int 2], .vec [.sym "+", .int 3, .int 4]])
    (P := fun v f r w tr => namedCheck v f "do" (.special .do) &&
      (decide (objAt w r = some (.int 7)) && tr.length == 3)) kit_plain (by decide +kernel)
  simp only [Bool.and_eq_true, decide_eq_true_eq, beq_iff_eq] at h
  obtain ⟨op, xs, h1, h2, h3⟩ := named_of_check h.1 of oe
  exact ⟨v, w, form, op, xs, r, tr, hr, h1, h2, h3, ev, h.2⟩

end Dern.Props
