import Verif.Props.Calling
/-
C31: `while` counts its iterations.

For every reachable state and every call of `while` (see `Calling.lean` for the vocabulary): the test is
evaluated, then all forms of the body in order, again and again, until the test is false; the result is
the number of completed iterations.  An error, a `return` or a test that is not a boolean ends the loop
earlier.  (The counter is an `int32_t`; a loop that would count further than its maximum is undefined
behaviour in the code and never returns in the model.)
-/
namespace Dern.Props
open Dern
open Dern.Prog (Library)
variable {W : World} {L : Library}

/-- One pass through the forms `xs` of the body, from `v` to `u`: all of them are evaluated in order
(`none`), or the loop is left with a value. -/
inductive BodyPass (W : World) (env : Ref) : Vm → List Ref → List Event → Vm → Option Ref → Prop
  | all {v} : BodyPass W env v [] [] v none
  | next {v x xs e t tr u o} : Evals W v x env e t → ¬ e.post.IsErr t → e.post.functionReturn = none →
      BodyPass W env e.post xs tr u o → BodyPass W env v (x :: xs) (e :: tr) u o
  | failed {v x xs e t} : Evals W v x env e t → e.post.IsErr t → BodyPass W env v (x :: xs) [e] e.post (some t)
  | returned {v x xs e t r} : Evals W v x env e t → ¬ e.post.IsErr t → e.post.functionReturn = some r →
      BodyPass W env v (x :: xs) [e] e.post (some r)

/-- `k` completed iterations with the test `c` and the body `xs` lead from `v` to `u` -/
inductive Turns (W : World) (env c : Ref) (xs : List Ref) : Nat → Vm → Vm → List Event → Prop
  | zero {v} : Turns W env c xs 0 v v []
  | succ {k v e t tr u tr' w} : Evals W v c env e t → e.post.HasObj t (.bool true) → BodyPass W env e.post xs tr u none →
      Turns W env c xs k u w tr' → Turns W env c xs (k + 1) v w (e :: tr ++ tr')

/-- How `while` ends after `k` completed iterations, in the state `u`. -/
inductive WhileEnd (W : World) (env c : Ref) (xs : List Ref) (k : Nat) (u : Vm) (r : Ref) (w : Vm) : List Event → Prop
  | done {e t} : Evals W u c env e t → e.post.HasObj t (.bool false) → Vm.Quiet W nobody e.post w → ¬ e.post.Old W r →
      w.HasObj r (.int k) → WhileEnd W env c xs k u r w [e]
  | failed {e} : Evals W u c env e r → e.post.IsErr r → Ends e.post w → WhileEnd W env c xs k u r w [e]
  | kind {e t} : Evals W u c env e t → ¬ e.post.IsErr t → (∀ b, ¬ e.post.HasObj t (.bool b)) →
      Vm.Quiet W nobody e.post w → w.IsErr r → WhileEnd W env c xs k u r w [e]
  | left {e t tr u'} : Evals W u c env e t → e.post.HasObj t (.bool true) → BodyPass W env e.post xs tr u' (some r) →
      Ends u' w → WhileEnd W env c xs k u r w (e :: tr)

/-- What `while` does with the arguments `xs` in the state `v`. -/
inductive WhileRun (W : World) (v : Vm) (xs : List Ref) (env r : Ref) (w : Vm) : List Event → Prop
  | count : xs.length < 2 → Vm.Quiet W nobody v w → w.IsErr r → WhileRun W v xs env r w []
  | run {c body k v' u tr tr'} : xs = c :: body → body ≠ [] → Vm.Quiet W nobody v v' → Turns W env c body k v' u tr →
      (k : Int) ≤ 2147483647 → WhileEnd W env c body k u r w tr' → WhileRun W v xs env r w (tr ++ tr')

theorem c31_body_aux {n : Nat} {h : Handler} (F : Fine W h) {args env : Ref} {xs : List Ref} :
    ∀ k i v, i + k = xs.length → Held W args xs env v → ∀ Q : Option Ref → Vm → List Event → Prop,
    (∀ u tr, BodyPass W env v (xs.drop i) tr u none → Held W args xs env u → Q none u tr) →
    (∀ r u u' tr, BodyPass W env v (xs.drop i) tr u (some r) → Ends u u' → Q (some r) u' tr) →
    Wp W n h (Prog.whileBody args env k i) v Q := by
  intro k
  induction k with
  | zero =>
    intro i v hi k Q h1 h2
    rw [List.drop_eq_nil_of_le (by omega)] at h1
    exact wp_pure (h1 v [] .all k)
  | succ m ih =>
    intro i v hi k Q h1 h2
    have hi1 : i < xs.length := by omega
    rw [List.drop_eq_getElem_cons hi1] at h1 h2
    unfold Prog.whileBody
    refine wp_bind (wp_evalReq F k hi1 fun x t u hx ku gu hs hp => ?_)
    rw [List.getElem?_eq_getElem hi1] at hx
    cases hx
    refine wp_bind (wp_read fun d hd => ?_)
    have ev : Evals W v xs[i] env ⟨xs[i], env, v, some t, u⟩ t := ⟨rfl, rfl, rfl, .refl v⟩
    simp only [List.nil_append]
    split
    · rename_i msg l ho
      refine wp_bind (wp_pop fun s hs => wp_pure ?_)
      exact h2 t u _ _ (.failed ev ⟨msg, l, d, hd, ho⟩) .pop
    · rename_i hno
      have ne : ¬ u.IsErr t := by
        rintro ⟨m, l, d', hd', ho'⟩
        obtain rfl := same_cell hd hd'
        exact hno m l ho'
      refine wp_bind (wp_getReturn ?_)
      split
      · rename_i x hx
        refine wp_bind (wp_pop fun s hs => wp_pure ?_)
        exact h2 x u _ _ (.returned ev ne hx) .pop
      · rename_i hx
        refine ih (i + 1) u (by omega) ku _ ?_ ?_
        · intro u' tr hb ku'
          exact h1 u' _ (.next ev ne hx hb) ku'
        · intro r u' u'' tr hb he
          exact h2 r u' u'' _ (.next ev ne hx hb) he

theorem c31_loop_aux (hL : L.Safe) {args env c : Ref} {body : List Ref} : ∀ n (j : Nat) v, Held W args (c :: body) env v →
    ∀ a u t, handle W L n (.whileLoop args env (body.length + 1) j) v = .ok (a, u, t) → ∀ r w, a = some r → Ends u w →
    (j : Int) ≤ 2147483647 →
    ∃ k u' tr tr', t = tr ++ tr' ∧ Turns W env c body k v u' tr ∧ ((j + k : Nat) : Int) ≤ 2147483647 ∧
      WhileEnd W env c body (j + k) u' r w tr' := by
  intro n
  induction n with
  | zero => intro j v k a u t e; cases e
  | succ n ih =>
    intro j v k a u t e r w ha hw hj
    have F : Fine W (handle W L n) := handler_fine hL n
    suffices H : Wp W n (handle W L n) (Prog.whileTurn args env (body.length + 1) j) v fun a u t => ∀ r w, a = some r → Ends u w →
        ∃ k u' tr tr', t = tr ++ tr' ∧ Turns W env c body k v u' tr ∧ ((j + k : Nat) : Int) ≤ 2147483647 ∧
          WhileEnd W env c body (j + k) u' r w tr' from H a u t (handle_succ (by simp) e) r w ha hw
    clear e a u t ha hw r w
    unfold Prog.whileTurn
    refine wp_bind (wp_evalReq F k (by simp) fun x t u hx ku gu hs hp => ?_)
    simp only [List.getElem?_cons_zero, Option.some.injEq] at hx
    subst hx
    refine wp_bind (wp_read fun d hd => ?_)
    have ev : Evals W v c env ⟨c, env, v, some t, u⟩ t := ⟨rfl, rfl, rfl, .refl v⟩
    simp only [List.nil_append]
    split
    · rename_i ho
      refine wp_bind (c31_body_aux F _ 1 u (by simp; omega) ku _ ?_ ?_)
      · intro u1 tr1 hb ku1
        simp only [List.drop_succ_cons, List.drop_zero] at hb
        split
        · rename_i r e; cases e
        · split
          · exact wp_fail
          · rename_i hc
            refine wp_call fun a u2 t2 e r w ha hw => ?_
            have hc : (j : Int) ≠ 2147483647 := hc
            obtain ⟨k, u', tr, tr', rfl, h1, h2, h3⟩ := ih (j + 1) u1 ku1 a u2 t2 (by simpa using e) r w ha hw (by omega)
            refine ⟨k + 1, u', _, tr', ?_, .succ ev ⟨d, hd, ho⟩ hb h1, by omega, ?_⟩
            · simp
            · have : j + (k + 1) = j + 1 + k := by omega
              rw [this]; exact h3
      · intro r1 u1 u2 tr1 hb he
        simp only [List.drop_succ_cons, List.drop_zero] at hb
        split
        · rename_i r2 e
          cases e
          refine wp_pure ?_
          rintro r w e hw
          cases e
          exact ⟨0, v, [], _, rfl, .zero, by simpa using hj, by simpa using .left ev ⟨d, hd, ho⟩ hb (he.trans hw)⟩
        · rename_i e; cases e
    · rename_i ho
      refine wp_bind (wp_pop fun s hs => wp_bind (wp_alloc (ku.pop hs).sane fun r w a => wp_pure ?_))
      rintro r' w' e he
      cases e
      refine ⟨0, v, [], _, rfl, .zero, by simpa using hj, .done ev ⟨d, hd, ho⟩ ?_ ?_ ?_⟩
      · exact ((Ends.pop (s := s)).quiet.trans ku.sane (a.quiet (ku.pop hs).sane)).trans ku.sane he.quiet
      · exact a.fresh
      · exact he.hasObj ⟨_, a.cell, rfl⟩ (by simp)
    · rename_i msg l ho
      refine wp_bind (wp_pop fun s hs => wp_pure ?_)
      rintro r' w' e he
      cases e
      exact ⟨0, v, [], _, rfl, .zero, by simpa using hj, .failed ev ⟨msg, l, d, hd, ho⟩ (Ends.pop.trans he)⟩
    · rename_i n1 n2 n3
      refine wp_bind (wp_pop fun s hs => wps_error (E := nobody) ((ku.here).pop hs) fun r w t gw hp hm' _ => ?_)
      rintro r' w' e he
      cases e
      refine ⟨0, v, [], _, rfl, .zero, by simpa using hj, .kind ev ?_ ?_ (gw.quiet.trans ku.sane he.quiet) (he.isErr ⟨_, _, _, hm', rfl⟩)⟩
      · rintro ⟨m, l, d', hd', ho'⟩
        obtain rfl := same_cell hd hd'
        exact n3 m l ho'
      · rintro b ⟨d', hd', ho'⟩
        obtain rfl := same_cell hd hd'
        cases b with
        | true => exact n1 ho'
        | false => exact n2 ho'

theorem c31_while_aux (hL : L.Safe) {n : Nat} {args env : Ref} {xs : List Ref} {v0 v : Vm}
    (k : Held W args xs env v) (g : Vm.Step W (fun x => x = args) nobody v0 v) :
    Wp W n (handle W L n) (Prog.spWhile args env) v fun a u t => ∀ r w, a = some r → Ends u w → WhileRun W v0 xs env r w t := by
  unfold Prog.spWhile
  refine wp_bind (wp_verifyVec_vec k.vec fun _ => wp_bind (wp_verifyEnv fun _ => ?_))
  simp only [List.nil_append]
  split
  · rename_i hl
    refine wps_error g fun r w t gw hp hm _ => ?_
    rintro r' w' e he
    cases e
    exact .count hl (gw.quiet.trans g.sane0 he.quiet) (he.isErr ⟨_, _, _, hm, rfl⟩)
  · rename_i hl
    obtain ⟨c, body, rfl⟩ : ∃ c body, xs = c :: body := by
      cases xs with
      | nil => simp at hl
      | cons c body => exact ⟨c, body, rfl⟩
    refine wp_bind (wp_push (wp_call fun a u t e r w ha hw => ?_))
    obtain ⟨j, u', tr, tr', rfl, h1, h2, h3⟩ := c31_loop_aux hL n 0 _ (k.push k.old) a u t e r w ha hw (by decide)
    simp only [Nat.zero_add] at h2 h3
    rw [List.nil_append]
    refine .run rfl ?_ (g.push k.old).quiet h1 h2 h3
    rintro rfl
    simp at hl

/-- `while`, called by name -/
theorem c31_while (hL : L.Safe) {v w : Vm} (rv : v.Reached W L) {form env op : Ref} {name : Text} {xs : List Ref}
    (nc : NamedCall W v form env name op xs) (hop : v.HasObj op (.special .while)) (hargs : ∀ x ∈ xs, ¬ v.IsErr x)
    {r : Option Ref} {tr : List Event} (ev : Evaluates W L v form env r w tr) : NamedFormCall W (WhileRun W) v xs env op r w tr :=
  namedFormCall_aux hL (fun _ _ _ _ _ _ _ _ k g _ _ _ => c31_while_aux hL k g) rv nc hop hargs ev

/-- `while`, the operator being given by any form -/
theorem c31_while_operator (hL : L.Safe) {v w : Vm} (rv : v.Reached W L) {form env first : Ref} {rest : List Ref}
    (hq : v.quit = false) (hf : v.HasVec form (first :: rest)) (of : v.Old W form) (oe : v.Old W env)
    {r : Option Ref} {tr : List Event} (ev : Evaluates W L v form env r w tr) :
    FormCall W .while (WhileRun W) v form first env r w tr :=
  formCall_aux hL (fun _ _ _ _ _ _ _ _ k g _ _ _ => c31_while_aux hL k g) rv hq hf of oe ev

/-- A completed pass evaluates every form of the body exactly once, in order. -/
theorem c31_pass_forms {env : Ref} {v u : Vm} {xs : List Ref} {tr : List Event} {o : Option Ref}
    (h : BodyPass W env v xs tr u o) (ho : o = none) : tr.map (·.form) = xs ∧ ∀ e ∈ tr, e.env = env := by
  induction h with
  | all => simp
  | next ev _ _ _ ih =>
    obtain ⟨h1, h2⟩ := ih ho
    simp only [List.map_cons, h1, ev.form, true_and]
    intro e he
    rcases List.mem_cons.mp he with rfl | he
    · exact ev.env
    · exact h2 e he
  | failed => cases ho
  | returned => cases ho

/-- `k` iterations evaluate the test and the forms of the body in order, `k` times. -/
theorem c31_turns_forms {env c : Ref} {xs : List Ref} {k : Nat} {v u : Vm} {tr : List Event}
    (h : Turns W env c xs k v u tr) : tr.map (·.form) = (List.replicate k (c :: xs)).flatten := by
  induction h with
  | zero => simp
  | succ ev _ hb _ ih =>
    have := (c31_pass_forms hb rfl).1
    simp [List.replicate_succ, ev.form, this, ih]

/-- the hypotheses hold for `(while (< i 3) (++ i))` after `(define i as 0 "")`, whose value is 3 -/
example : ∃ (v w : Vm) (form op : Ref) (xs : List Ref) (r : Option Ref) (tr : List Event), v.Reached world library ∧
    NamedCall world v form v.globalEnv (txt "while") op xs ∧ v.HasObj op (.special .while) ∧ (∀ x ∈ xs, ¬ v.IsErr x) ∧
    Evaluates world library v form v.globalEnv r w tr ∧ objAt w r = some (.int 3) ∧ tr.length = 8 := by
  obtain ⟨v, form, r, w, tr, hr, of, oe, ev, h⟩ := stage_exists (table := kit)
    (forms := [.vec [.sym "define", .sym "i", .sym "as", .int 0, .str ""]]) (fuel := 40)
    (last := .vec [.sym "while", .vec [.sym "<", .sym "i", .int 3], .vec [.sym "++", .sym "i"]])
    (P := fun v f r w tr => namedCheck v f "while" (.special .while) &&
      (decide (objAt w r = some (.int 3)) && tr.length == 8)) kit_plain (by decide +kernel)
  simp only [Bool.and_eq_true, decide_eq_true_eq, beq_iff_eq] at h
  obtain ⟨op, xs, h1, h2, h3⟩ := named_of_check h.1 of oe
  exact ⟨v, w, form, op, xs, r, tr, hr, h1, h2, h3, ev, h.2⟩

end Dern.Props
