import Verif.Props.BuiltinCalling
/-
C33: nothing is evaluated after `exit`.

`exit` sets the flag and the exit code and returns a copy of `true`; from then on every evaluation, of
whatever form in whatever environment, returns a new nil at once and changes nothing.  The flag is never
reset.  (Functions whose arguments have been evaluated already still run: `c33_pending_builtin_runs`.)
-/
namespace Dern.Props
open Dern
open Dern.Prog (Library)
variable {W : World} {L : Library}

/-- After `exit`: no form is looked at, nothing happens, the value is a new nil. -/
theorem c33_nothing_evaluated (hL : L.Safe) {v w : Vm} (rv : v.Reached W L) {form env : Ref} (hq : v.quit = true)
    {r : Option Ref} {tr : List Event} (ev : Evaluates W L v form env r w tr) :
    tr = [] ∧ Vm.Quiet W nobody v w ∧ ∃ x, r = some x ∧ ¬ v.Old W x ∧ w.HasObj x .nil := by
  obtain ⟨sv, cv⟩ := rv.good hL
  obtain ⟨n, e⟩ := ev
  have : Wp W n (handle W L n) (Prog.evalTurn L form env false) v fun r w tr =>
      tr = [] ∧ Vm.Quiet W nobody v w ∧ ∃ x, r = some x ∧ ¬ v.Old W x ∧ w.HasObj x .nil := by
    unfold Prog.evalTurn Prog.evalImpl
    refine wp_bind (wp_bind (wp_isQuit ?_))
    rw [hq]
    refine wp_bind (wp_alloc sv fun x w a => ?_)
    exact wp_pure (wp_pure ⟨rfl, a.quiet sv, x, rfl, a.fresh, _, a.cell, rfl⟩)
  exact this _ _ _ e

/-- What `exit` does with the values `ts` of its arguments: without argument the exit code stays, otherwise
it is the argument, which must be an integer; the result is a copy of the value `true`. -/
def ExitRun (W : World) (ts : List Ref) (v : Vm) (r : Ref) (w : Vm) (tr : List Event) : Prop :=
  tr = [] ∧ ¬ v.Old W r ∧
    ((w.quit = true ∧ Vm.Quiet W nobody { v with quit := true, exitCode := w.exitCode } w ∧
      (∀ b, v.HasObj v.valueTrue (.bool b) → w.HasObj r (.bool b)) ∧
      (ts = [] ∧ w.exitCode = v.exitCode ∨ ∃ x n, ts = [x] ∧ v.HasObj x (.int n) ∧ w.exitCode = n)) ∨
    (Vm.Quiet W nobody v w ∧ w.IsErr r ∧ (2 ≤ ts.length ∨ ∃ x, ts = [x] ∧ ∀ n, ¬ v.HasObj x (.int n))))

theorem c33_quit_aux {args env : Ref} {ts : List Ref} {v : Vm} (k : Held W args ts env v) (c : Int) :
    Held W args ts env { v with quit := true, exitCode := c } := by
  have g : Vm.Good W (fun x => x = args) v { v with quit := true, exitCode := c } :=
    good_same k.sane k.closed rfl rfl rfl rfl (fun which => by cases which <;> rfl) (fun x hx => k.closed.stack x hx) k.closed.ret
  exact k.good g

theorem c33_run_aux {n : Nat} {h : Handler} (F : Fine W h) (C : Copies W h) {args env : Ref} {ts : List Ref} {v : Vm} (k : Held W args ts env v) :
    Wp W n h (Prog.biExit args env) v fun a u t => KeepsBuiltins v u ∧ ∀ r w, a = some r → Ends u w → ExitRun W ts v r w t := by
  unfold Prog.biExit
  refine wp_bind (wp_verifyVec_vec k.vec fun _ => wp_bind (wp_verifyEnv fun _ => ?_))
  simp only [List.nil_append]
  have fin : ∀ (c : Int) (r : Ref) (u : Vm) (g : Vm.Step W (fun x => x = args) nobody { v with quit := true, exitCode := c } u)
      (fr : ¬ v.Old W r) (hc : ∀ o, o.simple = true → v.HasObj v.valueTrue o → u.HasObj r o)
      (hts : ts = [] ∧ c = v.exitCode ∨ ∃ x n, ts = [x] ∧ v.HasObj x (.int n) ∧ c = n),
      KeepsBuiltins v u ∧ ∀ r' w, some r = some r' → Ends u w → ExitRun W ts v r' w ([] ++ []) := by
    intro c r u g fr hc hts
    refine ⟨fun op b b' h1 h2 => keeps_of_quiet g.quiet op b b' h1 h2, ?_⟩
    rintro _ w ⟨⟩ e
    have q := g.quiet.trans g.sane0 e.quiet
    have hw : w.exitCode = c := q.exitCode
    refine ⟨rfl, fr, .inl ⟨q.quit, by rw [hw]; exact q, fun b hb => e.hasObj (hc _ rfl hb) (by simp), ?_⟩⟩
    rw [hw]; exact hts
  have err : ∀ (s : String), (2 ≤ ts.length ∨ ∃ x, ts = [x] ∧ ∀ n, ¬ v.HasObj x (.int n)) →
      Wp W n h (Prog.error s) v fun a u t => KeepsBuiltins v u ∧ ∀ r w, a = some r → Ends u w → ExitRun W ts v r w t := by
    intro s hts
    refine wps_error (E := nobody) k.here fun r w t gw hp hm fr => ⟨keeps_of_quiet gw.quiet, ?_⟩
    rintro _ w' ⟨⟩ e
    exact ⟨rfl, fr, .inr ⟨gw.quiet.trans k.sane e.quiet, e.isErr ⟨_, _, _, hm, rfl⟩, hts⟩⟩
  match ts, k, fin, err with
  | [], k, fin, err =>
    refine wp_bind (wp_quit (wp_bind (wp_rootCopy F C (c33_quit_aux k _) fun r w g fr _ hc => wp_pure ?_)))
    exact fin v.exitCode _ _ g fr hc (.inl ⟨rfl, rfl⟩)
  | [x], k, fin, err =>
    refine wp_bind (wp_read fun c hc => ?_)
    split
    · rename_i m ho
      refine wp_bind (wp_quit (wp_bind (wp_rootCopy F C (c33_quit_aux k _) fun r w g fr _ hc' => wp_pure ?_)))
      exact fin m _ _ g fr hc' (.inr ⟨x, m, rfl, ⟨c, hc, ho⟩, rfl⟩)
    · rename_i hne
      refine err _ (.inr ⟨x, rfl, ?_⟩)
      rintro m ⟨c', hc', ho⟩
      obtain rfl := same_cell hc hc'
      exact hne m ho
  | x :: y :: zs, k, fin, err => exact err _ (.inl (by simp))

/-- a call of `exit` by name -/
theorem c33_exit (hL : L.Safe) {v w : Vm} (rv : v.Reached W L) {form env op : Ref} {name : Text} {xs : List Ref}
    (nc : NamedCall W v form env name op xs) (hop : v.HasObj op (.builtin .exit))
    {r : Option Ref} {tr : List Event} (ev : Evaluates W L v form env r w tr) :
    NamedOpCall W (ArgumentsFirst W form env (Runs .exit op (ExitRun W))) v env op r w tr :=
  namedBuiltin_aux hL (by simp) (fun _ _ _ _ _ F C k => c33_run_aux F C k) rv nc hop ev

/-- the hypotheses of `c33_exit` hold for `(exit 3)`, those of `c33_nothing_evaluated` after it: `(do (exit 3) (+ 1 2))` is nil -/
example : ∃ (v w : Vm) (form op : Ref) (xs : List Ref) (r : Option Ref) (tr : List Event), v.Reached world library ∧
    NamedCall world v form v.globalEnv (txt "exit") op xs ∧ v.HasObj op (.builtin .exit) ∧
    Evaluates world library v form v.globalEnv r w tr ∧ objAt w r = some (.bool true) ∧ w.quit = true ∧ w.exitCode = 3 := by
  obtain ⟨v, form, r, w, tr, hr, of, oe, ev, h⟩ := stage_exists (table := kit) (forms := []) (fuel := 40)
    (last := .vec [.sym "exit", .int 3])
    (P := fun v f r w tr => namedCheck v f "exit" (.builtin .exit) &&
      (decide (objAt w r = some (.bool true)) && (decide (w.quit = true) && decide (w.exitCode = 3)))) kit_plain (by decide +kernel)
  simp only [Bool.and_eq_true, decide_eq_true_eq] at h
  obtain ⟨op, xs, h1, h2, h3⟩ := named_of_check h.1 of oe
  exact ⟨v, w, form, op, xs, r, tr, hr, h1, h2, ev, h.2⟩

example : ∃ (v w : Vm) (form : Ref) (r : Option Ref) (tr : List Event), v.Reached world library ∧ v.quit = true ∧
    Evaluates world library v form v.globalEnv r w tr ∧ objAt w r = some .nil ∧ (∃ es, v.HasVec form es ∧ es.length = 3) := by
  obtain ⟨v, form, r, w, tr, hr, of, oe, ev, h⟩ := stage_exists (table := kit) (forms := [.vec [.sym "exit", .int 3]]) (fuel := 40)
    (last := .vec [.sym "+", .int 1, .int 2])
    (P := fun v f r w tr => decide (v.quit = true) && (decide (objAt w r = some .nil) &&
      (match objAt v (some f) with | some (.vec es) => decide (es.length = 3) | _ => false))) kit_plain (by decide +kernel)
  simp only [Bool.and_eq_true, decide_eq_true_eq] at h
  obtain ⟨h1, h2, h3⟩ := h
  split at h3
  · rename_i es ho
    exact ⟨v, w, form, r, tr, hr, h1, ev, h2, es, objAt_hasObj.mp ho, by simpa using h3⟩
  · cases h3

/-- `(vector (exit) (+ 1 2))`: the sum is not evaluated any more, but `vector` still runs and returns the
vector of true and nil. -/
theorem c33_pending_builtin_runs :
    stageCheck kit2 [] (.vec [.sym "vector", .vec [.sym "exit"], .vec [.sym "+", .int 1, .int 2]]) 60
      (fun _ _ r w _ => match objAt w r with
        | some (.vec [a, b]) => decide (objAt w (some a) = some (.bool true)) && decide (objAt w (some b) = some .nil)
        | _ => false) = true := by
  decide +kernel

end Dern.Props
