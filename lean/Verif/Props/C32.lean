import Verif.Props.C26
/-
C32: `return`.

Proved for every reachable state: `return` makes its argument the pending return value and does nothing
else (`c32_return`); a function whose body form leaves a pending return ends there: no later form is
evaluated, the pending value is the result, and nothing is pending any more (`c32_ends_partial`, `c32_result`);
after a function that was entered without a pending return and whose last evaluated form was not an error,
nothing is pending, so the callers go on normally (`c32_cleared_partial`).  That `and`, `or`, `do` and `while` stop at
a pending return is C30, C39 and C31.

The full property is false (examples at the end): a return among the arguments of a call ends the called
function instead of the calling one; a return outside of any function, or in a form that fails, stays
pending and ends a later, unrelated function; a second return while one is pending aborts the program.
-/
namespace Dern.Props
open Dern
open Dern.Prog (Library)
variable {W : World} {L : Library}

/-- What `return` does with the values `ts` of its arguments in the state `v`. -/
def ReturnRun (W : World) (ts : List Ref) (v : Vm) (r : Option Ref) (w : Vm) (tr : List Event) : Prop :=
  tr = [] ∧ w.functionReturn = r ∧ Vm.Quiet W nobody v { w with functionReturn := v.functionReturn } ∧
    ((ts = [] ∧ v.functionReturn = none ∧ ∃ x, r = some x ∧ ¬ v.Old W x ∧ w.HasObj x .nil) ∨
    (∃ x, ts = [x] ∧ v.functionReturn = none ∧ r = some x) ∨
    (2 ≤ ts.length ∧ ∃ x, r = some x ∧ ¬ v.Old W x ∧ w.IsErr x))

theorem c32_ends_aux {v w : Vm} (e : Ends v w) (x : Option Ref) : Ends { v with functionReturn := x } { w with functionReturn := x } :=
  ⟨e.births, e.stays, e.gone, rfl, e.quit, e.exitCode, e.out, fun which => by have := e.roots which; cases which <;> exact this, e.readably⟩

theorem c32_builtin_aux {n : Nat} {h : Handler} {args env : Ref} {ts : List Ref} {v : Vm} (k : Held W args ts env v) :
    Wp W n h (Prog.biReturn args env) v fun a u t => t = [] ∧ Vm.Quiet W nobody v { u with functionReturn := v.functionReturn } ∧
      ((ts = [] ∧ v.functionReturn = none ∧ ∃ x, a = some x ∧ ¬ v.Old W x ∧ u.HasObj x .nil) ∨
      (∃ x, ts = [x] ∧ v.functionReturn = none ∧ a = some x) ∨
      (2 ≤ ts.length ∧ ∃ x, a = some x ∧ ¬ v.Old W x ∧ u.IsErr x)) := by
  unfold Prog.biReturn
  refine wp_bind (wp_verifyVec_vec k.vec fun _ => wp_bind (wp_verifyEnv fun _ => ?_))
  have g : Vm.Step W (fun x => x = args) nobody v v := k.here
  simp only [List.nil_append]
  have same : ∀ {u : Vm} {y : Option Ref}, Vm.Quiet W nobody v u → u.Sane W → Vm.Quiet W nobody v { u with functionReturn := v.functionReturn } := by
    intro u y q su
    exact q.trans k.sane (.same rfl rfl q.ret.symm rfl rfl rfl fun which => by cases which <;> rfl)
  match ts with
  | [] =>
    refine wp_bind (wp_alloc k.sane fun r w a => ?_)
    unfold Prog.setReturnOnce
    refine wp_bind (wp_bind (wp_getReturn ?_))
    have gw := g.alloc a trivial
    split
    · rename_i hr
      refine wp_setReturn (wp_pure ⟨rfl, ?_, .inl ⟨rfl, by rw [← a.ret]; exact hr, r, rfl, a.fresh, ⟨_, a.cell, rfl⟩⟩⟩)
      exact gw.quiet.trans k.sane (.same rfl rfl gw.quiet.ret.symm rfl rfl rfl fun which => by cases which <;> rfl)
    · exact wp_fail
  | [x] =>
    unfold Prog.setReturnOnce
    refine wp_bind (wp_bind (wp_getReturn ?_))
    split
    · rename_i hr
      refine wp_setReturn (wp_pure ⟨rfl, ?_, .inr (.inl ⟨x, rfl, hr, rfl⟩)⟩)
      exact g.quiet.trans k.sane (.same rfl rfl g.quiet.ret.symm rfl rfl rfl fun which => by cases which <;> rfl)
    · exact wp_fail
  | x :: y :: zs =>
    refine wps_error g fun r w t gw hp hm fr => ⟨rfl, same (y := none) gw.quiet gw.sane, .inr (.inr ⟨by simp, r, rfl, fr, _, _, _, hm, rfl⟩)⟩

/-- a call of `return` by name: the arguments are evaluated (C28), then `ReturnRun` -/
theorem c32_return (hL : L.Safe) {v w : Vm} (rv : v.Reached W L) {form env op : Ref} {name : Text} {xs : List Ref}
    (nc : NamedCall W v form env name op xs) (hop : v.HasObj op (.builtin .return))
    {r : Option Ref} {tr : List Event} (ev : Evaluates W L v form env r w tr) :
    NamedOpCall W (ArgumentsFirst W form env fun ts u r w tr => u.HasObj op (.builtin .return) → ReturnRun W ts u r w tr) v env op r w tr := by
  obtain ⟨e0, tr', h1, h2, h3, h4, h5, h6, h7, args, v1, h8, h9, h10, h⟩ := c28_builtin hL rv nc hop ev
  refine ⟨e0, tr', h1, h2, h3, h4, h5, h6, h7, args, v1, h8, h9, h10, h.imp id ?_⟩
  rintro ⟨tr1, tr2, ts, u, h11, h12, r', rfl, n, args', b, u0, u1, b', k, _, hb, hrun, he, hb', hw⟩
  refine ⟨tr1, tr2, ts, u, h11, h12, fun hret => ?_⟩
  have := hb.unique hret
  cases this
  obtain ⟨rfl, q, hcase⟩ := c32_builtin_aux k _ _ _ hrun
  have hb'' : b' = .return := by
    obtain ⟨c, hc, ho⟩ := hb
    rcases q.cells op c id hc with e | e | ⟨_, _, _, e, _⟩
    · exact (he.builtin ⟨c, e, ho⟩ hb').symm
    · obtain ⟨c', hc', _⟩ := hb'
      have e : u0.mem op = none := e
      rw [he.gone op e] at hc'; cases hc'
    · rw [ho] at e; cases e
  subst hb''
  simp only [if_true] at hw
  have hfin : ∀ {x o}, (∀ m l, o ≠ Obj.err m l) → u0.HasObj x o → w.HasObj x o := fun ho hx => hw.hasObj (he.hasObj hx ho) ho
  refine ⟨rfl, hw.ret, ?_, ?_⟩
  · exact (q.trans k.sane (c32_ends_aux he _).quiet).trans k.sane (c32_ends_aux hw _).quiet
  · rcases hcase with ⟨rfl, hn, x, hx, fr, ho⟩ | ⟨x, rfl, hn, hx⟩ | ⟨hl, x, hx, fr, ho⟩
    · exact .inl ⟨rfl, hn, x, hx, fr, hfin (by simp) ho⟩
    · exact .inr (.inl ⟨x, rfl, hn, hx⟩)
    · refine .inr (.inr ⟨hl, x, hx, fr, ?_⟩)
      have := he.isErr ho
      exact hw.isErr (v := { u1 with functionReturn := some r' }) this

/-- If a form of the body leaves a pending return and its value is no error, it is the last form evaluated. -/
theorem c32_ends_partial {op env : Ref} {r last : Option Ref} {w v : Vm} {i : Nat} {tr l1 l2 : List Event} {e : Event} {y t : Ref}
    (b : FnBody W op env r w i last v tr) (he : tr = l1 ++ e :: l2) (ht : e.result = some t) (hn : ¬ e.post.IsErr t)
    (hp : e.post.functionReturn = some y) : l2 = [] ∧ r = some y ∧ w.functionReturn = none ∧ Ends { e.post with functionReturn := none } w := by
  induction b generalizing l1 with
  | finish => simp at he
  | failed _ _ _ _ _ h6 _ h8 =>
    cases l1 with
    | nil =>
      simp only [List.nil_append, List.cons.injEq] at he
      obtain ⟨rfl, rfl⟩ := he
      rw [h6] at ht; cases ht
      exact absurd h8 hn
    | cons a l1 => simp at he
  | returned _ _ _ _ _ h6 _ h8 h9 h10 h11 =>
    cases l1 with
    | nil =>
      simp only [List.nil_append, List.cons.injEq] at he
      obtain ⟨rfl, rfl⟩ := he
      rw [h9] at hp; cases hp
      exact ⟨rfl, h10, h11.ret, h11⟩
    | cons a l1 => simp at he
  | next _ _ _ _ _ h6 _ h8 h9 _ ih =>
    cases l1 with
    | nil =>
      simp only [List.nil_append, List.cons.injEq] at he
      obtain ⟨rfl, rfl⟩ := he
      rw [h9] at hp; cases hp
    | cons a l1 =>
      simp only [List.cons_append, List.cons.injEq] at he
      obtain ⟨rfl, rfl⟩ := he
      exact ih rfl

/-- Without a return the result is the value of the last form: every form of the body has been evaluated, or
the last one evaluated is an error. -/
theorem c32_result {op env : Ref} {r last : Option Ref} {w v : Vm} {i : Nat} {tr : List Event}
    (b : FnBody W op env r w i last v tr) (hn : ∀ e ∈ tr, e.post.functionReturn = none) :
    r = (match tr.getLast? with | some e => e.result | none => last) := by
  induction b with
  | finish _ _ _ h => simp [h]
  | failed _ _ _ _ _ h6 _ _ h9 => simp [h6, h9]
  | returned _ _ _ _ _ _ _ _ h9 => rw [hn _ (by simp)] at h9; cases h9
  | @next i last v f forms x e t tr _ _ _ _ _ h6 _ _ _ _ ih =>
    rw [ih fun e he => hn e (List.mem_cons_of_mem _ he)]
    cases tr with
    | nil => simp [h6]
    | cons a l => simp only [List.getLast?_cons_cons, List.getLast?_eq_some_getLast (List.cons_ne_nil a l)]

/-- A function that is entered while nothing is pending leaves nothing pending, unless its last evaluated
form is an error. -/
theorem c32_cleared_partial {op env : Ref} {r last : Option Ref} {w v : Vm} {i : Nat} {tr : List Event}
    (b : FnBody W op env r w i last v tr) (hv : v.functionReturn = none) :
    w.functionReturn = none ∨ ∃ e t, e ∈ tr ∧ e.result = some t ∧ e.post.IsErr t ∧ r = some t := by
  induction b with
  | finish _ _ _ _ h => exact .inl (h.ret.trans hv)
  | failed _ _ _ _ _ h6 _ h8 h9 _ => exact .inr ⟨_, _, by simp, h6, h8, h9⟩
  | returned _ _ _ _ _ _ _ _ _ _ h11 => exact .inl h11.ret
  | next _ _ _ _ _ _ _ _ h9 _ ih =>
    rcases ih h9 with h | ⟨e, t, h1, h2⟩
    · exact .inl h
    · exact .inr ⟨e, t, List.mem_cons_of_mem _ h1, h2⟩

/-- For a whole call of a function by name (`c28_function`): if nothing is pending when the body is entered
and the call does not fail, nothing is pending afterwards. -/
theorem c32_call_partial {op : Ref} {ts : List Ref} {u w : Vm} {r : Option Ref} {tr : List Event} (h : FnApply W op ts u r w tr)
    (hu : u.functionReturn = none) : w.functionReturn = none ∨ ∃ e t, e ∈ tr ∧ e.result = some t ∧ e.post.IsErr t ∧ r = some t := by
  obtain ⟨f, fs, names, _, _, _, ⟨_, _, q, _⟩ | ⟨e, u1, _, q, _, hb⟩⟩ := h
  · exact .inl (q.ret.trans hu)
  · exact c32_cleared_partial hb (q.ret.trans hu)

/-- the hypotheses hold: `((fn () (return 7) 8))`; the value is 7 and nothing is pending -/
example : stageCheck kit [] (.vec [.vec [.sym "fn", .vec [], .vec [.sym "return", .int 7], .int 8]]) 60
    (fun _ _ r w tr => decide (objAt w r = some (.int 7)) && decide (w.functionReturn = none) && tr.length == 2) = true := by
  decide +kernel

/-- the hypotheses of `c32_return` hold for the call `(return 7)` -/
example : ∃ (v w : Vm) (form op : Ref) (xs : List Ref) (r : Option Ref) (tr : List Event), v.Reached world library ∧
    NamedCall world v form v.globalEnv (txt "return") op xs ∧ v.HasObj op (.builtin .return) ∧
    Evaluates world library v form v.globalEnv r w tr ∧ objAt w r = some (.int 7) ∧ w.functionReturn = r := by
  obtain ⟨v, form, r, w, tr, hr, of, oe, ev, h⟩ := stage_exists (table := kit) (forms := []) (fuel := 40)
    (last := .vec [.sym "return", .int 7])
    (P := fun v f r w tr => namedCheck v f "return" (.builtin .return) &&
      (decide (objAt w r = some (.int 7)) && decide (w.functionReturn = r))) kit_plain (by decide +kernel)
  simp only [Bool.and_eq_true, decide_eq_true_eq] at h
  obtain ⟨op, xs, h1, h2, h3⟩ := named_of_check h.1 of oe
  exact ⟨v, w, form, op, xs, r, tr, hr, h1, h2, ev, h.2⟩

/-! ### negative results -/

/-- `(define g as (fn (x) 10 20) …)` -/
def c32_g_aux : Form := .vec [.sym "define", .sym "g", .sym "as", .vec [.sym "fn", .vec [.sym "x"], .int 10, .int 20], .str "d",
  .vec [.sym "quote", .vec [.sym "x", .str "d"]], .sym "howto-no"]

/-- `((fn () (g (return 1)) 2))` is 2: the return among the arguments ends `g`, not the function that contains
it. -/
theorem c32_return_in_argument_ends_callee :
    stageCheck kit [c32_g_aux] (.vec [.vec [.sym "fn", .vec [], .vec [.sym "g", .vec [.sym "return", .int 1]], .int 2]]) 80
      (fun _ _ r w _ => decide (objAt w r = some (.int 2))) = true := by
  decide +kernel

/-- After `(return 1)` at the top level, `(g 0)` is 1 instead of 20. -/
theorem c32_return_at_top_level_leaks :
    stageCheck kit [c32_g_aux, .vec [.sym "return", .int 1]] (.vec [.sym "g", .int 0]) 80
      (fun _ _ r w _ => decide (objAt w r = some (.int 1))) = true := by
  decide +kernel

/-- After `((fn () (+ (return 1) nope)))`, which is an error, `(g 0)` is 1 instead of 20. -/
theorem c32_return_in_failing_form_leaks :
    stageCheck kit [c32_g_aux, .vec [.vec [.sym "fn", .vec [], .vec [.sym "+", .vec [.sym "return", .int 1], .sym "nope"]]]]
      (.vec [.sym "g", .int 0]) 80 (fun _ _ r w _ => decide (objAt w r = some (.int 1))) = true := by
  decide +kernel

/-- `((fn () (+ (return 1) (return 2))))` aborts. -/
theorem c32_second_return_aborts :
    (match run world 80 (handler world (Prog.body library) 80) (do
      let f ← setup kit [] (.vec [.vec [.sym "fn", .vec [], .vec [.sym "+", .vec [.sym "return", .int 1], .vec [.sym "return", .int 2]]]])
      Prog.eval f (← Prog.root .globalEnv)) (Vm.base world.malloc) with
    | .error .abort => true
    | _ => false) = true := by
  decide +kernel

end Dern.Props
