import Verif.Dern.Symbols
import Verif.Props.Machine
/-
How the theorems about evaluations are stated.

`Evaluates W L v form env r w tr`: evaluating `form` in the environment `env`, from the state `v`, ends
with the result `r` in the state `w`; `tr` are the evaluations it made directly, in order.  Each of them
(`Event`) records the form, the environment, the result and the states before and after, and each of
them took place (`Evaluates.events`).

`Vm.Quiet W E v w` (with nothing in `E`): between `v` and `w` no existing value is changed, except that
errors may get longer messages and that values may be collected; nothing is printed, no `return` or
`exit` takes place.  `Ends v w`: in addition nothing is created or collected.

So the theorems say which forms are evaluated and in which order, and that nothing else happens.
-/
namespace Dern.Props
open Dern
open Dern.Prog (Library)
variable {W : World} {L : Library}

/-- no values are exempt -/
abbrev nobody : Ref → Prop := fun _ => False

/-- the event `e` is the evaluation of `x` in `env`, which starts quietly after the state `v` and has the
value `t` -/
structure Evals (W : World) (v : Vm) (x env : Ref) (e : Event) (t : Ref) : Prop where
  form : e.form = x
  env : e.env = env
  result : e.result = some t
  quiet : Vm.Quiet W nobody v e.pre

/-- What evaluating a call whose operator is `first` does, if the operator turns out to be the special
form `s`: the operator is evaluated first (`e0`).  Then, if one of the arguments is an error value
itself, it is the result and nothing is evaluated.  Otherwise the special form does what
`Run v xs env r w tr` says (`v` and `w` the states before and after, `xs` the arguments, `r` the result,
`tr` the evaluations). -/
def FormCall (W : World) (s : Special) (Run : Vm → List Ref → Ref → Ref → Vm → List Event → Prop)
    (v : Vm) (form first env : Ref) (r : Option Ref) (w : Vm) (tr : List Event) : Prop :=
  ∃ e0 tr', tr = e0 :: tr' ∧ e0.form = first ∧ e0.env = env ∧ e0.pre.mem = v.mem ∧ Vm.Quiet W nobody v e0.pre ∧
    ∀ op, e0.result = some op → e0.post.HasObj op (.special s) → ∃ es, e0.post.HasVec form es ∧
      ((∃ ys x zs, es.tail = ys ++ x :: zs ∧ e0.post.IsErr x ∧ r = some x ∧ tr' = [] ∧ Vm.Quiet W nobody e0.post w) ∨
      ((∀ x ∈ es.tail, ¬ e0.post.IsErr x) ∧ ∃ r', r = some r' ∧ Run e0.post es.tail env r' w tr'))

/-- What evaluating a call `(name x…)` does, if the name is bound to a special form: looking up the
name has no effect, then the special form does what `Run` says. -/
def NamedFormCall (W : World) (Run : Vm → List Ref → Ref → Ref → Vm → List Event → Prop)
    (v : Vm) (xs : List Ref) (env op : Ref) (r : Option Ref) (w : Vm) (tr : List Event) : Prop :=
  ∃ e0 tr' r', tr = e0 :: tr' ∧ e0.env = env ∧ e0.result = some op ∧ e0.post = e0.pre ∧ e0.post.mem = v.mem ∧
    e0.post.births = v.births ∧ Vm.Quiet W nobody v e0.post ∧ r = some r' ∧ Run e0.post xs env r' w tr'

theorem formCall_aux' {s : Special} {Run : Vm → List Ref → Ref → Ref → Vm → List Event → Prop} (hL : L.Safe)
    (hRun : ∀ n args xs env v v1, Fine W (handle W L n) → Copies W (handle W L n) → Held W args xs env v1 →
      Vm.Step W (fun x => x = args) nobody v v1 → (∀ x ∈ xs, v.Old W x) → v.Closed W nobody → (∀ x ∈ xs, ¬ v.IsErr x) → env ∈ v1.stack ∧ args ∈ v1.stack →
      Wp W n (handle W L n) (Prog.special L s args env) v1 fun a u t => ∀ r w, a = some r → Ends u w → Run v xs env r w t)
    {v w : Vm} (rv : v.Reached W L) {form env first : Ref} {rest : List Ref} (hq : v.quit = false)
    (hf : v.HasVec form (first :: rest)) (of : v.Old W form) (oe : v.Old W env) {r : Option Ref} {tr : List Event}
    (ev : Evaluates W L v form env r w tr) : FormCall W s Run v form first env r w tr := by
  obtain ⟨sv, cv⟩ := rv.good hL
  obtain ⟨e0, tr', rfl, o, h⟩ := ev.special hL sv cv hq hf of oe
  refine ⟨e0, tr', rfl, o.form, o.env, o.same, o.step.quiet, fun op hop hs => ?_⟩
  obtain ⟨es, hes, h⟩ := h op s hop hs
  refine ⟨es, hes, h.imp id fun ⟨h1, r', hr, hcs⟩ => ⟨h1, r', hr, ?_⟩⟩
  have hold : ∀ x ∈ es.tail, e0.post.Old W x := by
    obtain ⟨c, hc, ho⟩ := hes
    have := (o.good.closed.cells _ _ hc).obj
    rw [ho] at this
    exact fun x hx => this x (List.mem_of_mem_tail hx)
  exact hcs.elim' hL ((oe.mono o.step.quiet.births).mono o.good.later.births) hold
    fun n args v1 F C k g hst => hRun n args _ _ _ _ F C k g hold o.good.closed h1 hst

theorem formCall_aux {s : Special} {Run : Vm → List Ref → Ref → Ref → Vm → List Event → Prop} (hL : L.Safe)
    (hRun : ∀ n args xs env v v1, Fine W (handle W L n) → Copies W (handle W L n) → Held W args xs env v1 →
      Vm.Step W (fun x => x = args) nobody v v1 → (∀ x ∈ xs, v.Old W x) → v.Closed W nobody → (∀ x ∈ xs, ¬ v.IsErr x) →
      Wp W n (handle W L n) (Prog.special L s args env) v1 fun a u t => ∀ r w, a = some r → Ends u w → Run v xs env r w t)
    {v w : Vm} (rv : v.Reached W L) {form env first : Ref} {rest : List Ref} (hq : v.quit = false)
    (hf : v.HasVec form (first :: rest)) (of : v.Old W form) (oe : v.Old W env) {r : Option Ref} {tr : List Event}
    (ev : Evaluates W L v form env r w tr) : FormCall W s Run v form first env r w tr :=
  formCall_aux' hL (fun n args xs env v v1 F C k g h1 h2 h3 _ => hRun n args xs env v v1 F C k g h1 h2 h3) rv hq hf of oe ev

theorem namedFormCall_aux' {s : Special} {Run : Vm → List Ref → Ref → Ref → Vm → List Event → Prop} (hL : L.Safe)
    (hRun : ∀ n args xs env v v1, Fine W (handle W L n) → Copies W (handle W L n) → Held W args xs env v1 →
      Vm.Step W (fun x => x = args) nobody v v1 → (∀ x ∈ xs, v.Old W x) → v.Closed W nobody → (∀ x ∈ xs, ¬ v.IsErr x) → env ∈ v1.stack ∧ args ∈ v1.stack →
      Wp W n (handle W L n) (Prog.special L s args env) v1 fun a u t => ∀ r w, a = some r → Ends u w → Run v xs env r w t)
    {v w : Vm} (rv : v.Reached W L) {form env op : Ref} {name : Text} {xs : List Ref} (nc : NamedCall W v form env name op xs)
    (hop : v.HasObj op (.special s)) (hargs : ∀ x ∈ xs, ¬ v.IsErr x) {r : Option Ref} {tr : List Event}
    (ev : Evaluates W L v form env r w tr) : NamedFormCall W Run v xs env op r w tr := by
  obtain ⟨sv, cv⟩ := rv.good hL
  obtain ⟨e0, tr', r', rfl, o, rfl, hcs⟩ := ev.named_special hL sv cv nc hop hargs
  have hold : ∀ x ∈ xs, v.Old W x := by
    obtain ⟨first, ⟨c, hc, ho⟩, _⟩ := nc.called
    have := (cv.cells _ _ hc).obj
    rw [ho] at this
    exact fun x hx => this x (List.mem_cons_of_mem _ hx)
  have hb : e0.post.births = v.births := by rw [o.post, o.births]
  have up : ∀ x, v.Old W x → e0.post.Old W x := fun x hx => hx.mono (Nat.le_of_eq hb.symm)
  refine ⟨e0, tr', r', rfl, o.env, o.result, o.post, by rw [o.post, o.same], hb, by rw [o.post]; exact o.step.quiet, rfl, ?_⟩
  exact hcs.elim' hL (up _ nc.oldEnv) (fun x hx => up x (hold x hx)) fun n args v1 F C k g hst =>
    hRun n args _ _ _ _ F C k g (fun x hx => up x (hold x hx)) (by rw [o.post]; exact o.step.closed) (fun x hx => by
      rintro ⟨m, l, c, hc, ho⟩
      exact hargs x hx ⟨m, l, c, by rw [← o.same, ← o.post]; exact hc, ho⟩) hst

theorem namedFormCall_aux {s : Special} {Run : Vm → List Ref → Ref → Ref → Vm → List Event → Prop} (hL : L.Safe)
    (hRun : ∀ n args xs env v v1, Fine W (handle W L n) → Copies W (handle W L n) → Held W args xs env v1 →
      Vm.Step W (fun x => x = args) nobody v v1 → (∀ x ∈ xs, v.Old W x) → v.Closed W nobody → (∀ x ∈ xs, ¬ v.IsErr x) →
      Wp W n (handle W L n) (Prog.special L s args env) v1 fun a u t => ∀ r w, a = some r → Ends u w → Run v xs env r w t)
    {v w : Vm} (rv : v.Reached W L) {form env op : Ref} {name : Text} {xs : List Ref} (nc : NamedCall W v form env name op xs)
    (hop : v.HasObj op (.special s)) (hargs : ∀ x ∈ xs, ¬ v.IsErr x) {r : Option Ref} {tr : List Event}
    (ev : Evaluates W L v form env r w tr) : NamedFormCall W Run v xs env op r w tr :=
  namedFormCall_aux' hL (fun n args xs env v v1 F C k g h1 h2 h3 _ => hRun n args xs env v v1 F C k g h1 h2 h3) rv nc hop hargs ev

/-- for examples: the form is a call by name of the object `o`, and no argument is an error -/
def namedCheck (v : Vm) (form : Ref) (name : String) (o : Obj) : Bool :=
  !v.quit && match objAt v (some form), objAt v (some v.globalEnv) with
  | some (.vec (first :: rest)), some (.env bs _) =>
    decide (objAt v (some first) = some (.sym (txt name))) && (match bs.find? (fun b => b.name = txt name) with
    | some b => decide (objAt v (some b.val) = some o)
    | none => false) && rest.all fun x => match objAt v (some x) with | some (.err _ _) => false | _ => true
  | _, _ => false

theorem objAt_hasObj {v : Vm} {r : Ref} {o : Obj} : objAt v (some r) = some o ↔ v.HasObj r o := by
  simp [objAt, Vm.HasObj]

theorem named_of_check {v : Vm} {form : Ref} {name : String} {o : Obj} (h : namedCheck v form name o = true)
    (of : v.Old W form) (oe : v.Old W v.globalEnv) :
    ∃ op xs, NamedCall W v form v.globalEnv (txt name) op xs ∧ v.HasObj op o ∧ ∀ x ∈ xs, ¬ v.IsErr x := by
  unfold namedCheck at h
  simp only [Bool.and_eq_true, Bool.not_eq_true'] at h
  obtain ⟨hq, h⟩ := h
  split at h
  · rename_i first rest bs enc h1 h2
    simp only [Bool.and_eq_true, decide_eq_true_eq, List.all_eq_true] at h
    obtain ⟨⟨h3, h4⟩, h5⟩ := h
    split at h4
    · rename_i b hb
      simp only [decide_eq_true_eq] at h4
      rw [objAt_hasObj] at h1 h2 h3 h4
      obtain ⟨c, hc, ho⟩ := h2
      refine ⟨b.val, rest, ⟨hq, ⟨first, h1, h3⟩, .here hc ho hb, of, oe⟩, h4, fun x hx => ?_⟩
      rintro ⟨m, l, he⟩
      have := h5 x hx
      rw [objAt_hasObj.mpr he] at this
      cases this
    · cases h4
  · cases h

end Dern.Props
