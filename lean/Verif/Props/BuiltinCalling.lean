import Verif.Props.C28
/-
How the theorems about particular builtin functions are stated: the arguments are evaluated (C28), then,
if the value of the operator is still that function, it does what `Run` says.
-/
namespace Dern.Props
open Dern
open Dern.Prog (Library)
variable {W : World} {L : Library}

/-- Once the arguments have been evaluated, the builtin function `b` in the value `op` does what
`Run ts u r w tr` says: `ts` the values of the arguments, `u` and `w` the states before and after, `r` the
result, `tr` the evaluations it makes. -/
def Runs (b : Builtin) (op : Ref) (Run : List Ref → Vm → Ref → Vm → List Event → Prop) (ts : List Ref) (u : Vm) (r : Option Ref)
    (w : Vm) (tr : List Event) : Prop :=
  u.HasObj op (.builtin b) → ∃ r', r = some r' ∧ Run ts u r' w tr

/-- builtin functions stay what they are -/
def KeepsBuiltins (v w : Vm) : Prop := ∀ op b b', v.HasObj op (.builtin b) → w.HasObj op (.builtin b') → b' = b

theorem keeps_of_quiet {v w : Vm} (q : Vm.Quiet W nobody v w) : KeepsBuiltins v w := by
  rintro op b b' ⟨c, hc, ho⟩ ⟨c', hc', ho'⟩
  rcases q.cells op c id hc with e | e | ⟨_, _, _, e, _⟩
  · rw [hc'] at e; cases e
    rw [ho] at ho'; cases ho'; rfl
  · rw [hc'] at e; cases e
  · rw [ho] at e; cases e

theorem argumentsFirst_imp {form env : Ref} {P Q : List Ref → Vm → Option Ref → Vm → List Event → Prop} {v w : Vm} {r : Option Ref}
    {tr : List Event} (h : ArgumentsFirst W form env P v r w tr) (hPQ : ∀ ts u r w tr, P ts u r w tr → Q ts u r w tr) :
    ArgumentsFirst W form env Q v r w tr := by
  obtain ⟨args, v1, h8, h9, h10, h⟩ := h
  refine ⟨args, v1, h8, h9, h10, h.imp id ?_⟩
  rintro ⟨tr1, tr2, ts, u, h11, h12, h13⟩
  exact ⟨tr1, tr2, ts, u, h11, h12, hPQ _ _ _ _ _ h13⟩

theorem runsTop_aux {b : Builtin} {Pre : List Ref → Vm → Prop} {Run : List Ref → Vm → Ref → Vm → List Event → Prop} (hL : L.Safe) (hb : b ≠ .return)
    (hRun : ∀ n args ts env v, Fine W (handle W L n) → Copies W (handle W L n) → Held W args ts env v → args ∈ v.stack → Pre ts v →
      Wp W n (handle W L n) (Prog.builtin L b args env) v fun a u t =>
        KeepsBuiltins v u ∧ ∀ r w, a = some r → Ends u w → Run ts v r w t)
    {op env : Ref} {ts : List Ref} {u w : Vm} {r : Option Ref} {tr : List Event} (h : RunsBuiltin W L op env ts u r w tr) :
    Runs b op (fun ts u r w tr => Pre ts u → Run ts u r w tr) ts u r w tr := by
  obtain ⟨r', rfl, n, args, b0, u0, u1, b', k, top, hb0, hrun, he, hb', hw⟩ := h
  intro hop
  refine ⟨r', rfl, fun hpre => ?_⟩
  have := hb0.unique hop
  cases this
  obtain ⟨hk, hq⟩ := hRun n args ts env u (handler_fine hL n) (handler_copies n) k top hpre _ _ _ hrun
  have hbb : b' = b := by
    obtain ⟨c, hc, ho⟩ := hb'
    have : u0.HasObj op (.builtin b') := by
      obtain ⟨c0, hc0, ho0⟩ := hop
      cases hm : u0.mem op with
      | none => rw [he.gone op hm] at hc; cases hc
      | some d =>
        rcases he.stays op d hm with e | ⟨m, t, l, ho', e⟩
        · rw [hc] at e; cases e; exact ⟨c, hm, ho⟩
        · rw [hc] at e; cases e; simp at ho
    exact hk op b b' hop this
  subst hbb
  rw [if_neg hb] at hw
  exact hq r' w rfl (he.trans hw)

theorem runs_aux {b : Builtin} {Pre : List Ref → Vm → Prop} {Run : List Ref → Vm → Ref → Vm → List Event → Prop} (hL : L.Safe) (hb : b ≠ .return)
    (hRun : ∀ n args ts env v, Fine W (handle W L n) → Copies W (handle W L n) → Held W args ts env v → Pre ts v →
      Wp W n (handle W L n) (Prog.builtin L b args env) v fun a u t =>
        KeepsBuiltins v u ∧ ∀ r w, a = some r → Ends u w → Run ts v r w t)
    {op env : Ref} {ts : List Ref} {u w : Vm} {r : Option Ref} {tr : List Event} (h : RunsBuiltin W L op env ts u r w tr) :
    Runs b op (fun ts u r w tr => Pre ts u → Run ts u r w tr) ts u r w tr :=
  runsTop_aux hL hb (fun n args ts env v F C k _ => hRun n args ts env v F C k) h

/-- a builtin function called by name, with values of which `Pre` holds; the vector of the arguments is on the stack -/
theorem namedBuiltinTop_aux {b : Builtin} {Pre : List Ref → Vm → Prop} {Run : List Ref → Vm → Ref → Vm → List Event → Prop} (hL : L.Safe) (hb : b ≠ .return)
    (hRun : ∀ n args ts env v, Fine W (handle W L n) → Copies W (handle W L n) → Held W args ts env v → args ∈ v.stack → Pre ts v →
      Wp W n (handle W L n) (Prog.builtin L b args env) v fun a u t =>
        KeepsBuiltins v u ∧ ∀ r w, a = some r → Ends u w → Run ts v r w t)
    {v w : Vm} (rv : v.Reached W L) {form env op : Ref} {name : Text} {xs : List Ref}
    (nc : NamedCall W v form env name op xs) (hop : v.HasObj op (.builtin b))
    {r : Option Ref} {tr : List Event} (ev : Evaluates W L v form env r w tr) :
    NamedOpCall W (ArgumentsFirst W form env (Runs b op fun ts u r w tr => Pre ts u → Run ts u r w tr)) v env op r w tr := by
  obtain ⟨e0, tr', h1, h2, h3, h4, h5, h6, h7, h⟩ := c28_builtin hL rv nc hop ev
  exact ⟨e0, tr', h1, h2, h3, h4, h5, h6, h7, argumentsFirst_imp h fun _ _ _ _ _ => runsTop_aux hL hb hRun⟩

/-- a builtin function called by name, with values of which `Pre` holds -/
theorem namedBuiltinPre_aux {b : Builtin} {Pre : List Ref → Vm → Prop} {Run : List Ref → Vm → Ref → Vm → List Event → Prop} (hL : L.Safe) (hb : b ≠ .return)
    (hRun : ∀ n args ts env v, Fine W (handle W L n) → Copies W (handle W L n) → Held W args ts env v → Pre ts v →
      Wp W n (handle W L n) (Prog.builtin L b args env) v fun a u t =>
        KeepsBuiltins v u ∧ ∀ r w, a = some r → Ends u w → Run ts v r w t)
    {v w : Vm} (rv : v.Reached W L) {form env op : Ref} {name : Text} {xs : List Ref}
    (nc : NamedCall W v form env name op xs) (hop : v.HasObj op (.builtin b))
    {r : Option Ref} {tr : List Event} (ev : Evaluates W L v form env r w tr) :
    NamedOpCall W (ArgumentsFirst W form env (Runs b op fun ts u r w tr => Pre ts u → Run ts u r w tr)) v env op r w tr := by
  obtain ⟨e0, tr', h1, h2, h3, h4, h5, h6, h7, h⟩ := c28_builtin hL rv nc hop ev
  exact ⟨e0, tr', h1, h2, h3, h4, h5, h6, h7, argumentsFirst_imp h fun _ _ _ _ _ => runs_aux hL hb hRun⟩

/-- a builtin function called by name -/
theorem namedBuiltin_aux {b : Builtin} {Run : List Ref → Vm → Ref → Vm → List Event → Prop} (hL : L.Safe) (hb : b ≠ .return)
    (hRun : ∀ n args ts env v, Fine W (handle W L n) → Copies W (handle W L n) → Held W args ts env v →
      Wp W n (handle W L n) (Prog.builtin L b args env) v fun a u t =>
        KeepsBuiltins v u ∧ ∀ r w, a = some r → Ends u w → Run ts v r w t)
    {v w : Vm} (rv : v.Reached W L) {form env op : Ref} {name : Text} {xs : List Ref}
    (nc : NamedCall W v form env name op xs) (hop : v.HasObj op (.builtin b))
    {r : Option Ref} {tr : List Event} (ev : Evaluates W L v form env r w tr) :
    NamedOpCall W (ArgumentsFirst W form env (Runs b op Run)) v env op r w tr := by
  obtain ⟨e0, tr', h1, h2, h3, h4, h5, h6, h7, h⟩ := namedBuiltinPre_aux (Pre := fun _ _ => True) hL hb
    (fun n args ts env v F C k _ => hRun n args ts env v F C k) rv nc hop ev
  refine ⟨e0, tr', h1, h2, h3, h4, h5, h6, h7, argumentsFirst_imp h fun ts u r w tr h hop => ?_⟩
  obtain ⟨r', hr, h⟩ := h hop
  exact ⟨r', hr, h trivial⟩

/-- a builtin function called by name; the vector of the arguments is on the stack -/
theorem namedBuiltinStack_aux {b : Builtin} {Run : List Ref → Vm → Ref → Vm → List Event → Prop} (hL : L.Safe) (hb : b ≠ .return)
    (hRun : ∀ n args ts env v, Fine W (handle W L n) → Copies W (handle W L n) → Held W args ts env v → args ∈ v.stack →
      Wp W n (handle W L n) (Prog.builtin L b args env) v fun a u t =>
        KeepsBuiltins v u ∧ ∀ r w, a = some r → Ends u w → Run ts v r w t)
    {v w : Vm} (rv : v.Reached W L) {form env op : Ref} {name : Text} {xs : List Ref}
    (nc : NamedCall W v form env name op xs) (hop : v.HasObj op (.builtin b))
    {r : Option Ref} {tr : List Event} (ev : Evaluates W L v form env r w tr) :
    NamedOpCall W (ArgumentsFirst W form env (Runs b op Run)) v env op r w tr := by
  obtain ⟨e0, tr', h1, h2, h3, h4, h5, h6, h7, h⟩ := namedBuiltinTop_aux (Pre := fun _ _ => True) hL hb
    (fun n args ts env v F C k top _ => hRun n args ts env v F C k top) rv nc hop ev
  refine ⟨e0, tr', h1, h2, h3, h4, h5, h6, h7, argumentsFirst_imp h fun ts u r w tr h hop => ?_⟩
  obtain ⟨r', hr, h⟩ := h hop
  exact ⟨r', hr, h trivial⟩

/-- more names for the examples -/
def kit2 : List (String × Obj × Bool) :=
  kit ++ [("vector", .builtin .vector, true), ("-", .builtin .minus, true), ("*", .builtin .times, true), ("/", .builtin .slash, true),
    ("mod", .builtin .mod, true), ("=", .builtin .assign, true), ("--", .builtin .minusMinus, true), ("not", .builtin .not, true),
    ("uid", .builtin .uid, true), ("len", .builtin .len, true), ("doc", .builtin .doc, true)]

theorem kit2_plain : ∀ x ∈ kit2, x.2.1.children = [] := by decide

end Dern.Props
