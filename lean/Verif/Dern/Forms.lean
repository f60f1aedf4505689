import Verif.Dern.Calls
import Verif.Dern.Copy
/-
Rules for special forms: their argument vector is known to nobody else.
-/
namespace Dern
open Prog (Library)
variable {W : World} {E : Ref → Prop} {n : Nat} {h : Handler} {v0 v w u : Vm} {L : Library} {args env : Ref} {xs : List Ref}

/-- the special form at hand keeps its arguments `xs` in the vector `args` -/
structure Held (W : World) (args : Ref) (xs : List Ref) (env : Ref) (v : Vm) : Prop where
  sane : v.Sane W
  closed : v.Closed W (fun x => x = args)
  vec : v.HasVec args xs ∨ v.mem args = none
  env : v.Pub W (fun x => x = args) env
  pub : ∀ x ∈ xs, v.Pub W (fun x => x = args) x

theorem Held.here (k : Held W args xs env v) : Vm.Step W (fun x => x = args) E v v := .refl k.sane k.closed

theorem Held.old (k : Held W args xs env v) : v.Old W args := k.closed.known args rfl

theorem Held.good (k : Held W args xs env v) (g : Vm.Good W (fun x => x = args) v w) : Held W args xs env w where
  sane := g.sane
  closed := g.closed
  vec := by
    rcases k.vec with hv | e
    · exact hv.later k.sane g.later rfl
    · exact .inr (g.later.gone args k.old e)
  env := k.env.mono g.later.births
  pub := fun x hx => (k.pub x hx).mono g.later.births

theorem Held.step (k : Held W args xs env v) (g : Vm.Step W (fun x => x = args) (fun _ => False) v w) : Held W args xs env w where
  sane := g.sane
  closed := g.closed
  vec := by
    rcases k.vec with ⟨c, hc, ho⟩ | e
    · rcases g.quiet.cells args c id hc with e | e | ⟨m, t, l, ho', e⟩
      · exact .inl ⟨c, e, ho⟩
      · exact .inr e
      · rw [ho] at ho'; cases ho'
    · exact .inr (g.quiet.gone args k.old e)
  env := k.env.mono g.quiet.births
  pub := fun x hx => (k.pub x hx).mono g.quiet.births

theorem Held.push (k : Held W args xs env v) {r : Ref} (hr : v.Old W r) :
    Held W args xs env { v with stack := r :: v.stack } := k.step (k.here.push hr)

theorem Held.pop (k : Held W args xs env v) {r : Ref} {s : List Ref} (hs : v.stack = r :: s) :
    Held W args xs env { v with stack := s } := k.step (k.here.pop hs)

/-- evaluating an argument -/
theorem wp_evalArg (F : Fine W h) (k : Held W args xs env v) {i : Nat} (hi : i < xs.length) {Q : Option Ref → Vm → List Event → Prop}
    (hq : ∀ x a w, xs[i]? = some x → Held W args xs env w → Vm.Good W (fun x => x = args) v w → w.stack = v.stack →
      PubOpt (w.Pub W fun x => x = args) a → Q a w [⟨x, env, v, a, w⟩]) :
    Wp W n h (Prog.elemAt args i >>= fun x => Prog.evalOpt x env) v Q := by
  refine wp_bind (wp_elemAt_vec k.vec fun hv => ?_)
  have e : xs[i]? = some xs[i] := by simp [hi]
  rw [e]
  unfold Prog.evalOpt
  simp only [List.nil_append]
  exact wps_eval F k.here (E := fun _ => False) (k.pub _ (List.getElem_mem hi)) k.env fun a w g hs hp => hq _ a w e (k.good g) g hs hp

/-- evaluating an argument, whose value must not be null -/
theorem wp_evalReq (F : Fine W h) (k : Held W args xs env v) {i : Nat} (hi : i < xs.length) {Q : Ref → Vm → List Event → Prop}
    (hq : ∀ x a w, xs[i]? = some x → Held W args xs env w → Vm.Good W (fun x => x = args) v w → w.stack = v.stack →
      w.Pub W (fun x => x = args) a → Q a w [⟨x, env, v, some a, w⟩]) : Wp W n h (Prog.evalReq args i env) v Q := by
  unfold Prog.evalReq
  have := wp_evalArg (n := n) F k hi (Q := fun a w t => Wp W n h (Prog.require a) w fun r u t' => Q r u (t ++ t'))
    fun x a w hx kw g hs hp => wp_require fun r hr => by subst hr; exact hq x r w hx kw g hs (hp r rfl)
  have e : (do let x ← Prog.elemAt args i; let r ← Prog.evalOpt x env; Prog.require r) =
      (Prog.elemAt args i >>= fun x => Prog.evalOpt x env) >>= Prog.require := by simp
  rw [e]
  exact wp_bind this

/-- the same for code that dereferences the value -/
theorem wp_evalElem (F : Fine W h) (k : Held W args xs env v) {i : Nat} (hi : i < xs.length) {Q : Ref → Vm → List Event → Prop}
    (hq : ∀ x a w, xs[i]? = some x → Held W args xs env w → Vm.Good W (fun x => x = args) v w → w.stack = v.stack →
      w.Pub W (fun x => x = args) a → Q a w [⟨x, env, v, some a, w⟩]) : Wp W n h (Prog.evalElem args i env) v Q := by
  unfold Prog.evalElem
  have := wp_evalArg (n := n) F k hi (Q := fun a w t => Wp W n h (Prog.deref a) w fun r u t' => Q r u (t ++ t'))
    fun x a w hx kw g hs hp => wp_deref fun r hr => by subst hr; exact hq x r w hx kw g hs (hp r rfl)
  have e : (do let x ← Prog.elemAt args i; let r ← Prog.evalOpt x env; Prog.deref r) =
      (Prog.elemAt args i >>= fun x => Prog.evalOpt x env) >>= Prog.deref := by simp
  rw [e]
  exact wp_bind this

/-- a copy of one of the fixed values -/
theorem wp_rootCopy (F : Fine W h) (C : Copies W h) (k : Held W args xs env v) {which : Root} {Q : Ref → Vm → List Event → Prop}
    (hq : ∀ r w, Vm.Step W (fun x => x = args) (fun _ => False) v w → ¬ v.Old W r → w.stack = v.stack →
      (∀ o, o.simple = true → v.HasObj (v.root which) o → w.HasObj r o) → Q r w []) :
    Wp W n h (Prog.getRoot which) v Q := by
  unfold Prog.getRoot Prog.copyOf
  refine wp_bind (wp_root (wp_bind (wp_call fun a w t e => wp_deref fun r ha => ?_)))
  subst ha
  obtain ⟨sw, rfl, q, fresh⟩ := F.copy _ _ _ _ _ k.sane e
  have := F.spec (fun x => x = args) (.copy (v.root which)) v v.stack k.sane k.closed
    (by simpa [Call.refs] using k.closed.roots which) rfl
  rw [e] at this
  obtain ⟨_, r', hr', ok⟩ := C _ _ _ _ _ k.sane k.closed.open' (k.closed.roots which).1 e
  cases hr'
  refine hq r w ⟨k.sane, sw, this.1.closed, q⟩ (fresh r rfl) ok.stack ?_
  rintro o ho ⟨c, hc, rfl⟩
  cases ok.copied with
  | simple h1 h2 _ _ h5 => obtain rfl := same_cell hc h1; exact ⟨_, h2, h5⟩
  | seq h1 _ _ h4 => obtain rfl := same_cell hc h1; cases hd : c.obj <;> rw [hd] at ho h4 <;> first | (cases ho; done) | (cases h4; done)
  | hmap h1 _ _ h4 => obtain rfl := same_cell hc h1; rw [h4] at ho; cases ho

/-- what is known when a special form starts -/
theorem Held.start {v1 : Vm} (g : Vm.Step W (fun x => x = args) E v v1) (hv : v1.HasVec args xs)
    (up : ∀ x, v.Old W x → v1.Pub W (fun x => x = args) x) (he : v.Old W env) (hx : ∀ x ∈ xs, v.Old W x) :
    Held W args xs env v1 := ⟨g.sane, g.closed, .inl hv, up _ he, fun x h => up x (hx x h)⟩

/-- a special form, its argument vector and what it does; its environment is on the stack -/
theorem CalledSpecial.elim' {s : Special} {r : Ref} {tr : List Event} (hL : L.Safe) (cs : CalledSpecial W L s xs env v r w tr)
    (he : v.Old W env) (hx : ∀ x ∈ xs, v.Old W x) {Q : Ref → Vm → List Event → Prop}
    (hq : ∀ n args v1, Fine W (handle W L n) → Copies W (handle W L n) → Held W args xs env v1 →
      Vm.Step W (fun x => x = args) (fun _ => False) v v1 → env ∈ v1.stack ∧ args ∈ v1.stack →
      Wp W n (handle W L n) (Prog.special L s args env) v1 fun a u t => ∀ r w, a = some r → Ends u w → Q r w t) : Q r w tr := by
  obtain ⟨n, args, v1, u, _, g, hv, up, hst, hrun, hend⟩ := cs
  exact hq n args v1 (handler_fine hL n) (handler_copies n) (Held.start g hv up he hx) g hst _ _ _ hrun r w rfl hend

/-- a special form, its argument vector and what it does -/
theorem CalledSpecial.elim {s : Special} {r : Ref} {tr : List Event} (hL : L.Safe) (cs : CalledSpecial W L s xs env v r w tr)
    (he : v.Old W env) (hx : ∀ x ∈ xs, v.Old W x) {Q : Ref → Vm → List Event → Prop}
    (hq : ∀ n args v1, Fine W (handle W L n) → Copies W (handle W L n) → Held W args xs env v1 →
      Vm.Step W (fun x => x = args) (fun _ => False) v v1 →
      Wp W n (handle W L n) (Prog.special L s args env) v1 fun a u t => ∀ r w, a = some r → Ends u w → Q r w t) : Q r w tr :=
  cs.elim' hL he hx fun n args v1 F C k g _ => hq n args v1 F C k g

/-- every recorded evaluation took place -/
theorem run_events {body : Call → Prog (Option Ref)} {P : Event → Prop} {h : Handler}
    (hh : ∀ c v a w t, h c v = .ok (a, w, t) → ∀ e ∈ t, P e) : ∀ {α : Type} (p : Prog α) v a w t, run W n h p v = .ok (a, w, t) →
    ∀ e ∈ t, P e := by
  intro α p
  induction p with
  | done a => intro v b w t e; cases e; simp
  | op o k ih =>
    intro v b w t e
    simp only [run] at e
    cases e1 : step W n h o v with
    | error e' => rw [e1] at e; cases e
    | ok x =>
      obtain ⟨a1, w1, t1⟩ := x
      rw [e1] at e
      simp only at e
      cases e2 : run W n h (k a1) w1 with
      | error e' => rw [e2] at e; cases e
      | ok x =>
        obtain ⟨b', u', t2⟩ := x
        rw [e2] at e
        cases e
        intro ev hev
        rcases List.mem_append.mp hev with hev | hev
        · have q : ∀ {β : Type} (x : M β) (a : β) (w : Vm) (t : List Event), quiet x v = .ok (a, w, t) → t = [] := by
            intro β x a w t e
            unfold quiet at e
            split at e
            · cases e; rfl
            · cases e
          have none : t1 = [] → P ev := fun e => by rw [e] at hev; cases hev
          cases o with
          | call c => exact hh c v a1 w1 t1 e1 ev hev
          | compare a b =>
            simp only [step] at e1
            split at e1
            · cases e1; cases hev
            · cases e1
          | print a b =>
            simp only [step] at e1
            split at e1
            · cases e1; cases hev
            · cases e1
          | fail e => cases e1
          | alloc | read | setObj | replace | setDoc | setHowto | push | pop => (simp only [step] at e1; exact none (q _ _ _ _ e1))
          | _ => cases e1; cases hev
        · exact ih a1 w1 _ _ t2 e2 ev hev

theorem handler_events : ∀ n c v a w t, handle W L n c v = .ok (a, w, t) →
    ∀ e ∈ t, ∃ tr, Evaluates W L e.pre e.form e.env e.result e.post tr := by
  intro n
  induction n with
  | zero => intro c v a w t e; cases e
  | succ n ih =>
    intro c v a w t e ev hev
    simp only [handler] at e
    cases hr : run W n (handler W (Prog.body L) n) (Prog.body L c) v with
    | error e' => rw [hr] at e; cases e
    | ok x =>
      obtain ⟨a', w', t'⟩ := x
      rw [hr] at e
      cases c with
      | eval value env =>
        cases e
        simp only [List.mem_singleton] at hev
        subst hev
        exact ⟨t', n, hr⟩
      | _ =>
        cases e
        exact run_events (body := Prog.body L) (W := W) (n := n) (fun c v a w t h => ih c v a w t h) _ _ _ _ _ hr ev hev

/-- every evaluation in the trace of an evaluation took place -/
theorem Evaluates.events {form : Ref} {r : Option Ref} {tr : List Event} (ev : Evaluates W L v form env r w tr) :
    ∀ e ∈ tr, ∃ tr', Evaluates W L e.pre e.form e.env e.result e.post tr' := by
  obtain ⟨n, e⟩ := ev
  exact run_events (body := Prog.body L) (fun c v a w t h => handler_events n c v a w t h) _ _ _ _ _ e

/-- calls other than evaluations -/
theorem handle_succ {c : Call} {a : Option Ref} {t : List Event} (hc : ∀ x e, c ≠ .eval x e)
    (e : handle W L (n + 1) c v = .ok (a, w, t)) : run W n (handle W L n) (Prog.body L c) v = .ok (a, w, t) := by
  simp only [handler] at e
  cases hr : run W n (handler W (Prog.body L) n) (Prog.body L c) v with
  | error e' => rw [hr] at e; cases e
  | ok x =>
    obtain ⟨a', w', t'⟩ := x
    rw [hr] at e
    cases c with
    | eval x e' => exact absurd rfl (hc x e')
    | _ => exact e

end Dern
