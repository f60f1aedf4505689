import Verif.Dern.Apply
/-
Calls of functions: the body.
-/
namespace Dern
open Prog (Library)
variable {W : World} {E : Ref → Prop} {n : Nat} {h : Handler} {v0 v w u : Vm} {L : Library} {args env : Ref}

/-- the value `r` is a function or a macro with the record `f` -/
def Vm.IsFn (v : Vm) (r : Ref) (f : FnData) : Prop := v.HasObj r (.fn f) ∨ v.HasObj r (.mac f)

/-- The forms of the body of the function in the value `op` are evaluated in the environment `env`, from
the index `i` on: each time the next form of the body the value has at that moment; `last` is the value of
the form before, if any.  The result is `r`, in the state `w`. -/
inductive FnBody (W : World) (op env : Ref) (r : Option Ref) (w : Vm) : Nat → Option Ref → Vm → List Event → Prop
  /-- no more forms -/
  | finish {i last v f forms} : v.IsFn op f → v.HasVec f.body forms → forms.length ≤ i → r = last → Ends v w →
      FnBody W op env r w i last v []
  /-- the value of the form is an error: it is the result -/
  | failed {i last v f forms x e t} : v.IsFn op f → v.HasVec f.body forms → forms[i]? = some x → e.form = x → e.env = env →
      e.result = some t → Ends v e.pre → e.post.IsErr t → r = some t → Ends e.post w → FnBody W op env r w i last v [e]
  /-- there is a pending return: its value is the result, and it is not pending any more -/
  | returned {i last v f forms x e t y} : v.IsFn op f → v.HasVec f.body forms → forms[i]? = some x → e.form = x → e.env = env →
      e.result = some t → Ends v e.pre → ¬ e.post.IsErr t → e.post.functionReturn = some y → r = some y →
      Ends { e.post with functionReturn := none } w → FnBody W op env r w i last v [e]
  /-- go on -/
  | next {i last v f forms x e t tr} : v.IsFn op f → v.HasVec f.body forms → forms[i]? = some x → e.form = x → e.env = env →
      e.result = some t → Ends v e.pre → ¬ e.post.IsErr t → e.post.functionReturn = none →
      FnBody W op env r w (i + 1) (some t) e.post tr → FnBody W op env r w i last v (e :: tr)

theorem FnBody.ends {op env : Ref} {r last : Option Ref} {i : Nat} {tr : List Event} {w' : Vm} (b : FnBody W op env r w i last v tr)
    (e : Ends w w') : FnBody W op env r w' i last v tr := by
  induction b with
  | finish h1 h2 h3 h4 h5 => exact .finish h1 h2 h3 h4 (h5.trans e)
  | failed h1 h2 h3 h4 h5 h6 h7 h8 h9 h10 => exact .failed h1 h2 h3 h4 h5 h6 h7 h8 h9 (h10.trans e)
  | returned h1 h2 h3 h4 h5 h6 h7 h8 h9 h10 h11 => exact .returned h1 h2 h3 h4 h5 h6 h7 h8 h9 h10 (h11.trans e)
  | next h1 h2 h3 h4 h5 h6 h7 h8 h9 _ ih => exact .next h1 h2 h3 h4 h5 h6 h7 h8 h9 ih

theorem FnBody.from {op env : Ref} {r last : Option Ref} {i : Nat} {tr : List Event} {s : List Ref}
    (b : FnBody W op env r w i last { v with stack := s } tr) : FnBody W op env r w i last v tr := by
  have e : Ends v { v with stack := s } := .pop
  cases b with
  | finish h1 h2 h3 h4 h5 => exact .finish h1 h2 h3 h4 (e.trans h5)
  | failed h1 h2 h3 h4 h5 h6 h7 h8 h9 h10 => exact .failed h1 h2 h3 h4 h5 h6 (e.trans h7) h8 h9 h10
  | returned h1 h2 h3 h4 h5 h6 h7 h8 h9 h10 h11 => exact .returned h1 h2 h3 h4 h5 h6 (e.trans h7) h8 h9 h10 h11
  | next h1 h2 h3 h4 h5 h6 h7 h8 h9 h10 => exact .next h1 h2 h3 h4 h5 h6 (e.trans h7) h8 h9 h10

theorem bodyLoop_spec (hL : L.Safe) {op value : Ref} {gen : Nat} : ∀ n i last v, v.Sane W → v.Closed W (fun _ => False) → v.Old W op →
    v.Old W env → ∀ a u t, handle W L n (.bodyLoop op gen value env i last) v = .ok (a, u, t) → FnBody W op env a u i last v t := by
  intro n
  induction n with
  | zero => intro i last v _ _ _ _ a u t e; cases e
  | succ n ih =>
    intro i last v sv cv oo oe a u t e
    have F : Fine W (handle W L n) := handler_fine hL n
    suffices H : Wp W n (handle W L n) (Prog.bodyTurn op gen env i last value) v fun a u t => FnBody W op env a u i last v t from
      H a u t (handle_succ (by simp) e)
    clear e a u t
    unfold Prog.bodyTurn
    refine wp_bind (wp_read fun c hc => ?_)
    split
    · exact wp_fail
    have pc := (cv.pub _ _ hc id).obj
    have key : ∀ f : FnData, v.IsFn op f → v.Pub W (fun _ => False) f.body → Wp W n (handle W L n) (do
        match (← Prog.read f.body).obj with
        | .vec forms =>
          match forms[i]? with
          | none => pure last
          | some form => do
            Prog.push form
            let r ← Prog.deref (← Prog.eval form env)
            match (← Prog.read r).obj with
            | .err _ _ => do
              Prog.annotate r
              Prog.pop form
              pure (some r)
            | _ => do
              Prog.pop form
              match ← Prog.getReturn with
              | some x => do
                Prog.setReturn none
                pure (some x)
              | none => Prog.call (.bodyLoop op gen value env (i + 1) (some r))
        | _ => Prog.fail .ub) v fun a u t => FnBody W op env a u i last v ([] ++ t) := by
      intro f hf pb
      refine wp_bind (wp_read fun d hd => ?_)
      split
      case h_2 => exact wp_fail
      rename_i forms ho
      have hv : v.HasVec f.body forms := ⟨d, hd, ho⟩
      simp only [List.nil_append]
      split
      · rename_i hx
        exact wp_pure (.finish hf hv (by simpa using hx) rfl (.refl v))
      · rename_i x hx
        have px : v.Pub W (fun _ => False) x := by
          have := (cv.pub _ _ hd id).obj
          rw [ho] at this
          exact this x (List.mem_of_getElem? hx)
        have g : Vm.Step W (fun _ => False) (fun _ => False) v v := .refl sv cv
        refine wp_bind (wp_push ?_)
        have g := g.push px.1
        refine wp_bind (wps_eval F g px ⟨oe, id⟩ fun a w gw hs hp => wp_bind (wp_deref fun r hr => ?_))
        subst hr
        refine wp_bind (wp_read fun d hd => ?_)
        simp only [List.nil_append]
        split
        · rename_i m l ho'
          refine wp_bind (wp_annotate fun w2 h2 => wp_bind (wp_pop fun s hs => wp_pure ?_))
          exact .failed (e := ⟨x, env, _, some r, w⟩) hf hv hx rfl rfl rfl Ends.pop ⟨m, l, d, hd, ho'⟩ rfl (h2.trans .pop)
        · rename_i hno
          have nerr : ¬ w.IsErr r := by
            rintro ⟨m, l, c', hc', ho'⟩
            obtain rfl := same_cell hd hc'
            exact hno _ _ ho'
          refine wp_bind (wp_pop fun s hs => wp_bind (wp_getReturn ?_))
          simp only [List.nil_append]
          split
          · rename_i y hy
            refine wp_bind (wp_setReturn (wp_pure ?_))
            exact .returned (e := ⟨x, env, _, some r, w⟩) hf hv hx rfl rfl rfl Ends.pop nerr hy rfl Ends.pop
          · rename_i hy
            refine wp_call fun a u t e => ?_
            have gs := (gw.step (E := fun _ => False)).pop hs
            have up : ∀ x, v.Old W x → ({ w with stack := s } : Vm).Old W x := fun x hx => hx.mono gw.later.births
            exact .next (e := ⟨x, env, _, some r, w⟩) hf hv hx rfl rfl rfl Ends.pop nerr hy
              (ih (i + 1) (some r) _ gs.sane gs.closed (up _ oo) (up _ oe) a u t e).from
    split
    · rename_i f ho
      rw [ho] at pc
      exact key f (.inl ⟨c, hc, ho⟩) pc.2.1
    · rename_i f ho
      rw [ho] at pc
      exact key f (.inr ⟨c, hc, ho⟩) pc.2.1
    · exact wp_fail

/-- The function in the value `op` is applied to the values `ts`, from the state `u` to the result `r` in the
state `w`.  If it does not accept that many arguments, the result is a new error.  Otherwise the body is
evaluated in a new environment, enclosed by the environment of the function, with the formals bound to the
arguments. -/
def FnApply (W : World) (op : Ref) (ts : List Ref) (u : Vm) (r : Option Ref) (w : Vm) (tr : List Event) : Prop :=
  ∃ f formals names, u.IsFn op f ∧ u.HasVec f.formals formals ∧ u.Names formals names ∧
    ((¬ Accepts names ts.length ∧ tr = [] ∧ Vm.Quiet W (fun _ => False) u w ∧ ∃ x, r = some x ∧ ¬ u.Old W x ∧ w.IsErr x) ∨
    ∃ e u1, ¬ u.Old W e ∧ Vm.Quiet W (fun _ => False) u u1 ∧ Extended W u names ts e f.env u1 ∧ FnBody W op e r w 0 none u1 tr)

/-- a call of a function whose operator has been evaluated to `op`, in the state `v` -/
def FnCall (W : World) (form op env : Ref) (v : Vm) (r : Option Ref) (w : Vm) (tr : List Event) : Prop :=
  ∃ args v1, ¬ v.Old W args ∧ Vm.Quiet W (fun _ => False) v v1 ∧ v1.births = v.births + 1 ∧
    ((∃ x, r = some x ∧ ArgsFail W args form env x w 1 v1 tr) ∨
    ∃ tr1 tr2 ts u, tr = tr1 ++ tr2 ∧ ArgsFrom W args form env u 1 v1 tr1 ts ∧ FnApply W op ts u r w tr2)

theorem wp_fnOf {op : Ref} {Q : FnData → Vm → List Event → Prop} (hq : ∀ f, v.IsFn op f → Q f v []) :
    Wp W n h (Prog.fnOf op) v Q := by
  unfold Prog.fnOf
  refine wp_bind (wp_read fun c hc => ?_)
  split
  · exact wp_pure (hq _ (.inl ⟨c, hc, ‹_›⟩))
  · exact wp_pure (hq _ (.inr ⟨c, hc, ‹_›⟩))
  · exact wp_fail

theorem Vm.IsFn.pub {op : Ref} {f : FnData} {X : Ref → Prop} (hf : v.IsFn op f) (cv : v.Closed W X) (hx : ¬ X op) :
    v.Pub W X f.formals ∧ v.Pub W X f.body ∧ v.Pub W X f.env := by
  rcases hf with ⟨c, hc, ho⟩ | ⟨c, hc, ho⟩ <;>
  · have := (cv.pub _ _ hc hx).obj
    rw [ho] at this
    exact this

theorem Extended.earlier {names : List Text} {ts : List Ref} {e enc : Ref} (x : Extended W v names ts e enc w)
    (hb : u.births ≤ v.births) : Extended W u names ts e enc w := by
  cases x with
  | plain h1 h2 h3 h4 => exact .plain h1 h2 h3 h4
  | rest h1 h2 h3 h4 h5 h6 h7 => exact .rest h1 h2 h3 (fun hh => h4 (hh.mono hb)) h5 h6 h7

theorem wp_applyFn (hL : L.Safe) {ts : List Ref} (k : Held W args ts env v) {value op : Ref} (po : v.Pub W (fun x => x = args) op) :
    Wp W n (handle W L n) (Prog.applyFn value op args false) v fun r w t => ∀ w', Ends w w' → FnApply W op ts v r w' t := by
  unfold Prog.applyFn
  refine wp_bind (wp_read fun c hc => wp_bind (wp_fnOf fun f hf => wp_bind (wp_alloc k.sane fun e w a => wp_bind (wp_push ?_))))
  simp only [List.nil_append]
  obtain ⟨pf, pb, pe⟩ := hf.pub k.closed po.2
  have g := (k.here (E := fun _ => False)).alloc a ⟨by simp, fun x hx => by cases hx; exact pe⟩
  have g := g.push a.old
  have up : ∀ x, v.Pub W (fun x => x = args) x → ({ w with stack := e :: w.stack } : Vm).Pub W (fun x => x = args) x :=
    fun x hx => hx.mono (by show v.births ≤ w.births; rw [a.births]; omega)
  have k' : Held W args ts env { w with stack := e :: w.stack } := k.step g
  have ea : e ≠ args := fun h => a.fresh (h ▸ k.old)
  have names : ∀ fs names, ({ w with stack := e :: w.stack } : Vm).HasVec f.formals fs →
      ({ w with stack := e :: w.stack } : Vm).Names fs names → v.HasVec f.formals fs ∧ v.Names fs names := by
    intro fs names h1 h2
    have h1 := g.quiet.hasVec id pf.1 h1
    refine ⟨h1, ?_⟩
    obtain ⟨d, hd, ho⟩ := h1
    have := (k.closed.cells _ _ hd).obj
    rw [ho] at this
    clear hd ho h1
    unfold Vm.Names at h2 ⊢
    induction h2 with
    | nil => exact .nil
    | cons h _ ih =>
      exact .cons (g.quiet.hasObj id (this _ (by simp)) (by simp) h) (ih fun x hx => this x (List.mem_cons_of_mem _ hx))
  refine wp_bind (wp_extend k' g a.fresh ea a.cell rfl (up _ pf) ?_ ?_)
  · intro fs ns w1 h1 h2 g1 hx hs
    obtain ⟨h1, h2⟩ := names fs ns h1 h2
    refine wp_bind (wp_verifyVec fun _ _ _ _ => wp_bind (wp_call fun r u t e' => ?_))
    have ol : ∀ x, v.Old W x → w1.Old W x := fun x hx => hx.mono g1.quiet.births
    have oe : w1.Old W e := by
      cases hx with
      | plain _ _ _ h => obtain ⟨c, hc, _⟩ := h; exact g1.sane.old _ _ hc
      | rest _ _ _ _ _ _ h => obtain ⟨c, hc, _⟩ := h; exact g1.sane.old _ _ hc
    have hb := bodyLoop_spec hL n 0 none w1 g1.sane g1.open'.closed (ol _ po.1) oe r u t e'
    refine wp_bind (wp_pure (wp_bind (wp_pop fun s hs => wp_bind (wp_pop fun s' hs' => wp_pure ?_))))
    intro w' hw'
    simp only [List.nil_append, List.append_nil]
    refine ⟨f, fs, ns, hf, h1, h2, .inr ⟨e, w1, a.fresh, g1.quiet, hx.earlier ?_, hb.ends ((Ends.pop.trans Ends.pop).trans hw')⟩⟩
    show v.births ≤ w.births
    rw [a.births]; omega
  · intro fs ns r w1 h1 h2 hna g1 he hfr
    obtain ⟨h1, h2⟩ := names fs ns h1 h2
    refine wp_bind (wp_pop fun s hs => wp_bind (wp_pop fun s' hs' => wp_pure ?_))
    intro w' hw'
    have hw'' := (Ends.pop.trans Ends.pop).trans hw'
    refine ⟨f, fs, ns, hf, h1, h2, .inl ⟨hna, rfl, g1.quiet.trans g1.sane0 hw''.quiet, r, rfl, ?_, hw''.isErr he⟩⟩
    exact fun hh => hfr (hh.mono (by show v.births ≤ w.births; rw [a.births]; omega))

theorem wp_callFn (hL : L.Safe) (g : Vm.Step W (fun _ => False) (fun _ => False) v0 v) {form op : Ref} {gen : Nat}
    (of : v.Old W form) (oe : v.Old W env) (oo : v.Old W op) (hb : v.births = v0.births) :
    Wp W n (handle W L n) (Prog.callFn form gen op env false false) v fun r w t => ∀ w', Ends w w' → FnCall W form op env v0 r w' t := by
  unfold Prog.callFn
  refine wp_bind (wp_alloc g.sane fun args w a => ?_)
  have gw := g.hide a (by intro x hx; cases hx)
  refine wp_bind (wp_push ?_)
  have gw := gw.push a.old
  have up : ∀ x, v.Old W x → ({ w with stack := args :: w.stack } : Vm).Pub W (fun x => x = args) x := fun x hx =>
    ⟨hx.mono (by rw [a.births]; omega), fun e => a.fresh (e ▸ hx)⟩
  have fresh0 : ¬ v0.Old W args := fun hh => a.fresh (hh.mono g.quiet.births)
  have k : Held W args [] env { w with stack := args :: w.stack } :=
    ⟨gw.sane, gw.closed, .inl ⟨_, a.cell, rfl⟩, up _ oe, by simp⟩
  have hbirths : ({ w with stack := args :: w.stack } : Vm).births = v0.births + 1 := by
    show w.births = _
    rw [a.births, hb]
  simp only [Bool.false_eq_true, if_false]
  refine wp_bind (wp_call fun a1 u t e => ?_)
  simp only [List.nil_append]
  rcases argLoop_spec hL n 1 [] _ _ k (fun e => a.fresh (e ▸ of)) (up _ of).1 k.here a1 u t e with ⟨rfl, ts, h1, h2⟩ | ⟨r, rfl, h1⟩
  · simp only [List.nil_append] at h2
    have hl : ({ w with stack := args :: w.stack } : Vm).births ≤ u.births := by
      have F := handler_fine (W := W) hL n
      have := F.spec (fun _ => False) (.argLoop form gen args env 1) _ (args :: w.stack) gw.sane gw.open'.closed
        (by simp [Call.refs]; exact ⟨⟨(up _ of).1, id⟩, ⟨k.old, id⟩, ⟨(up _ oe).1, id⟩⟩) rfl
      have e' := e
      unfold handle at e'
      rw [e'] at this
      exact this.1.later.births
    refine Wp.mono (wp_applyFn hL h2 ((up _ oo).mono hl)) fun r w1 t1 hr w' hw' => ?_
    exact ⟨args, _, fresh0, gw.quiet, hbirths, .inr ⟨t, t1, ts, u, rfl, h1, hr w' hw'⟩⟩
  · refine wp_bind (wp_pop fun s hs => wp_pure ?_)
    intro w' hw'
    refine ⟨args, _, fresh0, gw.quiet, hbirths, .inl ⟨r, rfl, ?_⟩⟩
    simp only [List.append_nil]
    exact h1.ends (Ends.pop.trans hw')

/-- what the evaluation of a call does, if the operator is a builtin function or a function -/
def OperatorCall (W : World) (L : Library) (v : Vm) (form first env : Ref) (r : Option Ref) (w : Vm) (tr : List Event) : Prop :=
  ∃ e0 tr', tr = e0 :: tr' ∧ Opens W v first env e0 ∧
    (∀ op b, e0.result = some op → e0.post.HasObj op (.builtin b) → BuiltinCall W L form op env e0.post r w tr') ∧
    ∀ op f, e0.result = some op → e0.post.HasObj op (.fn f) → FnCall W form op env e0.post r w tr'

theorem Evaluates.call (hL : L.Safe) (sv : v.Sane W) (cv : v.Closed W fun _ => False) (hq : v.quit = false)
    {form env first : Ref} {rest : List Ref} (hf : v.HasVec form (first :: rest)) (of : v.Old W form) (oe : v.Old W env)
    {r : Option Ref} {tr : List Event} (ev : Evaluates W L v form env r w tr) : OperatorCall W L v form first env r w tr := by
  obtain ⟨n, e⟩ := ev
  have F : Fine W (handle W L n) := handler_fine hL n
  refine wp_evalTurn_call (n := n) (L := L) F sv cv hq hf of oe (Q := OperatorCall W L v form first env) ?_ ?_ ?_ ?_ ?_ ?_ _ _ _ e
  · intro pre post w h1 h2 h3 h4
    exact ⟨_, [], rfl, ⟨rfl, rfl, by rw [h2], by rw [h2], h1, h3⟩, fun op s hop => (by cases hop), fun op s hop => by cases hop⟩
  · intro pre post op c f r w t h1 h2 h3 h4 h5
    refine ⟨_, t, rfl, ⟨rfl, rfl, by rw [h2], by rw [h2], h1, h3⟩, fun op' s hop hs => ?_, fun op' s hop hs => ?_⟩ <;>
    · cases hop
      cases hs.unique ⟨c, h4, h5⟩
  · intro pre post op c u gen s h1 h2 h3 h4 h5 h6 hst h7 h8 r w t _ w' _
    refine ⟨_, t, rfl, ⟨rfl, rfl, by rw [h2], by rw [h2], h1, h3⟩, fun op' s hop hs => ?_, fun op' s hop hs => ?_⟩ <;>
    · cases hop
      cases hs.unique ⟨c, h7, h8⟩
  · intro pre post op c u gen b h1 h2 h3 h4 h5 h6 hst h7 h8 h9
    have up : ∀ x, v.Old W x → u.Old W x := fun x hx => ((hx.mono h1.quiet.births).mono h3.later.births).mono (Nat.le_of_eq h6.symm)
    refine Wp.mono (wp_callBuiltin hL h4 (up _ of) (up _ oe) h6) fun r w t hr w' hw' => ?_
    refine ⟨_, t, rfl, ⟨rfl, rfl, by rw [h2], by rw [h2], h1, h3⟩, fun op' s hop hs => ?_, fun op' s hop hs => ?_⟩
    · cases hop; exact hr w' hw'
    · cases hop; cases hs.unique ⟨c, h7, h9⟩
  · intro pre post op c u gen b h1 h2 h3 h4 h5 h6 hst h7 h8 h9
    have up : ∀ x, v.Old W x → u.Old W x := fun x hx => ((hx.mono h1.quiet.births).mono h3.later.births).mono (Nat.le_of_eq h6.symm)
    refine Wp.mono (wp_callFn hL h4 (up _ of) (up _ oe) (h8.mono (Nat.le_of_eq h6.symm)) h6) fun r w t hr w' hw' => ?_
    refine ⟨_, t, rfl, ⟨rfl, rfl, by rw [h2], by rw [h2], h1, h3⟩, fun op' s hop hs => ?_, fun op' s hop hs => ?_⟩
    · cases hop; cases hs.unique ⟨c, h7, h9⟩
    · cases hop; exact hr w' hw'
  · intro pre post op c u h1 h2 h3 h4 h5 h6 hst h7 h8 h9 r w t _ w' _
    refine ⟨_, t, rfl, ⟨rfl, rfl, by rw [h2], by rw [h2], h1, h3⟩, fun op' s hop hs => ?_, fun op' s hop hs => ?_⟩ <;>
    · cases hop
      rw [← hs.unique ⟨c, h7, rfl⟩] at h9
      cases h9

/-- a call of a builtin function or a function by name -/
theorem Evaluates.named_call (hL : L.Safe) (sv : v.Sane W) (cv : v.Closed W fun _ => False) {form op : Ref} {name : Text} {rest : List Ref}
    (nc : NamedCall W v form env name op rest) {r : Option Ref} {tr : List Event} (ev : Evaluates W L v form env r w tr) :
    ∃ e0 tr', tr = e0 :: tr' ∧ OpensAt W v env op e0 ∧
      (∀ b, v.HasObj op (.builtin b) → BuiltinCall W L form op env e0.post r w tr') ∧
      ∀ f, v.HasObj op (.fn f) → FnCall W form op env e0.post r w tr' := by
  obtain ⟨first, hform, hfirst⟩ := nc.called
  have evs := ev.events
  obtain ⟨e0, tr', rfl, o, h1, h2⟩ := ev.call hL sv cv nc.running hform nc.oldForm nc.oldEnv
  obtain ⟨c, hc, ho⟩ := hform
  have of : v.Old W first := by
    have := (cv.cells _ _ hc).obj
    rw [ho] at this
    exact this first (by simp)
  obtain ⟨tr0, ev0⟩ := evs e0 (by simp)
  have hn := Opens.named sv cv (op := op) (form := form) nc.running hfirst nc.binds of nc.oldEnv o o.births ev0
  have m : e0.post.mem = v.mem := by rw [hn.post, hn.same]
  have tr : ∀ o, v.HasObj op o → e0.post.HasObj op o := fun o ⟨d, hd, hd'⟩ => ⟨d, by rw [m]; exact hd, hd'⟩
  exact ⟨e0, tr', rfl, hn, fun b hb => h1 op b hn.result (tr _ hb), fun f hf => h2 op f hn.result (tr _ hf)⟩

end Dern
