import Verif.Props.C26
import Verif.Props.C28
import Verif.Props.C58
/-
C59: macros.

A macro is made like a function (`c59_made`, the same statement as C26's).

A macro call (`c59_call_partial`): the arguments are not evaluated; the forms themselves are bound to the
formals in a new environment, enclosed by the environment of the macro; the body is evaluated there; and then
the *value* of the body is evaluated once more — in that same new environment, not in that of the caller.
If what comes out is a vector that begins with a macro or with a symbol bound to a macro in the environment
of the caller, it is taken as a macro call again and expanded in the environment of the caller, and so on.
Otherwise it is the result, as it is.

What is missing (`Expansion.nested`): if what comes out is a vector that begins with a vector, then that
first element is evaluated, only to see whether its value is a macro; nothing is said about that case.
-/
namespace Dern.Props
open Dern
open Dern.Prog (Library)
variable {W : World} {L : Library} {n : Nat} {h : Handler}

/-- the value `r` is a macro -/
def Mac (v : Vm) (r : Ref) : Prop := ∃ f, v.HasObj r (.mac f)

/-- The macro in the value `op` is applied to the forms `ts`, from the state `v`; what comes out is `x`, in
the state `w`.  If it does not accept that many, that is a new error.  Otherwise the body is evaluated in a
new environment, enclosed by that of the macro, with the formals bound to the forms; and the value of the body
is evaluated in the new environment. -/
def MacroApply (W : World) (op : Ref) (ts : List Ref) (v : Vm) (x : Option Ref) (w : Vm) (tr : List Event) : Prop :=
  ∃ f formals names, v.HasObj op (.mac f) ∧ v.HasVec f.formals formals ∧ v.Names formals names ∧
    ((¬ Accepts names ts.length ∧ tr = [] ∧ Vm.Quiet W nobody v w ∧ ∃ e, x = some e ∧ ¬ v.Old W e ∧ w.IsErr e) ∨
    ∃ env v1 y v2 tr1 ev, ¬ v.Old W env ∧ Vm.Quiet W nobody v v1 ∧ Extended W v names ts env f.env v1 ∧
      FnBody W op env (some y) v2 0 none v1 tr1 ∧ tr = tr1 ++ [ev] ∧
      ev.form = y ∧ ev.env = env ∧ ev.result = x ∧ Ends v2 ev.pre ∧ Ends ev.post w)

/-- The macro in the value `op` is applied to the arguments of the call `form`, none of which is evaluated
first. -/
def MacroCall (W : World) (op form : Ref) (v : Vm) (x : Option Ref) (w : Vm) (tr : List Event) : Prop :=
  ∃ es u, v.HasVec form es ∧ Vm.Quiet W nobody v u ∧ MacroApply W op es.tail u x w tr

/-- the form `y` is the value `o`, or a symbol bound to it -/
def Stays (v : Vm) (y env o : Ref) : Prop := y = o ∨ ∃ s, v.HasObj y (.sym s) ∧ Binds v.mem s env o

/-- The call `form` of the macro in the value `op` is expanded, from the state `v` to the result `r` in the
state `w`. -/
inductive Expansion (W : World) (env : Ref) (r : Option Ref) (w : Vm) : Ref → Ref → Vm → List Event → Prop
  /-- what comes out does not look like a macro call (or `exit` took place): it is the result -/
  | value {op form v x z tr} : MacroCall W op form v (some x) z tr →
      (∀ y ys, z.HasVec x (y :: ys) → z.quit = true ∨ (∀ es, ¬ z.HasVec y es) ∧ ∀ o, Stays z y env o → ¬ Mac z o) →
      r = some x → Vm.Quiet W nobody z w → Expansion W env r w op form v tr
  /-- it is a macro call: it is expanded, too -/
  | again {op form v x z tr y ys o e tr'} : MacroCall W op form v (some x) z tr → z.quit = false → z.HasVec x (y :: ys) →
      Stays z y env o → Mac z o → e.form = y → e.env = env → e.result = some o → Vm.Quiet W nobody z e.post →
      Expansion W env r w o x e.post tr' → Expansion W env r w op form v (tr ++ e :: tr')
  /-- it begins with a vector: nothing is said -/
  | nested {op form v x z tr y ys es tr'} : MacroCall W op form v (some x) z tr → z.quit = false → z.HasVec x (y :: ys) →
      z.HasVec y es → Expansion W env r w op form v (tr ++ tr')

/-! ### the proofs -/

theorem wp_and {p : Prog α} {v : Vm} {Q R : α → Vm → List Event → Prop} (h1 : Wp W n h p v Q) (h2 : Wp W n h p v R) :
    Wp W n h p v fun a w t => Q a w t ∧ R a w t := fun a w t e => ⟨h1 a w t e, h2 a w t e⟩

theorem wp_evalImplGood (hL : L.Safe) {v : Vm} (sv : v.Sane W) (cv : v.Closed W nobody) {x env : Ref} {b : Bool} (ox : v.Old W x) (oe : v.Old W env) :
    Wp W n (handle W L n) (Prog.evalImpl L x env b) v fun a w _ => Vm.Good W nobody v w ∧ w.stack = v.stack ∧ PubOpt (w.Pub W nobody) a.1 := by
  intro a w t e
  have := run_sound (X := nobody) (n := n) (handler_sound hL n) (Prog.evalImpl L x env b) v v.stack [] (fun P a s' => s' = v.stack ∧ PubOpt P a.1) sv cv (by simp)
    (fun P hP => Prog.ok_evalImpl (hP x ⟨ox, id⟩) (hP env ⟨oe, id⟩) hL fun x hx => ⟨rfl, hx⟩)
  rw [show run W n (handler W (Prog.body L) n) (Prog.evalImpl L x env b) v = _ from e] at this
  obtain ⟨g, s', hs, rfl, ha⟩ := this
  exact ⟨g, by simpa using hs, ha⟩

theorem wp_applyMacro (hL : L.Safe) {v : Vm} {args env : Ref} {ts : List Ref} (k : Held W args ts env v) {value op : Ref} (po : v.Pub W (fun x => x = args) op)
    (ov : v.Old W value) (hm : ∀ f, v.IsFn op f → v.HasObj op (.mac f)) :
    Wp W n (handle W L n) (Prog.applyFn value op args true) v fun r w t => ∀ w', Ends w w' → MacroApply W op ts v r w' t := by
  have F : Fine W (handle W L n) := handler_fine hL n
  unfold Prog.applyFn
  refine wp_bind (wp_read fun c hc => wp_bind (wp_fnOf fun f hf => wp_bind (wp_alloc k.sane fun e w a => wp_bind (wp_push ?_))))
  simp only [List.nil_append]
  have hmac : v.HasObj op (.mac f) := hm f hf
  obtain ⟨pf, pb, pe⟩ := hf.pub k.closed po.2
  have g := (k.here (E := nobody)).alloc a ⟨by simp, fun x hx => by cases hx; exact pe⟩
  have g := g.push a.old
  have up : ∀ x, v.Pub W (fun x => x = args) x → ({ w with stack := e :: w.stack } : Vm).Pub W (fun x => x = args) x :=
    fun x hx => hx.mono (by show v.births ≤ w.births; rw [a.births]; omega)
  have k' : Held W args ts env { w with stack := e :: w.stack } := k.step g
  have ea : e ≠ args := fun h => a.fresh (h ▸ k.old)
  have names : ∀ fs names, ({ w with stack := e :: w.stack } : Vm).HasVec f.formals fs →
      ({ w with stack := e :: w.stack } : Vm).Names fs names → v.HasVec f.formals fs ∧ v.Names fs names := by
    intro fs names h1 h2
    have h1 := g.quiet.hasVec id pf.1 h1
    refine ⟨h1, ?_⟩
    obtain ⟨d, hd, ho⟩ := h1
    have := (k.closed.cells _ _ hd).obj
    rw [ho] at this
    clear hd ho h1
    unfold Vm.Names at h2 ⊢
    induction h2 with
    | nil => exact .nil
    | cons h _ ih =>
      exact .cons (g.quiet.hasObj id (this _ (by simp)) (by simp) h) (ih fun x hx => this x (List.mem_cons_of_mem _ hx))
  refine wp_bind (wp_extend k' g a.fresh ea a.cell rfl (up _ pf) ?_ ?_)
  · intro fs ns w1 h1 h2 g1 hx hs
    obtain ⟨h1, h2⟩ := names fs ns h1 h2
    refine wp_bind (wp_verifyVec fun _ _ _ _ => wp_bind (wp_call fun r u t e' => ?_))
    have ol : ∀ x, v.Old W x → w1.Old W x := fun x hx => hx.mono g1.quiet.births
    have oe : w1.Old W e := by
      cases hx with
      | plain _ _ _ h => obtain ⟨c, hc, _⟩ := h; exact g1.sane.old _ _ hc
      | rest _ _ _ _ _ _ h => obtain ⟨c, hc, _⟩ := h; exact g1.sane.old _ _ hc
    have hb := bodyLoop_spec hL n 0 none w1 g1.sane g1.open'.closed (ol _ po.1) oe r u t e'
    have sp := F.spec nobody (.bodyLoop op c.gen value e 0 none) w1 w1.stack g1.sane g1.open'.closed (by simp [Call.refs]; exact ⟨⟨ol _ po.1, id⟩, ⟨ol _ ov, id⟩, ⟨oe, id⟩⟩) rfl
    rw [e'] at sp
    obtain ⟨gd, hst, hr⟩ := sp
    simp only [if_true]
    refine wp_bind (wp_deref fun y hy => wp_bind (wp_push ?_))
    subst hy
    have oy : u.Old W y := (hr y rfl).1
    have gu : Vm.Step W nobody nobody u u := gd.step
    have gu := gu.push oy
    refine wp_bind (wps_eval F gu ⟨oy, id⟩ ⟨oe.mono gd.later.births, id⟩ fun x z gz hsz hpz => ?_)
    refine wp_bind (wp_pop fun s hs => wp_bind (wp_pure (wp_bind (wp_pop fun s hs => wp_bind (wp_pop fun s' hs' => wp_pure ?_)))))
    intro w' hw'
    simp only [List.nil_append, List.append_nil]
    refine ⟨f, fs, ns, hmac, h1, h2, .inr ⟨e, w1, y, u, t, ⟨y, e, _, x, z⟩, a.fresh, g1.quiet, hx.earlier ?_, hb, rfl, rfl, rfl, rfl, Ends.pop, Ends.pop.trans hw'⟩⟩
    show v.births ≤ w.births
    rw [a.births]; omega
  · intro fs ns r w1 h1 h2 hna g1 he hfr
    obtain ⟨h1, h2⟩ := names fs ns h1 h2
    refine wp_bind (wp_pop fun s hs => wp_bind (wp_pop fun s' hs' => wp_pure ?_))
    intro w' hw'
    have hw'' := (Ends.pop.trans Ends.pop).trans hw'
    refine ⟨f, fs, ns, hmac, h1, h2, .inl ⟨hna, rfl, g1.quiet.trans g1.sane0 hw''.quiet, r, rfl, ?_, hw''.isErr he⟩⟩
    exact fun hh => hfr (hh.mono (by show v.births ≤ w.births; rw [a.births]; omega))

theorem wp_callMacro (hL : L.Safe) {v0 v : Vm} (g : Vm.Step W nobody nobody v0 v) {form op env : Ref} {gen : Nat}
    (of : v.Old W form) (oe : v.Old W env) (oo : v.Old W op) (hb : v.births = v0.births) (hm : Mac v op) (hmem : v.mem = v0.mem) :
    Wp W n (handle W L n) (Prog.callFn form gen op env true true) v fun r w t => ∀ w', Ends w w' → MacroCall W op form v0 r w' t := by
  unfold Prog.callFn
  refine wp_bind (wp_alloc g.sane fun args w a => ?_)
  have gw := g.hide a (by intro x hx; cases hx)
  refine wp_bind (wp_push ?_)
  have gw := gw.push a.old
  simp only [List.nil_append]
  have hne : ∀ x, v.Old W x → x ≠ args := fun x hx e => a.fresh (e ▸ hx)
  have back : ∀ x c, v.Old W x → w.mem x = some c → v.mem x = some c := by
    intro x c hx hc
    rcases a.some hc with ⟨e, _⟩ | ⟨_, hc⟩
    · exact absurd e (hne x hx)
    · exact hc
  simp only [if_true]
  unfold Prog.payload
  refine wp_bind (wp_bind (wp_read fun c hc => ?_))
  have hc := back form c of hc
  simp only [List.nil_append]
  split
  case h_2 => exact wp_fail
  rename_i es ho
  split
  case isFalse => exact wp_fail
  refine wp_pure ?_
  simp only [List.nil_append]
  have htl : ∀ x ∈ es.tail, v.Old W x := by
    have := (g.closed.cells form c hc).obj
    rw [ho] at this
    exact fun x hx => this x (List.mem_of_mem_tail hx)
  have old1 : ∀ x, v.Old W x → w.Old W x := fun x hx => hx.mono (by rw [a.births]; omega)
  refine wp_bind (wp_appendAllExact es.tail (v := { w with stack := args :: w.stack }) (c := { obj := .vec [], uid := v.nextUid }) (pre := []) a.cell rfl (wp_bind (wp_pure ?_)))
  simp only [List.nil_append]
  have gw1 := gw.change (d := { obj := .vec es.tail, uid := v.nextUid }) (r := args) rfl
    (.inr fun hh => a.fresh (hh.mono g.quiet.births)) a.cell rfl rfl
    ⟨fun x hx => old1 x (htl x hx), Prog.pubOpt_none, Prog.pubOpt_none⟩
  have k : Held W args es.tail env _ := ⟨gw1.sane, gw1.closed, .inl ⟨_, Mem.set_self .., rfl⟩, ⟨old1 _ oe, hne _ oe⟩, fun x hx => ⟨old1 x (htl x hx), hne x (htl x hx)⟩⟩
  have hmac : ∀ f, ({ w with stack := args :: w.stack, mem := w.mem.set args { obj := .vec es.tail, uid := v.nextUid } } : Vm).IsFn op f →
      ({ w with stack := args :: w.stack, mem := w.mem.set args { obj := .vec es.tail, uid := v.nextUid } } : Vm).HasObj op (.mac f) := by
    intro f hf
    rcases hf with ⟨c', hc', ho'⟩ | hf
    · obtain ⟨f', hm⟩ := hm
      have hc' : w.mem.set args { obj := .vec es.tail, uid := v.nextUid } op = some c' := hc'
      rw [Mem.set_other _ _ (hne _ oo)] at hc'
      cases hm.unique ⟨c', back _ _ oo hc', ho'⟩
    · exact hf
  refine Wp.mono (wp_applyMacro hL k ⟨old1 _ oo, hne _ oo⟩ (old1 _ of) hmac) fun r w1 t1 hr w' hw' => ?_
  exact ⟨es, _, ⟨c, by rw [← hmem]; exact hc, ho⟩, gw1.quiet, hr w' hw'⟩

/-- evaluating a call whose operator may be a macro -/
theorem wp_evalImplMacro (hL : L.Safe) {v : Vm} (sv : v.Sane W) (cv : v.Closed W nobody) (hq : v.quit = false)
    {form env first : Ref} {rest : List Ref} {b : Bool} (hf : v.HasVec form (first :: rest)) (of : v.Old W form) (oe : v.Old W env) :
    Wp W n (handle W L n) (Prog.evalImpl L form env b) v fun x w t => ∃ e0 t', t = e0 :: t' ∧ Opens W v first env e0 ∧
      (∃ tr, Evaluates W L e0.pre e0.form e0.env e0.result e0.post tr) ∧
      ∀ op, e0.result = some op → Mac e0.post op → x.2 = true ∧ MacroCall W op form e0.post x.1 w t' := by
  have F : Fine W (handle W L n) := handler_fine hL n
  unfold Prog.evalImpl
  refine wp_bind (wp_isQuit ?_)
  rw [hq]
  simp only [List.nil_append]
  refine wp_bind (wp_verifyEnv fun _ => ?_)
  refine wp_bind (wp_push (wp_bind (wp_push ?_)))
  simp only [List.nil_append]
  have g0 : Vm.Step W nobody nobody v v := .refl sv cv
  have g1 := (g0.push of).push (r := env) oe
  refine wp_bind (wp_read fun c hc => ?_)
  obtain ⟨c', hc', ho'⟩ := hf
  obtain rfl := same_cell (m := v.mem) hc hc'
  rw [ho']
  simp only [List.nil_append]
  have of1 : v.Old W first := by
    have := (cv.cells form c hc').obj
    rw [ho'] at this
    exact this first (by simp)
  refine wp_bind (wp_call fun a post t e => ?_)
  have sp := F.spec nobody (.eval first env) _ (env :: form :: v.stack) g1.sane g1.closed (by simp [Call.refs]; exact ⟨⟨of1, id⟩, ⟨oe, id⟩⟩) rfl
  rw [e] at sp
  obtain ⟨gd, hst, ha⟩ := sp
  obtain rfl := F.eval _ _ _ _ _ _ e
  have hev := handler_events (W := W) (L := L) n _ _ _ _ _ e ⟨first, env, { v with stack := env :: form :: v.stack }, a, post⟩ (List.mem_singleton.mpr rfl)
  have hopen : Opens W v first env ⟨first, env, { v with stack := env :: form :: v.stack }, a, post⟩ := ⟨rfl, rfl, rfl, rfl, g1, gd⟩
  have skip : ∀ (p : Prog (Option Ref × Bool)) (u : Vm), (∀ op, a = some op → ¬ Mac post op) → Wp W n (handle W L n) p u fun x w t =>
      ∃ e0 t', [⟨first, env, { v with stack := env :: form :: v.stack }, a, post⟩] ++ t = e0 :: t' ∧ Opens W v first env e0 ∧
      (∃ tr, Evaluates W L e0.pre e0.form e0.env e0.result e0.post tr) ∧
      ∀ op, e0.result = some op → Mac e0.post op → x.2 = true ∧ MacroCall W op form e0.post x.1 w t' := by
    intro p u hno x w t _
    exact ⟨_, t, rfl, hopen, hev, fun op h1 h2 => absurd h2 (hno op h1)⟩
  cases a with
  | none => exact skip _ _ fun op h => by cases h
  | some op =>
    simp only
    unfold Prog.evalCall
    have oo : post.Old W op := (ha op rfl).1
    have gp : Vm.Step W nobody nobody post post := gd.step
    refine wp_bind (wp_push (wp_bind (wp_read fun d hd => ?_)))
    have hd : post.mem op = some d := hd
    by_cases hm : ∃ f, d.obj = .mac f
    · obtain ⟨f, hm⟩ := hm
      rw [hm]
      simp only [List.nil_append]
      have up : ∀ x, v.Old W x → post.Old W x := fun x hx => (hx.mono g1.quiet.births).mono gd.later.births
      refine wp_bind (Wp.mono (wp_callMacro hL (gp.push oo) (up _ of) (up _ oe) oo rfl ⟨f, d, hd, hm⟩ rfl) fun r w t hr => wp_bind (wp_pure ?_))
      refine wp_bind (wp_pop fun s hs => wp_bind (wp_pop fun s' hs' => wp_bind (wp_pop fun s'' hs'' => wp_pure ?_)))
      simp only [List.nil_append, List.append_nil]
      refine ⟨_, t, rfl, hopen, hev, fun op' h1 _ => ?_⟩
      cases h1
      exact ⟨trivial, hr _ Ends.pop⟩
    · refine skip _ _ fun op' h => ?_
      cases h
      rintro ⟨f, d', hd', ho'⟩
      obtain rfl := same_cell hd hd'
      exact hm ⟨f, ho'⟩

/-- what the evaluation of the first element `y` tells, if it is not a vector -/
def Checked (W : World) (v : Vm) (y env : Ref) (x : Option Ref) (u : Vm) (t : List Event) : Prop :=
  (v.quit = false ∧ ∃ es, v.HasVec y es) ∨
    (t = [] ∧ Vm.Quiet W nobody v u ∧ ((∃ o, x = some o ∧ v.quit = false ∧ Stays v y env o ∧ Mac v o ∧ u.mem = v.mem) ∨
      ((v.quit = true ∨ (∀ es, ¬ v.HasVec y es) ∧ ∀ o, Stays v y env o → ¬ Mac v o) ∧ ∀ o, x = some o → ¬ Mac u o)))

theorem wp_evalImplCheck {v : Vm} (sv : v.Sane W) (cv : v.Closed W nobody) {y env : Ref} (oy : v.Old W y) (oe : v.Old W env) :
    Wp W n (handle W L n) (Prog.evalImpl L y env true) v fun x u t => Checked W v y env x.1 u t := by
  have g0 : Vm.Step W nobody nobody v v := .refl sv cv
  unfold Prog.evalImpl
  refine wp_bind (wp_isQuit ?_)
  cases hq : v.quit with
  | true =>
    simp only [if_true]
    refine wp_bind (wp_alloc sv fun o w a => wp_pure ?_)
    have g := g0.alloc a trivial
    refine .inr ⟨rfl, g.quiet, .inr ⟨.inl hq, ?_⟩⟩
    rintro o' ho ⟨f, c, hc, hco⟩
    cases ho
    rw [a.cell] at hc; cases hc; cases hco
  | false =>
    simp only [Bool.false_eq_true, if_false]
    refine wp_bind (wp_verifyEnv fun _ => ?_)
    refine wp_bind (wp_push (wp_bind (wp_push ?_)))
    simp only [List.nil_append]
    have g1 := (g0.push oy).push (r := env) oe
    refine wp_bind (wp_read fun c hc => ?_)
    have hc : v.mem y = some c := hc
    simp only [List.nil_append]
    have herr : ∀ {v2 w : Vm} {x : Ref} {d : Cell} {m : Text} {l : Nat}, Vm.Step W nobody nobody v v2 → Vm.Step W nobody nobody v w →
        w.mem x = some d → d.obj = .err m l → ¬ v2.Old W x → (∀ es, c.obj ≠ .vec es) →
        (∀ s o, c.obj = .sym s → ¬ Binds v.mem s env o) → (∀ f, c.obj ≠ .mac f) →
        Wp W n (handle W L n) (Prog.leave y env (some x) true) w fun x u t => Checked W v y env x.1 u t := by
      intro v2 w x d m l g2 g hx hd fresh hnv hns hnm
      unfold Prog.leave
      refine wp_bind (wp_pop fun s hs => wp_bind (wp_pop fun s' hs' => wp_pure ?_))
      refine .inr ⟨rfl, ((g.pop hs).pop hs').quiet, .inr ⟨.inr ⟨?_, ?_⟩, ?_⟩⟩
      · rintro es ⟨d, hd, hdo⟩
        obtain rfl := same_cell hc hd
        exact hnv _ hdo
      · rintro o (rfl | ⟨s, ⟨d, hd, hdo⟩, hb⟩) ⟨f, d', hd', hdo'⟩
        · obtain rfl := same_cell hc hd'
          exact hnm _ hdo'
        · obtain rfl := same_cell hc hd
          exact absurd hb (hns _ _ hdo)
      · rintro o ho ⟨f, d', hd', hdo'⟩
        cases ho
        have hd' : w.mem x = some d' := hd'
        rw [hx] at hd'; cases hd'
        rw [hd] at hdo'; cases hdo'
    have hself : (∀ es, c.obj ≠ .vec es) → (∀ s, c.obj ≠ .sym s) →
        Wp W n (handle W L n) (Prog.leave y env (some y) true) { v with stack := env :: y :: v.stack } fun x u t => Checked W v y env x.1 u t := by
      intro hnv hns
      unfold Prog.leave
      refine wp_bind (wp_pop fun s hs => wp_bind (wp_pop fun s' hs' => wp_pure ?_))
      have nv : ∀ es, ¬ v.HasVec y es := by
        rintro es ⟨d, hd, hdo⟩
        obtain rfl := same_cell hc hd
        exact hnv _ hdo
      refine .inr ⟨rfl, Ends.pop.quiet, ?_⟩
      by_cases hm : Mac v y
      · exact .inl ⟨y, rfl, hq, .inl rfl, hm, rfl⟩
      · refine .inr ⟨.inr ⟨nv, ?_⟩, fun o ho h => ?_⟩
        · rintro o (rfl | ⟨s, ⟨d, hd, hdo⟩, hb⟩)
          · exact hm
          · obtain rfl := same_cell hc hd
            exact absurd hdo (hns _)
        · cases ho; exact hm h
    cases ho : c.obj
    case vec es => exact fun x u t _ => .inl ⟨hq, es, c, hc, ho⟩
    case sym s =>
      unfold Prog.evalSymbol
      refine wp_bind (wp_bind (wp_call fun a w t e => ?_))
      obtain ⟨rfl, rfl, hr⟩ := lookup_spec _ _ _ _ _ _ e
      have nv : ∀ es, ¬ v.HasVec y es := by
        rintro es ⟨d, hd, hdo⟩
        obtain rfl := same_cell hc hd
        rw [ho] at hdo; cases hdo
      cases a with
      | some o =>
        unfold Prog.leave
        refine wp_pure (wp_bind (wp_pop fun s1 hs => wp_bind (wp_pop fun s' hs' => wp_pure ?_)))
        refine .inr ⟨rfl, Ends.pop.quiet, ?_⟩
        by_cases hm : Mac v o
        · exact .inl ⟨o, rfl, hq, .inr ⟨s, ⟨c, hc, ho⟩, hr⟩, hm, rfl⟩
        · refine .inr ⟨.inr ⟨nv, ?_⟩, fun o ho h => ?_⟩
          · rintro o' (rfl | ⟨s, ⟨d, hd, hdo⟩, hb⟩)
            · rintro ⟨f, d', hd', hdo'⟩
              obtain rfl := same_cell hc hd'
              rw [ho] at hdo'; cases hdo'
            · obtain rfl := same_cell hc hd
              rw [ho] at hdo; cases hdo
              obtain rfl := Binds.unique hr hb
              exact hm
          · cases ho; exact hm h
      | none =>
        refine wps_error g1 fun x w t g hp hx fresh => ?_
        exact herr g1 g hx rfl fresh (by simp [ho]) (fun s' o hs hb => by
          rw [ho] at hs; cases hs; exact absurd hr hb.not_unbound) (by simp [ho])
    all_goals first
      | exact hself (by simp [ho]) (by simp [ho])
      | (refine wp_bind (wps_error g1 fun x w t g hp hx fresh => ?_); exact herr g1 g hx rfl fresh (by simp [ho]) (by simp [ho]) (by simp [ho]))

/-- a macro evaluates to itself -/
theorem evaluates_macro_aux {v w : Vm} (hq : v.quit = false) {x env : Ref} (hx : Mac v x)
    {r : Option Ref} {tr : List Event} (ev : Evaluates W L v x env r w tr) : r = some x ∧ w.mem = v.mem ∧ Ends v w := by
  obtain ⟨n, e⟩ := ev
  have : Wp W n (handle W L n) (Prog.evalTurn L x env false) v fun r w _ => r = some x ∧ w.mem = v.mem ∧ Ends v w := by
    unfold Prog.evalTurn Prog.evalImpl
    refine wp_bind (wp_bind (wp_isQuit ?_))
    rw [hq]
    simp only [List.nil_append]
    refine wp_bind (wp_verifyEnv fun _ => ?_)
    refine wp_bind (wp_push (wp_bind (wp_push ?_)))
    refine wp_bind (wp_read fun c hc => ?_)
    obtain ⟨f, c', hc', ho'⟩ := hx
    obtain rfl := same_cell (m := v.mem) hc' hc
    rw [ho']
    simp only [List.nil_append]
    unfold Prog.leave
    refine wp_bind (wp_pop fun s hs => wp_bind (wp_pop fun s' hs' => wp_pure ?_))
    simp only [List.nil_append, if_true]
    exact wp_pure ⟨rfl, rfl, Ends.pop⟩
  exact this _ _ _ e

theorem stays_same {v w : Vm} (hm : w.mem = v.mem) {y env o : Ref} (hs : Stays v y env o) : Stays w y env o :=
  hs.imp id fun ⟨s, ⟨c, hc, ho⟩, hb⟩ => ⟨s, ⟨c, by rw [hm]; exact hc, ho⟩, by rw [hm]; exact hb⟩

theorem mac_same {v w : Vm} (hm : w.mem = v.mem) {o : Ref} : Mac v o → Mac w o := fun ⟨f, c, hc, ho⟩ => ⟨f, c, by rw [hm]; exact hc, ho⟩

theorem c59_head_aux {v : Vm} (sv : v.Sane W) (cv : v.Closed W nobody) (hq : v.quit = false) {y env o : Ref} (oy : v.Old W y) (oe : v.Old W env)
    (hs : Stays v y env o) (hm : Mac v o) {e0 : Event} (ho : Opens W v y env e0) {t : List Event}
    (ev : Evaluates W L e0.pre e0.form e0.env e0.result e0.post t) : e0.result = some o ∧ Vm.Quiet W nobody v e0.post ∧ Mac e0.post o := by
  rcases hs with rfl | ⟨s, hy, hb⟩
  · have hmp := mac_same ho.same hm
    rw [ho.form] at ev
    obtain ⟨h1, h2, h3⟩ := evaluates_macro_aux (ho.step.quiet.quit.trans hq) hmp ev
    exact ⟨h1, ho.step.quiet.trans sv h3.quiet, mac_same h2 hmp⟩
  · have hn := Opens.named sv cv (op := o) (form := y) hq hy hb oy oe ho ho.births ev
    refine ⟨hn.result, by rw [hn.post]; exact hn.step.quiet, mac_same (by rw [hn.post, hn.same]) hm⟩

/-- what evaluating the call `form`, as it is in the state `v`, does, if the operator is a macro -/
def MacroTurn (W : World) (L : Library) (v : Vm) (form first env : Ref) (r : Option Ref) (w : Vm) (tr : List Event) : Prop :=
  ∃ e0 tr', tr = e0 :: tr' ∧ Opens W v first env e0 ∧ (∃ t, Evaluates W L e0.pre e0.form e0.env e0.result e0.post t) ∧
    ∀ op, e0.result = some op → Mac e0.post op → Expansion W env r w op form e0.post tr'

theorem c59_turn_aux (hL : L.Safe) {env : Ref} (rec : ∀ {v : Vm} {form first : Ref} {rest : List Ref} {r : Option Ref} {w : Vm} {t : List Event},
      v.Sane W → v.Closed W nobody → v.quit = false → v.HasVec form (first :: rest) → v.Old W form → v.Old W env →
      handle W L n (.again form env) v = .ok (r, w, t) → MacroTurn W L v form first env r w t)
    {v : Vm} {b : Bool} {form first : Ref} {rest : List Ref} (sv : v.Sane W) (cv : v.Closed W nobody) (hq : v.quit = false)
    (hf : v.HasVec form (first :: rest)) (of : v.Old W form) (oe : v.Old W env) :
    Wp W n (handle W L n) (Prog.evalTurn L form env b) v (MacroTurn W L v form first env) := by
  unfold Prog.evalTurn
  refine wp_bind (Wp.mono (wp_and (wp_evalImplMacro hL sv cv hq hf of oe) (wp_evalImplGood hL sv cv of oe)) ?_)
  rintro ⟨x, b'⟩ z t ⟨⟨e0, t', rfl, ho, hev, hm⟩, gz, hst, px⟩
  by_cases hmac : ∃ op, e0.result = some op ∧ Mac e0.post op
  · obtain ⟨op, h1, h2⟩ := hmac
    obtain ⟨h3, h4⟩ := hm op h1 h2
    cases h3
    suffices H : Wp W n (handle W L n) _ z fun r w tr => Expansion W env r w op form e0.post (t' ++ tr) from
      Wp.mono H fun r w tr h => ⟨e0, t' ++ tr, rfl, ho, hev, fun op' h1' h2' => by
        rw [h1] at h1'; cases h1'; exact h⟩
    simp only [Bool.true_eq_false, if_false]
    refine wp_bind (wp_deref fun r hr => wp_bind (wp_read fun c hc => ?_))
    have hr : x = some r := hr
    subst hr
    simp only [List.nil_append]
    have oe' := oe.mono gz.later.births
    have ox : z.Old W r := (px r rfl).1
    split
    · rename_i y ys hco
      have hx : z.HasVec r (y :: ys) := ⟨c, hc, hco⟩
      have oy : z.Old W y := by
        have := (gz.closed.cells _ _ hc).obj
        rw [hco] at this
        exact this y (by simp)
      have g0 : Vm.Step W nobody nobody z z := gz.step
      have g1 := g0.push ox
      refine wp_bind (wp_push (wp_bind (Wp.mono (wp_and (wp_evalImplCheck (L := L) g1.sane g1.closed oy oe') (wp_evalImplGood hL g1.sane g1.closed oy oe')) ?_)))
      rintro ⟨o, b''⟩ u t2 ⟨hch, gu, hsu, pu⟩
      simp only [List.nil_append]
      rcases hch with ⟨hqz, es, hes⟩ | ⟨rfl, hqt, hch⟩
      · exact fun r' w' tr _ => .nested h4 hqz hx hes
      simp only [List.nil_append]
      refine wp_bind (wp_require fun o' ho' => wp_bind (wp_pop fun s hs => wp_bind (wp_read fun d hd => ?_)))
      have ho' : o = some o' := ho'
      subst ho'
      simp only [List.nil_append]
      have hd : u.mem o' = some d := hd
      have gs : Vm.Step W nobody nobody z { u with stack := s } := (Vm.Step.pop (v := u) (s := s) ⟨gz.sane, gu.sane, gu.closed, g1.quiet.trans gz.sane hqt⟩ hs)
      split
      · rename_i f hdo
        rcases hch with ⟨_, ho, hqz, hst, hmz, hmem⟩ | ⟨_, hno⟩
        · cases ho
          refine wp_call fun r' w' tr e => ?_
          have hv : ({ u with stack := s } : Vm).HasVec r (y :: ys) := ⟨c, by show u.mem r = _; rw [hmem]; exact hc, hco⟩
          have hqs : ({ u with stack := s } : Vm).quit = false := hqt.quit.trans hqz
          have hms : ({ u with stack := s } : Vm).mem = z.mem := hmem
          have ob := gs.quiet.births
          obtain ⟨e1, tr1, rfl, o1, ⟨t1, ev1⟩, hexp⟩ := rec gs.sane gs.closed hqs hv (ox.mono ob) (oe'.mono ob) e
          obtain ⟨i1, i2, i3⟩ := c59_head_aux gs.sane gs.closed hqs (oy.mono ob) (oe'.mono ob) (stays_same hms hst) (mac_same hms hmz) o1 ev1
          exact .again h4 hqz hx hst hmz o1.form o1.env i1 (gs.quiet.trans gs.sane0 i2) (hexp _ i1 i3)
        · exact absurd ⟨f, d, hd, hdo⟩ (hno _ rfl)
      · rename_i hno
        refine wp_pure (.value (x := r) (z := z) (by simpa using h4) ?_ rfl gs.quiet)
        intro y' ys' hx'
        cases Vm.HasObj.unique (o := .vec _) (o' := .vec _) hx hx'
        rcases hch with ⟨_, ho, hqz, hst, ⟨f, d', hd', hdo'⟩, hmem⟩ | ⟨h, _⟩
        · cases ho
          rw [hmem] at hd
          obtain rfl := same_cell (m := z.mem) hd hd'
          exact absurd hdo' (hno _)
        · exact h
    · rename_i hno
      refine wp_pure (.value (x := r) (z := z) (by simpa using h4) ?_ rfl (.refl z))
      rintro y ys ⟨d, hd, hdo⟩
      obtain rfl := same_cell hc hd
      exact absurd hdo (hno _ _)
  · intro r w tr _
    exact ⟨e0, t' ++ tr, rfl, ho, hev, fun op h1 h2 => absurd ⟨op, h1, h2⟩ hmac⟩

theorem c59_again_aux (hL : L.Safe) {env : Ref} : ∀ n {v : Vm} {form first : Ref} {rest : List Ref} {r : Option Ref} {w : Vm} {t : List Event},
      v.Sane W → v.Closed W nobody → v.quit = false → v.HasVec form (first :: rest) → v.Old W form → v.Old W env →
      handle W L n (.again form env) v = .ok (r, w, t) → MacroTurn W L v form first env r w t := by
  intro n
  induction n with
  | zero => intro v form first rest r w t _ _ _ _ _ _ e; cases e
  | succ n ih =>
    intro v form first rest r w t sv cv hq hf of oe e
    exact c59_turn_aux hL ih sv cv hq hf of oe _ _ _ (handle_succ (by simp) e)

/-! ### the theorems -/

/-- The operator being given by any form: it is evaluated first (`e0`), and if its value is a macro, the call
is expanded. -/
theorem c59_operator_partial (hL : L.Safe) {v w : Vm} (rv : v.Reached W L) {form env first : Ref} {rest : List Ref}
    (hq : v.quit = false) (hf : v.HasVec form (first :: rest)) (of : v.Old W form) (oe : v.Old W env)
    {r : Option Ref} {tr : List Event} (ev : Evaluates W L v form env r w tr) :
    ∃ e0 tr', tr = e0 :: tr' ∧ e0.form = first ∧ e0.env = env ∧ e0.pre.mem = v.mem ∧ Vm.Quiet W nobody v e0.pre ∧
      ∀ op, e0.result = some op → Mac e0.post op → Expansion W env r w op form e0.post tr' := by
  obtain ⟨sv, cv⟩ := rv.good hL
  obtain ⟨n, e⟩ := ev
  obtain ⟨e0, tr', rfl, o, _, hx⟩ := c59_turn_aux hL (c59_again_aux hL n) sv cv hq hf of oe _ _ _ e
  exact ⟨e0, tr', rfl, o.form, o.env, o.same, o.step.quiet, hx⟩

/-- a macro, called by name -/
theorem c59_call_partial (hL : L.Safe) {v w : Vm} (rv : v.Reached W L) {form env op : Ref} {name : Text} {xs : List Ref}
    (nc : NamedCall W v form env name op xs) (hop : Mac v op)
    {r : Option Ref} {tr : List Event} (ev : Evaluates W L v form env r w tr) :
    NamedOpCall W (fun u r w tr' => Expansion W env r w op form u tr') v env op r w tr := by
  obtain ⟨sv, cv⟩ := rv.good hL
  obtain ⟨n, e⟩ := ev
  obtain ⟨first, hform, hfirst⟩ := nc.called
  obtain ⟨e0, tr', rfl, o, ⟨t, ev0⟩, hx⟩ := c59_turn_aux hL (c59_again_aux hL n) sv cv nc.running hform nc.oldForm nc.oldEnv _ _ _ e
  obtain ⟨c, hc, ho⟩ := hform
  have of : v.Old W first := by
    have := (cv.cells _ _ hc).obj
    rw [ho] at this
    exact this first (by simp)
  have hn := Opens.named sv cv (op := op) (form := form) nc.running hfirst nc.binds of nc.oldEnv o o.births ev0
  have m : e0.post.mem = v.mem := by rw [hn.post, hn.same]
  exact ⟨e0, tr', rfl, hn.env, hn.result, hn.post, m, by rw [hn.post, hn.births], by rw [hn.post]; exact hn.step.quiet,
    hx op hn.result (mac_same m hop)⟩

/-- `macro`, called by name: see C26 -/
theorem c59_made (hL : L.Safe) {v w : Vm} (rv : v.Reached W L) {form env op : Ref} {name : Text} {xs : List Ref}
    (nc : NamedCall W v form env name op xs) (hop : v.HasObj op (.special .macro)) (hargs : ∀ x ∈ xs, ¬ v.IsErr x)
    {r : Option Ref} {tr : List Event} (ev : Evaluates W L v form env r w tr) : NamedFormCall W (CallableMade .mac W) v xs env op r w tr :=
  namedFormCall_aux hL (fun _ _ _ _ _ _ _ _ k g h1 h2 h3 => c26_fn_aux (.inr rfl) k g h1 h2 h3) rv nc hop hargs ev

/-- `macro`, the operator being given by any form -/
theorem c59_made_operator (hL : L.Safe) {v w : Vm} (rv : v.Reached W L) {form env first : Ref} {rest : List Ref}
    (hq : v.quit = false) (hf : v.HasVec form (first :: rest)) (of : v.Old W form) (oe : v.Old W env)
    {r : Option Ref} {tr : List Event} (ev : Evaluates W L v form env r w tr) :
    FormCall W .macro (CallableMade .mac W) v form first env r w tr :=
  formCall_aux hL (fun _ _ _ _ _ _ _ _ k g h1 h2 h3 => c26_fn_aux (.inr rfl) k g h1 h2 h3) rv hq hf of oe ev

/-! ### Examples -/

def kit14 : List (String × Obj × Bool) := [("macro", .special .macro, false), ("quote", .special .quote, true), ("+", .builtin .plus, true),
  ("define", .special .define, true)]

theorem kit14_plain : ∀ x ∈ kit14, x.2.1.children = [] := by decide

/-- the macro with a name -/
def macroAt (v : Vm) (name : String) : FnData :=
  match objAt v (some v.globalEnv) with
  | some (.env bs _) =>
    match bs.find? (fun b => b.name = txt name) with
    | some b => match objAt v (some b.val) with | some (.mac f) => f | _ => ⟨[], [], 0, 0, 0, false⟩
    | none => ⟨[], [], 0, 0, 0, false⟩
  | _ => ⟨[], [], 0, 0, 0, false⟩

/-- `(define name as (macro (x) body) "d" '(x "d") howto-no)` -/
def defMacro (name : String) (body : Form) : Form :=
  .vec [.sym "define", .sym name, .sym "as", .vec [.sym "macro", .vec [.sym "x"], body], .str "d",
    .vec [.sym "quote", .vec [.sym "x", .str "d"]], .sym "howto-no"]

theorem macro_example_aux {forms : List Form} {last : Form} {fuel : Nat} {P : Vm → Ref → Option Ref → Vm → List Event → Bool}
    (hk : stageCheck kit14 forms last fuel (fun v f r w tr => namedCheck v f "m" (.mac (macroAt v "m")) && P v f r w tr) = true) :
    ∃ (v w : Vm) (form op : Ref) (xs : List Ref) (r : Option Ref) (tr : List Event), v.Reached world library ∧
      NamedCall world v form v.globalEnv (txt "m") op xs ∧ Mac v op ∧ Evaluates world library v form v.globalEnv r w tr ∧ P v form r w tr = true := by
  obtain ⟨v, form, r, w, tr, hr, of, oe, ev, h⟩ := stage_exists kit14_plain hk
  simp only [Bool.and_eq_true] at h
  obtain ⟨op, xs, h1, h2, h3⟩ := named_of_check h.1 of oe
  exact ⟨v, w, form, op, xs, r, tr, hr, h1, ⟨_, h2⟩, ev, h.2⟩

/-- with `(define m as (macro (x) (quote (+ 1 2))) …)`, `(m nope)` is 3: the argument is not evaluated -/
example : ∃ (v w : Vm) (form op : Ref) (xs : List Ref) (r : Option Ref) (tr : List Event), v.Reached world library ∧
    NamedCall world v form v.globalEnv (txt "m") op xs ∧ Mac v op ∧ Evaluates world library v form v.globalEnv r w tr ∧
      decide (objAt w r = some (.int 3) ∧ tr.length = 3) = true :=
  macro_example_aux (fuel := 80) (forms := [defMacro "m" (.vec [.sym "quote", .vec [.sym "+", .int 1, .int 2]])])
    (last := .vec [.sym "m", .sym "nope"]) (by decide +kernel)

/-- with `(define m as (macro (x) x) …)`, `(m (+ 1 2))` is 3 -/
example : ∃ (v w : Vm) (form op : Ref) (xs : List Ref) (r : Option Ref) (tr : List Event), v.Reached world library ∧
    NamedCall world v form v.globalEnv (txt "m") op xs ∧ Mac v op ∧ Evaluates world library v form v.globalEnv r w tr ∧
      decide (objAt w r = some (.int 3)) = true :=
  macro_example_aux (fuel := 80) (forms := [defMacro "m" (.sym "x")])
    (last := .vec [.sym "m", .vec [.sym "+", .int 1, .int 2]]) (by decide +kernel)

/-- with `(define m as (macro (x) (quote x)) …)`, `(m (+ 1 2))` is the vector `(+ 1 2)`: the value of the body,
the symbol `x`, is evaluated in the environment of the body -/
example : ∃ (v w : Vm) (form op : Ref) (xs : List Ref) (r : Option Ref) (tr : List Event), v.Reached world library ∧
    NamedCall world v form v.globalEnv (txt "m") op xs ∧ Mac v op ∧ Evaluates world library v form v.globalEnv r w tr ∧
      decide (partsAt w r = [some (.sym (txt "+")), some (.int 1), some (.int 2)]) = true :=
  macro_example_aux (fuel := 80) (forms := [defMacro "m" (.vec [.sym "quote", .sym "x"])])
    (last := .vec [.sym "m", .vec [.sym "+", .int 1, .int 2]]) (by decide +kernel)

/-- an expansion that is a macro call is expanded, too: with `(define k as (macro (x) x) …)` and
`(define m as (macro (x) (quote (quote (k 7)))) …)`, `(m 1)` is 7 -/
example : ∃ (v w : Vm) (form op : Ref) (xs : List Ref) (r : Option Ref) (tr : List Event), v.Reached world library ∧
    NamedCall world v form v.globalEnv (txt "m") op xs ∧ Mac v op ∧ Evaluates world library v form v.globalEnv r w tr ∧
      decide (objAt w r = some (.int 7) ∧ tr.length = 6) = true :=
  macro_example_aux (fuel := 90) (forms := [defMacro "k" (.sym "x"), defMacro "m" (.vec [.sym "quote", .vec [.sym "quote", .vec [.sym "k", .int 7]]])])
    (last := .vec [.sym "m", .int 1]) (by decide +kernel)

/-- too many arguments -/
example : ∃ (v w : Vm) (form op : Ref) (xs : List Ref) (r : Option Ref) (tr : List Event), v.Reached world library ∧
    NamedCall world v form v.globalEnv (txt "m") op xs ∧ Mac v op ∧ Evaluates world library v form v.globalEnv r w tr ∧
      (match objAt w r with | some (.err _ _) => true | _ => false) = true :=
  macro_example_aux (fuel := 80) (forms := [defMacro "m" (.sym "x")])
    (last := .vec [.sym "m", .int 1, .int 2]) (by decide +kernel)

/-- `(macro (x) x)` makes a macro -/
example : ∃ (v w : Vm) (form op : Ref) (xs : List Ref) (r : Option Ref) (tr : List Event), v.Reached world library ∧
    NamedCall world v form v.globalEnv (txt "macro") op xs ∧ v.HasObj op (.special .macro) ∧ (∀ x ∈ xs, ¬ v.IsErr x) ∧
    Evaluates world library v form v.globalEnv r w tr ∧ (match objAt w r with | some (.mac _) => true | _ => false) = true := by
  obtain ⟨v, form, r, w, tr, hr, of, oe, ev, h⟩ := stage_exists (table := kit14) (forms := []) (fuel := 40)
    (last := .vec [.sym "macro", .vec [.sym "x"], .sym "x"])
    (P := fun v f r w tr => namedCheck v f "macro" (.special .macro) && (match objAt w r with | some (.mac _) => true | _ => false))
    kit14_plain (by decide +kernel)
  simp only [Bool.and_eq_true] at h
  obtain ⟨op, xs, h1, h2, h3⟩ := named_of_check h.1 of oe
  exact ⟨v, w, form, op, xs, r, tr, hr, h1, h2, h3, ev, h.2⟩

end Dern.Props
