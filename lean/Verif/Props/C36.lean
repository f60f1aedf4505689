import Verif.Dern.ReadLemmas
import Verif.Props.BuiltinCalling
/-
C36: the forms of a text are evaluated in order, until the first error.

`Reads W L ct v t r w tr`: reading the text `t` and evaluating what is read, from the state `v`, ends with the
result `r` in the state `w`; `tr` are the evaluations of the forms, in order.

The forms are those of the parser (`parse`, whose relation to texts is C05 to C08); `ShowsIn m P x tree` says that the
value `x` is the tree, made of values in `P`.

Not covered: what follows once a program has changed one of the constants nil, true and false (`Session.spoilt`): then
these words in the text do not mean what they say.  That takes a symbol made at run time, as in
`(= (eval (+ 'ni 'l)) 1)`, because the words themselves stand for copies.
-/
namespace Dern.Props
open Dern
open Dern.Prog (Library)
variable {W : World} {L : Library}

/-- How reading the text `t` (the end of `whole`) goes on from the state `v`, if `last` is the result of the form
before: it ends with the result `r` in the state `w`, and `tr` are the evaluations made. -/
inductive Session (W : World) (ct : Ctype) (whole : Text) (r : Option Ref) (w : Vm) : Option Ref → Vm → Text → List Event → Prop
  /-- at the end of the text the result is that of the last form -/
  | finished {last : Option Ref} {v : Vm} : Vm.Quiet W nobody v w → w.mem = v.mem → r = last → Session W ct whole r w last v [] []
  /-- no form is left -/
  | blank {last : Option Ref} {v : Vm} {t rest : Text} : t ≠ [] → v.quit = false → Intact v → parse ct t = (.null, rest) →
      Vm.Quiet W nobody v w → (∀ x, last = some x → w.mem x = v.mem x) → r = last → Session W ct whole r w last v t []
  /-- the next form is made and evaluated in the global environment; its value is no error; so it goes on -/
  | form {last : Option Ref} {v : Vm} {t rest : Text} {tree : Tree} {e : Event} {tr : List Event} {x : Ref} :
      t ≠ [] → v.quit = false → Intact v → parse ct t = (.val tree, rest) →
      Vm.Quiet W nobody v e.pre → ShowsIn e.pre.mem (Vm.New W v e.pre) e.form tree → e.env = v.globalEnv →
      e.result = some x → ¬ e.post.IsErr x → e.post.globalEnv = v.globalEnv → Session W ct whole r w (some x) e.post rest tr →
      Session W ct whole r w last v t (e :: tr)
  /-- the value of the next form is an error: nothing more is read; the error is the result and gets the line number -/
  | failed {last : Option Ref} {v : Vm} {t rest : Text} {tree : Tree} {e : Event} {x : Ref} {m : Text} {l : Nat} :
      t ≠ [] → v.quit = false → Intact v → parse ct t = (.val tree, rest) →
      Vm.Quiet W nobody v e.pre → ShowsIn e.pre.mem (Vm.New W v e.pre) e.form tree → e.env = v.globalEnv →
      e.result = some x → e.post.HasObj x (.err m l) →
      r = some x → w.HasObj x (.err m (Prog.lineAt whole rest)) → Vm.Quiet W (· = x) e.post w → Session W ct whole r w last v t [e]
  /-- the next form has no value: nothing more is read -/
  | nothing {last : Option Ref} {v : Vm} {t rest : Text} {tree : Tree} {e : Event} :
      t ≠ [] → v.quit = false → Intact v → parse ct t = (.val tree, rest) →
      Vm.Quiet W nobody v e.pre → ShowsIn e.pre.mem (Vm.New W v e.pre) e.form tree → e.env = v.globalEnv →
      e.result = none → r = last → Vm.Quiet W nobody e.post w → w.mem = e.post.mem → Session W ct whole r w last v t [e]
  /-- the text is not well-formed here: the result is a new error with the line number -/
  | syntaxError {last : Option Ref} {v : Vm} {t rest : Text} {msg : String} {e : Event} {x : Ref} {m : Text} :
      t ≠ [] → v.quit = false → Intact v → parse ct t = (.err msg, rest) →
      e.form = x → e.result = some x → ¬ v.Old W x →
      r = some x → w.HasObj x (.err m (Prog.lineAt whole rest)) → Vm.Quiet W nobody v w → Session W ct whole r w last v t [e]
  /-- after an exit: nothing happens any more, the result is a new nil (or `last` at the end of the text) -/
  | exited {last : Option Ref} {v : Vm} {t : Text} {tr : List Event} : t ≠ [] → v.quit = true → Intact v →
      Vm.Quiet W nobody v w → (∃ x, r = some x ∧ ¬ v.Old W x ∧ w.HasObj x .nil) →
      (∀ e ∈ tr, Vm.Quiet W nobody v e.post) → Session W ct whole r w last v t tr
  /-- a constant has been changed: no claim -/
  | spoilt {last : Option Ref} {v : Vm} {t : Text} {tr : List Event} : ¬ Intact v → Session W ct whole r w last v t tr

theorem c36_old_aux {v : Vm} {s : List Ref} {z : Ref} : Vm.Old W { v with stack := s } z ↔ v.Old W z := Iff.rfl

/-- evaluating an error -/
theorem c36_evalErr_aux {n : Nat} {x env : Ref} {v w : Vm} {a : Option Ref} {t : List Event} (hq : v.quit = false) (hx : v.IsErr x)
    (e : handle W L n (.eval x env) v = .ok (a, w, t)) : a = some x ∧ Ends v w := by
  cases n with
  | zero => cases e
  | succ n =>
    simp only [handler] at e
    cases hr : run W n (handler W (Prog.body L) n) (Prog.body L (.eval x env)) v with
    | error e' => rw [hr] at e; cases e
    | ok y =>
      obtain ⟨a', w', t'⟩ := y
      rw [hr] at e
      cases e
      have : Wp W n (handle W L n) (Prog.evalTurn L x env false) v fun r w tr => r = some x ∧ Ends v w := by
        unfold Prog.evalTurn Prog.evalImpl
        refine wp_bind (wp_bind (wp_isQuit ?_))
        rw [hq]
        refine wp_bind (wp_verifyEnv fun _ => wp_bind (wp_push (wp_bind (wp_push (wp_bind (wp_read fun c hc => ?_))))))
        obtain ⟨m, l, c', hc', ho⟩ := hx
        have hc : v.mem x = some c := hc
        obtain rfl := same_cell hc hc'
        rw [ho]
        unfold Prog.leave
        refine wp_bind (wp_pop fun s1 h1 => wp_bind (wp_pop fun s2 h2 => wp_pure ?_))
        exact wp_pure ⟨rfl, Ends.pop⟩
      exact this _ _ _ hr

/-- evaluating after an exit -/
theorem c36_evalQuit_aux {n : Nat} {x env : Ref} {v w : Vm} {a : Option Ref} {t : List Event} (sv : v.Sane W) (hq : v.quit = true)
    (e : handle W L n (.eval x env) v = .ok (a, w, t)) : ∃ r, a = some r ∧ Allocated W v .nil r w := by
  cases n with
  | zero => cases e
  | succ n =>
    simp only [handler] at e
    cases hr : run W n (handler W (Prog.body L) n) (Prog.body L (.eval x env)) v with
    | error e' => rw [hr] at e; cases e
    | ok y =>
      obtain ⟨a', w', t'⟩ := y
      rw [hr] at e
      cases e
      have : Wp W n (handle W L n) (Prog.evalTurn L x env false) v fun a w tr => ∃ r, a = some r ∧ Allocated W v .nil r w := by
        unfold Prog.evalTurn Prog.evalImpl
        refine wp_bind (wp_bind (wp_isQuit ?_))
        rw [hq]
        refine wp_bind (wp_alloc sv fun x w a => ?_)
        exact wp_pure (wp_pure ⟨x, rfl, a⟩)
      exact this _ _ _ hr

theorem c36_popLast_aux {n : Nat} {h : Handler} {last : Option Ref} {v : Vm} {Q : Unit → Vm → List Event → Prop}
    (hq : ∀ s, (∀ x, last = some x → v.stack = x :: s) → (∀ y ∈ s, y ∈ v.stack) → Q () { v with stack := s } []) :
    Wp W n h (Prog.popLast last) v Q := by
  cases last with
  | none => exact wp_pure (hq v.stack (by simp) fun _ h => h)
  | some x => exact wp_pop fun s hs => hq s (by rintro _ ⟨⟩; exact hs) fun y hy => by rw [hs]; exact List.mem_cons_of_mem _ hy

theorem c36_stack_aux {v : Vm} {s : List Ref} (sv : v.Sane W) (cv : v.Closed W nobody) (hs : ∀ y ∈ s, v.Old W y) :
    Vm.Sane W { v with stack := s } ∧ Vm.Closed W nobody { v with stack := s } := by
  have g := good_same (w := { v with stack := s }) sv cv rfl rfl rfl rfl (fun which => by cases which <;> rfl) hs cv.ret
  exact ⟨g.sane, g.closed⟩

theorem c36_quietStack_aux {v w : Vm} {E : Ref → Prop} {s : List Ref} (q : Vm.Quiet W E v w) : Vm.Quiet W E { v with stack := s } w :=
  ⟨q.births, q.cells, q.gone, q.ret, q.quit, q.exitCode, q.out, fun which => (q.roots which).trans (by cases which <;> rfl), q.readably⟩

theorem c36_intactStack_aux {v : Vm} {s : List Ref} (i : Intact v) : Intact { v with stack := s } := ⟨i.nil, i.true, i.false⟩

/-- the loop after an exit -/
theorem c36_quit_aux {n : Nat} (hL : L.Safe) (ct : Ctype) (whole : Text) : ∀ (k : Nat) (t : Text) (last : Option Ref) (v : Vm),
    v.Sane W → v.Closed W nobody → Intact v → v.quit = true →
    Wp W n (handle W L n) (Prog.readLoop ct whole k t last) v fun r w tr =>
      Vm.Quiet W nobody v w ∧ (∀ e ∈ tr, Vm.Quiet W nobody v e.post) ∧
      ((t = [] ∧ r = last ∧ w.mem = v.mem ∧ tr = []) ∨ (t ≠ [] ∧ ∃ x, r = some x ∧ ¬ v.Old W x ∧ w.HasObj x .nil)) := by
  intro k
  have F : Fine W (handle W L n) := handler_fine hL n
  have C : Copies W (handle W L n) := handler_copies n
  induction k with
  | zero => intro t last v _ _ _ _; unfold Prog.readLoop; exact wp_fail
  | succ k ih =>
    intro t last v sv cv iv hq
    unfold Prog.readLoop
    by_cases ht : t = []
    · subst ht
      rw [if_pos rfl]
      refine wp_bind (c36_popLast_aux fun s _ _ => wp_pure ?_)
      exact ⟨Ends.pop.quiet, by simp, .inl ⟨rfl, rfl, rfl, rfl⟩⟩
    · rw [if_neg ht]
      refine wp_bind (Wp.mono ((parse_ok C F ct _).2.2 t v sv cv iv) ?_)
      rintro ⟨a, rest⟩ u tr ⟨rfl, m, hrest, ha⟩
      simp only
      refine wp_bind (wp_root (wp_bind ?_))
      have qu : u.quit = true := m.quiet.quit.trans hq
      have fin : ∀ (x : Ref) (w : Vm) (tr : List Event), Allocated W u .nil x w → (∀ e ∈ tr, e.post = w) →
          Wp W n (handle W L n) (do
            Prog.popLast last
            Prog.push x
            let __do_lift ← Prog.read x
            match __do_lift.obj with
            | .err m _ => do
              Prog.setObj x (.err m (Prog.lineAt whole rest))
              Prog.pop x
              pure (some x)
            | _ => Prog.readLoop ct whole k rest (some x)) w fun r w' tr' =>
            Vm.Quiet W nobody v w' ∧ (∀ e ∈ tr ++ tr', Vm.Quiet W nobody v e.post) ∧
            ((t = [] ∧ r = last ∧ w'.mem = v.mem ∧ tr ++ tr' = []) ∨ (t ≠ [] ∧ ∃ x, r = some x ∧ ¬ v.Old W x ∧ w'.HasObj x .nil)) := by
        intro x w tr al htr
        have mw := m.alloc (o := .nil) trivial al
        refine wp_bind (c36_popLast_aux fun s hs1 hs2 => wp_bind (wp_push (wp_bind (wp_read fun c hc => ?_))))
        have hc : w.mem x = some c := hc
        obtain rfl := same_cell al.cell hc
        simp only [List.nil_append]
        obtain ⟨s3, c3⟩ := c36_stack_aux (s := x :: s) mw.sane mw.closed fun y hy => by
          rcases List.mem_cons.mp hy with rfl | hy
          · exact al.old
          · exact mw.closed.stack y (hs2 y hy)
        refine Wp.mono (ih rest (some x) _ s3 c3 (c36_intactStack_aux (mw.intact cv iv)) (mw.quiet.quit.trans hq)) ?_
        rintro r w' tr' ⟨q, qs, h⟩
        have back : ∀ {w' : Vm}, Vm.Quiet W nobody { w with stack := x :: s } w' → Vm.Quiet W nobody v w' := fun q =>
          mw.quiet.trans sv (c36_quietStack_aux (v := { w with stack := x :: s }) (s := w.stack) q)
        refine ⟨back q, ?_, .inr ⟨ht, ?_⟩⟩
        · intro e he
          rcases List.mem_append.mp he with he | he
          · rw [htr e he]; exact mw.quiet
          · exact back (qs e he)
        · rcases h with ⟨_, rfl, hm, _⟩ | ⟨_, y, hy, ho, hn⟩
          · exact ⟨x, rfl, fun h => al.fresh (h.mono m.pure.births), _, by rw [hm]; exact hc, rfl⟩
          · exact ⟨y, hy, fun h => ho (h.mono mw.pure.births), hn⟩
      cases a with
      | none =>
        unfold Prog.evalNull
        refine wp_bind (wp_isQuit ?_)
        rw [qu]
        simp only [if_true]
        refine wp_bind (wp_alloc m.sane fun x w al => wp_pure ?_)
        exact Wp.mono (fin x w [] al (by simp)) fun r w' tr' h => by simpa using h
      | some y =>
        unfold Prog.evalNull
        refine wp_call fun b w t1 e => ?_
        obtain ⟨x, rfl, al⟩ := c36_evalQuit_aux m.sane qu e
        have et := F.eval _ _ _ _ _ _ e
        exact Wp.mono (fin x w t1 al (by rw [et]; simp)) fun r w' tr' h => by simpa using h

/-- the loop -/
theorem c36_loop_aux {n : Nat} (hL : L.Safe) (ct : Ctype) (whole : Text) : ∀ (k : Nat) (t : Text) (last : Option Ref) (v : Vm),
    v.Sane W → v.Closed W nobody →
    Wp W n (handle W L n) (Prog.readLoop ct whole k t last) v fun r w tr => ∀ s, Session W ct whole r w last { v with stack := s } t tr := by
  intro k
  have F : Fine W (handle W L n) := handler_fine hL n
  have C : Copies W (handle W L n) := handler_copies n
  induction k with
  | zero => intro t last v _ _; unfold Prog.readLoop; exact wp_fail
  | succ k ih =>
    intro t last v sv cv
    by_cases iv : Intact v
    case neg => exact fun r w tr _ s => .spoilt fun i => iv ⟨i.nil, i.true, i.false⟩
    by_cases ht : t = []
    · subst ht
      unfold Prog.readLoop
      rw [if_pos rfl]
      refine wp_bind (c36_popLast_aux fun s _ _ => wp_pure fun s => ?_)
      exact .finished (c36_quietStack_aux Ends.pop.quiet) rfl rfl
    rcases Bool.eq_false_or_eq_true v.quit with hq | hq
    · refine Wp.mono (c36_quit_aux hL ct whole (k + 1) t last v sv cv iv hq) ?_
      rintro r w tr ⟨q, qs, ⟨h, _⟩ | ⟨_, h⟩⟩ s
      · exact absurd h ht
      · exact .exited ht hq (c36_intactStack_aux iv) (c36_quietStack_aux q) h fun e he => c36_quietStack_aux (qs e he)
    · unfold Prog.readLoop
      rw [if_neg ht]
      refine wp_bind (Wp.mono ((parse_ok C F ct _).2.2 t v sv cv iv) ?_)
      rintro ⟨a, rest⟩ u tr ⟨rfl, m, hrest, ha⟩
      simp only at hrest ha ⊢
      have hp : parse ct t = ((parse ct t).1, rest) := by rw [hrest]; rfl
      have ha : (parse ct t).1.Is W v u a := ha
      refine wp_bind (wp_root (wp_bind ?_))
      have qu : u.quit = false := m.quiet.quit.trans hq
      have hroot : u.root .globalEnv = v.globalEnv := m.quiet.roots .globalEnv
      rw [hroot]
      rcases ha.cases with ⟨tree, x, ho, rfl, hx⟩ | ⟨msg, x, ho, rfl, hx, hx'⟩ | ⟨ho, rfl⟩
      · rw [ho] at hp
        unfold Prog.evalNull
        have oe : u.Pub W nobody v.globalEnv := by rw [← hroot]; exact m.closed.roots .globalEnv
        refine wps_eval (X := nobody) (E := nobody) (v0 := u) F (.refl m.sane m.closed) ⟨hx.here.2, id⟩ oe fun b w g hst pb => ?_
        cases b with
        | none =>
          simp only
          refine wp_bind (c36_popLast_aux fun s _ _ => wp_pure fun s' => ?_)
          exact .nothing ht hq (c36_intactStack_aux iv) hp (c36_quietStack_aux m.quiet) hx rfl rfl rfl Ends.pop.quiet rfl
        | some y =>
          simp only
          refine wp_bind (c36_popLast_aux fun s hs1 hs2 => wp_bind (wp_push (wp_bind (wp_read fun c hc => ?_))))
          have hc : w.mem y = some c := hc
          obtain ⟨s3, c3⟩ := c36_stack_aux (s := y :: s) g.sane g.closed fun z hz => by
            rcases List.mem_cons.mp hz with rfl | hz
            · exact (pb _ rfl).1
            · exact g.closed.stack z (hs2 z hz)
          split
          · rename_i msg l he
            refine wp_bind (wp_setObj fun c' hc' => wp_bind (wp_pop fun s4 hs4 => wp_pure fun s' => ?_))
            have hc' : w.mem y = some c' := hc'
            obtain rfl := same_cell hc hc'
            refine .failed ht hq (c36_intactStack_aux iv) hp (c36_quietStack_aux m.quiet) hx rfl rfl (m := msg) (l := l)
              ⟨c, hc, he⟩ rfl ⟨_, Mem.set_self .., rfl⟩ ?_
            have := Vm.Quiet.write (d := { c with obj := .err msg (Prog.lineAt whole rest) }) (Vm.Quiet.refl (W := W) (E := (· = y)) w) g.sane (.inl rfl) hc
            exact ⟨this.births, this.cells, this.gone, rfl, rfl, rfl, rfl, fun which => by cases which <;> rfl, rfl⟩
          · rename_i hne
            refine Wp.mono (ih rest (some y) _ s3 c3) ?_
            intro r w' tr' h s'
            refine .form ht hq (c36_intactStack_aux iv) hp (c36_quietStack_aux m.quiet) hx rfl rfl ?_ ((g.later.roots .globalEnv).trans hroot) (h w.stack)
            rintro ⟨msg, l, c', hc', he⟩
            obtain rfl := same_cell hc hc'
            exact hne _ _ he
      · rw [ho] at hp
        unfold Prog.evalNull
        refine wp_call fun b w t1 e => ?_
        obtain ⟨rfl, en⟩ := c36_evalErr_aux qu hx' e
        have et := F.eval _ _ _ _ _ _ e
        subst et
        simp only
        refine wp_bind (c36_popLast_aux fun s hs1 hs2 => wp_bind (wp_push (wp_bind (wp_read fun c hc => ?_))))
        have hc : w.mem x = some c := hc
        obtain ⟨msg', l, c', hc', he⟩ := en.isErr hx'
        obtain rfl := same_cell hc hc'
        split
        · rename_i msg2 l2 he2
          refine wp_bind (wp_setObj fun c' hc' => wp_bind (wp_pop fun s4 hs4 => wp_pure fun s' => ?_))
          have hc' : w.mem x = some c' := hc'
          obtain rfl := same_cell hc hc'
          refine .syntaxError ht hq (c36_intactStack_aux iv) hp (m := msg2) rfl rfl hx.1 rfl ⟨_, Mem.set_self .., rfl⟩ ?_
          have qw : Vm.Quiet W nobody v w := m.quiet.trans sv en.quiet
          have := qw.write (d := { c with obj := .err msg2 (Prog.lineAt whole rest) }) sv (.inr hx.1) hc
          exact c36_quietStack_aux (this.trans sv Ends.pop.quiet)
        · rename_i hne
          exact absurd he (hne _ _)
      · rw [ho] at hp
        unfold Prog.evalNull
        refine wp_bind (wp_isQuit ?_)
        rw [qu]
        simp only [Bool.false_eq_true, if_false]
        refine wp_bind (wp_verifyEnv fun _ => wp_pure (wp_bind (c36_popLast_aux fun s hs1 hs2 => wp_pure fun s' => ?_)))
        refine .blank ht hq (c36_intactStack_aux iv) hp (c36_quietStack_aux (m.quiet.trans sv Ends.pop.quiet)) ?_ rfl
        rintro x rfl
        refine m.pure.kept x (.root ?_)
        have := m.stack
        rw [hs1 x rfl] at this
        rw [List.nil_append] at this
        rw [← this]; simp

/-- Reading a text, from every state: its forms are evaluated in order, in the global environment, each completely before
the next is read; the first error, or the first form without a value, ends it. -/
theorem c36_reads_partial (hL : L.Safe) {v w : Vm} (rv : v.Reached W L) {ct : Ctype} {t : Text} (ht : t ≠ []) {r : Option Ref}
    {tr : List Event} (hr : Dern.Reads W L ct v t r w tr) :
    Session W ct t r w none v t tr ∧ ∀ e ∈ tr, ∃ sub, Evaluates W L e.pre e.form e.env e.result e.post sub := by
  obtain ⟨sv, cv⟩ := rv.good hL
  obtain ⟨n, k, e⟩ := hr
  unfold Prog.readAll at e
  rw [if_neg ht] at e
  exact ⟨c36_loop_aux hL ct t k t none v sv cv _ _ _ e v.stack,
    run_events (body := Prog.body L) (fun c v a w t h => handler_events n c v a w t h) _ _ _ _ _ e⟩

/-- The empty text is an error. -/
theorem c36_no_text (hL : L.Safe) {v w : Vm} (rv : v.Reached W L) {ct : Ctype} {r : Option Ref}
    {tr : List Event} (hr : Dern.Reads W L ct v [] r w tr) :
    tr = [] ∧ Vm.Quiet W nobody v w ∧ ∃ x, r = some x ∧ ¬ v.Old W x ∧ w.IsErr x := by
  obtain ⟨sv, cv⟩ := rv.good hL
  obtain ⟨n, k, e⟩ := hr
  have : Wp W n (handle W L n) (Prog.readAll ct k []) v fun r w tr =>
      tr = [] ∧ Vm.Quiet W nobody v w ∧ ∃ x, r = some x ∧ ¬ v.Old W x ∧ w.IsErr x := by
    unfold Prog.readAll
    rw [if_pos rfl]
    exact wpm_error (Mid.refl sv cv) fun x w m h1 _ h3 => ⟨rfl, m.quiet, x, rfl, h1, h3⟩
  exact this _ _ _ e

/-- the forms of a text -/
inductive FormsOf (ct : Ctype) : Text → List Tree → Prop
  | finished : FormsOf ct [] []
  | blank {t rest : Text} : t ≠ [] → parse ct t = (.null, rest) → FormsOf ct t []
  | form {t rest : Text} {tree : Tree} {trees : List Tree} : t ≠ [] → parse ct t = (.val tree, rest) → FormsOf ct rest trees →
      FormsOf ct t (tree :: trees)

/-- the events are evaluations of the trees in the environment, one after the other, with nothing in between, starting after `v` -/
inductive InOrder (W : World) (env : Ref) : Vm → List Tree → List Event → Prop
  | nil {v : Vm} : InOrder W env v [] []
  | cons {v : Vm} {tree : Tree} {e : Event} {trees : List Tree} {tr : List Event} : Vm.Quiet W nobody v e.pre → e.env = env →
      ShowsIn e.pre.mem (Vm.New W v e.pre) e.form tree → InOrder W env e.post trees tr → InOrder W env v (tree :: trees) (e :: tr)

/-- the result of the last of the events, or `last` -/
def lastResult (last : Option Ref) : List Event → Option Ref
  | [] => last
  | e :: tr => lastResult e.result tr

/-- an evaluation with a value that is no error -/
def Event.Good (e : Event) : Prop := ∃ x, e.result = some x ∧ ¬ e.post.IsErr x

theorem c36_order_aux {ct : Ctype} {whole : Text} {r : Option Ref} {w : Vm} {env : Ref} {last : Option Ref} {v : Vm} {t : Text} {tr : List Event}
    (s : Session W ct whole r w last v t tr) : ∀ {trees : List Tree}, FormsOf ct t trees → v.globalEnv = env →
    Intact v → v.quit = false → (∀ e ∈ tr, Intact e.post ∧ e.post.quit = false) →
    ∃ done rest, trees = done ++ rest ∧ InOrder W env v done tr ∧
      ((rest = [] ∧ (∀ e ∈ tr, Event.Good e) ∧ r = lastResult last tr) ∨
       (∃ tr' e, tr = tr' ++ [e] ∧ (∀ e ∈ tr', Event.Good e) ∧
        ((∃ x, e.result = some x ∧ e.post.IsErr x ∧ r = some x ∧ w.IsErr x) ∨ (e.result = none ∧ r = lastResult last tr')))) := by
  induction s with
  | finished h1 h2 h3 =>
    intro trees hf _ _ _ _
    cases hf with
    | finished => exact ⟨[], [], rfl, .nil, .inl ⟨rfl, by simp, h3⟩⟩
    | blank h _ => exact absurd rfl h
    | form h _ _ => exact absurd rfl h
  | blank h1 h2 h3 h4 h5 h6 h7 =>
    intro trees hf _ _ _ _
    cases hf with
    | finished => exact absurd rfl h1
    | blank h _ => exact ⟨[], [], rfl, .nil, .inl ⟨rfl, by simp, h7⟩⟩
    | form _ h _ => rw [h4] at h; cases h
  | @form last v t rest tree e tr x h1 h2 h3 h4 h5 h6 h7 h8 h9 hg10 h10 ih =>
    intro trees hf hv hi hq hall
    cases hf with
    | finished => exact absurd rfl h1
    | blank _ h => rw [h4] at h; cases h
    | @form _ _ _ trees _ h hf =>
      rw [h4] at h
      cases h
      have h' := hall e (by simp)
      obtain ⟨done, rest', ht, ho, hr⟩ := ih hf (hg10.trans hv) h'.1 h'.2 fun e' h => hall e' (by simp [h])
      refine ⟨tree :: done, rest', by rw [ht]; rfl, .cons h5 (h7.trans hv) h6 ho, ?_⟩
      have good : Event.Good e := ⟨x, h8, h9⟩
      rcases hr with ⟨hr, hg, hl⟩ | ⟨tr', e', htr, hg, hl⟩
      · refine .inl ⟨hr, ?_, by rw [hl, lastResult, h8]⟩
        intro e' he'
        rcases List.mem_cons.mp he' with rfl | he'
        · exact good
        · exact hg e' he'
      · refine .inr ⟨e :: tr', e', by rw [htr]; rfl, ?_, hl.imp id fun hl => ⟨hl.1, by rw [hl.2, lastResult, h8]⟩⟩
        intro e' he'
        rcases List.mem_cons.mp he' with rfl | he'
        · exact good
        · exact hg e' he'
  | @failed last v t rest tree e x m l h1 h2 h3 h4 h5 h6 h7 h8 h9 h10 h11 h12 =>
    intro trees hf hv hi hq hall
    cases hf with
    | finished => exact absurd rfl h1
    | blank _ h => rw [h4] at h; cases h
    | @form _ _ _ trees _ h hf =>
      rw [h4] at h
      cases h
      exact ⟨[tree], trees, rfl, .cons h5 (h7.trans hv) h6 .nil, .inr ⟨[], e, rfl, by simp, .inl ⟨x, h8, ⟨m, l, h9⟩, h10, _, _, h11⟩⟩⟩
  | @nothing last v t rest tree e h1 h2 h3 h4 h5 h6 h7 h8 h9 h10 h11 =>
    intro trees hf hv hi hq hall
    cases hf with
    | finished => exact absurd rfl h1
    | blank _ h => rw [h4] at h; cases h
    | @form _ _ _ trees _ h hf =>
      rw [h4] at h
      cases h
      exact ⟨[tree], trees, rfl, .cons h5 (h7.trans hv) h6 .nil, .inr ⟨[], e, rfl, by simp, .inr ⟨h8, h9⟩⟩⟩
  | syntaxError h1 h2 h3 h4 =>
    intro trees hf hv hi hq hall
    cases hf with
    | finished => exact absurd rfl h1
    | blank _ h => rw [h4] at h; cases h
    | form _ h _ => rw [h4] at h; cases h
  | exited h1 h2 => intro trees hf hv hi hq hall; rw [hq] at h2; cases h2
  | spoilt h => intro trees hf hv hi hq hall; exact absurd hi h

/-- A text that consists of the forms `trees`, and whose evaluation neither exits nor changes the constants: the forms of
an initial part of `trees` are evaluated, in order, in the global environment.  Either all of them are, none is an error, and
the result is that of the last one; or all but the last of these evaluations have values that are no errors, and the last
one has an error, which is the result, or no value at all, and then the result is that of the form before it. -/
theorem c36_in_order (hL : L.Safe) {v w : Vm} (rv : v.Reached W L) {ct : Ctype} {t : Text} (ht : t ≠ []) {r : Option Ref}
    {tr : List Event} (hr : Dern.Reads W L ct v t r w tr) {trees : List Tree} (hf : FormsOf ct t trees) (hi : Intact v) (hq : v.quit = false)
    (hall : ∀ e ∈ tr, Intact e.post ∧ e.post.quit = false) :
    ∃ done rest, trees = done ++ rest ∧ InOrder W v.globalEnv v done tr ∧
      ((rest = [] ∧ (∀ e ∈ tr, Event.Good e) ∧ r = lastResult none tr) ∨
       (∃ tr' e, tr = tr' ++ [e] ∧ (∀ e ∈ tr', Event.Good e) ∧
        ((∃ x, e.result = some x ∧ e.post.IsErr x ∧ r = some x ∧ w.IsErr x) ∨ (e.result = none ∧ r = lastResult none tr')))) := by
  obtain ⟨s, _⟩ := c36_reads_partial hL rv ht hr
  exact c36_order_aux s hf rfl hi hq hall

/-- After an exit, a text with an error that consumes nothing (such as `]`) is read for ever: reading it never returns. -/
theorem c36_hangs (hL : L.Safe) {v : Vm} (rv : v.Reached W L) (hi : Intact v) (hq : v.quit = true) {ct : Ctype} {t : Text} {msg : String}
    (ht : t ≠ []) (hp : parse ct t = (.err msg, t)) : ¬ ∃ r w tr, Dern.Reads W L ct v t r w tr := by
  rintro ⟨r, w, tr, n, k, e⟩
  obtain ⟨sv, cv⟩ := rv.good hL
  unfold Prog.readAll at e
  rw [if_neg ht] at e
  have F : Fine W (handle W L n) := handler_fine hL n
  have C : Copies W (handle W L n) := handler_copies n
  have key : ∀ k last v, v.Sane W → v.Closed W nobody → Intact v → v.quit = true →
      Wp W n (handle W L n) (Prog.readLoop ct t k t last) v fun _ _ _ => False := by
    clear e sv cv hi hq rv k v
    intro k
    induction k with
    | zero => intro last v _ _ _ _; unfold Prog.readLoop; exact wp_fail
    | succ k ih =>
      intro last v sv cv iv hq
      unfold Prog.readLoop
      rw [if_neg ht]
      refine wp_bind (Wp.mono ((parse_ok C F ct _).2.2 t v sv cv iv) ?_)
      rintro ⟨a, rest⟩ u tr ⟨rfl, m, hrest, ha⟩
      have hp' : parseNext ct (2 * t.length + 3) t = (.err msg, t) := hp
      rw [hp'] at hrest ha
      obtain ⟨y, rfl, hy, _⟩ := ha
      simp only at hrest ⊢
      subst hrest
      refine wp_bind (wp_root (wp_bind ?_))
      unfold Prog.evalNull
      refine wp_call fun b w t1 e => ?_
      obtain ⟨x, rfl, al⟩ := c36_evalQuit_aux m.sane (m.quiet.quit.trans hq) e
      have mw := m.alloc (o := .nil) trivial al
      simp only
      refine wp_bind (c36_popLast_aux fun s hs1 hs2 => wp_bind (wp_push (wp_bind (wp_read fun c hc => ?_))))
      have hc : w.mem x = some c := hc
      obtain rfl := same_cell al.cell hc
      simp only
      obtain ⟨s3, c3⟩ := c36_stack_aux (s := x :: s) mw.sane mw.closed fun y hy => by
        rcases List.mem_cons.mp hy with rfl | hy
        · exact al.old
        · exact mw.closed.stack y (hs2 y hy)
      exact ih (some x) _ s3 c3 (c36_intactStack_aux (mw.intact cv iv)) (mw.quiet.quit.trans hq)
  exact key k none v sv cv hi hq _ _ _ e

/-- `]` is such a text -/
theorem c36_hang_text : parse asciiCtype (txt "]") = (.err "Symbol cannot be empty", txt "]") := by rfl

/-- the machine with some functions, after evaluating some forms and after reading a text: is it what `P` says -/
def readCheck (forms : List Form) (t : Text) (fuel k : Nat) (P : Vm → Option Ref → Vm → List Event → Bool) : Bool :=
  match run world fuel (handler world (Prog.body library) fuel) (setup kit forms (.int 0)) (Vm.base world.malloc) with
  | .error _ => false
  | .ok (_, v, _) =>
    match run world fuel (handler world (Prog.body library) fuel) (Prog.readAll asciiCtype k t) v with
    | .error _ => false
    | .ok (r, w, tr) => P v r w tr

theorem c36_check_aux {forms : List Form} {t : Text} {fuel k : Nat} {P : Vm → Option Ref → Vm → List Event → Bool}
    (h : readCheck forms t fuel k P = true) :
    ∃ v r w tr, v.Reached world library ∧ Dern.Reads world library asciiCtype v t r w tr ∧ P v r w tr = true := by
  unfold readCheck at h
  split at h
  · cases h
  · rename_i f v t e
    split at h
    · cases h
    · rename_i r w tr e'
      exact ⟨v, r, w, tr, .host .refl (fun P _ => Machine.ok_setup kit forms _ kit_plain fun _ _ => trivial) e, ⟨fuel, k, e'⟩, h⟩

/-- for examples: the constants are what they should be -/
def intactCheck (v : Vm) : Bool :=
  decide (objAt v (some v.valueNil) = some .nil) && decide (objAt v (some v.valueTrue) = some (.bool true)) &&
    decide (objAt v (some v.valueFalse) = some (.bool false))

theorem c36_intact_aux {v : Vm} (h : intactCheck v = true) : Intact v := by
  simp only [intactCheck, Bool.and_eq_true, decide_eq_true_eq, objAt_hasObj] at h
  obtain ⟨⟨h1, h2⟩, h3⟩ := h
  exact ⟨fun c hc => h1.unique ⟨c, hc, rfl⟩ |>.symm, fun c hc => h2.unique ⟨c, hc, rfl⟩ |>.symm, fun c hc => h3.unique ⟨c, hc, rfl⟩ |>.symm⟩

theorem c36_text1_aux : parse asciiCtype (txt "(quote a) true") = (.val (.vec [.sym (txt "quote"), .sym (txt "a")]), txt " true") := by
  have h : (match parse asciiCtype (txt "(quote a) true") with
    | (.val (.vec [.sym a, .sym b]), rest) => decide (a = txt "quote" ∧ b = txt "a" ∧ rest = txt " true")
    | _ => false) = true := by decide +kernel
  split at h
  · rename_i e
    obtain ⟨rfl, rfl, rfl⟩ := of_decide_eq_true h
    exact e
  · cases h

theorem c36_text2_aux : parse asciiCtype (txt " true") = (.val (.bool true), []) := by
  have h : (match parse asciiCtype (txt " true") with
    | (.val (.bool b), rest) => decide (b = true ∧ rest = [])
    | _ => false) = true := by decide +kernel
  split at h
  · rename_i e
    obtain ⟨rfl, rfl⟩ := of_decide_eq_true h
    exact e
  · cases h

/-- The hypotheses of `c36_in_order` hold for the text `(quote a) true`, whose result is `true`. -/
example : ∃ (v w : Vm) (r : Option Ref) (tr : List Event) (trees : List Tree), v.Reached world library ∧
    Dern.Reads world library asciiCtype v (txt "(quote a) true") r w tr ∧ FormsOf asciiCtype (txt "(quote a) true") trees ∧
    Intact v ∧ v.quit = false ∧ (∀ e ∈ tr, Intact e.post ∧ e.post.quit = false) ∧ tr.length = 2 ∧ objAt w r = some (.bool true) := by
  obtain ⟨v, r, w, tr, hr, hd, h⟩ := c36_check_aux (forms := []) (t := txt "(quote a) true") (fuel := 40) (k := 5)
    (P := fun v r w tr => intactCheck v && (!v.quit && (tr.all (fun e => intactCheck e.post && !e.post.quit) &&
      (tr.length == 2 && decide (objAt w r = some (.bool true)))))) (by decide +kernel)
  simp only [Bool.and_eq_true, Bool.not_eq_true', List.all_eq_true, beq_iff_eq, decide_eq_true_eq] at h
  obtain ⟨h1, h2, h3, h4, h5⟩ := h
  refine ⟨v, w, r, tr, [.vec [.sym (txt "quote"), .sym (txt "a")], .bool true], hr, hd, ?_, c36_intact_aux h1, h2,
    fun e he => ⟨c36_intact_aux (h3 e he).1, (h3 e he).2⟩, h4, h5⟩
  exact .form (by decide) c36_text1_aux (.form (by decide) c36_text2_aux .finished)

/-- `(quote a) (oops) true` stops at the second form -/
example : readCheck [] (txt "(quote a) (oops) true") 40 5 (fun _ r w tr => tr.length == 2 &&
    (match objAt w r with | some (.err _ _) => true | _ => false)) = true := by
  decide +kernel

/-- The hypotheses of `c36_hangs` hold after `(exit)`. -/
example : ∃ v : Vm, v.Reached world library ∧ Intact v ∧ v.quit = true := by
  obtain ⟨v, form, r, w, tr, hr, of, oe, ev, h⟩ := stage_exists (table := kit) (forms := [.vec [.sym "exit"]]) (fuel := 40)
    (last := .int 0) (P := fun v _ _ _ _ => intactCheck v && v.quit) kit_plain (by decide +kernel)
  simp only [Bool.and_eq_true] at h
  exact ⟨v, hr, c36_intact_aux h.1, h.2⟩

end Dern.Props
