import Verif.Dern.Fine
/-
Rules for the parts of the evaluator between evaluations.
-/
namespace Dern
open Prog (Library)
variable {W : World} {X E : Ref → Prop} {n : Nat} {h : Handler} {v0 v w : Vm}

/-- `v` is a state with the invariants, reached quietly from `v0` -/
structure Vm.Step (W : World) (X E : Ref → Prop) (v0 v : Vm) : Prop where
  sane0 : v0.Sane W
  sane : v.Sane W
  closed : v.Closed W X
  quiet : Vm.Quiet W E v0 v

theorem Vm.Step.refl (s : v.Sane W) (c : v.Closed W X) : Vm.Step W X E v v := ⟨s, s, c, .refl v⟩

theorem Vm.Good.step (g : Vm.Good W X v w) : Vm.Step W X E w w := .refl g.sane g.closed

theorem Vm.Step.same (g : Vm.Step W X E v0 v) (hm : w.mem = v.mem) (ha : w.all = v.all)
    (hn : w.nextUid = v.nextUid) (hb : w.births = v.births) (hr : ∀ which, w.root which = v.root which)
    (hs : ∀ x ∈ w.stack, w.Old W x) (h1 : w.functionReturn = v.functionReturn)
    (h2 : w.quit = v.quit) (h3 : w.exitCode = v.exitCode) (h4 : w.out = v.out)
    (h5 : w.readably = v.readably := by rfl) : Vm.Step W X E v0 w := by
  have := good_same g.sane g.closed hm ha hn hb hr hs (by
    rw [h1]; exact g.closed.ret.mono fun x hx => hx.mono (Nat.le_of_eq hb.symm))
  exact ⟨g.sane0, this.sane, this.closed, g.quiet.trans g.sane0 (.same hb hm h1 h2 h3 h4 hr h5)⟩

theorem Vm.Step.push (g : Vm.Step W X E v0 v) {r : Ref} (hr : v.Old W r) :
    Vm.Step W X E v0 { v with stack := r :: v.stack } := by
  refine g.same rfl rfl rfl rfl (fun x => by cases x <;> rfl) ?_ rfl rfl rfl rfl
  intro x hx
  rcases List.mem_cons.mp hx with rfl | hx
  · exact hr
  · exact g.closed.stack x hx

theorem Vm.Step.pop (g : Vm.Step W X E v0 v) {r : Ref} {s : List Ref} (hs : v.stack = r :: s) :
    Vm.Step W X E v0 { v with stack := s } := by
  refine g.same rfl rfl rfl rfl (fun x => by cases x <;> rfl) ?_ rfl rfl rfl rfl
  intro x hx
  exact g.closed.stack x (by rw [hs]; exact List.mem_cons_of_mem _ hx)

theorem Vm.Step.tick (g : Vm.Step W X E v0 v) : Vm.Step W X E v0 { v with ticks := v.ticks + 1 } :=
  g.same rfl rfl rfl rfl (fun x => by cases x <;> rfl) (fun x hx => g.closed.stack x hx) rfl rfl rfl rfl

theorem Vm.Step.alloc (g : Vm.Step W X E v0 v) {o : Obj} {r : Ref} (a : Allocated W v o r w)
    (ho : PubObj (v.Pub W X) o) : Vm.Step W X E v0 w :=
  ⟨g.sane0, a.sane g.sane, a.closed g.closed ho, g.quiet.trans g.sane0 (a.quiet g.sane)⟩

/-- a new value that only the code at hand knows -/
theorem Vm.Step.hide (g : Vm.Step W (fun _ => False) E v0 v) {o : Obj} {r : Ref} (a : Allocated W v o r w)
    (ho : PubObj (v.Pub W fun _ => False) o) : Vm.Step W (fun x => x = r) E v0 w := by
  have g' := g.alloc a ho
  have hb : v.births ≤ w.births := by rw [a.births]; omega
  have up : ∀ x, v.Pub W (fun _ => False) x → w.Pub W (fun x => x = r) x :=
    fun x hx => ⟨hx.1.mono hb, fun e => a.fresh (e ▸ hx.1)⟩
  refine ⟨g.sane0, g'.sane, ⟨g'.closed.cells, ?_, g'.closed.stack, ?_, ?_, ?_⟩, g'.quiet⟩
  · intro x c hx hne
    rcases a.some hx with ⟨e, _⟩ | ⟨_, hx⟩
    · exact absurd e hne
    · exact (g.closed.pub x c hx id).mono up
  · rw [a.ret]; exact g.closed.ret.mono up
  · intro which; rw [a.roots]; exact up _ (g.closed.roots which)
  · rintro x rfl; exact a.old

/-- such a value may be changed -/
theorem Vm.Step.change (g : Vm.Step W X E v0 v) {r : Ref} {c d : Cell} (hx : X r) (hr : E r ∨ ¬ v0.Old W r)
    (hc : v.mem r = some c) (hu : d.uid = c.uid) (hm : d.mark = c.mark) (hd : PubCell (v.Old W) d) :
    Vm.Step W X E v0 { v with mem := v.mem.set r d } := by
  refine ⟨g.sane0, write_sane g.sane hc hu hm, ⟨?_, ?_, g.closed.stack, g.closed.ret, ?_, g.closed.known⟩,
    g.quiet.write g.sane0 hr hc⟩
  · intro x y hy
    rcases set_some hy with ⟨_, rfl⟩ | ⟨_, hy⟩
    · exact hd
    · exact g.closed.cells x y hy
  · intro x y hy hne
    rcases set_some hy with ⟨rfl, _⟩ | ⟨_, hy⟩
    · exact absurd hx hne
    · exact g.closed.pub x y hy hne
  · intro which; have := g.closed.roots which; cases which <;> exact this

/-- a value that was not there at the start may be changed -/
theorem Vm.Step.modify (g : Vm.Step W X E v0 v) {r : Ref} {c d : Cell} (hr : E r ∨ ¬ v0.Old W r)
    (hc : v.mem r = some c) (hu : d.uid = c.uid) (hm : d.mark = c.mark) (hd : PubCell (v.Pub W X) d) :
    Vm.Step W X E v0 { v with mem := v.mem.set r d } :=
  ⟨g.sane0, write_sane g.sane hc hu hm, write_closed g.closed hd, g.quiet.write g.sane0 hr hc⟩

theorem Vm.Step.annotate (g : Vm.Step W X E v0 v) {r : Ref} {c : Cell} {m : Text} {l : Nat} (t : Text)
    (hc : v.mem r = some c) (ho : c.obj = .err m l) :
    Vm.Step W X E v0 { v with mem := v.mem.set r { c with obj := .err (m ++ t) l } } := by
  by_cases hx : X r
  · refine ⟨g.sane0, write_sane g.sane hc rfl rfl, ⟨?_, ?_, g.closed.stack, g.closed.ret, ?_, g.closed.known⟩,
      g.quiet.trans g.sane0 (.annotate t hc ho)⟩
    · intro x y hy
      rcases set_some hy with ⟨_, rfl⟩ | ⟨_, hy⟩
      · have := g.closed.cells r c hc
        exact ⟨trivial, this.docstr, this.docvec⟩
      · exact g.closed.cells x y hy
    · intro x y hy hne
      rcases set_some hy with ⟨rfl, _⟩ | ⟨_, hy⟩
      · exact absurd hx hne
      · exact g.closed.pub x y hy hne
    · intro which; have := g.closed.roots which; cases which <;> exact this
  · have := g.closed.pub r c hc hx
    exact ⟨g.sane0, write_sane g.sane hc rfl rfl, write_closed g.closed ⟨trivial, this.docstr, this.docvec⟩,
      g.quiet.trans g.sane0 (.annotate t hc ho)⟩

/-! ### rules -/

theorem wps_eval (F : Fine W h) (g : Vm.Step W X E v0 v) {x env : Ref} {Q : Option Ref → Vm → List Event → Prop}
    (hx : v.Pub W X x) (he : v.Pub W X env)
    (hq : ∀ a w, Vm.Good W X v w → w.stack = v.stack → PubOpt (w.Pub W X) a → Q a w [⟨x, env, v, a, w⟩]) :
    Wp W n h (Prog.eval x env) v Q := by
  refine wp_call fun a w t e => ?_
  have := F.spec X (.eval x env) v v.stack g.sane g.closed (by simp [Call.refs, hx, he]) rfl
  rw [e] at this
  rw [F.eval _ _ _ _ _ _ e]
  exact hq a w this.1 this.2.1 this.2.2

/-- evaluating a form; protected values survive -/
theorem wps_evalKeeps (F : Fine W h) (g : Vm.Step W X E v0 v) {x env : Ref} {Q : Option Ref → Vm → List Event → Prop}
    (hx : v.Pub W X x) (he : v.Pub W X env)
    (hq : ∀ a w, Vm.Good W X v w → Vm.Keeps X v.stack v w → w.stack = v.stack → PubOpt (w.Pub W X) a → Q a w [⟨x, env, v, a, w⟩]) :
    Wp W n h (Prog.eval x env) v Q := by
  refine wp_call fun a w t e => ?_
  have := F.spec X (.eval x env) v v.stack g.sane g.closed (by simp [Call.refs, hx, he]) rfl
  have k := F.keeps X (.eval x env) v v.stack a w t g.sane g.closed (by simp [Call.refs, hx, he]) rfl e
  rw [e] at this
  rw [F.eval _ _ _ _ _ _ e]
  exact hq a w this.1 k this.2.1 this.2.2

theorem wps_error (g : Vm.Step W X E v0 v) {s : String} {Q : Option Ref → Vm → List Event → Prop}
    (hq : ∀ r w t, Vm.Step W X E v0 w → w.Pub W X r → w.mem r = some { obj := .err t 0, uid := v.nextUid } →
      ¬ v.Old W r → Q (some r) w []) :
    Wp W n h (Prog.error s) v Q := by
  unfold Prog.error
  refine wp_bind (wp_text fun t => wp_bind (wp_alloc g.tick.sane fun r w a => wp_pure ?_))
  exact hq r w t (g.tick.alloc a trivial) (a.pub g.tick.closed) a.cell a.fresh

theorem wps_annotate (g : Vm.Step W X E v0 v) {r : Ref} {Q : Unit → Vm → List Event → Prop}
    (hq : ∀ c m l t, v.mem r = some c → c.obj = .err m l → ∀ w, Vm.Step W X E v0 w →
      w.mem = v.mem.set r { c with obj := .err (m ++ t) l } → w.functionReturn = v.functionReturn → w.births = v.births → Q () w []) :
    Wp W n h (Prog.annotate r) v Q := by
  unfold Prog.annotate
  refine wp_bind (wp_read fun c hc => ?_)
  split
  · rename_i m l ho
    refine wp_bind (wp_text fun t => wp_setObj fun c' hc' => ?_)
    have : v.mem r = some c' := hc'
    rw [hc] at this
    cases this
    exact hq c m l t hc ho _ (g.tick.annotate t hc ho) rfl rfl rfl
  · exact wp_fail

theorem wps_annotateError (g : Vm.Step W X E v0 v) {r : Ref} {Q : Unit → Vm → List Event → Prop}
    (hq : ∀ c w, v.mem r = some c → Vm.Step W X E v0 w →
      (w.mem = v.mem ∧ (∀ m l, c.obj ≠ .err m l) ∨
        ∃ m l t, c.obj = .err m l ∧ w.mem = v.mem.set r { c with obj := .err (m ++ t) l }) →
      w.functionReturn = v.functionReturn → w.births = v.births → Q () w []) : Wp W n h (Prog.annotateError r) v Q := by
  unfold Prog.annotateError
  refine wp_bind (wp_read fun c hc => ?_)
  split
  · rename_i m l ho
    exact wps_annotate g fun c' m' l' t' hc' ho' w gw hm hf hb => by
      rw [hc] at hc'; cases hc'
      exact hq c w hc gw (.inr ⟨m', l', t', ho', hm⟩) hf hb
  · rename_i ho
    exact wp_pure (hq c v hc g (.inl ⟨rfl, fun m l e => ho m l e⟩) rfl rfl)

theorem wp_verifyVec {r : Ref} {Q : List Ref → Vm → List Event → Prop}
    (hq : ∀ c es, v.mem r = some c → c.obj = .vec es → Q es v []) : Wp W n h (Prog.verifyVec r) v Q := by
  unfold Prog.verifyVec
  refine wp_bind (wp_read fun c hc => ?_)
  split
  · exact wp_pure (hq c _ hc ‹_›)
  · exact wp_fail

theorem wp_verifyEnv {r : Ref} {Q : Unit → Vm → List Event → Prop}
    (hq : (∃ c bs e, v.mem r = some c ∧ c.obj = .env bs e) → Q () v []) : Wp W n h (Prog.verifyEnv r) v Q := by
  unfold Prog.verifyEnv
  refine wp_bind (wp_read fun c hc => ?_)
  split
  · exact wp_pure (hq ⟨c, _, _, hc, ‹_›⟩)
  · exact wp_fail

theorem wp_elemAt {r : Ref} {i : Nat} {Q : Option Ref → Vm → List Event → Prop}
    (hq : ∀ c es, v.mem r = some c → c.obj = .vec es → Q es[i]? v []) : Wp W n h (Prog.elemAt r i) v Q := by
  unfold Prog.elemAt
  exact wp_bind (wp_verifyVec fun c es hc ho => wp_pure (hq c es hc ho))

theorem wp_append {r x : Ref} {Q : Unit → Vm → List Event → Prop}
    (hq : ∀ c es, v.mem r = some c → c.obj = .vec es →
      Q () { v with mem := v.mem.set r { c with obj := .vec (es ++ [x]) } } []) : Wp W n h (Prog.append r x) v Q := by
  unfold Prog.append
  refine wp_bind (wp_read fun c hc => ?_)
  split
  · rename_i es ho
    refine wp_setObj fun c' hc' => ?_
    rw [hc] at hc'; cases hc'
    exact hq c es hc ho
  · exact wp_fail

theorem Mem.set_self (m : Mem) (r : Ref) (c : Cell) : m.set r c r = some c := by simp [Mem.set]
theorem Mem.set_other (m : Mem) {r x : Ref} (c : Cell) (h : x ≠ r) : m.set r c x = m x := by simp [Mem.set, h]

/-- a value the code at hand keeps to itself holds the given elements -/
def Vm.HasVec (v : Vm) (r : Ref) (es : List Ref) : Prop := ∃ c, v.mem r = some c ∧ c.obj = .vec es

theorem Vm.HasVec.later {v w : Vm} {r : Ref} {es : List Ref} (hv : v.HasVec r es) (sv : v.Sane W) (l : Vm.Later W X v w) (hx : X r) :
    w.HasVec r es ∨ w.mem r = none := by
  obtain ⟨c, hc, ho⟩ := hv
  rcases l.priv r hx (sv.old r c hc) with e | e
  · exact .inl ⟨c, by rw [e]; exact hc, ho⟩
  · exact .inr e

/-- nothing but an element of a vector -/
theorem wp_elemAt_vec {r : Ref} {es : List Ref} {i : Nat} {Q : Option Ref → Vm → List Event → Prop}
    (hv : v.HasVec r es ∨ v.mem r = none) (hq : v.HasVec r es → Q es[i]? v []) : Wp W n h (Prog.elemAt r i) v Q := by
  refine wp_elemAt fun c es' hc ho => ?_
  rcases hv with ⟨c', hc', ho'⟩ | e
  · rw [hc] at hc'; cases hc'
    rw [ho] at ho'; cases ho'
    exact hq ⟨c, hc, ho⟩
  · rw [e] at hc; cases hc

theorem wp_verifyVec_vec {r : Ref} {es : List Ref} {Q : List Ref → Vm → List Event → Prop}
    (hv : v.HasVec r es ∨ v.mem r = none) (hq : v.HasVec r es → Q es v []) : Wp W n h (Prog.verifyVec r) v Q := by
  refine wp_verifyVec fun c es' hc ho => ?_
  rcases hv with ⟨c', hc', ho'⟩ | e
  · rw [hc] at hc'; cases hc'
    rw [ho] at ho'; cases ho'
    exact hq ⟨c, hc, ho⟩
  · rw [e] at hc; cases hc

/-- copying one of the fixed values -/
theorem wps_getRoot (F : Fine W h) (g : Vm.Step W X E v0 v) {which : Root} {Q : Ref → Vm → List Event → Prop}
    (hq : ∀ r w, Vm.Step W X E v0 w → w.Pub W X r → ¬ v.Old W r → Q r w []) :
    Wp W n h (Prog.getRoot which) v Q := by
  unfold Prog.getRoot Prog.copyOf
  refine wp_bind (wp_root (wp_bind (wp_call fun a w t e => wp_deref fun r ha => ?_)))
  subst ha
  obtain ⟨sw, rfl, q, fresh⟩ := F.copy _ _ _ _ _ g.sane e
  have := F.spec X (.copy (v.root which)) v v.stack g.sane g.closed (by simpa [Call.refs] using g.closed.roots which) rfl
  rw [e] at this
  exact hq r w ⟨g.sane0, sw, this.1.closed, g.quiet.trans g.sane0 (q.mono fun _ h => h.elim)⟩ (this.2.2 r rfl) (fresh r rfl)

end Dern
