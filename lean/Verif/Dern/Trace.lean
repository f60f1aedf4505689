import Verif.Dern.Keep
/-
Reasoning about runs that return: a weakest precondition for results, states and traces, and what
happens to values between evaluations.
-/
namespace Dern
variable {W : World} {X E : Ref → Prop} {n : Nat} {h : Handler}

/-- every run from `v` that returns satisfies `Q` -/
def Wp (W : World) (n : Nat) (h : Handler) (p : Prog α) (v : Vm) (Q : α → Vm → List Event → Prop) : Prop :=
  ∀ a w t, run W n h p v = .ok (a, w, t) → Q a w t

theorem Wp.mono {p : Prog α} {v : Vm} {Q Q' : α → Vm → List Event → Prop} (hp : Wp W n h p v Q)
    (hq : ∀ a w t, Q a w t → Q' a w t) : Wp W n h p v Q' := fun a w t e => hq a w t (hp a w t e)

theorem run_bind (p : Prog α) (f : α → Prog β) (v : Vm) : run W n h (p >>= f) v =
    match run W n h p v with
    | .error e => .error e
    | .ok (a, w, t) =>
      match run W n h (f a) w with
      | .error e => .error e
      | .ok (b, u, t') => .ok (b, u, t ++ t') := by
  show run W n h (Prog.bind p f) v = _
  induction p generalizing v with
  | done a =>
    simp only [Prog.bind, run]
    cases run W n h (f a) v with
    | error e => rfl
    | ok x => obtain ⟨b, u, t⟩ := x; simp
  | op o k ih =>
    simp only [Prog.bind, run]
    cases step W n h o v with
    | error e => rfl
    | ok x =>
      obtain ⟨a, w, t⟩ := x
      simp only
      rw [ih a w]
      cases run W n h (k a) w with
      | error e => rfl
      | ok x =>
        obtain ⟨b, u, t'⟩ := x
        simp only
        cases run W n h (f b) u with
        | error e => rfl
        | ok x => obtain ⟨b, u, t''⟩ := x; simp

theorem wp_bind {p : Prog α} {f : α → Prog β} {v : Vm} {Q : β → Vm → List Event → Prop}
    (hp : Wp W n h p v fun a w t => Wp W n h (f a) w fun b u t' => Q b u (t ++ t')) : Wp W n h (p >>= f) v Q := by
  intro b u t e
  rw [run_bind] at e
  cases e1 : run W n h p v with
  | error e' => rw [e1] at e; cases e
  | ok x =>
    obtain ⟨a, w, t1⟩ := x
    rw [e1] at e
    simp only at e
    cases e2 : run W n h (f a) w with
    | error e' => rw [e2] at e; cases e
    | ok x =>
      obtain ⟨b', u', t2⟩ := x
      rw [e2] at e
      cases e
      exact hp a w t1 e1 _ _ _ e2

theorem wp_pure {a : α} {v : Vm} {Q : α → Vm → List Event → Prop} (hq : Q a v []) : Wp W n h (pure a) v Q := by
  intro b w t e
  cases e
  exact hq

theorem wp_op {o : Op} {v : Vm} {Q : o.Resp → Vm → List Event → Prop}
    (hq : ∀ a w t, step W n h o v = .ok (a, w, t) → Q a w t) : Wp W n h (Prog.perform o) v Q := by
  intro a w t e
  simp only [Prog.perform, run] at e
  cases e1 : step W n h o v with
  | error e' => rw [e1] at e; cases e
  | ok x =>
    obtain ⟨b, u, t'⟩ := x
    rw [e1] at e
    simp only [List.append_nil] at e
    cases e
    exact hq _ _ _ e1

theorem wp_fail {e : Fault} {v : Vm} {Q : α → Vm → List Event → Prop} : Wp W n h (Prog.fail e) v Q := by
  intro a w t h'
  have : run W n h (Prog.fail e : Prog α) v = .error e := rfl
  rw [this] at h'
  cases h'

theorem wp_read {r : Ref} {v : Vm} {Q : Cell → Vm → List Event → Prop} (hq : ∀ c, v.mem r = some c → Q c v []) :
    Wp W n h (Prog.read r) v Q := by
  refine wp_op fun c w t e => ?_
  simp only [step, quiet, M.read, Mem.read] at e
  cases hc : v.mem r with
  | none => rw [hc] at e; cases e
  | some c' => rw [hc] at e; cases e; exact hq _ hc

theorem wp_alloc {o : Obj} {v : Vm} (sv : v.Sane W) {Q : Ref → Vm → List Event → Prop}
    (hq : ∀ r w, Allocated W v o r w → Q r w []) : Wp W n h (Prog.alloc o) v Q := by
  refine wp_op fun r w t e => ?_
  simp only [step, quiet] at e
  cases ha : Dern.alloc W.malloc o v with
  | error e' => rw [ha] at e; cases e
  | ok x =>
    obtain ⟨r', w'⟩ := x
    rw [ha] at e
    cases e
    exact hq _ _ (alloc_spec sv ha)

theorem wp_write {r : Ref} {f : Cell → Cell} {v : Vm} {o : Op} {Q : o.Resp → Vm → List Event → Prop}
    (a0 : o.Resp)
    (ho : step W n h o v = match quiet (M.write r f) v with | .ok (_, w, t) => .ok (a0, w, t) | .error e => .error e)
    (hq : ∀ c, v.mem r = some c → Q a0 { v with mem := v.mem.set r (f c) } []) : Wp W n h (Prog.perform o) v Q := by
  refine wp_op fun a w t e => ?_
  rw [ho] at e
  simp only [quiet] at e
  cases hw : M.write r f v with
  | error e' => rw [hw] at e; cases e
  | ok x =>
    obtain ⟨⟨⟩, w'⟩ := x
    obtain ⟨c, hc, rfl⟩ := write_spec hw
    rw [hw] at e
    cases e
    exact hq c hc

theorem quiet_eta {x : M Unit} {v : Vm} : quiet x v =
    match quiet x v with | .ok (_, w, t) => .ok ((), w, t) | .error e => .error e := by
  cases quiet x v with
  | error e => rfl
  | ok x => obtain ⟨⟨⟩, w, t⟩ := x; rfl

theorem wp_setObj {r : Ref} {o : Obj} {v : Vm} {Q : Unit → Vm → List Event → Prop}
    (hq : ∀ c, v.mem r = some c → Q () { v with mem := v.mem.set r { c with obj := o } } []) :
    Wp W n h (Prog.setObj r o) v Q := wp_write (f := fun c => { c with obj := o }) () quiet_eta hq

theorem wp_replace {r : Ref} {o : Obj} {v : Vm} {Q : Unit → Vm → List Event → Prop}
    (hq : ∀ c, v.mem r = some c → Q () { v with mem := v.mem.set r { c with obj := o, gen := c.gen + 1 } } []) :
    Wp W n h (Prog.replace r o) v Q := wp_write (f := fun c => { c with obj := o, gen := c.gen + 1 }) () quiet_eta hq

theorem wp_setDoc {r : Ref} {d d' : Option Ref} {v : Vm} {Q : Unit → Vm → List Event → Prop}
    (hq : ∀ c, v.mem r = some c → Q () { v with mem := v.mem.set r { c with docstr := d, docvec := d' } } []) :
    Wp W n h (Prog.setDoc r d d') v Q := wp_write (f := fun c => { c with docstr := d, docvec := d' }) () quiet_eta hq

theorem wp_setHowto {r : Ref} {b : Bool} {v : Vm} {Q : Unit → Vm → List Event → Prop}
    (hq : ∀ c, v.mem r = some c → Q () { v with mem := v.mem.set r { c with howto := b } } []) :
    Wp W n h (Prog.setHowto r b) v Q := wp_write (f := fun c => { c with howto := b }) () quiet_eta hq

theorem wp_push {r : Ref} {v : Vm} {Q : Unit → Vm → List Event → Prop}
    (hq : Q () { v with stack := r :: v.stack } []) : Wp W n h (Prog.push r) v Q := by
  refine wp_op fun a w t e => ?_
  simp only [step, quiet, Dern.push, M.modify] at e
  cases e
  exact hq

theorem wp_pop {r : Ref} {v : Vm} {Q : Unit → Vm → List Event → Prop}
    (hq : ∀ s, v.stack = r :: s → Q () { v with stack := s } []) : Wp W n h (Prog.pop r) v Q := by
  refine wp_op fun a w t e => ?_
  simp only [step, quiet, Dern.pop] at e
  cases hs : v.stack with
  | nil => rw [hs] at e; cases e
  | cons x s =>
    rw [hs] at e
    simp only at e
    by_cases hx : x = r
    · rw [if_pos hx] at e
      cases e
      exact hq s (by rw [hs, hx])
    · rw [if_neg hx] at e; cases e

theorem wp_getReturn {v : Vm} {Q : Option Ref → Vm → List Event → Prop} (hq : Q v.functionReturn v []) :
    Wp W n h Prog.getReturn v Q := by
  refine wp_op fun a w t e => ?_
  cases e; exact hq

theorem wp_setReturn {x : Option Ref} {v : Vm} {Q : Unit → Vm → List Event → Prop}
    (hq : Q () { v with functionReturn := x } []) : Wp W n h (Prog.setReturn x) v Q := by
  refine wp_op fun a w t e => ?_
  cases e; exact hq

theorem wp_isQuit {v : Vm} {Q : Bool → Vm → List Event → Prop} (hq : Q v.quit v []) :
    Wp W n h Prog.isQuit v Q := by
  refine wp_op fun a w t e => ?_
  cases e; exact hq

theorem wp_quit {c : Option Int} {v : Vm} {Q : Unit → Vm → List Event → Prop}
    (hq : Q () { v with quit := true, exitCode := c.getD v.exitCode } []) : Wp W n h (Prog.quit c) v Q := by
  refine wp_op fun a w t e => ?_
  cases e; exact hq

theorem wp_root {which : Root} {v : Vm} {Q : Ref → Vm → List Event → Prop} (hq : Q (v.root which) v []) :
    Wp W n h (Prog.root which) v Q := by
  refine wp_op fun a w t e => ?_
  cases e; exact hq

theorem wp_text {s : String} {v : Vm} {Q : Text → Vm → List Event → Prop}
    (hq : ∀ t, Q t { v with ticks := v.ticks + 1 } []) : Wp W n h (Prog.text s) v Q := by
  refine wp_op fun a w t e => ?_
  cases e; exact hq _

theorem wp_real {v : Vm} {Q : Spec.Dbl → Vm → List Event → Prop}
    (hq : ∀ t, Q t { v with ticks := v.ticks + 1 } []) : Wp W n h Prog.real v Q := by
  refine wp_op fun a w t e => ?_
  cases e; exact hq _

theorem wp_arrange {es : List (Ref × Ref)} {v : Vm} {Q : Nat × List (Ref × Ref) → Vm → List Event → Prop}
    (hq : ∀ x : Nat × List (Ref × Ref), x.2.Perm es → Q x { v with ticks := v.ticks + 1 } []) :
    Wp W n h (Prog.arrange es) v Q := by
  refine wp_op fun a w t e => ?_
  cases e; exact hq _ (W.perm _ _)

theorem wp_compare {a b : Ref} {v : Vm} {Q : Int → Vm → List Event → Prop}
    (hq : ∀ c, compareRef v.mem n a b = .ok c → Q c v []) : Wp W n h (Prog.compare a b) v Q := by
  refine wp_op fun c w t e => ?_
  simp only [step] at e
  cases hc : compareRef v.mem n a b with
  | error e' => rw [hc] at e; cases e
  | ok c' => rw [hc] at e; cases e; exact hq _ hc

theorem wp_print {p : Bool} {r : Ref} {v : Vm} {Q : Text → Vm → List Event → Prop}
    (hq : ∀ t, printRef v.mem W.fmt v.readably n p r = .ok t → Q t v []) : Wp W n h (Prog.print p r) v Q := by
  refine wp_op fun c w t e => ?_
  simp only [step] at e
  cases hc : printRef v.mem W.fmt v.readably n p r with
  | error e' => rw [hc] at e; cases e
  | ok c' => rw [hc] at e; cases e; exact hq _ hc

theorem wp_readably {v : Vm} {Q : Bool → Vm → List Event → Prop} (hq : Q v.readably v []) :
    Wp W n h Prog.readably v Q := by
  refine wp_op fun a w t e => ?_
  cases e; exact hq

theorem wp_setReadably {b : Bool} {v : Vm} {Q : Unit → Vm → List Event → Prop} (hq : Q () { v with readably := b } []) :
    Wp W n h (Prog.setReadably b) v Q := by
  refine wp_op fun a w t e => ?_
  cases e; exact hq

theorem wp_call {c : Call} {v : Vm} {Q : Option Ref → Vm → List Event → Prop}
    (hq : ∀ a w t, h c v = .ok (a, w, t) → Q a w t) : Wp W n h (Prog.call c) v Q :=
  wp_op fun a w t e => hq a w t e

theorem wp_deref {x : Option Ref} {v : Vm} {Q : Ref → Vm → List Event → Prop} (hq : ∀ r, x = some r → Q r v []) :
    Wp W n h (Prog.deref x) v Q := by
  cases x with
  | none => exact wp_fail
  | some r => exact wp_pure (hq r rfl)

theorem wp_require {x : Option Ref} {v : Vm} {Q : Ref → Vm → List Event → Prop} (hq : ∀ r, x = some r → Q r v []) :
    Wp W n h (Prog.require x) v Q := by
  cases x with
  | none => exact wp_fail
  | some r => exact wp_pure (hq r rfl)

/-! ### between evaluations -/

/-- From the state `v` to the state `w` nothing happens that a program could notice: values outside of
`E` stay as they are, except that they may be collected and that errors may get longer messages;
nothing is printed, no `return` or `exit` takes place, and values are printed as before. -/
structure Vm.Quiet (W : World) (E : Ref → Prop) (v w : Vm) : Prop where
  births : v.births ≤ w.births
  cells : ∀ r c, ¬ E r → v.mem r = some c → w.mem r = some c ∨ w.mem r = none ∨
    ∃ m t l, c.obj = .err m l ∧ w.mem r = some { c with obj := .err (m ++ t) l }
  gone : ∀ r, v.Old W r → v.mem r = none → w.mem r = none
  ret : w.functionReturn = v.functionReturn
  quit : w.quit = v.quit
  exitCode : w.exitCode = v.exitCode
  out : w.out = v.out
  roots : ∀ which, w.root which = v.root which
  readably : w.readably = v.readably := by rfl

theorem Vm.Quiet.refl (v : Vm) : Vm.Quiet W E v v :=
  ⟨Nat.le_refl _, fun _ _ _ h => .inl h, fun _ _ h => h, rfl, rfl, rfl, rfl, fun _ => rfl, rfl⟩

theorem Vm.Quiet.mono {E' : Ref → Prop} {v w : Vm} (q : Vm.Quiet W E v w) (hE : ∀ r, E r → E' r) : Vm.Quiet W E' v w :=
  ⟨q.births, fun r c hr => q.cells r c fun h => hr (hE r h), q.gone, q.ret, q.quit, q.exitCode, q.out, q.roots, q.readably⟩

theorem Vm.Quiet.trans {v w u : Vm} (sv : v.Sane W) (q : Vm.Quiet W E v w) (q' : Vm.Quiet W E w u) :
    Vm.Quiet W E v u where
  births := Nat.le_trans q.births q'.births
  cells := fun r c hE hc => by
    have old := (sv.old r c hc).mono q.births
    rcases q.cells r c hE hc with e | e | ⟨m, t, l, ho, e⟩
    · exact q'.cells r c hE e
    · exact .inr (.inl (q'.gone r old e))
    · rcases q'.cells r _ hE e with e' | e' | ⟨m', t', l', ho', e'⟩
      · exact .inr (.inr ⟨m, t, l, ho, e'⟩)
      · exact .inr (.inl e')
      · simp only [Obj.err.injEq] at ho'
        obtain ⟨rfl, rfl⟩ := ho'
        exact .inr (.inr ⟨m, t ++ t', l, ho, by rw [e']; simp⟩)
  gone := fun r ho e => q'.gone r (ho.mono q.births) (q.gone r ho e)
  ret := q'.ret.trans q.ret
  quit := q'.quit.trans q.quit
  exitCode := q'.exitCode.trans q.exitCode
  out := q'.out.trans q.out
  roots := fun x => (q'.roots x).trans (q.roots x)
  readably := q'.readably.trans q.readably

/-- changes in fields that do not matter -/
theorem Vm.Quiet.same {v w : Vm} (hb : w.births = v.births) (hm : w.mem = v.mem) (h1 : w.functionReturn = v.functionReturn)
    (h2 : w.quit = v.quit) (h3 : w.exitCode = v.exitCode) (h4 : w.out = v.out) (h5 : ∀ x, w.root x = v.root x)
    (h6 : w.readably = v.readably := by rfl) : Vm.Quiet W E v w :=
  ⟨Nat.le_of_eq hb.symm, fun _ _ _ h => .inl (by rw [hm]; exact h), fun _ _ h => by rw [hm]; exact h, h1, h2, h3, h4, h5, h6⟩

theorem Allocated.quiet {v w : Vm} {o : Obj} {r : Ref} (sv : v.Sane W) (a : Allocated W v o r w) : Vm.Quiet W E v w where
  births := by rw [a.births]; omega
  cells := fun x c _ hc => by
    rcases a.other x (fun e => a.fresh (e ▸ sv.old x c hc)) with e | e
    · exact .inl (by rw [e]; exact hc)
    · exact .inr (.inl e)
  gone := fun x ho hc => by
    rcases a.other x (fun e => a.fresh (e ▸ ho)) with e | e
    · rw [e]; exact hc
    · exact e
  ret := a.ret
  quit := a.quit
  exitCode := a.exitCode
  out := a.out
  roots := a.roots
  readably := a.readably

/-- changing a value that is exempt, or that was not there at the start -/
theorem Vm.Quiet.write {v0 v : Vm} (q : Vm.Quiet W E v0 v) (s0 : v0.Sane W) {r : Ref} {c d : Cell}
    (hr : E r ∨ ¬ v0.Old W r) (hc : v.mem r = some c) : Vm.Quiet W E v0 { v with mem := v.mem.set r d } where
  births := q.births
  cells := fun x y hE hy => by
    have hx : x ≠ r := by
      rintro rfl
      rcases hr with hr | hr
      · exact hE hr
      · exact hr (s0.old _ _ hy)
    show v.mem.set r d x = some y ∨ v.mem.set r d x = none ∨ ∃ m t l, y.obj = .err m l ∧ v.mem.set r d x = _
    simp only [Mem.set, if_neg hx]
    exact q.cells x y hE hy
  gone := fun x ho hx => by
    have e := q.gone x ho hx
    have : x ≠ r := by rintro rfl; rw [e] at hc; cases hc
    show v.mem.set r d x = none
    simp only [Mem.set, if_neg this]
    exact e
  ret := q.ret
  quit := q.quit
  exitCode := q.exitCode
  out := q.out
  roots := fun which => by have := q.roots which; cases which <;> exact this
  readably := q.readably

/-- making an error message longer -/
theorem Vm.Quiet.annotate {v : Vm} {r : Ref} {c : Cell} {m : Text} {l : Nat} (t : Text)
    (hc : v.mem r = some c) (ho : c.obj = .err m l) :
    Vm.Quiet W E v { v with mem := v.mem.set r { c with obj := .err (m ++ t) l } } where
  births := Nat.le_refl _
  cells := fun x y _ hy => by
    by_cases hx : x = r
    · subst hx
      rw [hc] at hy
      cases hy
      exact .inr (.inr ⟨m, t, l, ho, by simp [Mem.set]⟩)
    · left
      show v.mem.set r _ x = some y
      simp only [Mem.set, if_neg hx]
      exact hy
  gone := fun x _ hx => by
    have : x ≠ r := by rintro rfl; rw [hx] at hc; cases hc
    show v.mem.set r _ x = none
    simp only [Mem.set, if_neg this]
    exact hx
  ret := rfl
  quit := rfl
  exitCode := rfl
  out := rfl
  roots := fun which => by cases which <;> rfl

/-! ### programs that only change what they create -/

/-- the values satisfying `F` may be changed -/
def Prog.Mild (F : Ref → Prop) : Prog α → (α → Prop) → Prop
  | .done a, Q => Q a
  | .op (.alloc _) k, Q => ∀ r, F r → Mild F (k r) Q
  | .op (.read _) k, Q => ∀ c, Mild F (k c) Q
  | .op (.setObj r _) k, Q => F r ∧ Mild F (k ()) Q
  | .op (.replace r _) k, Q => F r ∧ Mild F (k ()) Q
  | .op (.setDoc r _ _) k, Q => F r ∧ Mild F (k ()) Q
  | .op (.setHowto r _) k, Q => F r ∧ Mild F (k ()) Q
  | .op (.push _) k, Q => Mild F (k ()) Q
  | .op (.pop _) k, Q => Mild F (k ()) Q
  | .op .getReturn k, Q => ∀ a, Mild F (k a) Q
  | .op (.setReturn _) _, _ => False
  | .op .isQuit k, Q => ∀ a, Mild F (k a) Q
  | .op (.quit _) _, _ => False
  | .op (.root _) k, Q => ∀ a, Mild F (k a) Q
  | .op (.emit _) _, _ => False
  | .op (.text _) k, Q => ∀ a, Mild F (k a) Q
  | .op (.compare _ _) k, Q => ∀ a, Mild F (k a) Q
  | .op (.arrange _) k, Q => ∀ a, Mild F (k a) Q
  | .op .real k, Q => ∀ a, Mild F (k a) Q
  | .op (.print _ _) k, Q => ∀ a, Mild F (k a) Q
  | .op .readably k, Q => ∀ a, Mild F (k a) Q
  | .op (.setReadably _) _, _ => False
  | .op (.fail _) _, _ => True
  | .op (.call (.copy _)) k, Q => ∀ a, PubOpt F a → Mild F (k a) Q
  | .op (.call (.lookup _ _)) k, Q => ∀ a, Mild F (k a) Q
  | .op (.call _) _, _ => False

namespace Prog
variable {F : Ref → Prop}

theorem Mild.bind {p : Prog α} {f : α → Prog β} {Q : β → Prop} (hp : Mild F p fun a => Mild F (f a) Q) :
    Mild F (p >>= f) Q := by
  show Mild F (Prog.bind p f) Q
  induction p with
  | done a => exact hp
  | op o k ih =>
    cases o with
    | alloc o => exact fun r hr => ih r (hp r hr)
    | read r => exact fun c => ih c (hp c)
    | setObj r o => exact ⟨hp.1, ih () hp.2⟩
    | replace r o => exact ⟨hp.1, ih () hp.2⟩
    | setDoc r d e => exact ⟨hp.1, ih () hp.2⟩
    | setHowto r b => exact ⟨hp.1, ih () hp.2⟩
    | push r => exact ih () hp
    | pop r => exact ih () hp
    | getReturn => exact fun a => ih a (hp a)
    | setReturn a => exact hp
    | isQuit => exact fun a => ih a (hp a)
    | quit c => exact hp
    | root w => exact fun a => ih a (hp a)
    | emit t => exact hp
    | text w => exact fun a => ih a (hp a)
    | compare a b => exact fun a => ih a (hp a)
    | arrange es => exact fun a => ih a (hp a)
    | real => exact fun a => ih a (hp a)
    | print p r => exact fun a => ih a (hp a)
    | readably => exact fun a => ih a (hp a)
    | setReadably b => exact hp
    | fail e => exact trivial
    | call c =>
      cases c with
      | copy x => exact fun a ha => ih a (hp a ha)
      | lookup e s => exact fun a => ih a (hp a)
      | _ => exact hp

end Prog

/-- what the handlers of the model satisfy, apart from `CallSpec`: evaluations are recorded, looking
up a name changes nothing, copying creates a new value and changes nothing else -/
structure Fine (W : World) (h : Handler) : Prop where
  spec : CallSpec W h
  keeps : CallKeeps W h
  eval : ∀ x e v a w t, h (.eval x e) v = .ok (a, w, t) → t = [⟨x, e, v, a, w⟩]
  lookup : ∀ e s v a w t, h (.lookup e s) v = .ok (a, w, t) → w = v ∧ t = []
  copy : ∀ x v a w t, v.Sane W → h (.copy x) v = .ok (a, w, t) →
    w.Sane W ∧ t = [] ∧ Vm.Quiet W (fun _ => False) v w ∧ ∀ r, a = some r → ¬ v.Old W r

theorem wp_mild (hl : ∀ e s v a w t, h (.lookup e s) v = .ok (a, w, t) → w = v ∧ t = [])
    (hcp : ∀ x v a w t, v.Sane W → h (.copy x) v = .ok (a, w, t) →
      w.Sane W ∧ t = [] ∧ Vm.Quiet W (fun _ => False) v w ∧ ∀ r, a = some r → ¬ v.Old W r)
    {v0 : Vm} (s0 : v0.Sane W) (p : Prog α) {Q : α → Prop} :
    ∀ (v : Vm), v.Sane W → Vm.Quiet W E v0 v → Prog.Mild (fun r => E r ∨ ¬ v0.Old W r) p Q →
    Wp W n h p v fun a w t => w.Sane W ∧ t = [] ∧ Vm.Quiet W E v0 w ∧ Q a := by
  induction p with
  | done a =>
    intro v sv q hp a w t e
    cases e
    exact ⟨sv, rfl, q, hp⟩
  | op o k ih =>
    intro v sv q hp
    show Wp W n h (Prog.perform o >>= k) v _
    have same : ∀ {w : Vm}, w.mem = v.mem → w.all = v.all → w.nextUid = v.nextUid → w.births = v.births →
        w.functionReturn = v.functionReturn → w.quit = v.quit → w.exitCode = v.exitCode → w.out = v.out →
        (∀ x, w.root x = v.root x) → w.readably = v.readably → w.Sane W ∧ Vm.Quiet W E v0 w := by
      intro w h1 h2 h3 h4 h5 h6 h7 h8 h9 h10
      refine ⟨⟨by rw [h2]; exact sv.nodup, by rw [h2, h1]; exact sv.dom, by rw [h1]; exact sv.unmarked,
        fun r c hc => ?_, by rw [h1, h3]; exact sv.uidLt, by rw [h1]; exact sv.uidInj⟩,
        q.trans s0 (.same h4 h1 h5 h6 h7 h8 h9 h10)⟩
      have := sv.old r c (by rw [← h1]; exact hc)
      exact this.mono (Nat.le_of_eq h4.symm)
    have write : ∀ {r : Ref} {c d : Cell}, (E r ∨ ¬ v0.Old W r) → v.mem r = some c → d.uid = c.uid → d.mark = c.mark →
        Vm.Sane W { v with mem := v.mem.set r d } ∧ Vm.Quiet W E v0 { v with mem := v.mem.set r d } :=
      fun hr hc hu hm => ⟨write_sane sv hc hu hm, q.write s0 hr hc⟩
    cases o with
    | alloc o =>
      refine wp_bind (wp_alloc sv fun r w a => ?_)
      simp only [List.nil_append]
      exact ih r w (a.sane sv) (q.trans s0 (a.quiet sv)) (hp r (.inr fun h => a.fresh (h.mono q.births)))
    | read r =>
      refine wp_bind (wp_read fun c hc => ?_)
      simp only [List.nil_append]
      exact ih c v sv q (hp c)
    | setObj r o =>
      refine wp_bind (wp_setObj fun c hc => ?_)
      simp only [List.nil_append]
      have := write (d := { c with obj := o }) hp.1 hc rfl rfl
      exact ih () _ this.1 this.2 hp.2
    | replace r o =>
      refine wp_bind (wp_replace fun c hc => ?_)
      simp only [List.nil_append]
      have := write (d := { c with obj := o, gen := c.gen + 1 }) hp.1 hc rfl rfl
      exact ih () _ this.1 this.2 hp.2
    | setDoc r d e =>
      refine wp_bind (wp_setDoc fun c hc => ?_)
      simp only [List.nil_append]
      have := write (d := { c with docstr := d, docvec := e }) hp.1 hc rfl rfl
      exact ih () _ this.1 this.2 hp.2
    | setHowto r b =>
      refine wp_bind (wp_setHowto fun c hc => ?_)
      simp only [List.nil_append]
      have := write (d := { c with howto := b }) hp.1 hc rfl rfl
      exact ih () _ this.1 this.2 hp.2
    | push r =>
      refine wp_bind (wp_push ?_)
      simp only [List.nil_append]
      have := same (w := { v with stack := r :: v.stack }) rfl rfl rfl rfl rfl rfl rfl rfl (fun x => by cases x <;> rfl) rfl
      exact ih () _ this.1 this.2 hp
    | pop r =>
      refine wp_bind (wp_pop fun s _ => ?_)
      simp only [List.nil_append]
      have := same (w := { v with stack := s }) rfl rfl rfl rfl rfl rfl rfl rfl (fun x => by cases x <;> rfl) rfl
      exact ih () _ this.1 this.2 hp
    | getReturn => exact wp_bind (wp_getReturn (ih _ v sv q (hp _)))
    | setReturn a => exact hp.elim
    | isQuit => exact wp_bind (wp_isQuit (ih _ v sv q (hp _)))
    | quit c => exact hp.elim
    | root x => exact wp_bind (wp_root (ih _ v sv q (hp _)))
    | emit t => exact hp.elim
    | text x =>
      refine wp_bind (wp_text fun t => ?_)
      simp only [List.nil_append]
      have := same (w := { v with ticks := v.ticks + 1 }) rfl rfl rfl rfl rfl rfl rfl rfl (fun x => by cases x <;> rfl) rfl
      exact ih _ _ this.1 this.2 (hp _)
    | compare a b => exact wp_bind (wp_compare fun c _ => ih _ v sv q (hp _))
    | arrange es =>
      refine wp_bind (wp_arrange fun x _ => ?_)
      simp only [List.nil_append]
      have := same (w := { v with ticks := v.ticks + 1 }) rfl rfl rfl rfl rfl rfl rfl rfl (fun x => by cases x <;> rfl) rfl
      exact ih _ _ this.1 this.2 (hp _)
    | real =>
      refine wp_bind (wp_real fun t => ?_)
      simp only [List.nil_append]
      have := same (w := { v with ticks := v.ticks + 1 }) rfl rfl rfl rfl rfl rfl rfl rfl (fun x => by cases x <;> rfl) rfl
      exact ih _ _ this.1 this.2 (hp _)
    | print p r => exact wp_bind (wp_print fun c _ => ih _ v sv q (hp _))
    | readably => exact wp_bind (wp_readably (ih _ v sv q (hp _)))
    | setReadably b => exact hp.elim
    | fail e => exact wp_bind (Wp.mono (wp_op (fun a w t e => by cases e)) fun _ _ _ h => h)
    | call c =>
      cases c with
      | copy x =>
        refine wp_bind (wp_call fun a w t e => ?_)
        obtain ⟨sw, rfl, qw, fresh⟩ := hcp x v a w t sv e
        simp only [List.nil_append]
        refine ih a w sw (q.trans s0 (qw.mono fun _ h => h.elim)) (hp a fun r hr => ?_)
        exact .inr fun h => fresh r hr (h.mono q.births)
      | lookup x y =>
        refine wp_bind (wp_call fun a w t e => ?_)
        obtain ⟨rfl, rfl⟩ := hl x y v a w t e
        simp only [List.nil_append]
        exact ih a _ sv q (hp a)
      | _ => exact hp.elim

end Dern
