import Verif.Props.C43
import Verif.Props.C56
import Verif.Props.C57
import Verif.Props.C58
import Verif.Dern.Isle
/-
C66: howto.

For every reachable state and every call `(howto x1 … xk y)` (see `Calling.lean` for the vocabulary): for every order of the arguments
`x1 … xk`, and for every binding of the environment whose value may be tried, a new vector of this value and of copies of the arguments is
made, and a copy of it is evaluated.  Unless this gives an error, a copy of `y` is evaluated as well.  Unless this gives an error either, the
two results are compared.  The result is a new vector of those forms for which they were equal, as they were made.
-/
namespace Dern.Props
open Dern
open Dern.Prog (Library)
open Dern.Spec (Reach)
variable {W : World} {L : Library}

/-- the value may be tried as an operator: a builtin, a special form or a function for which this is allowed -/
def MayTry (v : Vm) (op : Ref) : Prop :=
  ∃ c, v.mem op = some c ∧ c.howto = true ∧ ((∃ b, c.obj = .builtin b) ∨ (∃ s, c.obj = .special s) ∨ ∃ f, c.obj = .fn f)

/-- a form that is tried: from the state `start` on, with the operator `op` and the arguments `args` -/
structure Attempt where
  start : Vm
  op : Ref
  args : List Ref
  form : Ref

/-- in the state `w`, the form is a vector of the operator and of copies of the arguments as they were at the start -/
def Attempt.Intact (W : World) (f : Attempt) (w : Vm) : Prop :=
  ∃ ys, w.HasVec f.form (f.op :: ys) ∧ List.Forall₂ (Copied (fun z => ¬ f.start.Old W z) f.start.mem w.mem) f.args ys

/-- from the state `v` on, the value `x` is copied and the copy is evaluated with the result `t` -/
structure CopyEvals (W : World) (v : Vm) (x env : Ref) (e : Event) (t : Ref) : Prop where
  copy : Copied (fun z => ¬ v.Old W z) v.mem e.pre.mem x e.form
  env : e.env = env
  result : e.result = some t
  quiet : Vm.Quiet W nobody v e.pre

/-- the form of an attempt is made and a copy of it is evaluated with the result `t` -/
structure Applies (W : World) (env : Ref) (f : Attempt) (u : Vm) (e : Event) (t : Ref) : Prop where
  fresh : ¬ f.start.Old W f.form
  quiet : Vm.Quiet W nobody f.start u
  made : f.Intact W u
  evals : CopyEvals W u f.form env e t

/-- an attempt, and whether it is successful; it ends in the state `w` -/
inductive Trial (W : World) (env expected result : Ref) (f : Attempt) : Bool → Vm → List Event → Prop
  | fails {u e t w} : Applies W env f u e t → e.post.IsErr t → Vm.Quiet W nobody e.post w → Trial W env expected result f false w [e]
  | unexpected {u e t e' t' w} : Applies W env f u e t → ¬ e.post.IsErr t → CopyEvals W e.post expected env e' t' → e'.post.IsErr t' →
      Vm.Quiet W nobody e'.post w → Trial W env expected result f false w [e, e']
  | compared {u e t e' t' b w} : Applies W env f u e t → ¬ e.post.IsErr t → CopyEvals W e.post expected env e' t' → ¬ e'.post.IsErr t' →
      judgeEqual e'.post t' t b → Vm.Quiet W (fun z => z = result) e'.post w → Trial W env expected result f b w [e, e']

/-- the turns for one order `xs` of the arguments, from the `i`-th one on; the forms found are `fs` -/
inductive HowtoTurns (W : World) (env expected result : Ref) (xs : List Ref) : (i : Nat) → (v : Vm) → (fs : List Attempt) → (w : Vm) → List Event → Prop
  | done {i v bs enc} : v.HasObj env (.env bs enc) → bs.length ≤ i → HowtoTurns W env expected result xs i v [] v []
  | skip {i v bs enc b u fs w tr} : v.HasObj env (.env bs enc) → i < bs.length → b ∈ bs → ¬ MayTry v b.val → Vm.Quiet W nobody v u →
      HowtoTurns W env expected result xs (i + 1) u fs w tr → HowtoTurns W env expected result xs i v fs w tr
  | tried {i v bs enc b s form k u fs w tr tr'} : v.HasObj env (.env bs enc) → i < bs.length → b ∈ bs → MayTry v b.val → Vm.Quiet W nobody v s →
      Trial W env expected result ⟨s, b.val, xs, form⟩ k u tr → HowtoTurns W env expected result xs (i + 1) u fs w tr' →
      HowtoTurns W env expected result xs i v ((if k then [⟨s, b.val, xs, form⟩] else []) ++ fs) w (tr ++ tr')

/-- the orders of the arguments one after another; `order` is the vector in which they are kept -/
inductive HowtoRounds (W : World) (env expected order result : Ref) : (as : List (List Ref)) → (v : Vm) → (fs : List Attempt) → (w : Vm) → List Event → Prop
  | nil {v} : HowtoRounds W env expected order result [] v [] v []
  | cons {xs as v u fs u' fs' w tr tr'} : Vm.Quiet W (fun z => z = order) v u → HowtoTurns W env expected result xs 0 u fs u' tr →
      HowtoRounds W env expected order result as u' fs' w tr' → HowtoRounds W env expected order result (xs :: as) v (fs ++ fs') w (tr ++ tr')

/-- What `howto` does with the arguments `xs`, the last of them being the form expected: `ps` are all orders of the positions of the others. -/
inductive HowtoRun (W : World) (v : Vm) : (xs : List Ref) → (env r : Ref) → (w : Vm) → List Event → Prop
  | few {xs env r w tr} : xs.length < 2 → GivesError W v r w tr → HowtoRun W v xs env r w tr
  | found {ys expected env r w tr ps order v1 fs u} : ys ≠ [] → List.Perm ps (List.range ys.length).permutations → Vm.Quiet W nobody v v1 →
      ¬ v.Old W order → ¬ v.Old W r → HowtoRounds W env expected order r (ps.map fun p => p.filterMap fun i => ys[i]?) v1 fs u tr →
      (∀ f ∈ fs, f.Intact W u) → u.Stays w → w.HasVec r (fs.map (·.form)) → HowtoRun W v (ys ++ [expected]) env r w tr

/-! ### Proofs -/

variable {n : Nat} {h : Handler} {env result order : Ref} {X X' : Ref → Prop} {st : List Ref} {v w u : Vm}

/-- values in `X` that are protected by the stack stay as they are -/
def Firm (X : Ref → Prop) (st : List Ref) (v w : Vm) : Prop := ∀ x, X x → Guarded X v.mem st x → w.mem x = v.mem x

theorem Firm.guarded (f : Firm X st v w) {x : Ref} (hx : Guarded X v.mem st x) : Guarded X w.mem st x := by
  induction hx with
  | root hx => exact .root hx
  | @step y z hy he ih =>
    obtain ⟨hX, c, hc, hz⟩ := he
    exact .step ih ⟨hX, c, by rw [f y hX hy]; exact hc, hz⟩

theorem Firm.trans (f : Firm X st v u) (g : Firm X st u w) : Firm X st v w := fun x hx hg => by rw [g x hx (f.guarded hg), f x hx hg]

theorem guarded_mono (hX : ∀ x, X x → X' x) {m : Mem} {x : Ref} (hx : Guarded X m st x) : Guarded X' m st x := by
  induction hx with
  | root hx => exact .root hx
  | step _ he ih => exact .step ih ⟨hX _ he.1, he.2⟩

theorem Firm.less (hX : ∀ x, X x → X' x) (f : Firm X' st v w) : Firm X st v w := fun x hx hg => f x (hX x hx) (guarded_mono hX hg)

theorem firm_good (sv : v.Sane W) (cv : v.Closed W X) (g : Vm.Good W X v w) (kp : Vm.Keeps X v.stack v w) {s : List Ref} (hs : v.stack = s ++ st) : Firm X st v w := by
  intro x hx hg
  have old := cv.known x hx
  cases hm : v.mem x with
  | none => rw [g.later.gone x old hm]
  | some c =>
    have hk := kp x (hg.mono fun y hy => .root (by rw [hs]; exact List.mem_append_right _ hy)) (by rw [hm]; rfl)
    rcases g.later.priv x hx old with e | e
    · rw [e, hm]
    · rw [e] at hk; cases hk

theorem firm_pure (p : Vm.Pure W v w) {s : List Ref} (hs : v.stack = s ++ st) : Firm X st v w := fun x _ hg => p.kept x (hg.kept hs)

theorem firm_same (hm : w.mem = v.mem) : Firm X st v w := fun x _ _ => by rw [hm]

/-- the form of an attempt is hidden, together with the copies of the arguments -/
structure Whole (W : World) (X : Ref → Prop) (f : Attempt) (v : Vm) : Prop where
  hid : X f.form
  new : ¬ f.start.Old W f.form
  shape : ∃ ys, v.HasVec f.form (f.op :: ys) ∧ List.Forall₂ (Copied (fun z => ¬ f.start.Old W z) f.start.mem v.mem) f.args ys ∧
    ∀ y ∈ ys, ∀ z, Reach v.mem.Edge (· = y) z → X z ∧ ¬ f.start.Old W z

theorem c66_right_aux {α β : Type} {R S : α → β → Prop} {as : List α} {bs : List β} (h : List.Forall₂ R as bs) (hi : ∀ a b, b ∈ bs → R a b → S a b) :
    List.Forall₂ S as bs := by
  induction h with
  | nil => exact .nil
  | cons h1 _ ih => exact .cons (hi _ _ (by simp) h1) (ih fun a b hb => hi a b (by simp [hb]))

theorem Whole.intact {f : Attempt} (k : Whole W X f v) : f.Intact W v := by
  obtain ⟨ys, h1, h2, _⟩ := k.shape
  exact ⟨ys, h1, h2⟩

theorem Whole.more {f : Attempt} (k : Whole W X f v) (hX : ∀ x, X x → X' x) : Whole W X' f v := by
  obtain ⟨ys, h1, h2, h3⟩ := k.shape
  exact ⟨hX _ k.hid, k.new, ys, h1, h2, fun y hy z hz => ⟨hX _ (h3 y hy z hz).1, (h3 y hy z hz).2⟩⟩

theorem Whole.move {f : Attempt} (k : Whole W X f v) (hg : Guarded X v.mem st f.form)
    (hm : ∀ z, X z → ¬ f.start.Old W z → Guarded X v.mem st z → w.mem z = v.mem z) : Whole W X f w := by
  obtain ⟨ys, ⟨c, hc, ho⟩, h2, h3⟩ := k.shape
  have edge : ∀ y ∈ ys, Guarded X v.mem st y := fun y hy =>
    .step hg ⟨k.hid, c, hc, by unfold Cell.edges; rw [ho]; exact List.mem_append_right _ (.tail _ hy)⟩
  have part : ∀ y ∈ ys, ∀ z, Reach v.mem.Edge (· = y) z → Guarded X v.mem st z := by
    intro y hy z hz
    have : Reach v.mem.Edge (· = y) z ∧ Guarded X v.mem st z := by
      induction hz with
      | root e => subst e; exact ⟨.root rfl, edge _ hy⟩
      | step h1 he ih => exact ⟨.step h1 he, .step ih.2 ⟨(h3 y hy _ h1).1, he⟩⟩
    exact this.2
  have same : ∀ y ∈ ys, ∀ z, Reach v.mem.Edge (· = y) z → w.mem z = v.mem z :=
    fun y hy z hz => hm z (h3 y hy z hz).1 (h3 y hy z hz).2 (part y hy z hz)
  refine ⟨k.hid, k.new, ys, ⟨c, by rw [hm _ k.hid k.new hg]; exact hc, ho⟩, ?_, ?_⟩
  · exact c66_right_aux h2 fun x y hy hc' => hc'.target fun z _ hz => same y hy z hz
  · intro y hy z hz
    refine h3 y hy z ?_
    induction hz with
    | root e => exact .root e
    | step _ he ih =>
      obtain ⟨d, hd, hz'⟩ := he
      exact .step ih ⟨d, by rw [← same y hy _ ih]; exact hd, hz'⟩

/-- the state between two attempts: `order` holds the arguments `xs`, `result` the forms `fs` -/
structure Seeking (W : World) (env order result : Ref) (X : Ref → Prop) (st : List Ref) (fs : List Attempt) (xs : List Ref) (v : Vm) : Prop where
  sane : v.Sane W
  closed : v.Closed W X
  env : v.Pub W X env
  stack : ∃ s, v.stack = s ++ st
  base1 : order ∈ st
  base2 : result ∈ st
  ne : order ≠ result
  hid1 : X order
  hid2 : X result
  ordered : v.HasVec order xs
  results : v.HasVec result (fs.map (·.form))
  whole : ∀ f ∈ fs, Whole W X f v ∧ f.start.Old W order ∧ f.start.Old W result

variable {fs : List Attempt} {xs : List Ref}

theorem Seeking.guarded (k : Seeking W env order result X st fs xs v) {f : Attempt} (hf : f ∈ fs) : Guarded X v.mem st f.form := by
  obtain ⟨c, hc, ho⟩ := k.results
  exact .step (.root k.base2) ⟨k.hid2, c, hc, by unfold Cell.edges; rw [ho]; exact List.mem_append_right _ (List.mem_map_of_mem hf)⟩

/-- going on, with more values hidden -/
theorem Seeking.go (k : Seeking W env order result X st fs xs v) (f : Firm X st v w) (hX : ∀ x, X x → X' x) (sw : w.Sane W) (cw : w.Closed W X')
    (he : w.Pub W X' env) (hs : ∃ s, w.stack = s ++ st) : Seeking W env order result X' st fs xs w where
  sane := sw
  closed := cw
  env := he
  stack := hs
  base1 := k.base1
  base2 := k.base2
  ne := k.ne
  hid1 := hX _ k.hid1
  hid2 := hX _ k.hid2
  ordered := by
    obtain ⟨c, hc, ho⟩ := k.ordered
    exact ⟨c, by rw [f _ k.hid1 (.root k.base1)]; exact hc, ho⟩
  results := by
    obtain ⟨c, hc, ho⟩ := k.results
    exact ⟨c, by rw [f _ k.hid2 (.root k.base2)]; exact hc, ho⟩
  whole := fun g hg => by
    obtain ⟨h1, h2, h3⟩ := k.whole g hg
    exact ⟨(h1.move (k.guarded hg) fun z hz _ hgz => f z hz hgz).more hX, h2, h3⟩

theorem Seeking.raise {st' : List Ref} (k : Seeking W env order result X st fs xs v) (hs : ∃ s, v.stack = s ++ st') (h1 : order ∈ st') (h2 : result ∈ st') :
    Seeking W env order result X st' fs xs v :=
  ⟨k.sane, k.closed, k.env, hs, h1, h2, k.ne, k.hid1, k.hid2, k.ordered, k.results, k.whole⟩

theorem Seeking.same (k : Seeking W env order result X st fs xs v) {E : Ref → Prop} {v0 : Vm} (g : Vm.Step W X E v0 w) (hm : w.mem = v.mem)
    (hb : v.births ≤ w.births) (hs : ∃ s, w.stack = s ++ st) : Seeking W env order result X st fs xs w :=
  k.go (firm_same hm) (fun _ h => h) g.sane g.closed (k.env.mono hb) hs

theorem Seeking.here {E : Ref → Prop} (k : Seeking W env order result X st fs xs v) : Vm.Step W X E v v := .refl k.sane k.closed

theorem pubObj_and {P Q : Ref → Prop} {o : Obj} (hp : PubObj P o) (hq : PubObj Q o) : PubObj (fun z => P z ∧ Q z) o := by
  cases o <;> simp only [PubObj] at hp hq ⊢
  case vec => exact fun x hx => ⟨hp x hx, hq x hx⟩
  case queue => exact fun x hx => ⟨hp x hx, hq x hx⟩
  case list => exact fun x hx => ⟨hp x hx, hq x hx⟩
  case hmap => exact fun x hx => ⟨⟨(hp x hx).1, (hq x hx).1⟩, (hp x hx).2, (hq x hx).2⟩
  case env => exact ⟨fun x hx => ⟨⟨(hp.1 x hx).1, (hq.1 x hx).1⟩, (hp.1 x hx).2, (hq.1 x hx).2⟩, fun x hx => ⟨hp.2 x hx, hq.2 x hx⟩⟩
  case fn => exact ⟨⟨hp.1, hq.1⟩, ⟨hp.2.1, hq.2.1⟩, hp.2.2, hq.2.2⟩
  case mac => exact ⟨⟨hp.1, hq.1⟩, ⟨hp.2.1, hq.2.1⟩, hp.2.2, hq.2.2⟩

theorem pubCell_and {P Q : Ref → Prop} {c : Cell} (hp : PubCell P c) (hq : PubCell Q c) : PubCell (fun z => P z ∧ Q z) c :=
  ⟨pubObj_and hp.obj hq.obj, fun x hx => ⟨hp.docstr x hx, hq.docstr x hx⟩, fun x hx => ⟨hp.docvec x hx, hq.docvec x hx⟩⟩

/-- what copying makes is known to nobody -/
theorem islet_closed (cv : v.Closed W X) (i : Islet W v w) (cw : w.Closed W fun _ => False) : w.Closed W X where
  cells := cw.cells
  pub := by
    intro y c hc hy
    by_cases ho : v.Old W y
    · cases hm : v.mem y with
      | none => rw [i.quiet.gone y ho hm] at hc; cases hc
      | some d =>
        have p := (cv.pub y d hm hy).mono fun z hz => Vm.Pub.mono i.quiet.births hz
        rcases i.quiet.cells y d id hm with e | e | ⟨m, t, l, e1, e2⟩
        · rw [hc] at e; cases e; exact p
        · rw [hc] at e; cases e
        · rw [hc] at e2; cases e2; exact ⟨trivial, p.docstr, p.docvec⟩
    · have p := i.isle y c hc ho
      have q := cw.cells y c hc
      exact (pubCell_and q p).mono fun z hz => ⟨hz.1, fun hX => hz.2 (cv.known z hX)⟩
  stack := cw.stack
  ret := by rw [i.quiet.ret]; exact cv.ret.mono fun z hz => Vm.Pub.mono i.quiet.births hz
  roots := fun which => by rw [i.quiet.roots]; exact Vm.Pub.mono i.quiet.births (cv.roots which)
  known := fun x hx => (cv.known x hx).mono i.quiet.births

/-- all that is new is hidden -/
theorem hide_new (cv : v.Closed W X) (sw : w.Sane W) (q : Vm.Quiet W nobody v w) (cw : w.Closed W fun _ => False) : w.Closed W fun z => X z ∨ ¬ v.Old W z ∧ w.Old W z where
  cells := cw.cells
  pub := by
    have up : ∀ z, v.Pub W X z → w.Pub W (fun z => X z ∨ ¬ v.Old W z ∧ w.Old W z) z :=
      fun z hz => ⟨hz.1.mono q.births, fun h => h.elim hz.2 fun h => h.1 hz.1⟩
    intro y c hc hy
    have ho : v.Old W y := Classical.byContradiction fun h => hy (.inr ⟨h, sw.old y c hc⟩)
    cases hm : v.mem y with
    | none => rw [q.gone y ho hm] at hc; cases hc
    | some d =>
      have p := (cv.pub y d hm fun h => hy (.inl h)).mono up
      rcases q.cells y d id hm with e | e | ⟨m, t, l, e1, e2⟩
      · rw [hc] at e; cases e; exact p
      · rw [hc] at e; cases e
      · rw [hc] at e2; cases e2; exact ⟨trivial, p.docstr, p.docvec⟩
  stack := cw.stack
  ret := by rw [q.ret]; exact cv.ret.mono fun z hz => ⟨hz.1.mono q.births, fun h => h.elim hz.2 fun h => h.1 hz.1⟩
  roots := fun which => by rw [q.roots]; exact ⟨(cv.roots which).1.mono q.births, fun h => h.elim (cv.roots which).2 fun h => h.1 (cv.roots which).1⟩
  known := fun x hx => hx.elim (fun h => (cv.known x h).mono q.births) (·.2)

/-- new values other than those known in `B` refer to such values only -/
def Apart (W : World) (B u : Vm) : Prop := ∀ y c, u.mem y = some c → ¬ B.Old W y → PubCell (fun z => ¬ B.Old W z) c

theorem Apart.reach {B : Vm} (a : Apart W B u) {y z : Ref} (hy : ¬ B.Old W y) (hz : Reach u.mem.Edge (· = y) z) : ¬ B.Old W z := by
  induction hz with
  | root e => rw [e]; exact hy
  | step _ he ih =>
    obtain ⟨c, hc, hz⟩ := he
    have p := a _ _ hc ih
    unfold Cell.edges at hz
    rcases List.mem_append.mp hz with hz | hz
    · cases hd : c.docstr with
      | none => rw [hd] at hz; cases hz
      | some d => rw [hd] at hz; simp at hz; subst hz; exact p.docstr _ hd
    · exact p.obj.children hz

theorem Apart.copy {B : Vm} (a : Apart W B u) (hb : B.births ≤ u.births) (sane : u.Sane W) (p : Vm.Pure W u w) (i : Islet W u w) : Apart W B w := by
  intro y c hc hy
  by_cases ho : u.Old W y
  · cases hm : u.mem y with
    | none => rw [p.gone y ho hm] at hc; cases hc
    | some d =>
      rcases p.cells y d hm with e | e
      · rw [hc] at e; cases e; exact a y c hm hy
      · rw [hc] at e; cases e
  · exact (i.isle y c hc ho).mono fun z hz h => hz (h.mono hb)

/-- copying, in detail -/
theorem wp_copyBoth (C : Copies W h) (I : Isles W h) {x : Ref} (sv : v.Sane W) (cv : v.Closed W fun _ => False) (hx : v.Old W x)
    {Q : Ref → Vm → List Event → Prop} (hq : ∀ r w, CopyOk W v x r w → Islet W v w → Q r w []) : Wp W n h (Prog.copyOf x) v Q := by
  unfold Prog.copyOf
  refine wp_bind (wp_call fun a w t e => ?_)
  obtain ⟨i, _, _⟩ := I x v a w t sv e
  obtain ⟨rfl, r, rfl, k⟩ := C x v a w t sv cv hx e
  exact wp_deref fun r' e => by cases e; exact hq _ _ k i

/-- the copies of the arguments -/
theorem c66_args_aux (C : Copies W h) (I : Isles W h) {v0 B : Vm} (c0 : v0.Closed W fun _ => False) {r op : Ref} {s : List Ref} :
    ∀ (xs : List Ref) (ps : List (Ref × Ref)) (u : Vm), (∀ x ∈ xs, v0.Old W x) → Filling W v0 B r u (.vec (op :: ps.map (·.2))) s →
    (∀ p ∈ ps, Part W v0 B u p.1 p.2) → Apart W B u → Vm.Quiet W nobody v0 u →
    Wp W n h (Prog.howtoArgs r xs) u fun _ w t => t = [] ∧ ∃ qs : List (Ref × Ref), qs.map (·.1) = ps.map (·.1) ++ xs ∧
      Filling W v0 B r w (.vec (op :: qs.map (·.2))) s ∧ (∀ p ∈ qs, Part W v0 B w p.1 p.2) ∧ Apart W B w ∧ Vm.Quiet W nobody v0 w := by
  intro xs
  induction xs with
  | nil => intro ps u _ f hp ap q; exact wp_pure ⟨rfl, ps, by simp, f, hp, ap, q⟩
  | cons z xs ih =>
    intro ps u hxs f hp ap q
    have hz := hxs z (.head _)
    show Wp W n h (Prog.copyOf z >>= fun y => Prog.append r y >>= fun _ => Prog.howtoArgs r xs) u _
    refine wp_bind (wp_copyBoth C I f.sane f.closed (hz.mono f.pure.births) fun y w k i => ?_)
    obtain ⟨f1, h1, h2⟩ := f.copy c0 hz k
    have ap1 := ap.copy f.hi f.sane k.pure i
    refine wp_bind (wp_append fun d es hd hes => ?_)
    obtain ⟨c1, hc1, ho1⟩ := f1.cell
    obtain rfl := same_cell hc1 hd
    rw [ho1] at hes
    cases hes
    have pub := f1.closed.cells r c1 hc1
    have old : ∀ b ∈ (op :: ps.map (·.2)), w.Old W b := by
      have := pub.obj
      rw [ho1] at this
      exact this
    obtain ⟨f2, h3⟩ := f1.write c0 (d := { c1 with obj := .vec (op :: ps.map (·.2) ++ [y]) }) hc1 rfl rfl
      ⟨by
        intro b hb
        rcases List.mem_append.mp hb with hb | hb
        · exact old b hb
        · simp at hb; subst hb; exact k.old, pub.docstr, pub.docvec⟩
    have ap2 : Apart W B { w with mem := w.mem.set r { c1 with obj := .vec (op :: ps.map (·.2) ++ [y]) } } := by
      intro a c hc ha
      have : a ≠ r := by rintro rfl; exact ha f.base
      have hc : (w.mem.set r { c1 with obj := .vec (op :: ps.map (·.2) ++ [y]) }) a = some c := hc
      rw [Mem.set_other _ _ this] at hc
      exact ap1 a c hc ha
    have q2 : Vm.Quiet W nobody v0 { w with mem := w.mem.set r { c1 with obj := .vec (op :: ps.map (·.2) ++ [y]) } } :=
      (q.trans f.sane0 (i.quiet.mono fun _ h => h.elim)).write f.sane0 (.inr f.new) hc1
    refine Wp.mono (ih (ps ++ [(z, y)]) _ (fun x hx => hxs x (.tail _ hx)) (by simpa using f2) ?_ ap2 q2) fun a w' t ht => by simpa using ht
    intro p hp'
    rcases List.mem_append.mp hp' with hp' | hp'
    · exact h3 _ _ (h2 _ _ (.inl (.tail _ (List.mem_map_of_mem hp'))) (hp p hp'))
    · simp at hp'; subst hp'; exact h3 _ _ h1

/-- an attempt under way: its form is on the stack -/
structure Trying (W : World) (env order result : Ref) (X : Ref → Prop) (st : List Ref) (fs : List Attempt) (xs : List Ref) (f : Attempt) (v : Vm) : Prop extends
    Seeking W env order result X st fs xs v where
  this : Whole W X f v
  top : f.form ∈ st

variable {f : Attempt}

theorem Trying.on (k : Trying W env order result X st fs xs f v) (fm : Firm X st v w) (sw : w.Sane W) (cw : w.Closed W X) (hb : v.births ≤ w.births)
    (hs : ∃ s, w.stack = s ++ st) : Trying W env order result X st fs xs f w :=
  ⟨k.toSeeking.go fm (fun _ h => h) sw cw (k.env.mono hb) hs, k.this.move (st := st) (.root k.top) fun z hz _ hg => fm z hz hg, k.top⟩

theorem Trying.copy (C : Copies W h) (I : Isles W h) (k : Trying W env order result X st fs xs f v) {x : Ref} (hx : v.Old W x)
    {Q : Ref → Vm → List Event → Prop} (hq : ∀ y w, Trying W env order result X st fs xs f w → w.Pub W X y → w.stack = v.stack → Vm.Quiet W nobody v w →
      Copied (fun z => ¬ v.Old W z) v.mem w.mem x y → Q y w []) : Wp W n h (Prog.copyOf x) v Q := by
  refine wp_copyBoth C I k.sane k.closed.all hx fun y w c i => ?_
  obtain ⟨s, hs⟩ := k.stack
  have cw := islet_closed k.closed i c.closed
  refine hq y w (k.on (firm_pure c.pure hs) c.sane cw c.pure.births ⟨s, by rw [c.stack, hs]⟩) ⟨c.old, fun hX => ?_⟩ c.stack
    (i.quiet.mono fun _ h => h.elim) c.copied
  exact c.copied.fresh (k.closed.known y hX)

theorem Trying.eval (F : Fine W h) (k : Trying W env order result X st fs xs f v) {x : Ref} (hx : v.Pub W X x)
    {Q : Option Ref → Vm → List Event → Prop} (hq : ∀ a w, Trying W env order result X st fs xs f w → v.births ≤ w.births → w.stack = v.stack →
      PubOpt (w.Pub W X) a → Q a w [⟨x, env, v, a, w⟩]) : Wp W n h (Prog.eval x env) v Q := by
  refine wps_evalKeeps F (k.here (E := nobody)) hx k.env fun a w g kp hst ha => ?_
  obtain ⟨s, hs⟩ := k.stack
  exact hq a w (k.on (firm_good k.sane k.closed g kp hs) g.sane g.closed g.later.births ⟨s, by rw [hst, hs]⟩) g.later.births hst ha

/-- the form and its arguments -/
theorem c66_make_aux (C : Copies W h) (I : Isles W h) (k : Seeking W env order result X st fs xs v) {op : Ref} (hop : v.Old W op)
    {Q : Ref → Vm → List Event → Prop} (hq : ∀ r u, Trying W env order result (fun z => X z ∨ ¬ v.Old W z ∧ u.Old W z) (r :: v.stack) fs xs ⟨v, op, xs, r⟩ u →
      Vm.Quiet W nobody v u → u.stack = r :: v.stack → Q r u []) :
    Wp W n h (do
      let form ← Prog.alloc (.vec [])
      Prog.push form
      Prog.append form op
      let xs ← Prog.verifyVec order
      Prog.howtoArgs form xs
      pure form) v Q := by
  have c0 := k.closed.all
  obtain ⟨s, hs⟩ := k.stack
  obtain ⟨co, hco, hoo⟩ := k.ordered
  have hxs : ∀ x ∈ xs, v.Old W x := by
    have := (k.closed.cells _ _ hco).obj
    rw [hoo] at this
    exact this
  refine wp_bind (wp_alloc k.sane fun r B a => wp_bind (wp_push (wp_bind (wp_append fun c es hc hes => ?_))))
  have f0 := Filling.start k.sane c0 (o := .vec []) (by simp [PubObj]) a
  have hc : B.mem r = some c := hc
  have hcr := a.cell
  obtain rfl := same_cell hcr hc
  cases hes
  obtain ⟨f1, _⟩ := f0.write c0 (d := { obj := .vec ([] ++ [op]), uid := v.nextUid }) hc rfl rfl
    ⟨by intro z hz; simp at hz; subst hz; exact hop.mono f0.pure.births, fun _ h => (by cases h), fun _ h => (by cases h)⟩
  have hne : order ≠ r := by rintro rfl; exact a.fresh (k.sane.old _ _ hco)
  refine wp_bind (wp_verifyVec fun c' es' hc' ho' => ?_)
  have hc' : (B.mem.set r _) order = some c' := hc'
  rw [Mem.set_other _ _ hne, a.kept order (.root (by rw [hs]; exact List.mem_append_right _ k.base1)) hne, hco] at hc'
  cases hc'
  rw [hoo] at ho'
  cases ho'
  have ap : Apart W B { B with stack := r :: B.stack, mem := B.mem.set r { obj := .vec ([] ++ [op]), uid := v.nextUid } } := by
    intro y d hd hy
    have : y ≠ r := by rintro rfl; exact hy f0.base
    have hd : (B.mem.set r _) y = some d := hd
    rw [Mem.set_other _ _ this] at hd
    exact absurd ((a.sane k.sane).old _ _ hd) hy
  have q : Vm.Quiet W nobody v { B with stack := r :: B.stack, mem := B.mem.set r { obj := .vec ([] ++ [op]), uid := v.nextUid } } :=
    Vm.Quiet.write (v := { B with stack := r :: B.stack }) (Vm.Quiet.trans k.sane (a.quiet k.sane) (Ends.pop (s := r :: B.stack)).quiet) k.sane (.inr a.fresh) hc
  refine wp_bind (Wp.mono (c66_args_aux C I c0 (op := op) xs [] _ hxs f1 (by simp) ap q) ?_)
  rintro _ u t ⟨rfl, qs, hqs, f, hp, ap', q'⟩
  refine wp_pure ?_
  have cX := hide_new k.closed f.sane q' f.closed
  obtain ⟨cr, hcr', hor⟩ := f.cell
  have k1 : Seeking W env order result (fun z => X z ∨ ¬ v.Old W z ∧ u.Old W z) st fs xs u :=
    k.go (firm_pure f.pure hs) (fun _ h => .inl h) f.sane cX
      ⟨k.env.1.mono f.pure.births, fun hX => hX.elim k.env.2 fun h => h.1 k.env.1⟩ ⟨r :: s, by rw [f.stack, hs]; rfl⟩
  have lo := f.lo
  have ker : u.Kept r := .root (by rw [f.stack]; exact .head _)
  refine hq r u ⟨k1.raise ⟨[], f.stack⟩ (.tail _ (by rw [hs]; exact List.mem_append_right _ k.base1)) (.tail _ (by rw [hs]; exact List.mem_append_right _ k.base2)),
    ⟨.inr ⟨f.new, f.sane.old _ _ hcr'⟩, f.new, qs.map (·.2), ⟨cr, hcr', hor⟩, ?_, ?_⟩, .head _⟩ q' f.stack
  · have hqs' : xs = qs.map (·.1) := by simpa using hqs.symm
    show List.Forall₂ _ xs _
    rw [hqs']
    clear hqs hqs' hor f
    induction qs with
    | nil => exact .nil
    | cons p qs ih => exact .cons ((hp p (.head _)).mono fun z hz ho => hz (ho.mono lo)) (ih fun p hp' => hp p (.tail _ hp'))
  · intro y hy z hz
    obtain ⟨p, hp', rfl⟩ := List.mem_map.mp hy
    have nz : ¬ v.Old W z := fun ho => ap'.reach (hp p hp').fresh hz (ho.mono lo)
    refine ⟨.inr ⟨nz, kept_old f.closed (hz.mono ?_)⟩, nz⟩
    rintro _ rfl
    exact ker.step ⟨cr, hcr', by unfold Cell.edges; rw [hor]; exact List.mem_append_right _ (.tail _ hy)⟩

/-- the stack as before -/
theorem Seeking.back (k : Seeking W env order result X st fs xs v) {s s' st' : List Ref} (hs : v.stack = s' ++ s) (hs' : ∃ s'', s = s'' ++ st')
    (h1 : order ∈ st') (h2 : result ∈ st') : Seeking W env order result X st' fs xs { v with stack := s } := by
  have c := k.closed
  have cl : Vm.Closed W X { v with stack := s } := ⟨c.cells, c.pub, fun x hx => c.stack x (by rw [hs]; exact List.mem_append_right _ hx), c.ret,
    fun which => by have := c.roots which; cases which <;> exact this, c.known⟩
  exact ⟨sane_same k.sane rfl rfl rfl rfl, cl, k.env, hs', h1, h2, k.ne, k.hid1, k.hid2, k.ordered, k.results,
    fun f hf => ⟨⟨(k.whole f hf).1.hid, (k.whole f hf).1.new, (k.whole f hf).1.shape⟩, (k.whole f hf).2⟩⟩

/-- a form has been found -/
theorem Trying.found (k : Trying W env order result X st fs xs f v) (ho : f.start.Old W order) (hr : f.start.Old W result) {c : Cell} {es : List Ref}
    (hc : v.mem result = some c) (hes : c.obj = .vec es) :
    Seeking W env order result X st (fs ++ [f]) xs { v with mem := v.mem.set result { c with obj := .vec (es ++ [f.form]) } } := by
  obtain ⟨c', hc', ho'⟩ := k.results
  obtain rfl := same_cell hc' hc
  rw [hes] at ho'
  cases ho'
  have pc := k.closed.cells _ _ hc
  have po := pc.obj
  rw [hes] at po
  have g := (k.here (E := fun z => z = result)).change (d := { c' with obj := .vec (fs.map (·.form) ++ [f.form]) }) k.hid2 (.inl rfl) hc rfl rfl
    ⟨by
      intro z hz
      rcases List.mem_append.mp hz with hz | hz
      · exact po z hz
      · rw [List.mem_singleton.mp hz]; exact k.closed.known _ k.this.hid, pc.docstr, pc.docvec⟩
  refine ⟨g.sane, g.closed, k.env, k.stack, k.base1, k.base2, k.ne, k.hid1, k.hid2, ?_, ⟨_, Mem.set_self _ _ _, by simp⟩, ?_⟩
  · obtain ⟨d, hd, ho⟩ := k.ordered
    exact ⟨d, by rw [← hd]; exact Mem.set_other _ _ k.ne, ho⟩
  · intro f' hf'
    rcases List.mem_append.mp hf' with hf' | hf'
    · obtain ⟨h1, h2, h3⟩ := k.whole f' hf'
      exact ⟨h1.move (k.guarded hf') fun z _ hz _ => Mem.set_other _ _ (by rintro rfl; exact hz h3), h2, h3⟩
    · rw [List.mem_singleton.mp hf']
      exact ⟨k.this.move (st := st) (.root k.top) fun z _ hz _ => Mem.set_other _ _ (by rintro rfl; exact hz hr), ho, hr⟩

/-- one attempt -/
theorem c66_try_aux (F : Fine W h) (C : Copies W h) (I : Isles W h) (k : Seeking W env order result X st fs xs v) {op expected : Ref} (hop : v.Old W op)
    (hexp : v.Old W expected) :
    Wp W n h (Prog.howtoTry op order expected env result) v fun _ w tr => ∃ X' form b, w.stack = v.stack ∧ v.births ≤ w.births ∧
      Trial W env expected result ⟨v, op, xs, form⟩ b w tr ∧
      Seeking W env order result X' st (fs ++ if b then [⟨v, op, xs, form⟩] else []) xs w ∧ ∀ x, v.Pub W X x → w.Pub W X' x := by
  obtain ⟨s, hs⟩ := k.stack
  have eq : Prog.howtoTry op order expected env result = (do
      let form ← Prog.alloc (.vec [])
      Prog.push form
      Prog.append form op
      let xs ← Prog.verifyVec order
      Prog.howtoArgs form xs
      pure form) >>= fun form => (do
      let c ← Prog.copyOf form
      let x ← Prog.deref (← Prog.eval c env)
      Prog.push x
      match (← Prog.read x).obj with
      | .err _ _ => do
        Prog.pop x
        Prog.pop form
      | _ => do
        let c ← Prog.copyOf expected
        let y ← Prog.deref (← Prog.eval c env)
        Prog.push y
        match (← Prog.read y).obj with
        | .err _ _ => do
          Prog.pop y
          Prog.pop x
          Prog.pop form
        | _ => do
          if ← Prog.equalValues y x then Prog.append result form
          Prog.pop y
          Prog.pop x
          Prog.pop form) := by
    simp only [Prog.howtoTry, bind_assoc, pure_bind]
    rfl
  rw [eq]
  refine wp_bind (c66_make_aux C I k hop fun r u t q hst => ?_)
  clear eq
  have pub : ∀ w : Vm, u.births ≤ w.births → ∀ x, v.Pub W X x → w.Pub W (fun z => X z ∨ ¬ v.Old W z ∧ u.Old W z) x :=
    fun w hb x hx => ⟨(hx.1.mono q.births).mono hb, fun h => h.elim hx.2 fun h => h.1 hx.1⟩
  have ho : v.Old W order := k.closed.known _ k.hid1
  have hr : v.Old W result := k.closed.known _ k.hid2
  have out : ∀ {w : Vm} {s' : List Ref} {gs : List Attempt}, Seeking W env order result (fun z => X z ∨ ¬ v.Old W z ∧ u.Old W z) (r :: v.stack) gs xs w → w.stack = s' ++ v.stack →
      Seeking W env order result (fun z => X z ∨ ¬ v.Old W z ∧ u.Old W z) st gs xs { w with stack := v.stack } :=
    fun k' e => k'.back e ⟨s, hs⟩ k.base1 k.base2
  refine wp_bind (t.copy C I (t.closed.known _ t.this.hid) fun c v1 t1 hc st1 q1 cp => ?_)
  refine wp_bind (t1.eval F hc fun a v2 t2 b2 st2 ha => wp_bind (wp_deref fun x hx => ?_))
  subst hx
  have px := ha x rfl
  have hst2 : v2.stack = r :: v.stack := by rw [st2, st1, hst]
  have app : Applies W env ⟨v, op, xs, r⟩ u ⟨c, env, v1, some x, v2⟩ x := ⟨t.this.new, q, t.this.intact, ⟨cp, rfl, rfl, q1⟩⟩
  have b02 : u.births ≤ v2.births := Nat.le_trans q1.births b2
  refine wp_bind (wp_push (wp_bind (wp_read fun d hd => ?_)))
  have hd : v2.mem x = some d := hd
  have t2' : Trying W env order result (fun z => X z ∨ ¬ v.Old W z ∧ u.Old W z) (r :: v.stack) fs xs ⟨v, op, xs, r⟩ { v2 with stack := x :: v2.stack } := by
    have g := (t2.here (E := nobody)).push px.1
    exact t2.on (firm_same rfl) g.sane g.closed (Nat.le_refl _) ⟨[x], by rw [hst2]; rfl⟩
  split
  · rename_i m l hobj
    refine wp_bind (wp_pop fun s1 e1 => wp_pop fun s2 e2 => ?_)
    cases e1
    have e2 : v2.stack = r :: s2 := e2
    rw [hst2] at e2
    cases e2
    refine ⟨_, r, false, rfl, Nat.le_trans q.births b02, ?_, ?_, pub _ b02⟩
    · exact .fails app ⟨m, l, d, hd, hobj⟩ Ends.pop.quiet
    · have := out t2.toSeeking (s' := [r]) hst2
      simpa using this
  · rename_i hno
    have nerr : ¬ v2.IsErr x := by
      rintro ⟨m, l, d', hd', ho'⟩
      obtain rfl := same_cell hd hd'
      exact hno m l ho'
    refine wp_bind (t2'.copy C I ((hexp.mono (Nat.le_trans q.births b02))) fun c' v3 t3 hc' st3 q3 cp' => ?_)
    refine wp_bind (t3.eval F hc' fun a' v4 t4 b4 st4 ha' => wp_bind (wp_deref fun y hy => ?_))
    subst hy
    have py := ha' y rfl
    have hst4 : v4.stack = x :: r :: v.stack := by rw [st4, st3]; show x :: v2.stack = _; rw [hst2]
    have ev' : CopyEvals W v2 expected env ⟨c', env, v3, some y, v4⟩ y :=
      ⟨cp', rfl, rfl, Vm.Quiet.trans t2.sane (Ends.pop (s := x :: v2.stack)).quiet q3⟩
    have b04 : u.births ≤ v4.births := Nat.le_trans b02 (Nat.le_trans q3.births b4)
    refine wp_bind (wp_push (wp_bind (wp_read fun d' hd' => ?_)))
    have hd' : v4.mem y = some d' := hd'
    have t4' : Trying W env order result (fun z => X z ∨ ¬ v.Old W z ∧ u.Old W z) (r :: v.stack) fs xs ⟨v, op, xs, r⟩ { v4 with stack := y :: v4.stack } := by
      have g := (t4.here (E := nobody)).push py.1
      exact t4.on (firm_same rfl) g.sane g.closed (Nat.le_refl _) ⟨[y, x], by rw [hst4]; rfl⟩
    split
    · rename_i m l hobj
      refine wp_bind (wp_pop fun s1 e1 => wp_bind (wp_pop fun s2 e2 => wp_pop fun s3 e3 => ?_))
      cases e1
      have e2 : v4.stack = x :: s2 := e2
      rw [hst4] at e2
      cases e2
      cases e3
      refine ⟨_, r, false, rfl, Nat.le_trans q.births b04, ?_, ?_, pub _ b04⟩
      · exact .unexpected app nerr ev' ⟨m, l, d', hd', hobj⟩ Ends.pop.quiet
      · have := out t4.toSeeking (s' := [x, r]) hst4
        simpa using this
    · rename_i hno'
      have nerr' : ¬ v4.IsErr y := by
        rintro ⟨m, l, d'', hd'', ho'⟩
        obtain rfl := same_cell hd' hd''
        exact hno' m l ho'
      refine wp_bind (Wp.mono (c57_equal_aux v4 (y :: v4.stack) y x t4.sane) ?_)
      rintro b w tr ⟨rfl, rfl, hj⟩
      dsimp only
      cases b with
      | true =>
        rw [if_pos rfl]
        refine wp_bind (wp_append fun cr es hcr hes => ?_)
        have kf := t4'.found ho hr hcr hes
        refine wp_bind (wp_pop fun s1 e1 => wp_bind (wp_pop fun s2 e2 => wp_pop fun s3 e3 => ?_))
        cases e1
        have e2 : v4.stack = x :: s2 := e2
        rw [hst4] at e2
        cases e2
        cases e3
        refine ⟨_, r, true, rfl, Nat.le_trans q.births b04, ?_, ?_, pub _ b04⟩
        · have hcr : v4.mem result = some cr := hcr
          have : Vm.Quiet W (fun z => z = result) v4 { v4 with mem := v4.mem.set result { cr with obj := .vec (es ++ [r]) }, stack := v.stack } :=
            Vm.Quiet.trans t4.sane ((Vm.Quiet.refl v4).write t4.sane (.inl rfl) hcr) (Ends.pop (s := v.stack)).quiet
          exact .compared app nerr ev' nerr' hj this
        · have := out kf (s' := [y, x, r]) (by show y :: v4.stack = _; rw [hst4]; rfl)
          simpa using this
      | false =>
        rw [if_neg (by simp)]
        refine wp_bind (wp_pop fun s1 e1 => wp_bind (wp_pop fun s2 e2 => wp_pop fun s3 e3 => ?_))
        cases e1
        have e2 : v4.stack = x :: s2 := e2
        rw [hst4] at e2
        cases e2
        cases e3
        refine ⟨_, r, false, rfl, Nat.le_trans q.births b04, ?_, ?_, pub _ b04⟩
        · exact .compared app nerr ev' nerr' hj Ends.pop.quiet
        · have := out t4.toSeeking (s' := [x, r]) hst4
          simpa using this

/-- the turns for one order of the arguments -/
theorem c66_turn_aux (hL : L.Safe) {expected : Ref} {gen : Nat} : ∀ n i v X fs, Seeking W env order result X st fs xs v → v.Pub W X expected →
    ∀ a u t, handle W L n (.aux (.howto gen i) [order, expected, env, result]) v = .ok (a, u, t) →
    u.stack = v.stack ∧ v.births ≤ u.births ∧ ∃ X' gs, HowtoTurns W env expected result xs i v gs u t ∧
      Seeking W env order result X' st (fs ++ gs) xs u ∧ ∀ x, v.Pub W X x → u.Pub W X' x := by
  intro n
  induction n with
  | zero => intro i v X fs _ _ a u t e; cases e
  | succ n ih =>
    intro i v X fs k hexp a u t e
    have F : Fine W (handle W L n) := handler_fine hL n
    have C : Copies W (handle W L n) := handler_copies n
    have I : Isles W (handle W L n) := handler_isles n
    suffices H : Wp W n (handle W L n) (Prog.howtoTurn order expected env result gen i) v fun _ u t =>
        u.stack = v.stack ∧ v.births ≤ u.births ∧ ∃ X' gs, HowtoTurns W env expected result xs i v gs u t ∧
        Seeking W env order result X' st (fs ++ gs) xs u ∧ ∀ x, v.Pub W X x → u.Pub W X' x from H a u t (handle_succ (by simp) e)
    clear e a u t
    unfold Prog.howtoTurn
    refine wp_bind (wp_read fun c hc => ?_)
    split
    · exact wp_fail
    split
    · rename_i bs enc hobj
      have henv : v.HasObj env (.env bs enc) := ⟨c, hc, hobj⟩
      split
      · rename_i hi
        refine wp_bind (wp_arrange fun p hp => ?_)
        obtain ⟨_, es⟩ := p
        dsimp only
        split
        · rename_i e he
          have mem : e ∈ bs.map fun b => (b.key, b.val) := hp.mem_iff.mp (List.mem_of_getElem? he)
          obtain ⟨b, hb, rfl⟩ := List.mem_map.mp mem
          have kt : Seeking W env order result X st fs xs { v with ticks := v.ticks + 1 } :=
            k.same (E := nobody) k.here.tick rfl (Nat.le_refl _) k.stack
          have hbv : v.Pub W X b.val := by
            have := (k.closed.pub _ _ hc k.env.2).obj
            rw [hobj] at this
            exact (this.1 b hb).2
          refine wp_bind (wp_read fun d hd => ?_)
          have hd : v.mem b.val = some d := hd
          have skip : ¬ MayTry v b.val → Wp W n (handle W L n) (Prog.call (.aux (.howto gen (i + 1)) [order, expected, env, result])) { v with ticks := v.ticks + 1 } fun _ u t =>
              u.stack = v.stack ∧ v.births ≤ u.births ∧ ∃ X' gs, HowtoTurns W env expected result xs i v gs u t ∧
              Seeking W env order result X' st (fs ++ gs) xs u ∧ ∀ x, v.Pub W X x → u.Pub W X' x := by
            intro hm
            refine wp_call fun a u t e => ?_
            obtain ⟨h1, h2, X', gs, h3, h4, h5⟩ := ih (i + 1) _ X fs kt hexp a u t e
            exact ⟨h1, h2, X', gs, .skip henv hi hb hm Ends.tick.quiet h3, h4, h5⟩
          have try_ : MayTry v b.val → Wp W n (handle W L n) (do
              Prog.howtoTry b.val order expected env result
              Prog.call (.aux (.howto gen (i + 1)) [order, expected, env, result])) { v with ticks := v.ticks + 1 } fun _ u t =>
              u.stack = v.stack ∧ v.births ≤ u.births ∧ ∃ X' gs, HowtoTurns W env expected result xs i v gs u t ∧
              Seeking W env order result X' st (fs ++ gs) xs u ∧ ∀ x, v.Pub W X x → u.Pub W X' x := by
            intro hm
            refine wp_bind (Wp.mono (c66_try_aux F C I kt (op := b.val) (expected := expected) hbv.1 hexp.1) ?_)
            rintro _ u tr ⟨X1, form, ok, hs1, hb1, tri, k1, p1⟩
            refine wp_call fun a w t e => ?_
            obtain ⟨h1, h2, X', gs, h3, h4, h5⟩ := ih (i + 1) _ X1 _ k1 (p1 _ hexp) a w t e
            exact ⟨h1.trans hs1, Nat.le_trans hb1 h2, X', _, .tried henv hi hb hm Ends.tick.quiet tri h3, by simpa using h4, fun x hx => h5 x (p1 x hx)⟩
          simp only [List.nil_append]
          have both : ((∃ b, d.obj = .builtin b) ∨ (∃ s, d.obj = .special s) ∨ ∃ f, d.obj = .fn f) → Wp W n (handle W L n) (do
              if d.howto then Prog.howtoTry b.val order expected env result
              Prog.call (.aux (.howto gen (i + 1)) [order, expected, env, result])) { v with ticks := v.ticks + 1 } fun _ u t =>
              u.stack = v.stack ∧ v.births ≤ u.births ∧ ∃ X' gs, HowtoTurns W env expected result xs i v gs u t ∧
              Seeking W env order result X' st (fs ++ gs) xs u ∧ ∀ x, v.Pub W X x → u.Pub W X' x := by
            intro hk
            cases hh : d.howto with
            | true => exact try_ ⟨d, hd, hh, hk⟩
            | false =>
              refine skip ?_
              rintro ⟨d', hd', hh', _⟩
              obtain rfl := same_cell hd hd'
              rw [hh] at hh'; cases hh'
          split
          · rename_i b' ho'; exact both (.inl ⟨b', ho'⟩)
          · rename_i b' ho'; exact both (.inr (.inl ⟨b', ho'⟩))
          · rename_i b' ho'; exact both (.inr (.inr ⟨b', ho'⟩))
          · rename_i h1 h2 h3
            refine skip ?_
            rintro ⟨d', hd', _, ⟨b', ho'⟩ | ⟨b', ho'⟩ | ⟨b', ho'⟩⟩ <;> obtain rfl := same_cell hd hd'
            · exact h1 b' ho'
            · exact h2 b' ho'
            · exact h3 b' ho'
        · exact wp_fail
      · rename_i hi
        exact wp_pure ⟨rfl, Nat.le_refl _, X, [], .done henv (by omega), by simpa using k, fun _ h => h⟩
    · exact wp_fail

/-- the orders of the arguments -/
theorem c66_rounds_aux (hL : L.Safe) {expected : Ref} : ∀ (as : List (List Ref)) {v X fs xs}, Seeking W env order result X st fs xs v → v.Pub W X expected →
    (∀ a ∈ as, ∀ x ∈ a, v.Old W x) →
    Wp W n (handle W L n) (Prog.howtoLoop order expected env result as) v fun _ u t => u.stack = v.stack ∧ v.births ≤ u.births ∧
      ∃ X' gs ys, HowtoRounds W env expected order result as v gs u t ∧ Seeking W env order result X' st (fs ++ gs) ys u := by
  intro as
  induction as with
  | nil => intro v X fs xs k _ _; exact wp_pure ⟨rfl, Nat.le_refl _, X, [], xs, .nil, by simpa using k⟩
  | cons a as ih =>
    intro v X fs xs k hexp has
    show Wp W n (handle W L n) (Prog.setObj order (.vec a) >>= fun _ => Prog.read env >>= fun c =>
      Prog.call (.aux (.howto c.gen 0) [order, expected, env, result]) >>= fun _ => Prog.howtoLoop order expected env result as) v _
    refine wp_bind (wp_setObj fun c hc => ?_)
    have pc := k.closed.cells _ _ hc
    have g := (k.here (E := fun z => z = order)).change (d := { c with obj := .vec a }) k.hid1 (.inl rfl) hc rfl rfl
      ⟨fun z hz => has a (.head _) z hz, pc.docstr, pc.docvec⟩
    have k1 : Seeking W env order result X st fs a { v with mem := v.mem.set order { c with obj := .vec a } } := by
      refine ⟨g.sane, g.closed, k.env, k.stack, k.base1, k.base2, k.ne, k.hid1, k.hid2, ⟨_, Mem.set_self _ _ _, rfl⟩, ?_, ?_⟩
      · obtain ⟨d, hd, ho⟩ := k.results
        exact ⟨d, by rw [← hd]; exact Mem.set_other _ _ (Ne.symm k.ne), ho⟩
      · intro f hf
        obtain ⟨h1, h2, h3⟩ := k.whole f hf
        exact ⟨h1.move (k.guarded hf) fun z _ hz _ => Mem.set_other _ _ (by rintro rfl; exact hz h2), h2, h3⟩
    refine wp_bind (wp_read fun d hd => wp_bind (wp_call fun r u t e => ?_))
    obtain ⟨h1, h2, X', gs, h3, h4, h5⟩ := c66_turn_aux hL n 0 _ X fs k1 hexp r u t e
    refine Wp.mono (ih h4 (h5 _ hexp) fun a ha x hx => (has a (.tail _ ha) x hx).mono h2) ?_
    rintro _ w tr ⟨s1, b1, X2, gs2, ys, r2, k2⟩
    exact ⟨s1.trans h1, Nat.le_trans h2 b1, X2, gs ++ gs2, ys, by simpa using HowtoRounds.cons g.quiet h3 r2, by simpa using k2⟩

theorem c66_arrangements_aux (ys : List Ref) : ∃ ps : List (List Nat), ps.Perm (List.range ys.length).permutations ∧
    Prog.arrangements ys = ps.map fun p => p.filterMap fun i => ys[i]? := by
  refine ⟨_, c43_positions_aux ys.length, ?_⟩
  unfold Prog.arrangements
  rw [List.map_map]
  refine List.map_congr_left fun e _ => ?_
  simp only [Function.comp_apply, List.filterMap_map]

theorem c66_howto_aux (hL : L.Safe) {args : Ref} {es : List Ref} {v0 : Vm} (k : Held W args es env v)
    (g : Vm.Step W (fun x => x = args) nobody v0 v) (top : args ∈ v.stack) :
    Wp W n (handle W L n) (Prog.spHowto args env) v fun a u t => ∀ r w, a = some r → Ends u w → HowtoRun W v0 es env r w t := by
  unfold Prog.spHowto
  refine wp_bind (wp_verifyVec fun c es' hc ho => wp_bind (wp_verifyEnv fun _ => ?_))
  obtain rfl : es' = es := by
    rcases k.vec with h | h
    · exact hasVec_one h ⟨c, hc, ho⟩
    · rw [hc] at h; cases h
  have ks := Stashed.start k top hc
  split
  · rename_i expected x xs h1 h2
    have hes : es' = (x :: xs) ++ [expected] := by
      rw [← h2, List.dropLast_append_getLast? _ h1]
    have pub : ∀ z ∈ (x :: xs) ++ [expected], v.Pub W (fun x => x = args) z := hes ▸ k.pub
    have n1 : ∀ o ∈ [(args, c)], v.Old W o.1 := fun o ho => ks.old ho
    refine wp_bind (wp_alloc ks.sane fun r w1 a1 => wp_bind (wp_push (wp_bind ?_)))
    have k1 := ks.hide a1 (by simp [PubObj])
    refine wp_alloc k1.sane fun o w2 a2 => wp_bind (wp_push (wp_bind ?_))
    have k2 := k1.hide a2 (by simp [PubObj])
    refine wp_appendAllExact (x :: xs) a2.cell rfl ?_
    have old2 : ∀ z, v.Old W z → w2.Old W z := fun z hz => (hz.mono (a1.quiet (E := nobody) ks.sane).births).mono (a2.quiet (E := nobody) k1.sane).births
    have ner : o ≠ r := by
      rintro rfl
      exact a2.fresh (k1.old (.head _))
    have oldArgs : Vm.Old W { w1 with stack := r :: w1.stack } args := k1.old (o := (args, c)) (.tail _ (.head _))
    have k3 := k2.change (d := { obj := .vec ([] ++ (x :: xs)), uid := Vm.nextUid { w1 with stack := r :: w1.stack } }) (by
      intro q hq
      simp only [List.mem_cons, List.not_mem_nil, or_false] at hq
      rcases hq with rfl | rfl
      · exact Ne.symm ner
      · exact fun e => a2.fresh (e ▸ oldArgs)) rfl rfl
      ⟨fun z hz => old2 z (pub z (by simp at hz ⊢; tauto)).1, fun _ h => (by cases h), fun _ h => (by cases h)⟩
    have fo : ¬ v.Old W o := fun h => a2.fresh (h.mono (a1.quiet (E := nobody) ks.sane).births)
    have q3 : Vm.Quiet W nobody v { w2 with stack := o :: w2.stack, mem := w2.mem.set o { obj := .vec ([] ++ (x :: xs)), uid := Vm.nextUid { w1 with stack := r :: w1.stack } } } :=
      Vm.Quiet.write (v := { w2 with stack := o :: w2.stack }) (Vm.Quiet.trans ks.sane (Vm.Quiet.trans ks.sane (Vm.Quiet.trans ks.sane (a1.quiet ks.sane) (Ends.pop (s := r :: w1.stack)).quiet)
        (a2.quiet k1.sane)) (Ends.pop (s := o :: w2.stack)).quiet) ks.sane (.inr fo) a2.cell
    obtain ⟨ps, hps, earr⟩ := c66_arrangements_aux (x :: xs)
    have up : ∀ z ∈ (x :: xs) ++ [expected], Vm.Pub W (stash [(o, ({ obj := .vec ([] ++ (x :: xs)), uid := Vm.nextUid { w1 with stack := r :: w1.stack } } : Cell)), (r, { obj := .vec [], uid := v.nextUid }), (args, c)]) w2 z := by
      intro z hz
      refine ⟨old2 z (pub z hz).1, ?_⟩
      rintro ⟨q, hq, e⟩
      simp only [List.mem_cons, List.not_mem_nil, or_false] at hq
      rcases hq with rfl | rfl | rfl
      · exact fo ((show o = z from e) ▸ (pub z hz).1)
      · exact a1.fresh ((show r = z from e) ▸ (pub z hz).1)
      · exact (pub z hz).2 e.symm
    have hs2 : r ∈ o :: w2.stack := by rw [a2.stack]; exact .tail _ (.head _)
    have k4 : Seeking W env o r _ (o :: w2.stack) [] (x :: xs) { w2 with stack := o :: w2.stack, mem := w2.mem.set o { obj := .vec ([] ++ (x :: xs)), uid := Vm.nextUid { w1 with stack := r :: w1.stack } } } :=
      ⟨k3.sane, k3.closed, k3.env, ⟨[], rfl⟩, .head _, hs2, ner, ⟨_, .head _, rfl⟩, ⟨_, .tail _ (.head _), rfl⟩, ⟨_, k3.made _ (.head _), rfl⟩,
        ⟨_, k3.made _ (.tail _ (.head _)), rfl⟩, fun f hf => by cases hf⟩
    rw [earr]
    refine wp_bind (Wp.mono (c66_rounds_aux hL _ k4 (up expected (by simp)) ?_) ?_)
    · intro a ha z hz
      obtain ⟨p, _, rfl⟩ := List.mem_map.mp ha
      obtain ⟨i, _, hi⟩ := List.mem_filterMap.mp hz
      exact (up z (List.mem_append_left _ (List.mem_of_getElem? hi))).1
    rintro _ u t ⟨hst, hb, X', gs, ys, rounds, ku⟩
    refine wp_bind (wp_pop fun s1 e1 => wp_bind (wp_pop fun s2 e2 => wp_pure ?_))
    rintro _ w ⟨⟩ ew
    have e' : Ends u w := (Ends.pop (s := s2)).trans ew
    simp only [List.append_nil, List.nil_append]
    rw [hes]
    refine .found (by simp) hps (g.quiet.trans g.sane0 q3) (fun h => fo (h.mono g.quiet.births)) (fun h => a1.fresh (h.mono g.quiet.births)) rounds
      (fun f hf => (ku.whole f (by simpa using hf)).1.intact) e'.stays ?_
    have := ends_hasVec e' ku.results
    simpa using this
  · rename_i hno
    refine wp_errorStashed ks fun r w kw g' hst hp fr he => ?_
    rintro _ w' ⟨⟩ e'
    refine .few ?_ ⟨rfl, (g.quiet.trans g.sane0 g'.quiet).trans g.sane0 e'.quiet, fun h => fr (h.mono g.quiet.births), e'.isErr he⟩
    match es', hno with
    | [], _ => simp
    | [_], _ => simp
    | x :: y :: es, hno => exact absurd rfl (hno _ _ _ (by rw [List.getLast?_cons_cons, List.getLast?_eq_getLast]; simp) )

/-! ### Theorems -/

/-- `howto`, called by its name -/
theorem c66_howto (hL : L.Safe) {v w : Vm} (rv : v.Reached W L) {form env op : Ref} {name : Text} {xs : List Ref}
    (nc : NamedCall W v form env name op xs) (hop : v.HasObj op (.special .howto)) (hargs : ∀ x ∈ xs, ¬ v.IsErr x)
    {r : Option Ref} {tr : List Event} (ev : Evaluates W L v form env r w tr) :
    NamedFormCall W (HowtoRun W) v xs env op r w tr :=
  namedFormCall_aux' hL (fun _ _ _ _ _ _ _ _ k g _ _ _ top => c66_howto_aux hL k g top.2) rv nc hop hargs ev

/-- `howto`, the operator being given by any form -/
theorem c66_howto_operator (hL : L.Safe) {v w : Vm} (rv : v.Reached W L) {form env first : Ref} {rest : List Ref}
    (hq : v.quit = false) (hf : v.HasVec form (first :: rest)) (of : v.Old W form) (oe : v.Old W env)
    {r : Option Ref} {tr : List Event} (ev : Evaluates W L v form env r w tr) :
    FormCall W .howto (HowtoRun W) v form first env r w tr :=
  formCall_aux' hL (fun _ _ _ _ _ _ _ _ k g _ _ _ top => c66_howto_aux hL k g top.2) rv hq hf of oe ev

/-- Each form that is found has been tried successfully: its arguments are in one of the orders, a copy of it and then a copy of the form
expected have been evaluated, without errors, and the values were equal. -/
theorem c66_found {env expected order result : Ref} {as : List (List Ref)} {v w : Vm} {fs : List Attempt} {tr : List Event}
    (h : HowtoRounds W env expected order result as v fs w tr) {f : Attempt} (hf : f ∈ fs) :
    f.args ∈ as ∧ ∃ u e t e' t', e ∈ tr ∧ e' ∈ tr ∧ Applies W env f u e t ∧ CopyEvals W e.post expected env e' t' ∧ ¬ e.post.IsErr t ∧
      ¬ e'.post.IsErr t' ∧ judgeEqual e'.post t' t true := by
  have turns : ∀ {xs i v fs w tr}, HowtoTurns W env expected result xs i v fs w tr → ∀ f ∈ fs, f.args = xs ∧ ∃ u e t e' t', e ∈ tr ∧ e' ∈ tr ∧
      Applies W env f u e t ∧ CopyEvals W e.post expected env e' t' ∧ ¬ e.post.IsErr t ∧ ¬ e'.post.IsErr t' ∧ judgeEqual e'.post t' t true := by
    intro xs i v fs w tr h
    induction h with
    | done => exact fun f hf => by cases hf
    | skip _ _ _ _ _ _ ih => exact ih
    | @tried i v bs enc b s form k u fs w tr tr' _ _ _ _ _ tri _ ih =>
      intro f hf
      rcases List.mem_append.mp hf with hf | hf
      · cases k with
        | false => cases hf
        | true =>
          cases List.mem_singleton.mp hf
          cases tri with
          | compared h1 h2 h3 h4 h5 h6 => exact ⟨rfl, _, _, _, _, _, by simp, by simp, h1, h3, h2, h4, h5⟩
      · obtain ⟨h1, u, e, t, e', t', m1, m2, rest⟩ := ih f hf
        exact ⟨h1, u, e, t, e', t', List.mem_append_right _ m1, List.mem_append_right _ m2, rest⟩
  induction h with
  | nil => cases hf
  | cons _ h1 _ ih =>
    rcases List.mem_append.mp hf with hf | hf
    · obtain ⟨h2, u, e, t, e', t', m1, m2, rest⟩ := turns h1 f hf
      exact ⟨h2 ▸ .head _, u, e, t, e', t', List.mem_append_left _ m1, List.mem_append_left _ m2, rest⟩
    · obtain ⟨h2, u, e, t, e', t', m1, m2, rest⟩ := ih hf
      exact ⟨.tail _ h2, u, e, t, e', t', List.mem_append_right _ m1, List.mem_append_right _ m2, rest⟩

/-! ### Examples -/
def kit21 : List (String × Obj × Bool) := [("howto", .special .howto, false), ("+", .builtin .plus, true), ("-", .builtin .minus, true),
  ("list", .builtin .list, false)]

theorem kit21_plain : ∀ x ∈ kit21, x.2.1.children = [] := by decide

/-- the elements of the elements of a vector -/
def formsAt (w : Vm) (r : Option Ref) : List (List (Option Obj)) :=
  match objAt w r with
  | some (.vec es) => es.map fun e => partsAt w (some e)
  | _ => []

/-- `(howto 1 2 3)` finds `(+ 1 2)` and `(+ 2 1)` -/
example : ∃ (v w : Vm) (form op : Ref) (xs : List Ref) (r : Option Ref) (tr : List Event), v.Reached world library ∧
    NamedCall world v form v.globalEnv (txt "howto") op xs ∧ v.HasObj op (.special .howto) ∧ (∀ x ∈ xs, ¬ v.IsErr x) ∧
    Evaluates world library v form v.globalEnv r w tr ∧ formsAt w r = [[some (.builtin .plus), some (.int 1), some (.int 2)], [some (.builtin .plus), some (.int 2), some (.int 1)]] := by
  obtain ⟨v, form, r, w, tr, hr, of, oe, ev, h⟩ := stage_exists (table := kit21) (forms := []) (fuel := 60)
    (last := .vec [.sym "howto", .int 1, .int 2, .int 3])
    (P := fun v f r w tr => namedCheck v f "howto" (.special .howto) && decide (formsAt w r = [[some (.builtin .plus), some (.int 1), some (.int 2)], [some (.builtin .plus), some (.int 2), some (.int 1)]])) kit21_plain (by decide +kernel)
  simp only [Bool.and_eq_true, decide_eq_true_eq] at h
  obtain ⟨op, xs, h1, h2, h3⟩ := named_of_check h.1 of oe
  exact ⟨v, w, form, op, xs, r, tr, hr, h1, h2, h3, ev, h.2⟩

/-- `(howto 1 2 (- 5 4))` finds `(- 2 1)` -/
example : ∃ (v w : Vm) (form op : Ref) (xs : List Ref) (r : Option Ref) (tr : List Event), v.Reached world library ∧
    NamedCall world v form v.globalEnv (txt "howto") op xs ∧ v.HasObj op (.special .howto) ∧ (∀ x ∈ xs, ¬ v.IsErr x) ∧
    Evaluates world library v form v.globalEnv r w tr ∧ formsAt w r = [[some (.builtin .minus), some (.int 2), some (.int 1)]] := by
  obtain ⟨v, form, r, w, tr, hr, of, oe, ev, h⟩ := stage_exists (table := kit21) (forms := []) (fuel := 60)
    (last := .vec [.sym "howto", .int 1, .int 2, .vec [.sym "-", .int 5, .int 4]])
    (P := fun v f r w tr => namedCheck v f "howto" (.special .howto) && decide (formsAt w r = [[some (.builtin .minus), some (.int 2), some (.int 1)]])) kit21_plain (by decide +kernel)
  simp only [Bool.and_eq_true, decide_eq_true_eq] at h
  obtain ⟨op, xs, h1, h2, h3⟩ := named_of_check h.1 of oe
  exact ⟨v, w, form, op, xs, r, tr, hr, h1, h2, h3, ev, h.2⟩

/-- `(howto 1)` is an error -/
example : ∃ (v w : Vm) (form op : Ref) (xs : List Ref) (r : Option Ref) (tr : List Event), v.Reached world library ∧
    NamedCall world v form v.globalEnv (txt "howto") op xs ∧ v.HasObj op (.special .howto) ∧ (∀ x ∈ xs, ¬ v.IsErr x) ∧
    Evaluates world library v form v.globalEnv r w tr ∧ (match objAt w r with | some (.err _ _) => true | _ => false) = true := by
  obtain ⟨v, form, r, w, tr, hr, of, oe, ev, h⟩ := stage_exists (table := kit21) (forms := []) (fuel := 60)
    (last := .vec [.sym "howto", .int 1])
    (P := fun v f r w tr => namedCheck v f "howto" (.special .howto) && decide ((match objAt w r with | some (.err _ _) => true | _ => false) = true)) kit21_plain (by decide +kernel)
  simp only [Bool.and_eq_true, decide_eq_true_eq] at h
  obtain ⟨op, xs, h1, h2, h3⟩ := named_of_check h.1 of oe
  exact ⟨v, w, form, op, xs, r, tr, hr, h1, h2, h3, ev, h.2⟩

end Dern.Props
