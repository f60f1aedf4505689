import Verif.Props.Effects
import Verif.Props.C35Assign
/-
Changing one value in place.
-/
namespace Dern.Props
open Dern
open Dern.Spec (Reach)
open Dern.Prog (Library)
variable {W : World} {L : Library}

/-- the state `u` comes from `v` by making the value `x` to `o`, and nothing else has changed -/
structure Changing (W : World) (x : Ref) (v u : Vm) (o : Obj) : Prop where
  step : Vm.Step W nobody (fun z => z = x) v u
  cell : u.HasObj x o
  other : ∀ z, z ≠ x → u.mem z = v.mem z
  uid : ∀ c, v.mem x = some c → ∃ d, u.mem x = some d ∧ d.uid = c.uid
  stack : u.stack = v.stack

theorem Changing.start {v : Vm} {x : Ref} {o : Obj} (sv : v.Sane W) (cv : v.Closed W nobody) (h : v.HasObj x o) : Changing W x v v o :=
  ⟨.refl sv cv, h, fun _ _ => rfl, fun c hc => ⟨c, hc, rfl⟩, rfl⟩

theorem Changing.set {v u : Vm} {x : Ref} {o o' : Obj} {c : Cell} (f : Changing W x v u o) (hc : u.mem x = some c) (ho : PubObj (v.Old W) o') :
    Changing W x v { u with mem := u.mem.set x { c with obj := o' } } o' where
  step := by
    have := f.step.closed.cells x c hc
    refine f.step.modify (.inl rfl) hc rfl rfl ⟨?_, fun z hz => ⟨this.docstr z hz, id⟩, fun z hz => ⟨this.docvec z hz, id⟩⟩
    have mono : ∀ z, v.Old W z → u.Pub W nobody z := fun z hz => ⟨hz.mono f.step.quiet.births, id⟩
    cases o' <;> simp only [PubObj] at ho ⊢
    all_goals first | exact fun z hz => mono z (ho z hz) | grind
  cell := ⟨_, Mem.set_self .., rfl⟩
  other := fun z hz => by rw [← f.other z hz]; exact Mem.set_other _ _ hz
  uid := fun d hd => by
    obtain ⟨e, he, hu⟩ := f.uid d hd
    exact ⟨_, Mem.set_self .., by rw [← hu]; cases same_cell he hc; rfl⟩
  stack := f.stack

theorem Changing.keeps {v u : Vm} {x : Ref} {o : Obj} (f : Changing W x v u o) (ho : ∀ b, o ≠ .builtin b) : KeepsBuiltins v u := by
  intro op b b' ⟨c, hc, hco⟩ ⟨d, hd, hdo⟩
  by_cases hx : op = x
  · subst hx
    obtain ⟨e, he, heo⟩ := f.cell
    cases same_cell he hd
    exact absurd (heo.symm.trans hdo) (ho b')
  · have := f.other op hx
    rw [this] at hd
    cases same_cell hd hc
    rw [hco] at hdo; cases hdo; rfl

theorem Changing.finish {v u w : Vm} {x : Ref} {o : Obj} (f : Changing W x v u o) (ho : ∀ m l, o ≠ .err m l) (e : Ends u w) :
    Becomes W o v x w [] := by
  refine ⟨rfl, f.step.quiet.trans f.step.sane0 e.quiet, e.hasObj f.cell ho, ?_⟩
  rintro z o' hz hne ⟨c, hc, hco⟩
  exact e.hasObj ⟨c, by rw [f.other z hz]; exact hc, hco⟩ hne

/-! ### while new values are made -/

/-- The value `x` is being changed and is `o` now.  The values `ts` (in the vector `args` on the stack) and those in `S`
(in `x`), and what they consist of, stay. -/
structure Pushing (W : World) (v : Vm) (args : Ref) (ts : List Ref) (x : Ref) (S : Ref → Prop) (u : Vm) (o : Obj) : Prop where
  step : Vm.Step W nobody (fun z => z = x) v u
  vec : u.HasVec args ts
  top : args ∈ u.stack
  ne : args ≠ x
  root : x ∈ ts ∨ x ∈ u.stack
  cell : u.HasObj x o
  sub : ∀ z, S z → z ∈ o.children
  src : ∀ z, Reach (fun a b => a ≠ x ∧ v.mem.Edge a b) (fun z => z ∈ ts ∨ S z) z → z ≠ x → u.mem z = v.mem z

variable {v u w : Vm} {args x : Ref} {ts : List Ref} {S : Ref → Prop} {o : Obj}

theorem Pushing.keptArg (f : Pushing W v args ts x S u o) {z : Ref} (hz : z ∈ ts) : u.Kept z := by
  obtain ⟨c, hc, ho⟩ := f.vec
  exact .step (.root f.top) ⟨c, hc, by simpa [Cell.edges, ho, Obj.children] using .inr hz⟩

theorem Pushing.keptX (f : Pushing W v args ts x S u o) : u.Kept x :=
  f.root.elim f.keptArg .root

theorem Pushing.keptChild (f : Pushing W v args ts x S u o) {z : Ref} (hz : z ∈ o.children) : u.Kept z := by
  obtain ⟨c, hc, ho⟩ := f.cell
  exact f.keptX.step ⟨c, hc, by unfold Cell.edges; rw [ho]; exact List.mem_append_right _ hz⟩

theorem Pushing.keptSrc (f : Pushing W v args ts x S u o) {z : Ref}
    (hz : Reach (fun a b => a ≠ x ∧ v.mem.Edge a b) (fun z => z ∈ ts ∨ S z) z) : u.Kept z := by
  induction hz with
  | root h => exact h.elim f.keptArg fun h => f.keptChild (f.sub _ h)
  | @step a b ha he ih =>
    obtain ⟨hne, c, hc, hb⟩ := he
    exact ih.step ⟨c, by rw [f.src a ha hne]; exact hc, hb⟩

/-- nothing that is in use changes -/
theorem Pushing.same (f : Pushing W v args ts x S u o) (g : Vm.Step W nobody (fun z => z = x) v w) (hs : w.stack = u.stack)
    (p : ∀ z, u.Kept z → w.mem z = u.mem z) : Pushing W v args ts x S w o := by
  obtain ⟨c, hc, ho⟩ := f.cell
  obtain ⟨d, hd, hdo⟩ := f.vec
  refine ⟨g, ⟨d, by rw [p args (.root f.top)]; exact hd, hdo⟩, by rw [hs]; exact f.top, f.ne, by rw [hs]; exact f.root,
    ⟨c, by rw [p x f.keptX]; exact hc, ho⟩, f.sub, fun z hz hne => ?_⟩
  rw [p z (f.keptSrc hz), f.src z hz hne]

theorem Pushing.set (f : Pushing W v args ts x S u o) {c : Cell} {o' : Obj} (hc : u.mem x = some c) (hp : PubObj (u.Old W) o')
    (hs : ∀ z, S z → z ∈ o'.children) : Pushing W v args ts x S { u with mem := u.mem.set x { c with obj := o' } } o' := by
  obtain ⟨e, he, heo⟩ := f.vec
  have := f.step.closed.cells x c hc
  refine ⟨f.step.modify (.inl rfl) hc rfl rfl ⟨?_, fun z hz => ⟨this.docstr z hz, id⟩, fun z hz => ⟨this.docvec z hz, id⟩⟩,
    ⟨e, by rw [← he]; exact Mem.set_other _ _ f.ne, heo⟩, f.top, f.ne, f.root,
    ⟨_, Mem.set_self .., rfl⟩, hs, fun z hz hne => by rw [← f.src z hz hne]; exact Mem.set_other _ _ hne⟩
  have mono : ∀ z, u.Old W z → u.Pub W nobody z := fun z hz => ⟨hz, id⟩
  cases o' <;> simp only [PubObj] at hp ⊢
  all_goals first | exact fun z hz => mono z (hp z hz) | grind

theorem Pushing.push (f : Pushing W v args ts x S u o) {z : Ref} (hz : u.Old W z) :
    Pushing W v args ts x S { u with stack := z :: u.stack } o :=
  ⟨f.step.push hz, f.vec, List.mem_cons_of_mem _ f.top, f.ne, f.root.imp id (List.mem_cons_of_mem _), f.cell, f.sub, f.src⟩

/-- copying an element -/
theorem Pushing.take {n : Nat} {h : Handler} (F : Fine W h) (C : Copies W h) (f : Pushing W v args ts x S u o) (hna : o.isAtom = false) {e : Ref}
    (he : v.Old W e) (hs : e ≠ x → u.mem e = v.mem e) {Q : Ref → Vm → List Event → Prop}
    (hq : ∀ e' w, Pushing W v args ts x S w o → w.stack = u.stack → w.Old W e' → Taken W x v w e e' →
      (∀ z, u.Kept z → w.mem z = u.mem z) → Q e' w []) : Wp W n h (Prog.copyAtom e) u Q := by
  refine c35_copyAtom_aux F C f.step (he.mono f.step.quiet.births) fun e' w oe hoe g hst hold hoe' p hcase => ?_
  refine hq e' w (f.same g hst p.kept) hst hold ⟨?_, ?_, ?_⟩ p.kept
  · obtain ⟨c, hc, _⟩ := hoe'; exact ⟨c, hc⟩
  · intro o' hne ho' ha
    have ho'' : u.HasObj e o' := by obtain ⟨c, hc, hco⟩ := ho'; exact ⟨c, by rw [hs hne]; exact hc, hco⟩
    cases hoe.unique ho''
    rcases hcase with ⟨_, fr⟩ | ⟨ha', _⟩
    · exact ⟨fun h => fr (h.mono f.step.quiet.births), fun _ => hoe'⟩
    · rw [ha] at ha'; cases ha'
  · intro o' ho' hor
    have : oe.isAtom = false := by
      by_cases hne : e = x
      · subst hne; obtain ⟨c, hc, hco⟩ := f.cell
        cases hoe.unique ⟨c, hc, hco⟩; exact hna
      · have ho'' : u.HasObj e o' := by obtain ⟨c, hc, hco⟩ := ho'; exact ⟨c, by rw [hs hne]; exact hc, hco⟩
        cases hoe.unique ho''
        rcases hor with h' | h'
        · exact absurd h' hne
        · exact h'
    rcases hcase with ⟨ha', _⟩ | ⟨_, h', _⟩
    · rw [this] at ha'; cases ha'
    · exact h'

theorem Pushing.keeps (f : Pushing W v args ts x S u o) (ho : ∀ b, o ≠ .builtin b) : KeepsBuiltins v u := by
  intro op b b' ⟨c, hc, hco⟩ ⟨d, hd, hdo⟩
  by_cases hx : op = x
  · subst hx
    obtain ⟨e, he, heo⟩ := f.cell
    cases same_cell he hd
    exact absurd (heo.symm.trans hdo) (ho b')
  · rcases f.step.quiet.cells op c hx hc with e | e | ⟨_, _, _, e, _⟩
    · rw [hd] at e; cases e; rw [hco] at hdo; cases hdo; rfl
    · rw [hd] at e; cases e
    · rw [hco] at e; cases e

end Dern.Props
