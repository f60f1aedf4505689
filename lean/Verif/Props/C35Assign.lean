import Verif.Props.C35
import Verif.Props.BuiltinCalling
import Verif.Dern.CopyData
/-
C35, second part: `=` changes a value.

`(= x y)` makes `x` the same as `y`: atoms get the same contents, containers get the same elements (atoms among them
are copied, other elements shared).  `(= v i y)` changes one element of a vector, `(= e n y)` one binding of an
environment.  Nothing else changes.
-/
namespace Dern.Props
open Dern
open Dern.Spec (Reach)
open Dern.Prog (Library)
variable {W : World} {L : Library}

/-! ### What is said -/

/-- What a container holds for the element `e`, when it is assigned to `x`: a new copy `e'` of an atom, any other value
itself. -/
structure Taken (W : World) (x : Ref) (v w : Vm) (e e' : Ref) : Prop where
  alive : ∃ c, w.mem e' = some c
  copied : ∀ o, e ≠ x → v.HasObj e o → o.isAtom = true → ¬ v.Old W e' ∧ ((∀ m l, o ≠ .err m l) → w.HasObj e' o)
  shared : ∀ o, v.HasObj e o → e = x ∨ o.isAtom = false → e' = e

/-- the value `x` gets the payload `o` -/
inductive Receives (W : World) (v w : Vm) (x : Ref) : Obj → Prop
  | atom {o} : o.simple = true → (∀ m l, o ≠ .err m l) → w.HasObj x o → Receives W v w x o
  | error {m l} : w.IsErr x → Receives W v w x (.err m l)
  | sequence {o es es'} : o.elems = some es → w.HasObj x (o.refill es') → List.Forall₂ (Taken W x v w) es es' → Receives W v w x o
  | map {k es k' es' qs} : w.HasObj x (.hmap k' es') → es'.Perm qs →
      List.Forall₂ (fun p q => Taken W x v w p.1 q.1 ∧ Taken W x v w p.2 q.2) es qs → Receives W v w x (.hmap k es)

/-- The value `y` is assigned to the value `x`; nothing but `x` changes.  What `y` consists of stays in memory, as far as
`x` is not a part of it. -/
structure Assigned (W : World) (v w : Vm) (x y : Ref) : Prop where
  value : ∃ o, v.HasObj y o ∧ Receives W v w x o
  quiet : Vm.Quiet W (fun z => z = x) v w
  source : ∀ z o, Reach (fun a b => a ≠ x ∧ v.mem.Edge a b) (· = y) z → z ≠ x → (∀ m l, o ≠ .err m l) → v.HasObj z o → w.HasObj z o

/-- `ns` are `k` new values, copies of nil -/
def NewNils (W : World) (v w : Vm) (k : Nat) (ns : List Ref) : Prop :=
  ns.length = k ∧ ∀ n ∈ ns, ¬ v.Old W n ∧ (v.HasObj (v.root .nil) .nil → w.HasObj n .nil)

/-- What `=` does with the values `ts` in the state `v`. -/
inductive AssignRun (W : World) (ts : List Ref) (v : Vm) (r : Ref) (w : Vm) : List Event → Prop
  | count : ts.length ≠ 2 → ts.length ≠ 3 → Refuses W v r w → AssignRun W ts v r w []
  | itself : ts = [r, r] → Vm.Quiet W nobody v w → AssignRun W ts v r w []
  | value {y} : ts = [r, y] → r ≠ y → Assigned W v w r y → AssignRun W ts v r w []
  | notPossible {x i y o} : ts = [x, i, y] → v.HasObj x o →
      ((∀ es, o ≠ .vec es) ∧ (∀ bs enc, o ≠ .env bs enc) ∨ (∃ es, o = .vec es) ∧ ∀ n : Int, 0 ≤ n → ¬ v.HasObj i (.int n)) →
      Refuses W v r w → AssignRun W ts v r w []
  | element {i y es n y'} : ts = [r, i, y] → v.HasVec r es → v.HasObj i (.int (Int.ofNat n)) → n < es.length →
      w.HasVec r (es.set n y') → Taken W r v w y y' → Vm.Quiet W (fun z => z = r) v w → AssignRun W ts v r w []
  | extend {i y es n y' ns} : ts = [r, i, y] → v.HasVec r es → v.HasObj i (.int (Int.ofNat n)) → es.length ≤ n →
      NewNils W v w (n - es.length) ns → w.HasVec r (es ++ ns ++ [y']) → Taken W r v w y y' →
      Vm.Quiet W (fun z => z = r) v w → AssignRun W ts v r w []
  | binding {i y bs bs' enc N} : ts = [r, i, y] → v.HasObj r (.env bs enc) → v.HasObj i (.sym N) → w.HasObj r (.env bs' enc) →
      Rebinds bs bs' N y → Vm.Quiet W (fun z => z = r) v w → AssignRun W ts v r w []

/-! ### Auxiliary facts -/

/-- the invariant during an assignment to `x`, whose arguments are in the vector `args` -/
structure Setting (W : World) (v : Vm) (args : Ref) (ts : List Ref) (x y : Ref) (u : Vm) (o : Obj) : Prop where
  step : Vm.Step W nobody (fun z => z = x) v u
  vec : u.HasVec args ts
  top : args ∈ u.stack
  ne : args ≠ x
  hx : x ∈ ts
  hy : y ∈ ts
  cell : ∃ c, u.mem x = some c ∧ c.obj = o
  src : ∀ z, Reach (fun a b => a ≠ x ∧ v.mem.Edge a b) (· = y) z → z ≠ x → u.mem z = v.mem z

variable {v u w : Vm} {args x y : Ref} {ts : List Ref} {o : Obj}

theorem Setting.keptArg (f : Setting W v args ts x y u o) {z : Ref} (hz : z ∈ ts) : u.Kept z := by
  obtain ⟨c, hc, ho⟩ := f.vec
  exact .step (.root f.top) ⟨c, hc, by simpa [Cell.edges, ho, Obj.children] using .inr hz⟩

theorem Setting.keptSrc (f : Setting W v args ts x y u o) {z : Ref}
    (hz : Reach (fun a b => a ≠ x ∧ v.mem.Edge a b) (· = y) z) : u.Kept z := by
  induction hz with
  | root h => subst h; exact f.keptArg f.hy
  | @step a b ha he ih =>
    obtain ⟨hne, c, hc, hb⟩ := he
    exact ih.step ⟨c, by rw [f.src a ha hne]; exact hc, hb⟩

theorem Setting.keptChild (f : Setting W v args ts x y u o) {z : Ref} (hz : z ∈ o.children) : u.Kept z := by
  obtain ⟨c, hc, ho⟩ := f.cell
  exact (f.keptArg f.hx).step ⟨c, hc, by unfold Cell.edges; rw [ho]; exact List.mem_append_right _ hz⟩

theorem Setting.pure (f : Setting W v args ts x y u o) (g : Vm.Step W nobody (fun z => z = x) v w) (hs : w.stack = u.stack)
    (p : Vm.Pure W u w) : Setting W v args ts x y w o := by
  obtain ⟨c, hc, ho⟩ := f.cell
  obtain ⟨d, hd, hdo⟩ := f.vec
  refine ⟨g, ⟨d, by rw [p.kept args (.root f.top)]; exact hd, hdo⟩, by rw [hs]; exact f.top, f.ne, f.hx, f.hy,
    ⟨c, by rw [p.kept x (f.keptArg f.hx)]; exact hc, ho⟩, fun z hz hne => ?_⟩
  rw [p.kept z (f.keptSrc hz), f.src z hz hne]

theorem Setting.write (f : Setting W v args ts x y u o) {c d : Cell} (hc : u.mem x = some c) (hu : d.uid = c.uid) (hm : d.mark = c.mark)
    (hd : PubCell (u.Pub W nobody) d) : Setting W v args ts x y { u with mem := u.mem.set x d } d.obj := by
  obtain ⟨e, he, heo⟩ := f.vec
  exact ⟨f.step.modify (.inl rfl) hc hu hm hd, ⟨e, by rw [← he]; exact Mem.set_other _ _ f.ne, heo⟩, f.top, f.ne, f.hx, f.hy,
    ⟨d, Mem.set_self .., rfl⟩, fun z hz hne => by rw [← f.src z hz hne]; exact Mem.set_other _ _ hne⟩

theorem Setting.push (f : Setting W v args ts x y u o) {z : Ref} (hz : u.Old W z) :
    Setting W v args ts x y { u with stack := z :: u.stack } o :=
  ⟨f.step.push hz, f.vec, List.mem_cons_of_mem _ f.top, f.ne, f.hx, f.hy, f.cell, f.src⟩

theorem Setting.pop (f : Setting W v args ts x y u o) {z : Ref} {s : List Ref} (hs : u.stack = z :: s) (ht : args ∈ s) :
    Setting W v args ts x y { u with stack := s } o :=
  ⟨f.step.pop hs, f.vec, ht, f.ne, f.hx, f.hy, f.cell, f.src⟩

theorem Setting.tick (f : Setting W v args ts x y u o) : Setting W v args ts x y { u with ticks := u.ticks + 1 } o :=
  ⟨f.step.tick, f.vec, f.top, f.ne, f.hx, f.hy, f.cell, f.src⟩

theorem Taken.keep {e e' : Ref} (h : Taken W x v u e e') (k : w.mem e' = u.mem e') : Taken W x v w e e' := by
  refine ⟨by rw [k]; exact h.alive, fun o hne ho ha => ⟨(h.copied o hne ho ha).1, fun hn => ?_⟩, h.shared⟩
  obtain ⟨c, hc, hco⟩ := (h.copied o hne ho ha).2 hn
  exact ⟨c, by rw [k]; exact hc, hco⟩

/-- changing `x` -/
theorem Taken.write {e e' : Ref} {d : Cell} (h : Taken W x v u e e') (hv : v.Old W x) :
    Taken W x v { u with mem := u.mem.set x d } e e' := by
  refine ⟨?_, fun o hne ho ha => ⟨(h.copied o hne ho ha).1, fun hn => ?_⟩, h.shared⟩
  · by_cases he : e' = x
    · subst he; exact ⟨d, Mem.set_self ..⟩
    · obtain ⟨c, hc⟩ := h.alive
      exact ⟨c, by rw [← hc]; exact Mem.set_other _ _ he⟩
  · obtain ⟨c, hc, hco⟩ := (h.copied o hne ho ha).2 hn
    have he : e' ≠ x := fun h' => (h.copied o hne ho ha).1 (h' ▸ hv)
    exact ⟨c, by rw [← hc]; exact Mem.set_other _ _ he, hco⟩

theorem Taken.ends {e e' : Ref} (h : Taken W x v u e e') (k : Ends u w) : Taken W x v w e e' := by
  refine ⟨?_, fun o hne ho ha => ⟨(h.copied o hne ho ha).1, fun hn => k.hasObj ((h.copied o hne ho ha).2 hn) hn⟩, h.shared⟩
  obtain ⟨c, hc⟩ := h.alive
  rcases k.stays e' c hc with e | ⟨m, t, l, _, e⟩
  · exact ⟨_, e⟩
  · exact ⟨_, e⟩

theorem Taken.stack {e e' : Ref} {s : List Ref} (h : Taken W x v u e e') : Taken W x v { u with stack := s } e e' := h.keep rfl

/-- copying an element -/
theorem c35_take_aux {n : Nat} {h : Handler} (F : Fine W h) (C : Copies W h) (f : Setting W v args ts x y u o) (hna : o.isAtom = false) {e : Ref}
    (he : v.Old W e) (hs : e ≠ x → u.mem e = v.mem e) {Q : Ref → Vm → List Event → Prop}
    (hq : ∀ e' w, Setting W v args ts x y w o → w.stack = u.stack → w.Old W e' → Taken W x v w e e' →
      (∀ z, u.Kept z → w.mem z = u.mem z) → Q e' w []) : Wp W n h (Prog.copyAtom e) u Q := by
  refine c35_copyAtom_aux F C f.step (he.mono f.step.quiet.births) fun e' w oe hoe g hst hold hoe' p hcase => ?_
  refine hq e' w (f.pure g hst p) hst hold ⟨?_, ?_, ?_⟩ p.kept
  · obtain ⟨c, hc, _⟩ := hoe'; exact ⟨c, hc⟩
  · intro o' hne ho' ha
    have ho'' : u.HasObj e o' := by obtain ⟨c, hc, hco⟩ := ho'; exact ⟨c, by rw [hs hne]; exact hc, hco⟩
    cases hoe.unique ho''
    rcases hcase with ⟨_, fr⟩ | ⟨ha', _⟩
    · exact ⟨fun h => fr (h.mono f.step.quiet.births), fun _ => hoe'⟩
    · rw [ha] at ha'; cases ha'
  · intro o' ho' hor
    have : oe.isAtom = false := by
      by_cases hne : e = x
      · subst hne; obtain ⟨c, hc, hco⟩ := f.cell
        cases hoe.unique ⟨c, hc, hco⟩; exact hna
      · have ho'' : u.HasObj e o' := by obtain ⟨c, hc, hco⟩ := ho'; exact ⟨c, by rw [hs hne]; exact hc, hco⟩
        cases hoe.unique ho''
        rcases hor with h' | h'
        · exact absurd h' hne
        · exact h'
    rcases hcase with ⟨ha', _⟩ | ⟨_, h', _⟩
    · rw [this] at ha'; cases ha'
    · exact h'

theorem c35_rel_aux {α β : Type} {R S : α → β → Prop} {as : List α} {bs : List β} (h : List.Forall₂ R as bs)
    (hi : ∀ a b, b ∈ bs → R a b → S a b) : List.Forall₂ S as bs := by
  induction h with
  | nil => exact .nil
  | cons h1 _ ih => exact .cons (hi _ _ (by simp) h1) (ih fun a b hb => hi a b (by simp [hb]))

theorem c35_snoc_aux {α β : Type} {R : α → β → Prop} {as : List α} {bs : List β} {a : α} {b : β} (h : List.Forall₂ R as bs) (hl : R a b) :
    List.Forall₂ R (as ++ [a]) (bs ++ [b]) := by
  induction h with
  | nil => exact .cons hl .nil
  | cons h1 _ ih => exact .cons h1 ih

theorem c35_refill_aux {o : Obj} {es es' : List Ref} (he : o.elems = some es) : (o.refill es').isAtom = false := by
  cases o <;> simp [Obj.elems] at he <;> rfl

/-- a part of `y` -/
theorem Setting.part (f : Setting W v args ts x y u o) (cv : v.Closed W nobody) (hxy : x ≠ y) {c : Cell} (hc : v.mem y = some c) {z : Ref}
    (hz : z ∈ c.obj.children) : v.Old W z ∧ (z ≠ x → u.mem z = v.mem z) :=
  ⟨(cv.cells y c hc).obj.children hz, fun hne => f.src z (.step (.root rfl) ⟨Ne.symm hxy, c, hc, List.mem_append_right _ hz⟩) hne⟩

theorem c35_setElements_aux {n : Nat} {h : Handler} (F : Fine W h) (C : Copies W h) (cv : v.Closed W nobody) (hxy : x ≠ y) (hx : v.Old W x)
    {c : Cell} {es : List Ref} (hc : v.mem y = some c) (he : c.obj.elems = some es) :
    ∀ (xs ds es' : List Ref) (u : Vm), es = ds ++ xs → Setting W v args ts x y u (c.obj.refill es') → List.Forall₂ (Taken W x v u) ds es' →
    Wp W n h (Prog.setElements y x xs) u fun _ w t => t = [] ∧ w.stack = u.stack ∧ ∃ es' : List Ref, Setting W v args ts x y w (c.obj.refill es') ∧
      List.Forall₂ (Taken W x v w) es es' := by
  intro xs
  induction xs with
  | nil => intro ds es' u e f hp; exact wp_pure ⟨rfl, rfl, es', f, by simpa [e] using hp⟩
  | cons z xs ih =>
    intro ds es' u e f hp
    unfold Prog.setElements
    refine wp_bind (wp_read fun d _ => ?_)
    obtain ⟨oz, sz⟩ := f.part cv hxy hc (z := z) (by rw [elems_children he, e]; simp)
    refine wp_bind (c35_take_aux F C f (c35_refill_aux he) oz sz fun z' w f1 hst old tk keep => ?_)
    have hp1 : List.Forall₂ (Taken W x v w) ds es' := c35_rel_aux hp fun a b hb h =>
      h.keep (keep b (f.keptChild (by rw [refill_children he]; exact hb)))
    refine wp_bind (wp_push ?_)
    have f2 := f1.push old
    unfold Prog.addElement
    refine wp_bind (wp_bind (wp_read fun d' hd' => ?_))
    obtain ⟨c1, hc1, ho1⟩ := f2.cell
    obtain rfl := same_cell hc1 hd'
    rw [ho1, snoc_refill he]
    refine wp_setObj fun c2 hc2 => ?_
    obtain rfl := same_cell hc1 hc2
    have pub := f2.step.closed.pub x c1 hc1 id
    have old' : ∀ b ∈ es', (w.Pub W nobody) b := fun b hb => by
      have := pub.obj
      rw [ho1] at this
      exact this.children (by rw [refill_children he]; exact hb)
    have f3 := f2.write (d := { c1 with obj := c.obj.refill (es' ++ [z']) }) hc1 rfl rfl
      ⟨pub_refill he (by
        intro b hb
        rcases List.mem_append.mp hb with hb | hb
        · exact old' b hb
        · simp at hb; subst hb; exact ⟨old, id⟩), pub.docstr, pub.docvec⟩
    refine wp_bind (wp_pop fun s hs => ?_)
    have hs' : z' :: w.stack = z' :: s := hs
    cases hs'
    have f4 := f3.pop rfl f1.top
    refine Wp.mono (ih (ds ++ [z]) (es' ++ [z']) _ (by simp [e]) f4 ?_) fun a w' t ht => ?_
    · exact c35_snoc_aux (c35_rel_aux hp1 fun _ _ _ h => h.write hx) (tk.write hx)
    · obtain ⟨h1, h2, h3⟩ := ht
      exact ⟨by simp [h1], h2.trans hst, h3⟩

theorem c35_setPairs_aux {n : Nat} {h : Handler} (F : Fine W h) (C : Copies W h) (cv : v.Closed W nobody) (hxy : x ≠ y) (hx : v.Old W x)
    {c : Cell} {k : Nat} {es : List (Ref × Ref)} (hc : v.mem y = some c) (he : c.obj = .hmap k es) :
    ∀ (xs ds qs es' : List (Ref × Ref)) (k' : Nat) (u : Vm), es = ds ++ xs → Setting W v args ts x y u (.hmap k' es') → es'.Perm qs →
    List.Forall₂ (fun p q => Taken W x v u p.1 q.1 ∧ Taken W x v u p.2 q.2) ds qs →
    Wp W n h (Prog.setPairs y x xs) u fun _ w t => t = [] ∧ w.stack = u.stack ∧ ∃ (k' : Nat) (es' qs : List (Ref × Ref)),
      Setting W v args ts x y w (.hmap k' es') ∧ es'.Perm qs ∧
      List.Forall₂ (fun p q => Taken W x v w p.1 q.1 ∧ Taken W x v w p.2 q.2) es qs := by
  intro xs
  induction xs with
  | nil => intro ds qs es' k' u e f pm hp; exact wp_pure ⟨rfl, rfl, k', es', qs, f, pm, by simpa [e] using hp⟩
  | cons z xs ih =>
    obtain ⟨z1, z2⟩ := z
    intro ds qs es' k' u e f pm hp
    unfold Prog.setPairs
    refine wp_bind (wp_read fun d _ => ?_)
    have hch : z1 ∈ c.obj.children ∧ z2 ∈ c.obj.children := by
      rw [he, e]
      constructor <;> simp [Obj.children]
    obtain ⟨oz1, sz1⟩ := f.part cv hxy hc hch.1
    refine wp_bind (c35_take_aux F C f rfl oz1 sz1 fun y1 w1 f1 hst1 old1 tk1 keep1 => ?_)
    refine wp_bind (wp_push ?_)
    have f2 := f1.push old1
    obtain ⟨oz2, sz2⟩ := f2.part cv hxy hc hch.2
    refine wp_bind (c35_take_aux F C f2 rfl oz2 sz2 fun y2 w2 f3 hst2 old2 tk2 keep2 => ?_)
    refine wp_bind (wp_push ?_)
    have f4 := f3.push old2
    have tk1' : Taken W x v w2 z1 y1 := tk1.keep (keep2 y1 (.root (by simp)))
    have hp1 : List.Forall₂ (fun p q => Taken W x v w2 p.1 q.1 ∧ Taken W x v w2 p.2 q.2) ds qs := c35_rel_aux hp fun a b hb h => by
      have hm : b ∈ es' := pm.mem_iff.mpr hb
      have c1 : b.1 ∈ (Obj.hmap k' es').children := by simp only [Obj.children, List.mem_flatMap]; exact ⟨b, hm, by simp⟩
      have c2 : b.2 ∈ (Obj.hmap k' es').children := by simp only [Obj.children, List.mem_flatMap]; exact ⟨b, hm, by simp⟩
      exact ⟨(h.1.keep (keep1 _ (f.keptChild c1))).keep (keep2 _ (f2.keptChild c1)),
        (h.2.keep (keep1 _ (f.keptChild c2))).keep (keep2 _ (f2.keptChild c2))⟩
    unfold Prog.addPair
    refine wp_bind (wp_bind (wp_read fun d' hd' => ?_))
    obtain ⟨c1, hc1, ho1⟩ := f4.cell
    obtain rfl := same_cell hc1 hd'
    rw [ho1]
    simp only
    refine wp_bind (wp_arrange fun a ha => ?_)
    obtain ⟨k'', es''⟩ := a
    simp only at ha ⊢
    refine wp_setObj fun c2 hc2 => ?_
    have f5 := f4.tick
    have hc2' : w2.mem x = some c2 := hc2
    have hc1' : w2.mem x = some c1 := hc1
    obtain rfl := same_cell hc1' hc2'
    have pub := f5.step.closed.pub x c1 hc1 id
    have oldk : w2.Old W y1 := by
      obtain ⟨c, hc⟩ := tk1'.alive
      exact f3.step.sane.old _ _ hc
    have f6 := f5.write (d := { c1 with obj := .hmap k'' es'' }) hc1 rfl rfl
      ⟨by
        intro b hb
        have hb := ha.mem_iff.mp hb
        rcases List.mem_append.mp hb with hb | hb
        · have := pub.obj
          rw [ho1] at this
          exact this b hb
        · simp at hb; subst hb; exact ⟨⟨oldk, id⟩, ⟨old2, id⟩⟩, pub.docstr, pub.docvec⟩
    simp only [List.nil_append]
    refine wp_bind (wp_pop fun s1 hs1 => wp_bind (wp_pop fun s2 hs2 => ?_))
    have hs1' : y2 :: w2.stack = y2 :: s1 := hs1
    cases hs1'
    have hs2' : w2.stack = y1 :: s2 := hs2
    have hst2' : w2.stack = y1 :: w1.stack := hst2
    rw [hst2'] at hs2'
    cases hs2'
    have f7 := f6.pop (s := w2.stack) rfl f3.top
    have f8 := f7.pop hst2' f1.top
    refine Wp.mono (ih (ds ++ [(z1, z2)]) (qs ++ [(y1, y2)]) es'' k'' _ (by simp [e]) f8 ?_ ?_) fun a w' t ht => ?_
    · exact ha.trans (pm.append_right _)
    · refine c35_snoc_aux (c35_rel_aux hp1 fun _ _ _ h => ⟨?_, ?_⟩) ⟨?_, ?_⟩
      · exact (h.1.write hx).keep rfl
      · exact (h.2.write hx).keep rfl
      · exact (tk1'.write hx).keep rfl
      · exact (tk2.write hx).keep rfl
    · obtain ⟨h1, h2, h3⟩ := ht
      exact ⟨by simp [h1], h2.trans hst1, h3⟩

/-- copying the documentation -/
theorem c35_copyDocs_aux {n : Nat} {h : Handler} (F : Fine W h) (C : Copies W h) (hx : v.Old W x) (f : Setting W v args ts x y u o) :
    Wp W n h (Prog.copyDocs y x) u fun _ w t => t = [] ∧ w.stack = u.stack ∧ Setting W v args ts x y w o ∧
      ∀ e e', e' ∈ o.children → Taken W x v u e e' → Taken W x v w e e' := by
  have copy : ∀ {u : Vm} {d : Ref} {Q : Ref → Vm → List Event → Prop}, Setting W v args ts x y u o → u.Old W d →
      (∀ d' w, Setting W v args ts x y w o → w.stack = u.stack → w.Old W d' → (∀ z, u.Kept z → w.mem z = u.mem z) → Q d' w []) →
      Wp W n h (Prog.copyOf d) u Q := by
    intro u d Q f hd hq
    unfold Prog.copyOf
    refine wp_bind (wp_call fun a w t e => wp_deref fun r hr => ?_)
    subst hr
    obtain ⟨sw, rfl, q, fresh⟩ := F.copy _ _ _ _ _ f.step.sane e
    obtain ⟨_, r', hr', ok⟩ := C _ _ _ _ _ f.step.sane f.step.closed hd e
    cases hr'
    exact hq r w (f.pure ⟨f.step.sane0, sw, ok.closed, f.step.quiet.trans f.step.sane0 (q.mono fun _ h => h.elim)⟩ ok.stack ok.pure) ok.stack ok.old
      ok.pure.kept
  have second : ∀ u : Vm, Setting W v args ts x y u o → Wp W n h (do
      match (← Prog.read y).docvec with
      | some d => do
        let d' ← Prog.copyOf d
        let c ← Prog.read x
        Prog.setDoc x c.docstr (some d')
      | none => pure ()) u fun _ w t => t = [] ∧ w.stack = u.stack ∧ Setting W v args ts x y w o ∧
      ∀ e e', e' ∈ o.children → Taken W x v u e e' → Taken W x v w e e' := by
    intro u f
    refine wp_bind (wp_read fun d hd => ?_)
    split
    · rename_i ds hds
      refine wp_bind (copy f ((f.step.closed.cells y d hd).docvec _ hds) fun d' w f1 hst old keep => ?_)
      refine wp_bind (wp_read fun d1 hd1 => wp_setDoc fun d2 hd2 => ?_)
      obtain rfl := same_cell hd1 hd2
      obtain ⟨c1, hc1, ho1⟩ := f1.cell
      obtain rfl := same_cell hc1 hd1
      subst ho1
      have pub := f1.step.closed.pub x c1 hc1 id
      have f2 := f1.write (d := { c1 with docstr := c1.docstr, docvec := some d' }) hc1 rfl rfl
        ⟨pub.obj, pub.docstr, Prog.pubOpt_some ⟨old, id⟩⟩
      exact ⟨rfl, hst, f2, fun e e' he tk => (tk.keep (keep e' (f.keptChild he))).write hx⟩
    · exact wp_pure ⟨rfl, rfl, f, fun _ _ _ h => h⟩
  unfold Prog.copyDocs
  refine wp_bind (wp_read fun d hd => ?_)
  split
  · rename_i ds hds
    refine wp_bind (copy f ((f.step.closed.cells y d hd).docstr _ hds) fun d' w f1 hst old keep => ?_)
    refine wp_bind (wp_read fun d1 hd1 => wp_bind (wp_setDoc fun d2 hd2 => ?_))
    obtain rfl := same_cell hd1 hd2
    obtain ⟨c1, hc1, ho1⟩ := f1.cell
    obtain rfl := same_cell hc1 hd1
    subst ho1
    have pub := f1.step.closed.pub x c1 hc1 id
    have f2 := f1.write (d := { c1 with docstr := some d', docvec := c1.docvec }) hc1 rfl rfl
      ⟨pub.obj, Prog.pubOpt_some ⟨old, id⟩, pub.docvec⟩
    refine Wp.mono (second _ f2) fun _ w' t ⟨ht, hst', f3, h4⟩ => ⟨by simp [ht], hst'.trans hst, f3, fun e e' he tk => ?_⟩
    exact h4 e e' he ((tk.keep (keep e' (f.keptChild he))).write hx)
  · refine Wp.mono (second _ f) fun _ w t ⟨ht, f3, h4⟩ => ⟨by simp [ht], f3, h4⟩

theorem Receives.ends (h : Receives W v u x o) (k : Ends u w) : Receives W v w x o := by
  cases h with
  | atom h1 h2 h3 => exact .atom h1 h2 (k.hasObj h3 h2)
  | error h1 => exact .error (k.isErr h1)
  | @sequence _ es es' h1 h2 h3 =>
    refine .sequence h1 (k.hasObj h2 ?_) (c35_rel_aux h3 fun _ _ _ h => h.ends k)
    cases o <;> simp [Obj.elems] at h1 <;> simp [Obj.refill]
  | map h1 h2 h3 => exact .map (k.hasObj h1 (by simp)) h2 (c35_rel_aux h3 fun _ _ _ h => ⟨h.1.ends k, h.2.ends k⟩)

theorem c35_valueSet_aux {n : Nat} {h : Handler} (F : Fine W h) (C : Copies W h) (cv : v.Closed W nobody) (hx : v.Old W x)
    (f : Setting W v args ts x y u o) (hu : u.mem = v.mem) :
    Wp W n h (Prog.valueSet x y) u fun a w t => a = true ∧ t = [] ∧ w.stack = u.stack ∧
      (x = y ∧ w = u ∨ x ≠ y ∧ (∃ o, v.HasObj y o ∧ (∀ b, o ≠ .builtin b) ∧ Receives W v w x o) ∧ ∃ o', Setting W v args ts x y w o') := by
  unfold Prog.valueSet
  split
  · rename_i e
    exact wp_pure ⟨rfl, rfl, rfl, .inl ⟨e, rfl⟩⟩
  rename_i hxy
  refine wp_bind (wp_read fun c hc => ?_)
  rw [hu] at hc
  have rep : ∀ o1 (u1 : Vm), PubObj (u.Pub W nobody) o1 → ∀ c1, u.mem x = some c1 →
      Setting W v args ts x y { u with mem := u.mem.set x { c1 with obj := o1, gen := c1.gen + 1 } } o1 := by
    intro o1 u1 ho c1 hc1
    have pub := f.step.closed.pub x c1 hc1 id
    exact f.write (d := { c1 with obj := o1, gen := c1.gen + 1 }) hc1 rfl rfl ⟨ho, pub.docstr, pub.docvec⟩
  have fin : ∀ (u1 : Vm) (o1 : Obj), Setting W v args ts x y u1 o1 → (∀ b, c.obj ≠ .builtin b) → u1.stack = u.stack →
      (∀ u2 : Vm, Setting W v args ts x y u2 o1 → (∀ e e', e' ∈ o1.children → Taken W x v u1 e e' → Taken W x v u2 e e') →
        Receives W v u2 x c.obj) →
      Wp W n h (do Prog.setDocs y x; pure true) u1 fun a w t => a = true ∧ t = [] ∧ w.stack = u.stack ∧
        (x = y ∧ w = u ∨ x ≠ y ∧ (∃ o, v.HasObj y o ∧ (∀ b, o ≠ .builtin b) ∧ Receives W v w x o) ∧ ∃ o', Setting W v args ts x y w o') := by
    intro u1 o1 f1 hb hst hr
    unfold Prog.setDocs
    refine wp_bind (Wp.mono (c35_copyDocs_aux F C hx f1) fun _ w t ⟨ht, hst', f2, h2⟩ => wp_pure ⟨rfl, by simp [ht], hst'.trans hst, .inr ⟨hxy,
      ⟨c.obj, ⟨c, hc, rfl⟩, hb, hr w f2 h2⟩, o1, f2⟩⟩)
  have atom : ∀ o1, c.obj = o1 → o1.simple = true → (∀ b, o1 ≠ .builtin b) → PubObj (u.Pub W nobody) o1 → Wp W n h (do
      Prog.replace x o1
      Prog.setDocs y x
      pure true) u fun a w t => a = true ∧ t = [] ∧ w.stack = u.stack ∧
        (x = y ∧ w = u ∨ x ≠ y ∧ (∃ o, v.HasObj y o ∧ (∀ b, o ≠ .builtin b) ∧ Receives W v w x o) ∧ ∃ o', Setting W v args ts x y w o') := by
    intro o1 ho hs hb hpub
    refine wp_bind (wp_replace fun c1 hc1 => ?_)
    refine Wp.mono (fin _ _ (rep o1 u hpub c1 hc1) (by rw [ho]; exact hb) rfl fun u2 f2 _ => ?_) fun a w t h => by simpa using h
    obtain ⟨c2, hc2, ho2⟩ := f2.cell
    rw [ho]
    by_cases he : ∃ m l, o1 = .err m l
    · obtain ⟨m, l, rfl⟩ := he
      exact .error ⟨m, l, c2, hc2, ho2⟩
    · exact .atom hs (fun m l e => he ⟨m, l, e⟩) ⟨c2, hc2, ho2⟩
  have seq : ∀ o1 es, c.obj.elems = some es → c.obj.refill [] = o1 → Wp W n h (do
      Prog.replace x o1
      Prog.setElements y x es
      Prog.setDocs y x
      pure true) u fun a w t => a = true ∧ t = [] ∧ w.stack = u.stack ∧
        (x = y ∧ w = u ∨ x ≠ y ∧ (∃ o, v.HasObj y o ∧ (∀ b, o ≠ .builtin b) ∧ Receives W v w x o) ∧ ∃ o', Setting W v args ts x y w o') := by
    intro o1 es he hr
    subst hr
    refine wp_bind (wp_replace fun c1 hc1 => ?_)
    have f1 := rep (c.obj.refill []) u (pub_refill he (by simp)) c1 hc1
    refine wp_bind (Wp.mono (c35_setElements_aux F C cv hxy hx hc he es [] [] _ (by simp) f1 .nil) fun _ u1 t ⟨ht, hst, es', f2, h2⟩ => ?_)
    subst ht
    refine Wp.mono (fin _ _ f2 (by intro b hb; rw [hb] at he; cases he) hst fun u2 f3 h3 => ?_) fun a w t h => by simpa using h
    obtain ⟨c2, hc2, ho2⟩ := f3.cell
    exact .sequence he ⟨c2, hc2, ho2⟩ (c35_rel_aux h2 fun e e' he' h => h3 e e' (by rw [refill_children he]; exact he') h)
  cases ho : c.obj with
  | nil => exact atom _ ho rfl (by simp) trivial
  | bool b => exact atom _ ho rfl (by simp) trivial
  | int k => exact atom _ ho rfl (by simp) trivial
  | real k => exact atom _ ho rfl (by simp) trivial
  | str k => exact atom _ ho rfl (by simp) trivial
  | semver k => exact atom _ ho rfl (by simp) trivial
  | chr k => exact atom _ ho rfl (by simp) trivial
  | sym k => exact atom _ ho rfl (by simp) trivial
  | err m l => exact atom _ ho rfl (by simp) trivial
  | vec es => simpa using seq (.vec []) es (by rw [ho]; rfl) (by rw [ho]; rfl)
  | queue m es => simpa using seq (.queue none []) es (by rw [ho]; rfl) (by rw [ho]; rfl)
  | list es => simpa using seq (.list []) es (by rw [ho]; rfl) (by rw [ho]; rfl)
  | hmap k es =>
    simp only [bind_assoc]
    refine wp_bind (wp_replace fun c1 hc1 => ?_)
    have f1 := rep (.hmap k []) u (by simp [PubObj]) c1 hc1
    refine wp_bind (Wp.mono (c35_setPairs_aux F C cv hxy hx hc ho es [] [] [] k _ (by simp) f1 (.refl _) .nil)
      fun _ u1 t ⟨ht, hst, k', es', qs, f2, pm, h2⟩ => ?_)
    subst ht
    refine Wp.mono (fin _ _ f2 (by rw [ho]; simp) hst fun u2 f3 h3 => ?_) fun a w t h => by simpa using h
    obtain ⟨c2, hc2, ho2⟩ := f3.cell
    rw [ho]
    refine .map ⟨c2, hc2, ho2⟩ pm (c35_rel_aux h2 fun e e' he' h => ?_)
    have hm : e' ∈ es' := pm.mem_iff.mpr he'
    have c1 : e'.1 ∈ (Obj.hmap k' es').children := by simp only [Obj.children, List.mem_flatMap]; exact ⟨e', hm, by simp⟩
    have c2 : e'.2 ∈ (Obj.hmap k' es').children := by simp only [Obj.children, List.mem_flatMap]; exact ⟨e', hm, by simp⟩
    exact ⟨h3 _ _ c1 h.1, h3 _ _ c2 h.2⟩
  | env bs e => exact wp_bind wp_fail
  | fn f => exact wp_bind wp_fail
  | mac f => exact wp_bind wp_fail
  | special s => exact wp_bind wp_fail
  | builtin s => exact wp_bind wp_fail
  | port s => exact wp_bind wp_fail
  | cdata s => exact wp_bind wp_fail

theorem NewNils.ends {k : Nat} {ns : List Ref} (h : NewNils W v u k ns) (e : Ends u w) : NewNils W v w k ns :=
  ⟨h.1, fun n hn => ⟨(h.2 n hn).1, fun hr => e.hasObj ((h.2 n hn).2 hr) (by simp)⟩⟩

theorem NewNils.keep {k : Nat} {ns : List Ref} (h : NewNils W v u k ns) (e : ∀ n ∈ ns, w.mem n = u.mem n) : NewNils W v w k ns :=
  ⟨h.1, fun n hn => ⟨(h.2 n hn).1, fun hr => by obtain ⟨c, hc, ho⟩ := (h.2 n hn).2 hr; exact ⟨c, (e n hn).trans hc, ho⟩⟩⟩

/-- filling a vector with nil -/
theorem c35_fillNil_aux {n : Nat} {h : Handler} (F : Fine W h) (C : Copies W h) {es : List Ref} (hv : v.HasVec x es) :
    ∀ (k : Nat) (ns : List Ref) (u : Vm), Setting W v args ts x y u (.vec (es ++ ns)) → NewNils W v u ns.length ns →
    Wp W n h (Prog.fillNil x k) u fun _ w t => t = [] ∧ w.stack = u.stack ∧ ∃ ns' : List Ref,
      Setting W v args ts x y w (.vec (es ++ ns')) ∧ NewNils W v w (ns.length + k) ns' := by
  intro k
  induction k with
  | zero => intro ns u f hn; exact wp_pure ⟨rfl, rfl, ns, f, hn⟩
  | succ k ih =>
    intro ns u f hn
    unfold Prog.fillNil Prog.getRoot Prog.copyOf
    refine wp_bind (wp_bind (wp_root (wp_bind (wp_call fun a w t e => wp_deref fun r hr => ?_))))
    subst hr
    obtain ⟨sw, rfl, q, fresh⟩ := F.copy _ _ _ _ _ f.step.sane e
    obtain ⟨_, r', hr', ok⟩ := C _ _ _ _ _ f.step.sane f.step.closed (f.step.closed.roots .nil).1 e
    cases hr'
    have f1 := f.pure ⟨f.step.sane0, sw, ok.closed, f.step.quiet.trans f.step.sane0 (q.mono fun _ h => h.elim)⟩ ok.stack ok.pure
    have hn1 : NewNils W v w ns.length ns := hn.keep fun m hm => ok.pure.kept m (f.keptChild (by simp [Obj.children, hm]))
    have newv : ¬ v.Old W r := fun h => fresh r rfl (h.mono f.step.quiet.births)
    have hnil : v.HasObj (v.root .nil) .nil → w.HasObj r .nil := by
      intro hr
      have hne : v.root .nil ≠ x := by
        intro e
        rw [e] at hr
        cases hr.unique hv
      obtain ⟨c, hc, ho⟩ := hr
      rw [f.step.quiet.roots .nil] at ok
      have hu : ∀ d, u.mem (v.root .nil) = some d → d = c := by
        intro d hd
        rcases f.step.quiet.cells _ c hne hc with e' | e' | ⟨m, t, l, e', _⟩
        · exact (same_cell e' hd).symm
        · rw [e'] at hd; cases hd
        · rw [ho] at e'; cases e'
      cases ok.copied with
      | simple h1 h2 _ _ h5 => cases hu _ h1; exact ⟨_, h2, h5.trans ho⟩
      | seq h1 _ _ h4 => cases hu _ h1; rw [ho] at h4; cases h4
      | hmap h1 _ _ h4 => cases hu _ h1; rw [ho] at h4; cases h4
    refine wp_bind (wp_append fun c es1 hc ho => ?_)
    obtain ⟨c1, hc1, ho1⟩ := f1.cell
    obtain rfl := same_cell hc hc1
    rw [ho] at ho1
    cases ho1
    have pub := f1.step.closed.pub x c hc id
    have f2 := f1.write (d := { c with obj := .vec (es ++ ns ++ [r]) }) hc rfl rfl ⟨by
      intro b hb
      rcases List.mem_append.mp hb with hb | hb
      · have := pub.obj
        rw [ho] at this
        exact this b hb
      · simp at hb; subst hb; exact ⟨ok.old, id⟩, pub.docstr, pub.docvec⟩
    have hv' : v.Old W x := by obtain ⟨d, hd, _⟩ := hv; exact f.step.sane0.old _ _ hd
    have other : ∀ (d : Cell) m, ¬ v.Old W m → w.mem.set x d m = w.mem m := fun d m hm => Mem.set_other _ _ fun e => hm (e ▸ hv')
    refine Wp.mono (ih (ns ++ [r]) _ (by simpa using f2) ?_) fun a w' t ⟨h1, h2, ns', h3, h4⟩ => ⟨by simp [h1], h2.trans ok.stack, ns', h3, ?_⟩
    · refine ⟨rfl, fun m hm => ?_⟩
      rcases List.mem_append.mp hm with hm | hm
      · refine ⟨(hn1.2 m hm).1, fun hr => ?_⟩
        obtain ⟨c, hc, ho⟩ := (hn1.2 m hm).2 hr
        exact ⟨c, (other _ m (hn1.2 m hm).1).trans hc, ho⟩
      · simp at hm; subst hm
        refine ⟨newv, fun hr => ?_⟩
        obtain ⟨c, hc, ho⟩ := hnil hr
        exact ⟨c, (other _ m newv).trans hc, ho⟩
    · have e : (ns ++ [r]).length + k = ns.length + (k + 1) := by simp; omega
      rwa [e] at h4

theorem c35_setting_aux (sv : v.Sane W) (cv : v.Closed W nobody) (hv : v.HasVec args ts) (ho : v.Old W args) (ne : args ≠ x) (hx : x ∈ ts)
    (hy : y ∈ ts) {c : Cell} (hc : v.mem x = some c) : Setting W v args ts x y { v with stack := args :: v.stack } c.obj :=
  ⟨(Vm.Step.refl sv cv).push ho, hv, by simp, ne, hx, hy, ⟨c, hc, rfl⟩, fun _ _ _ => rfl⟩

/-- the result of `=` of three values: the container, if it was possible -/
theorem c35_setCollection_aux {n : Nat} {h : Handler} {i : Ref} {ts : List Ref} (F : Fine W h) (C : Copies W h) (sv : v.Sane W) (cv : v.Closed W nobody)
    (hv : v.HasVec args ts) (ho : v.Old W args) (ne : args ≠ x) (hx : x ∈ ts) (hi : i ∈ ts) (hy : y ∈ ts)
    (hpre : (∀ s, ¬ v.HasObj x (.str s)) ∧ ∀ k es, ¬ v.HasObj x (.hmap k es)) (hts : ts = [x, i, y]) :
    Wp W n h (Prog.setCollection x i y) { v with stack := args :: v.stack } fun a u t => t = [] ∧ KeepsBuiltins v u ∧
      (a = true → ∀ w, Ends u w → AssignRun W ts v x w []) ∧
      (a = false → u = { v with stack := args :: v.stack } ∧ ∃ o, v.HasObj x o ∧ ((∀ es, o ≠ .vec es) ∧ (∀ bs enc, o ≠ .env bs enc) ∨
        (∃ es, o = .vec es) ∧ ∀ n : Int, 0 ≤ n → ¬ v.HasObj i (.int n))) := by
  unfold Prog.setCollection
  refine wp_bind (wp_read fun c hc => ?_)
  have hc : v.mem x = some c := hc
  have keep : ∀ {u : Vm} {o : Obj}, Setting W v args ts x y u o → (∀ b, o ≠ .builtin b) → KeepsBuiltins v u := by
    rintro u o f hb op b b' ⟨d, hd, hdo⟩ ⟨d', hd', hdo'⟩
    by_cases e : op = x
    · subst e
      obtain ⟨c1, hc1, ho1⟩ := f.cell
      obtain rfl := same_cell hc1 hd'
      exact absurd (ho1.symm.trans hdo') (hb b')
    · rcases f.step.quiet.cells op d e hd with e | e | ⟨_, _, _, e, _⟩
      · obtain rfl := same_cell e hd'
        rw [hdo] at hdo'; cases hdo'; rfl
      · rw [hd'] at e; cases e
      · rw [hdo] at e; cases e
  have same : KeepsBuiltins v { v with stack := args :: v.stack } := by
    rintro op b b' ⟨d, hd, hdo⟩ ⟨d', hd', hdo'⟩
    have hd' : v.mem op = some d' := hd'
    obtain rfl := same_cell hd hd'
    rw [hdo] at hdo'; cases hdo'; rfl
  have no : (∀ es, c.obj ≠ .vec es) → (∀ bs enc, c.obj ≠ .env bs enc) → Wp W n h (pure false) { v with stack := args :: v.stack } fun a u t => t = [] ∧ KeepsBuiltins v u ∧
      (a = true → ∀ w, Ends u w → AssignRun W ts v x w []) ∧
      (a = false → u = { v with stack := args :: v.stack } ∧ ∃ o, v.HasObj x o ∧ ((∀ es, o ≠ .vec es) ∧ (∀ bs enc, o ≠ .env bs enc) ∨
        (∃ es, o = .vec es) ∧ ∀ n : Int, 0 ≤ n → ¬ v.HasObj i (.int n))) := fun h1 h2 =>
    wp_pure ⟨rfl, same, by simp, fun _ => ⟨rfl, _, ⟨c, hc, rfl⟩, .inl ⟨h1, h2⟩⟩⟩
  have f := c35_setting_aux (y := y) sv cv hv ho ne hx hy hc
  have hxo : v.Old W x := sv.old _ _ hc
  have quietE : ∀ {u w : Vm} {o : Obj}, Setting W v args ts x y u o → Ends u w → Vm.Quiet W (fun z => z = x) v w := fun f e =>
    f.step.quiet.trans sv e.quiet
  cases hco : c.obj with
  | str s => exact absurd ⟨c, hc, hco⟩ (hpre.1 s)
  | hmap k es => exact absurd ⟨c, hc, hco⟩ (hpre.2 k es)
  | queue m es => exact wp_fail
  | list es => exact wp_fail
  | env bs enc =>
    simp only
    unfold Prog.envSet
    refine wp_bind (wp_bind (wp_read fun d hd => ?_))
    have hd : v.mem i = some d := hd
    split
    · rename_i N hN
      refine wp_bind (wp_read fun c' hc' => ?_)
      have hc' : v.mem x = some c' := hc'
      obtain rfl := same_cell hc hc'
      rw [hco]
      simp only
      refine wp_setObj fun c2 hc2 => wp_pure ?_
      have hc2 : v.mem x = some c2 := hc2
      obtain rfl := same_cell hc hc2
      have hyo : v.Old W y := by
        obtain ⟨d, hd, hdo⟩ := hv
        have := (cv.cells args d hd).obj
        rw [hdo] at this
        exact this y hy
      have f1 := f.write (d := { c with obj := .env (Prog.setBinding bs ⟨N, i, y⟩) enc }) hc rfl rfl
        (c35_pub_aux (f.step.closed.pub x c hc id) hco (sv.old _ _ hd) hyo)
      refine ⟨by simp, keep f1 (by simp), fun _ w e => ?_, by simp⟩
      exact .binding hts ⟨c, hc, hco⟩ ⟨d, hd, hN⟩ (e.hasObj ⟨_, Mem.set_self .., rfl⟩ (by simp)) c35_rebinds_aux (quietE f1 e)
    · exact wp_fail
  | vec es =>
    simp only
    refine wp_bind (wp_read fun d hd => ?_)
    have hd : v.mem i = some d := hd
    rw [hco] at f
    have noIndex : (∀ k : Int, 0 ≤ k → d.obj ≠ .int k) → Wp W n h (pure false) { v with stack := args :: v.stack } fun a u t => t = [] ∧ KeepsBuiltins v u ∧
      (a = true → ∀ w, Ends u w → AssignRun W ts v x w []) ∧
      (a = false → u = { v with stack := args :: v.stack } ∧ ∃ o, v.HasObj x o ∧ ((∀ es, o ≠ .vec es) ∧ (∀ bs enc, o ≠ .env bs enc) ∨
        (∃ es, o = .vec es) ∧ ∀ n : Int, 0 ≤ n → ¬ v.HasObj i (.int n))) := fun hk =>
      wp_pure ⟨rfl, same, by simp, fun _ => ⟨rfl, _, ⟨c, hc, hco⟩, .inr ⟨⟨es, rfl⟩, fun k hk' ⟨d', hd', hdo'⟩ => by
        obtain rfl := same_cell hd hd'; exact hk k hk' hdo'⟩⟩⟩
    have hyo : v.Old W y := by
      obtain ⟨d, hd, hdo⟩ := hv
      have := (cv.cells args d hd).obj
      rw [hdo] at this
      exact this y hy
    split
    · rename_i k hk
      split
      · rename_i hneg
        refine Wp.mono (noIndex fun k' h' e => ?_) fun a u t h => by simpa using h
        rw [hk] at e; cases e; omega
      rename_i hnneg
      obtain ⟨m, rfl⟩ := Int.eq_ofNat_of_zero_le (by omega : 0 ≤ k)
      split
      · rename_i hlen
        have hlen : es.length ≤ m := by exact_mod_cast hlen
        refine wp_bind (Wp.mono (c35_fillNil_aux (args := args) (ts := ts) (y := y) F C ⟨c, hc, hco⟩ (Int.toNat m - es.length) [] _ (by simpa using f) ⟨rfl, by simp⟩)
          fun _ u1 t1 ⟨ht1, hst1, ns, f1, hn1⟩ => ?_)
        subst ht1
        refine wp_bind (c35_take_aux F C f1 rfl hyo (fun hne => f1.src y (.root rfl) hne) fun y' u2 f2 hst2 old2 tk keep2 => ?_)
        have hn2 : NewNils W v u2 (m - es.length) ns := by
          have := hn1.keep (w := u2) fun q hq => keep2 q (f1.keptChild (by simp [Obj.children, hq]))
          simpa using this
        refine wp_bind (wp_append fun c2 es2 hc2 ho2 => wp_pure ?_)
        obtain ⟨c3, hc3, ho3⟩ := f2.cell
        obtain rfl := same_cell hc2 hc3
        rw [ho2] at ho3
        cases ho3
        have pub := f2.step.closed.pub x c2 hc2 id
        have f3 := f2.write (d := { c2 with obj := .vec (es ++ ns ++ [y']) }) hc2 rfl rfl ⟨by
          intro b hb
          rcases List.mem_append.mp hb with hb | hb
          · have := pub.obj
            rw [ho2] at this
            exact this b hb
          · simp at hb; subst hb; exact ⟨old2, id⟩, pub.docstr, pub.docvec⟩
        refine ⟨by simp, keep f3 (by simp), fun _ w e => ?_, by simp⟩
        have hn3 : NewNils W v { u2 with mem := u2.mem.set x { c2 with obj := .vec (es ++ ns ++ [y']) } } (m - es.length) ns :=
          hn2.keep fun q hq => Mem.set_other _ _ fun e => (hn2.2 q hq).1 (e ▸ hxo)
        refine .extend hts ⟨c, hc, hco⟩ ⟨d, hd, hk⟩ hlen (hn3.ends e) ?_ ((tk.write hxo).ends e) (quietE f3 e)
        exact e.hasObj ⟨_, Mem.set_self .., rfl⟩ (by simp)
      · rename_i hlen
        have hlen : m < es.length := by
          have : ¬ (es.length : Int) ≤ (m : Int) := hlen
          omega
        refine wp_bind (c35_take_aux F C f rfl hyo (fun hne => f.src y (.root rfl) hne) fun y' u2 f2 hst2 old2 tk keep2 => ?_)
        refine wp_bind (wp_read fun c2 hc2 => ?_)
        obtain ⟨c3, hc3, ho3⟩ := f2.cell
        obtain rfl := same_cell hc2 hc3
        rw [ho3]
        simp only
        refine wp_bind (wp_setObj fun c4 hc4 => wp_pure ?_)
        obtain rfl := same_cell hc2 hc4
        have pub := f2.step.closed.pub x c2 hc2 id
        have f3 := f2.write (d := { c2 with obj := .vec (es.set m y') }) hc2 rfl rfl ⟨by
          intro b hb
          rcases List.mem_or_eq_of_mem_set hb with hb | rfl
          · have := pub.obj
            rw [ho3] at this
            exact this b hb
          · exact ⟨old2, id⟩, pub.docstr, pub.docvec⟩
        refine ⟨by simp, keep f3 (by simp), fun _ w e => ?_, by simp⟩
        refine .element hts ⟨c, hc, hco⟩ ⟨d, hd, hk⟩ hlen ?_ ((tk.write hxo).ends e) (quietE f3 e)
        exact e.hasObj ⟨_, Mem.set_self .., rfl⟩ (by simp)
    · rename_i hno
      exact noIndex fun k _ e => hno k e
  | nil => exact no (by simp [hco]) (by simp [hco])
  | bool b => exact no (by simp [hco]) (by simp [hco])
  | int k => exact no (by simp [hco]) (by simp [hco])
  | real k => exact no (by simp [hco]) (by simp [hco])
  | semver k => exact no (by simp [hco]) (by simp [hco])
  | chr k => exact no (by simp [hco]) (by simp [hco])
  | sym k => exact no (by simp [hco]) (by simp [hco])
  | err m l => exact no (by simp [hco]) (by simp [hco])
  | fn f => exact no (by simp [hco]) (by simp [hco])
  | mac f => exact no (by simp [hco]) (by simp [hco])
  | special s => exact no (by simp [hco]) (by simp [hco])
  | builtin s => exact no (by simp [hco]) (by simp [hco])
  | port s => exact no (by simp [hco]) (by simp [hco])
  | cdata s => exact no (by simp [hco]) (by simp [hco])

/-- `=` of three values is not modelled for strings and hash maps -/
def AssignModelled (ts : List Ref) (v : Vm) : Prop :=
  ∀ x i y, ts = [x, i, y] → (∀ s, ¬ v.HasObj x (.str s)) ∧ ∀ k es, ¬ v.HasObj x (.hmap k es)

theorem c35_assign_aux {n : Nat} {h : Handler} {env : Ref} (F : Fine W h) (C : Copies W h) (k : Held W args ts env v) (hpre : AssignModelled ts v) :
    Wp W n h (Prog.biAssign args env) v fun a u t => KeepsBuiltins v u ∧ ∀ r w, a = some r → Ends u w → AssignRun W ts v r w t := by
  unfold Prog.biAssign
  refine wp_bind (wp_verifyVec_vec k.vec fun hv => wp_bind (wp_verifyEnv fun _ => ?_))
  have err : ∀ {s : String} (m : Vm) {Q : List Event → Ref → Vm → Prop}, Vm.Step W nobody nobody v m → (∀ t r w, t = [] → Refuses W v r w → Q t r w) →
      Wp W n h (Prog.error s) m fun a u t => KeepsBuiltins v u ∧ ∀ r w, a = some r → Ends u w → Q t r w := by
    intro s m Q g hq
    refine wps_error (E := nobody) g fun r u t g' pub hc hn => ?_
    refine ⟨keeps_of_quiet g'.quiet, fun r' w e he => ?_⟩
    cases e
    exact hq _ _ _ rfl ⟨g'.quiet.trans k.sane he.quiet, fun h => hn (h.mono g.quiet.births), he.isErr ⟨t, 0, _, hc, rfl⟩⟩
  have g0 : Vm.Step W nobody nobody v v := .refl k.sane k.closed.open'
  have hne : ∀ z ∈ ts, args ≠ z := fun z hz e => (k.pub z hz).2 e.symm
  split
  · rename_i x y
    refine wp_bind (wp_push ?_)
    have hxm : x ∈ [x, y] := by simp
    have hym : y ∈ [x, y] := by simp
    have qs : ∀ s : List Ref, Vm.Quiet W nobody v { v with stack := s } := fun s =>
      Vm.Quiet.same rfl rfl rfl rfl rfl rfl fun z => by cases z <;> rfl
    have go : ∀ c, v.mem x = some c → Wp W n h (do
        let ok ← Prog.valueSet x y
        Prog.pop args
        if ok then pure (some x) else Prog.error "Builtin '=' failed") { v with stack := args :: v.stack } fun a u t =>
        KeepsBuiltins v u ∧ ∀ r w, a = some r → Ends u w → AssignRun W [x, y] v r w t := by
      intro c hc
      have f := c35_setting_aux k.sane k.closed.open' hv k.old (hne x hxm) hxm hym hc
      refine wp_bind (Wp.mono (c35_valueSet_aux F C k.closed.open' (k.sane.old _ _ hc) f rfl) fun a u t ⟨ha, ht, hst, hcase⟩ => ?_)
      subst ha ht
      refine wp_bind (wp_pop fun s hs => wp_pure ?_)
      rcases hcase with ⟨rfl, rfl⟩ | ⟨hxy, ⟨o, ho, hob, hr⟩, o', f'⟩
      · refine ⟨?_, fun r w e he => ?_⟩
        · exact keeps_of_quiet (qs s)
        · cases e
          exact .itself rfl ((qs s).trans k.sane he.quiet)
      · refine ⟨?_, fun r w e he => ?_⟩
        · rintro op b b' ⟨d, hd, hdo⟩ ⟨d', hd', hdo'⟩
          have hd' : u.mem op = some d' := hd'
          by_cases e : op = x
          · subst e
            have hb' : u.HasObj op (.builtin b') := ⟨d', hd', hdo'⟩
            cases hr with
            | atom _ _ h3 => exact absurd (h3.unique hb') (hob b')
            | error h1 => obtain ⟨m, l, h1⟩ := h1; cases h1.unique hb'
            | sequence h1 h2 _ =>
              have := h2.unique hb'
              cases o <;> simp [Obj.elems] at h1 <;> simp [Obj.refill] at this
            | map h1 _ _ => cases h1.unique hb'
          · rcases f'.step.quiet.cells op d e hd with e | e | ⟨_, _, _, e, _⟩
            · obtain rfl := same_cell e hd'
              rw [hdo] at hdo'; cases hdo'; rfl
            · rw [hd'] at e; cases e
            · rw [hdo] at e; cases e
        · cases e
          have he' : Ends u w := Ends.pop.trans he
          refine .value rfl hxy ⟨⟨o, ho, hr.ends he'⟩, f'.step.quiet.trans k.sane he'.quiet, fun z oz hz hzx hne' hzo => he'.hasObj ?_ hne'⟩
          obtain ⟨cz, hcz, hczo⟩ := hzo
          exact ⟨cz, (f'.src z hz hzx).trans hcz, hczo⟩
    by_cases hx : ∃ c, v.mem x = some c
    · obtain ⟨c, hc⟩ := hx
      exact Wp.mono (go c hc) fun a u t h => by simpa using h
    · have hx : v.mem x = none := by
        cases e : v.mem x with
        | none => rfl
        | some c => exact absurd ⟨c, e⟩ hx
      unfold Prog.valueSet
      split
      · rename_i e
        subst e
        refine wp_bind (wp_pure (wp_bind (wp_pop fun s hs => wp_pure ⟨keeps_of_quiet (qs s), fun r w e he => ?_⟩)))
        cases e
        exact .itself rfl ((qs s).trans k.sane he.quiet)
      · have no : ∀ (p : Obj) (u : Vm) {β : Type} {g : Unit → Prog β} {Q : β → Vm → List Event → Prop}, u.mem = v.mem →
            Wp W n h (Prog.replace x p >>= g) u Q := by
          intro p u β g Q hu
          refine wp_bind (wp_replace fun c hc => ?_)
          rw [hu, hx] at hc
          cases hc
        refine wp_bind (wp_bind (wp_read fun c hc => ?_))
        cases c.obj <;> first | exact no _ _ rfl | exact wp_bind wp_fail | (simp only [bind_assoc]; exact no _ _ rfl)
  · rename_i x i y
    refine wp_bind (wp_push ?_)
    refine wp_bind (Wp.mono (c35_setCollection_aux F C k.sane k.closed.open' hv k.old (hne x (by simp)) (by simp) (by simp) (by simp)
      (hpre x i y rfl) rfl) fun a u t ⟨ht, hk, h1, h2⟩ => ?_)
    subst ht
    refine wp_bind (wp_pop fun s hs => ?_)
    cases a with
    | true =>
      refine wp_pure ⟨fun op b b' hb hb' => hk op b b' hb hb', fun r w e he => ?_⟩
      cases e
      exact h1 rfl w (Ends.pop.trans he)
    | false =>
      obtain ⟨rfl, o, ho, hcase⟩ := h2 rfl
      refine Wp.mono (err (Q := fun t r w => AssignRun W [x, i, y] v r w t) { v with stack := s } ?_ fun t r w ht hr => ?_) fun a u t h => by simpa using h
      · exact (g0.push k.old).pop hs
      · subst ht; exact .notPossible rfl ho hcase hr
  · rename_i h2 h3
    refine Wp.mono (err (Q := fun t r w => AssignRun W ts v r w t) v g0 fun t r w ht hr => ?_) fun a u t h => by simpa using h
    subst ht
    refine .count ?_ ?_ hr
    · intro e
      match ts, e with
      | [a, b], _ => exact h2 a b rfl
    · intro e
      match ts, e with
      | [a, b, c], _ => exact h3 a b c rfl

/-- `=`, called by name.  Nothing is said about `(= x i y)` if the value of `x` is a string (see C52) or hash map (see C50). -/
theorem c35_assign (hL : L.Safe) {v w : Vm} (rv : v.Reached W L) {form env op : Ref} {name : Text} {xs : List Ref}
    (nc : NamedCall W v form env name op xs) (hop : v.HasObj op (.builtin .assign))
    {r : Option Ref} {tr : List Event} (ev : Evaluates W L v form env r w tr) :
    NamedOpCall W (ArgumentsFirst W form env (Runs .assign op fun ts u r w tr => AssignModelled ts u → AssignRun W ts u r w tr)) v env op r w tr :=
  namedBuiltinPre_aux hL (by simp) (fun _ _ _ _ _ F C k hp => c35_assign_aux F C k hp) rv nc hop ev

/-- the parts of `y`, none of them an error, are still what they were -/
theorem c35_denotes_aux {P : Ref → Prop} (hp : ∀ z o, P z → v.HasObj z o → w.HasObj z o)
    (hc : ∀ z c z', P z → v.mem z = some c → z' ∈ c.obj.children → P z') {z : Ref} {d : Spec.Data} (h : Denotes v.mem z d) : P z → Denotes w.mem z d := by
  induction h with
  | atom h1 h2 =>
    intro hz
    obtain ⟨c', hc', ho'⟩ := hp _ _ hz ⟨_, h1, rfl⟩
    exact .atom hc' (by rw [ho']; exact h2)
  | vec h1 h2 h3 _ ih =>
    intro hz
    obtain ⟨c', hc', ho'⟩ := hp _ _ hz ⟨_, h1, rfl⟩
    exact .vec hc' (ho'.trans h2) h3 fun i a d ha hd => ih i a d ha hd (hc _ _ _ hz h1 (by rw [h2]; exact List.mem_of_getElem? ha))
  | queue h1 h2 h3 _ ih =>
    intro hz
    obtain ⟨c', hc', ho'⟩ := hp _ _ hz ⟨_, h1, rfl⟩
    exact .queue hc' (ho'.trans h2) h3 fun i a d ha hd => ih i a d ha hd (hc _ _ _ hz h1 (by rw [h2]; exact List.mem_of_getElem? ha))
  | list h1 h2 h3 _ ih =>
    intro hz
    obtain ⟨c', hc', ho'⟩ := hp _ _ hz ⟨_, h1, rfl⟩
    exact .list hc' (ho'.trans h2) h3 fun i a d ha hd => ih i a d ha hd (hc _ _ _ hz h1 (by rw [h2]; exact List.mem_of_getElem? ha))
  | hmap h1 h2 h3 _ _ ih1 ih2 =>
    intro hz
    obtain ⟨c', hc', ho'⟩ := hp _ _ hz ⟨_, h1, rfl⟩
    refine .hmap hc' (ho'.trans h2) h3 (fun i a d ha hd => ih1 i a d ha hd (hc _ _ _ hz h1 ?_)) fun i a d ha hd => ih2 i a d ha hd (hc _ _ _ hz h1 ?_) <;>
      rw [h2] <;> simp only [Obj.children, List.mem_flatMap] <;> exact ⟨a, List.mem_of_getElem? ha, by simp⟩

theorem c35_takenData_aux {P : Ref → Prop} (hp : ∀ z o, P z → v.HasObj z o → w.HasObj z o) (hx : ∀ z, P z → z ≠ x)
    (hc : ∀ z c z', P z → v.mem z = some c → z' ∈ c.obj.children → P z') (hne : ∀ z, P z → ¬ v.IsErr z)
    {e e' : Ref} (tk : Taken W x v w e e') (he : P e) {d : Spec.Data} (h : Denotes v.mem e d) (pl : d.Plainly) : Denotes w.mem e' d := by
  have hcell : ∃ c, v.mem e = some c := by cases h <;> exact ⟨_, ‹_›⟩
  obtain ⟨c, hce⟩ := hcell
  by_cases ha : c.obj.isAtom = true
  · obtain ⟨_, h2⟩ := tk.copied c.obj (hx e he) ⟨c, hce, rfl⟩ ha
    obtain ⟨c', hc', ho'⟩ := h2 fun m l e' => hne e he ⟨m, l, c, hce, e'⟩
    cases h with
    | atom h1 h2 => obtain rfl := same_cell hce h1; exact .atom hc' (by rw [ho']; exact atom_same h2 pl)
    | vec h1 h2 => obtain rfl := same_cell hce h1; rw [h2] at ha; cases ha
    | queue h1 h2 => obtain rfl := same_cell hce h1; rw [h2] at ha; cases ha
    | list h1 h2 => obtain rfl := same_cell hce h1; rw [h2] at ha; cases ha
    | hmap h1 h2 => obtain rfl := same_cell hce h1; rw [h2] at ha; cases ha
  · obtain rfl := tk.shared c.obj ⟨c, hce, rfl⟩ (.inr (by simpa using ha))
    exact c35_denotes_aux hp hc h he

theorem c35_takenSeq_aux {P : Ref → Prop} (hp : ∀ z o, P z → v.HasObj z o → w.HasObj z o) (hx : ∀ z, P z → z ≠ x)
    (hc : ∀ z c z', P z → v.mem z = some c → z' ∈ c.obj.children → P z') (hne : ∀ z, P z → ¬ v.IsErr z)
    {es es' : List Ref} (h : List.Forall₂ (Taken W x v w) es es') (he : ∀ e ∈ es, P e) {ds : List Spec.Data} (hl : es.length = ds.length)
    (hd : ∀ (i : Nat) (x : Ref) (d : Spec.Data), es[i]? = some x → ds[i]? = some d → Denotes v.mem x d) (pl : ∀ d ∈ ds, d.Plainly) :
    es'.length = ds.length ∧ ∀ (i : Nat) (x : Ref) (d : Spec.Data), es'[i]? = some x → ds[i]? = some d → Denotes w.mem x d := by
  obtain ⟨h1, h2⟩ := forall₂_iff.mp h
  refine ⟨by omega, fun i e' d he' hd' => ?_⟩
  obtain ⟨e, hee⟩ := get_some h1 he'
  exact c35_takenData_aux hp hx hc hne (h2 i e e' hee he') (he e (List.mem_of_getElem? hee)) (hd i e d hee hd') (pl d (List.mem_of_getElem? hd'))

/-- After `(= x y)` the value `x` denotes what `y` denoted (up to the order of the entries of a hash map), if the data are
without errors, functions and the like, and `x` is not a part of `y`. -/
theorem c35_equal_after {v w : Vm} {x y : Ref} (h : Assigned W v w x y) {d : Spec.Data} (hd : Denotes v.mem y d) (pl : d.Plainly)
    (hxy : ¬ Reach v.mem.Part (· = y) x) (hne : ∀ z, Reach v.mem.Part (· = y) z → ¬ v.IsErr z) :
    ∃ d', Denotes w.mem x d' ∧ d.Reordered d' := by
  have hx : ∀ z, Reach v.mem.Part (· = y) z → z ≠ x := fun z hz e => hxy (e ▸ hz)
  have hc : ∀ z c z', Reach v.mem.Part (· = y) z → v.mem z = some c → z' ∈ c.obj.children → Reach v.mem.Part (· = y) z' :=
    fun z c z' hz hc hz' => hz.step ⟨c, hc, hz'⟩
  have hp : ∀ z o, Reach v.mem.Part (· = y) z → v.HasObj z o → w.HasObj z o := by
    intro z o hz ho
    refine h.source z o ?_ (hx z hz) (fun m l e => hne z hz ⟨m, l, e ▸ ho⟩) ho
    clear ho
    induction hz with
    | root h' => exact .root h'
    | @step a b ha hb ih =>
      obtain ⟨c, hc, hb⟩ := hb
      exact .step ih ⟨hx a ha, c, hc, List.mem_append_right _ hb⟩
  obtain ⟨o, ⟨c, hcy, rfl⟩, hr⟩ := h.value
  have child : ∀ e ∈ c.obj.children, Reach v.mem.Part (· = y) e := fun e he => hc y c e (.root rfl) hcy he
  generalize hoo : c.obj = o at hr
  cases hr with
  | atom h1 h2 h3 =>
    subst hoo
    obtain ⟨c', hc', ho'⟩ := h3
    cases hd with
    | atom h1' h2' => obtain rfl := same_cell hcy h1'; exact ⟨d, .atom hc' (by rw [ho']; exact atom_same h2' pl), .refl⟩
    | vec h1' h2' => obtain rfl := same_cell hcy h1'; rw [h2'] at h1; cases h1
    | queue h1' h2' => obtain rfl := same_cell hcy h1'; rw [h2'] at h1; cases h1
    | list h1' h2' => obtain rfl := same_cell hcy h1'; rw [h2'] at h1; cases h1
    | hmap h1' h2' => obtain rfl := same_cell hcy h1'; rw [h2'] at h1; cases h1
  | error h1 => exact absurd ⟨_, _, c, hcy, hoo⟩ (hne y (.root rfl))
  | @sequence _ es es' h1 h2 h3 =>
    subst hoo
    rw [elems_children h1] at child
    obtain ⟨c', hc', ho'⟩ := h2
    cases hd with
    | atom h1' h2' => obtain rfl := same_cell hcy h1'; cases ho : c.obj <;> rw [ho] at h1 h2' <;> first | (simp [Obj.elems] at h1; done) | (simp [atomData] at h2'; done)
    | vec h1' h2' h3' h4' =>
      obtain rfl := same_cell hcy h1'
      rw [h2'] at h1 ho'
      cases h1
      cases pl with | vec pl =>
      obtain ⟨a1, a2⟩ := c35_takenSeq_aux hp hx hc hne h3 child h3' h4' pl
      exact ⟨_, .vec hc' ho' a1 a2, .refl⟩
    | queue h1' h2' h3' h4' =>
      obtain rfl := same_cell hcy h1'
      rw [h2'] at h1 ho'
      cases h1
      cases pl with | queue pl =>
      obtain ⟨a1, a2⟩ := c35_takenSeq_aux hp hx hc hne h3 child h3' h4' pl
      exact ⟨_, .queue hc' ho' a1 a2, .refl⟩
    | list h1' h2' h3' h4' =>
      obtain rfl := same_cell hcy h1'
      rw [h2'] at h1 ho'
      cases h1
      cases pl with | list pl =>
      obtain ⟨a1, a2⟩ := c35_takenSeq_aux hp hx hc hne h3 child h3' h4' pl
      exact ⟨_, .list hc' ho' a1 a2, .refl⟩
    | hmap h1' h2' => obtain rfl := same_cell hcy h1'; rw [h2'] at h1; cases h1
  | @map k es k' es' qs h1 h2 h3 =>
    obtain ⟨c', hc', ho'⟩ := h1
    cases hd with
    | atom h1' h2' => obtain rfl := same_cell hcy h1'; rw [hoo] at h2'; cases h2'
    | vec h1' h2' => obtain rfl := same_cell hcy h1'; rw [hoo] at h2'; cases h2'
    | queue h1' h2' => obtain rfl := same_cell hcy h1'; rw [hoo] at h2'; cases h2'
    | list h1' h2' => obtain rfl := same_cell hcy h1'; rw [hoo] at h2'; cases h2'
    | @hmap _ _ nb es0 ds h1' h2' hl hk hv =>
      obtain rfl := same_cell hcy h1'
      rw [hoo] at h2'
      cases h2'
      cases pl with | hmap plk plv =>
      have child' : ∀ e ∈ es, Reach v.mem.Part (· = y) e.1 ∧ Reach v.mem.Part (· = y) e.2 := by
        intro e he
        rw [hoo] at child
        constructor <;> refine child _ ?_ <;> simp only [Obj.children, List.mem_flatMap] <;> exact ⟨e, he, by simp⟩
      obtain ⟨b1, b2⟩ := forall₂_iff.mp h3
      have f2 : List.Forall₂ (fun (e : Ref × Ref) (d : Spec.Data × Spec.Data) => Denotes w.mem e.1 d.1 ∧ Denotes w.mem e.2 d.2) qs ds := by
        refine forall₂_iff.mpr ⟨by omega, fun i q d hq hd => ?_⟩
        obtain ⟨e, he⟩ := get_some b1 hq
        have tk := b2 i e q he hq
        have ce := child' e (List.mem_of_getElem? he)
        exact ⟨c35_takenData_aux hp hx hc hne tk.1 ce.1 (hk i e d he hd) (plk d (List.mem_of_getElem? hd)),
          c35_takenData_aux hp hx hc hne tk.2 ce.2 (hv i e d he hd) (plv d (List.mem_of_getElem? hd))⟩
      obtain ⟨ds'', g1, g2⟩ := List.perm_comp_forall₂ h2 f2
      rw [forall₂_iff] at g1
      refine ⟨.hmap ds'', .hmap hc' ho' g1.1 (fun i e d he hd => (g1.2 i e d he hd).1) (fun i e d he hd => (g1.2 i e d he hd).2), ?_⟩
      refine .hmap (bs := ds) rfl ?_ ?_ g2.symm
      · intro i a b ha hb; rw [ha] at hb; cases hb; exact .refl
      · intro i a b ha hb; rw [ha] at hb; cases hb; exact .refl

/-- the hypotheses hold for the call `(= i (vector 7 8))`, which makes the value of `i`, an integer, a vector of two
integers -/
example : ∃ (v w : Vm) (form op : Ref) (xs : List Ref) (r : Option Ref) (tr : List Event), v.Reached world library ∧
    NamedCall world v form v.globalEnv (txt "=") op xs ∧ v.HasObj op (.builtin .assign) ∧
    Evaluates world library v form v.globalEnv r w tr ∧
    (∃ a b, objAt w r = some (.vec [a, b]) ∧ objAt w (some a) = some (.int 7) ∧ objAt w (some b) = some (.int 8)) := by
  obtain ⟨v, form, r, w, tr, hr, of, oe, ev, h⟩ := stage_exists (table := kit2)
    (forms := [.vec [.sym "define", .sym "i", .sym "as", .int 1, .str "d"]]) (fuel := 40)
    (last := .vec [.sym "=", .sym "i", .vec [.sym "vector", .int 7, .int 8]])
    (P := fun v f r w tr => namedCheck v f "=" (.builtin .assign) &&
      (match objAt w r with
       | some (.vec [a, b]) => decide (objAt w (some a) = some (.int 7)) && decide (objAt w (some b) = some (.int 8))
       | _ => false)) kit2_plain (by decide +kernel)
  simp only [Bool.and_eq_true] at h
  obtain ⟨op, xs, h1, h2, h3⟩ := named_of_check h.1 of oe
  refine ⟨v, w, form, op, xs, r, tr, hr, h1, h2, ev, ?_⟩
  have h := h.2
  split at h
  · rename_i a b e
    simp only [Bool.and_eq_true, decide_eq_true_eq] at h
    exact ⟨a, b, e, h⟩
  · cases h

end Dern.Props
