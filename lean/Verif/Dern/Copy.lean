import Verif.Dern.Steps
/-
Copying: octaspire_dern_vm_create_new_value_copy creates a new value for every part of the original,
and neither changes nor collects anything in use.
-/
namespace Dern
open Spec (Reach)
open Prog (Library)
variable {W : World} {n : Nat} {h : Handler}

/-- the elements of a sequence -/
def Obj.elems : Obj → Option (List Ref)
  | .vec es | .queue _ es | .list es => some es
  | _ => none

/-- the same kind of sequence with other elements; the maximal length of a queue is lost -/
def Obj.refill : Obj → List Ref → Obj
  | .vec _, es => .vec es
  | .queue _ _, es => .queue none es
  | .list _, es => .list es
  | o, _ => o

/-- payloads that are copied as they are -/
def Obj.simple : Obj → Bool
  | .vec _ | .queue _ _ | .list _ | .hmap _ _ | .env _ _ | .fn _ | .mac _ | .port _ | .cdata _ => false
  | _ => true

/-- The value `r` in the memory `m'` has the same structure as the value `x` in the memory `m`, part by
part, and all its parts satisfy `Fr`. -/
inductive Copied (Fr : Ref → Prop) (m m' : Mem) : Ref → Ref → Prop
  | simple {x r c c'} : m x = some c → m' r = some c' → Fr r → c.obj.simple = true → c'.obj = c.obj → Copied Fr m m' x r
  | seq {x r c c'} {ps : List (Ref × Ref)} : m x = some c → m' r = some c' → Fr r → c.obj.elems = some (ps.map (·.1)) →
      c'.obj = c.obj.refill (ps.map (·.2)) → (∀ p ∈ ps, Copied Fr m m' p.1 p.2) → Copied Fr m m' x r
  | hmap {x r c c' k k' es'} {qs : List ((Ref × Ref) × (Ref × Ref))} : m x = some c → m' r = some c' → Fr r →
      c.obj = .hmap k (qs.map (·.1)) → c'.obj = .hmap k' es' → es'.Perm (qs.map (·.2)) →
      (∀ q ∈ qs, Copied Fr m m' q.1.1 q.2.1) → (∀ q ∈ qs, Copied Fr m m' q.1.2 q.2.2) → Copied Fr m m' x r

theorem Copied.fresh {Fr : Ref → Prop} {m m' : Mem} {x r : Ref} (h : Copied Fr m m' x r) : Fr r := by
  cases h <;> assumption

theorem Copied.mono {Fr Fr' : Ref → Prop} {m m' : Mem} {x r : Ref} (h : Copied Fr m m' x r) (hf : ∀ z, Fr z → Fr' z) :
    Copied Fr' m m' x r := by
  induction h with
  | simple h1 h2 h3 h4 h5 => exact .simple h1 h2 (hf _ h3) h4 h5
  | seq h1 h2 h3 h4 h5 _ ih => exact .seq h1 h2 (hf _ h3) h4 h5 ih
  | hmap h1 h2 h3 h4 h5 h6 _ _ ih1 ih2 => exact .hmap h1 h2 (hf _ h3) h4 h5 h6 ih1 ih2

theorem elems_children {o : Obj} {es : List Ref} (h : o.elems = some es) : o.children = es := by
  cases o <;> simp [Obj.elems] at h <;> simp [Obj.children, h]

theorem refill_children {o : Obj} {es es' : List Ref} (h : o.elems = some es) : (o.refill es').children = es' := by
  cases o <;> simp [Obj.elems] at h <;> simp [Obj.children, Obj.refill]

/-- the original may be looked up in another memory -/
theorem Copied.source {Fr P : Ref → Prop} {m1 m m' : Mem} {x r : Ref} (h : Copied Fr m1 m' x r)
    (hm : ∀ y c, P y → m1 y = some c → m y = some c) (hc : ∀ y c z, P y → m y = some c → z ∈ c.obj.children → P z)
    (hx : P x) : Copied Fr m m' x r := by
  induction h with
  | simple h1 h2 h3 h4 h5 => exact .simple (hm _ _ hx h1) h2 h3 h4 h5
  | @seq x r c c' ps h1 h2 h3 h4 h5 _ ih =>
    refine .seq (hm _ _ hx h1) h2 h3 h4 h5 fun p hp => ih p hp (hc x c _ hx (hm _ _ hx h1) ?_)
    rw [elems_children h4]
    exact List.mem_map_of_mem hp
  | @hmap x r c c' k k' es' qs h1 h2 h3 h4 h5 h6 _ _ ih1 ih2 =>
    refine .hmap (hm _ _ hx h1) h2 h3 h4 h5 h6 (fun p hp => ih1 p hp (hc x c _ hx (hm _ _ hx h1) ?_))
      fun p hp => ih2 p hp (hc x c _ hx (hm _ _ hx h1) ?_)
    · rw [h4]
      simp only [Obj.children, List.mem_flatMap, List.mem_map]
      exact ⟨p.1, ⟨p, hp, rfl⟩, by simp⟩
    · rw [h4]
      simp only [Obj.children, List.mem_flatMap, List.mem_map]
      exact ⟨p.1, ⟨p, hp, rfl⟩, by simp⟩

/-- the copy stays a copy if its parts stay as they are -/
theorem Copied.target {Fr : Ref → Prop} {m m' m'' : Mem} {x r : Ref} (h : Copied Fr m m' x r)
    (hm : ∀ z, Fr z → Reach m'.Edge (· = r) z → m'' z = m' z) : Copied Fr m m'' x r := by
  induction h with
  | simple h1 h2 h3 h4 h5 => exact .simple h1 (by rw [hm _ h3 (.root rfl)]; exact h2) h3 h4 h5
  | @seq x r c c' ps h1 h2 h3 h4 h5 _ ih =>
    refine .seq h1 (by rw [hm _ h3 (.root rfl)]; exact h2) h3 h4 h5 fun p hp => ih p hp fun z hz hr => hm z hz ?_
    refine hr.mono ?_
    rintro y rfl
    refine .step (.root rfl) ⟨c', h2, ?_⟩
    unfold Cell.edges
    rw [h5, refill_children h4]
    exact List.mem_append_right _ (List.mem_map_of_mem hp)
  | @hmap x r c c' k k' es' qs h1 h2 h3 h4 h5 h6 _ _ ih1 ih2 =>
    have edge : ∀ q ∈ qs, m'.Edge r q.2.1 ∧ m'.Edge r q.2.2 := by
      intro q hq
      have : q.2 ∈ es' := h6.mem_iff.mpr (List.mem_map_of_mem hq)
      constructor <;> refine ⟨c', h2, ?_⟩ <;> unfold Cell.edges <;> rw [h5] <;>
        refine List.mem_append_right _ ?_ <;> simp only [Obj.children, List.mem_flatMap] <;>
        exact ⟨q.2, this, by simp⟩
    refine .hmap h1 (by rw [hm _ h3 (.root rfl)]; exact h2) h3 h4 h5 h6
      (fun q hq => ih1 q hq fun z hz hr => hm z hz (hr.mono ?_)) fun q hq => ih2 q hq fun z hz hr => hm z hz (hr.mono ?_)
    · rintro y rfl; exact .step (.root rfl) (edge q hq).1
    · rintro y rfl; exact .step (.root rfl) (edge q hq).2

/-- only collections and new values, and nothing in use is collected -/
structure Vm.Pure (W : World) (v w : Vm) : Prop where
  births : v.births ≤ w.births
  cells : ∀ y c, v.mem y = some c → w.mem y = some c ∨ w.mem y = none
  gone : ∀ y, v.Old W y → v.mem y = none → w.mem y = none
  kept : ∀ y, v.Kept y → w.mem y = v.mem y

/-- what copying `x` does -/
structure CopyOk (W : World) (v : Vm) (x : Ref) (r : Ref) (w : Vm) : Prop where
  sane : w.Sane W
  closed : w.Closed W fun _ => False
  stack : w.stack = v.stack
  pure : Vm.Pure W v w
  old : w.Old W r
  copied : Copied (fun z => ¬ v.Old W z) v.mem w.mem x r

/-- the handler copies values correctly -/
def Copies (W : World) (h : Handler) : Prop := ∀ x v a w t, v.Sane W → (v.Closed W fun _ => False) → v.Old W x →
  h (.copy x) v = .ok (a, w, t) → t = [] ∧ ∃ r, a = some r ∧ CopyOk W v x r w

theorem PubObj.children {P : Ref → Prop} {o : Obj} (ho : PubObj P o) {z : Ref} (hz : z ∈ o.children) : P z := by
  cases o <;> simp only [Obj.children, PubObj] at ho hz <;>
    first
    | exact ho _ hz
    | (simp at hz; done)
    | (simp only [List.mem_flatMap] at hz; obtain ⟨e, he, hz⟩ := hz; have := ho e he; simp at hz; rcases hz with rfl | rfl
       · exact this.1
       · exact this.2)
    | (simp at hz; rcases hz with rfl | rfl | rfl
       · exact ho.1
       · exact ho.2.1
       · exact ho.2.2)
    | (rcases List.mem_append.mp hz with hz | hz
       · simp only [List.mem_flatMap] at hz; obtain ⟨e, he, hz⟩ := hz; have := ho.1 e he; simp at hz; rcases hz with rfl | rfl
         · exact this.1
         · exact this.2
       · simp at hz; exact ho.2 _ hz)

theorem kept_old {v : Vm} (cv : v.Closed W fun _ => False) {y : Ref} (hy : v.Kept y) : v.Old W y := by
  refine Reach.closed (P := v.Old W) (fun x hx => cv.stack x hx) ?_ hy
  rintro x z hx ⟨c, hc, hz⟩
  have := cv.cells x c hc
  unfold Cell.edges at hz
  rcases List.mem_append.mp hz with hz | hz
  · cases hd : c.docstr with
    | none => rw [hd] at hz; cases hz
    | some d => rw [hd] at hz; simp at hz; subst hz; exact this.docstr _ hd
  · exact this.obj.children hz

/-- the invariant while a copy `r` is being filled: `v0` is the state before, `B` the one after the
allocation of `r`, which is on the stack among `s` -/
structure Filling (W : World) (v0 B : Vm) (r : Ref) (u : Vm) (o : Obj) (s : List Ref) : Prop where
  sane0 : v0.Sane W
  sane : u.Sane W
  closed : u.Closed W fun _ => False
  pure : Vm.Pure W v0 u
  stack : u.stack = s ++ v0.stack
  top : r ∈ s
  new : ¬ v0.Old W r
  base : B.Old W r
  lo : v0.births ≤ B.births
  hi : B.births ≤ u.births
  cell : ∃ c, u.mem r = some c ∧ c.obj = o

variable {v0 B u w v : Vm} {r x y : Ref} {o : Obj} {s : List Ref}

theorem Filling.keptUp (f : Filling W v0 B r u o s) {z : Ref} (hz : v0.Kept z) : u.Kept z := by
  induction hz with
  | root h' => exact .root (by rw [f.stack]; exact List.mem_append_right _ h')
  | @step a b ha he ih =>
    obtain ⟨c, hc, hb⟩ := he
    exact ih.step ⟨c, by rw [f.pure.kept a ha]; exact hc, hb⟩

/-- the relation that the parts of the copy are in -/
abbrev Part (W : World) (v0 B u : Vm) : Ref → Ref → Prop := Copied (fun z => ¬ B.Old W z) v0.mem u.mem

theorem Filling.copy (f : Filling W v0 B r u o s) (c0 : v0.Closed W fun _ => False) (hx : v0.Old W x)
    (k : CopyOk W u x y w) : Filling W v0 B r w o s ∧ Part W v0 B w x y ∧
      ∀ a b, b ∈ o.children ∨ b ∈ s → Part W v0 B u a b → Part W v0 B w a b := by
  have keep : ∀ z, u.Kept z → w.mem z = u.mem z := k.pure.kept
  have ron : u.Kept r := .root (by rw [f.stack]; exact List.mem_append_left _ f.top)
  refine ⟨⟨f.sane0, k.sane, k.closed, ?_, by rw [k.stack, f.stack], f.top, f.new, f.base, f.lo,
    Nat.le_trans f.hi k.pure.births, ?_⟩, ?_, ?_⟩
  · refine ⟨Nat.le_trans f.pure.births k.pure.births, ?_, ?_, ?_⟩
    · intro z c hc
      rcases f.pure.cells z c hc with e | e
      · exact k.pure.cells z c e
      · exact .inr (k.pure.gone z ((f.sane0.old z c hc).mono f.pure.births) e)
    · intro z ho hz
      exact k.pure.gone z (ho.mono f.pure.births) (f.pure.gone z ho hz)
    · intro z hz
      rw [keep z (f.keptUp hz), f.pure.kept z hz]
  · obtain ⟨c, hc, ho⟩ := f.cell
    exact ⟨c, by rw [keep r ron]; exact hc, ho⟩
  · refine (k.copied.mono (Fr' := fun z => ¬ B.Old W z) fun z hz ho => hz (ho.mono f.hi)).source (P := v0.Old W) ?_ ?_ hx
    · intro z c hz hc
      cases h0 : v0.mem z with
      | none => rw [f.pure.gone z hz h0] at hc; cases hc
      | some d =>
        rcases f.pure.cells z d h0 with e | e
        · rw [e] at hc; exact hc
        · rw [e] at hc; cases hc
    · intro a c z ha hc hz
      exact (c0.cells a c hc).obj.children hz
  · intro a b hb hp
    refine hp.target fun z _ hz => keep z (hz.mono ?_)
    rintro z rfl
    rcases hb with hb | hb
    · obtain ⟨c, hc, ho⟩ := f.cell
      exact ron.step ⟨c, hc, by unfold Cell.edges; rw [ho]; exact List.mem_append_right _ hb⟩
    · exact .root (by rw [f.stack]; exact List.mem_append_left _ hb)

/-- changing the copy being filled -/
theorem Filling.write (f : Filling W v0 B r u o s) (c0 : v0.Closed W fun _ => False) {c d : Cell} (hc : u.mem r = some c)
    (hu : d.uid = c.uid) (hm : d.mark = c.mark) (hd : PubCell (u.Old W) d) :
    Filling W v0 B r { u with mem := u.mem.set r d } d.obj s ∧
      ∀ a b, Part W v0 B u a b → Part W v0 B { u with mem := u.mem.set r d } a b := by
  have other : ∀ z, z ≠ r → (u.mem.set r d) z = u.mem z := fun z hz => Mem.set_other _ _ hz
  refine ⟨⟨f.sane0, write_sane f.sane hc hu hm, write_closed f.closed (hd.mono fun _ h => ⟨h, id⟩), ⟨f.pure.births, ?_, ?_, ?_⟩,
    f.stack, f.top, f.new, f.base, f.lo, f.hi, d, Mem.set_self .., rfl⟩, ?_⟩
  · intro z c' hc'
    have : z ≠ r := by rintro rfl; exact f.new (f.sane0.old _ _ hc')
    show u.mem.set r d z = _ ∨ u.mem.set r d z = _
    rw [other z this]; exact f.pure.cells z c' hc'
  · intro z hz hn
    have : z ≠ r := by rintro rfl; exact f.new hz
    show u.mem.set r d z = _
    rw [other z this]; exact f.pure.gone z hz hn
  · intro z hz
    have : z ≠ r := by rintro rfl; exact f.new (kept_old c0 hz)
    show u.mem.set r d z = _
    rw [other z this]; exact f.pure.kept z hz
  · intro a b hp
    refine hp.target fun z hz _ => other z ?_
    rintro rfl
    exact hz f.base

theorem Filling.push (f : Filling W v0 B r u o s) (hy : u.Old W y) :
    Filling W v0 B r { u with stack := y :: u.stack } o (y :: s) := by
  have g := (Vm.Step.refl (E := fun _ => False) f.sane f.closed).push hy
  exact ⟨f.sane0, g.sane, g.closed, ⟨f.pure.births, f.pure.cells, f.pure.gone, f.pure.kept⟩, by simp [f.stack],
    List.mem_cons_of_mem _ f.top, f.new, f.base, f.lo, f.hi, f.cell⟩

theorem Filling.pop (f : Filling W v0 B r u o (y :: s)) {s' : List Ref} (hs : u.stack = x :: s') (ht : r ∈ s) :
    Filling W v0 B r { u with stack := s' } o s := by
  have g := (Vm.Step.refl (E := fun _ => False) f.sane f.closed).pop hs
  have e := f.stack
  rw [hs] at e
  simp only [List.cons_append, List.cons.injEq] at e
  exact ⟨f.sane0, g.sane, g.closed, ⟨f.pure.births, f.pure.cells, f.pure.gone, f.pure.kept⟩, e.2,
    ht, f.new, f.base, f.lo, f.hi, f.cell⟩

theorem Filling.tick (f : Filling W v0 B r u o s) : Filling W v0 B r { u with ticks := u.ticks + 1 } o s := by
  have g := (Vm.Step.refl (E := fun _ => False) f.sane f.closed).tick
  exact ⟨f.sane0, g.sane, g.closed, ⟨f.pure.births, f.pure.cells, f.pure.gone, f.pure.kept⟩, f.stack,
    f.top, f.new, f.base, f.lo, f.hi, f.cell⟩

theorem same_cell {m : Mem} {c d : Cell} (h1 : m r = some c) (h2 : m r = some d) : c = d := by
  rw [h1] at h2; exact Option.some.inj h2

/-! ### rules -/

theorem wp_copyOf (C : Copies W h) (sv : v.Sane W) (cv : v.Closed W fun _ => False) (hx : v.Old W x)
    {Q : Ref → Vm → List Event → Prop} (hq : ∀ r w, CopyOk W v x r w → Q r w []) : Wp W n h (Prog.copyOf x) v Q := by
  unfold Prog.copyOf
  refine wp_bind (wp_call fun a w t e => ?_)
  obtain ⟨rfl, r, rfl, k⟩ := C x v a w t sv cv hx e
  exact wp_deref fun r' e => by cases e; exact hq _ _ k

theorem snoc_refill {o : Obj} {es es' : List Ref} (he : o.elems = some es) (y : Ref) :
    Prog.Obj.snoc y (o.refill es') = some (o.refill (es' ++ [y])) := by
  cases o <;> simp [Obj.elems] at he <;> rfl

theorem pub_refill {P : Ref → Prop} {o : Obj} {es es' : List Ref} (he : o.elems = some es) (h : ∀ x ∈ es', P x) :
    PubObj P (o.refill es') := by
  cases o <;> simp [Obj.elems] at he <;> exact h

/-- copying the elements of a sequence -/
theorem wp_copyElements (C : Copies W h) (c0 : v0.Closed W fun _ => False) {c : Cell} {es : List Ref} (hc : v0.mem x = some c)
    (he : c.obj.elems = some es) : ∀ (xs : List Ref) (ps : List (Ref × Ref)) (u : Vm), es = ps.map (·.1) ++ xs →
    Filling W v0 B r u (c.obj.refill (ps.map (·.2))) s → (∀ p ∈ ps, Part W v0 B u p.1 p.2) →
    Wp W n h (Prog.copyElements x r xs) u fun _ w t => t = [] ∧ ∃ ps : List (Ref × Ref), es = ps.map (·.1) ∧
      Filling W v0 B r w (c.obj.refill (ps.map (·.2))) s ∧ ∀ p ∈ ps, Part W v0 B w p.1 p.2 := by
  intro xs
  induction xs with
  | nil => intro ps u e f hp; exact wp_pure ⟨rfl, ps, by simpa using e, f, hp⟩
  | cons z xs ih =>
    intro ps u e f hp
    unfold Prog.copyElements
    refine wp_bind (wp_read fun d hd => ?_)
    have hz : v0.Old W z := (c0.cells x c hc).obj.children (by rw [elems_children he, e]; simp)
    refine wp_bind (wp_copyOf C f.sane f.closed (hz.mono f.pure.births) fun y w k => ?_)
    obtain ⟨f1, h1, h2⟩ := f.copy c0 hz k
    unfold Prog.addElement
    refine wp_bind (wp_bind (wp_read fun d' hd' => ?_))
    obtain ⟨c1, hc1, ho1⟩ := f1.cell
    obtain rfl := same_cell hc1 hd'
    rw [ho1, snoc_refill he]
    refine wp_setObj fun c2 hc2 => ?_
    obtain rfl := same_cell hc1 hc2
    have pub := f1.closed.cells r c1 hc1
    have old : ∀ b ∈ (ps.map (·.2)), w.Old W b := by
      intro b hb
      have := pub.obj
      rw [ho1] at this
      exact this.children (by rw [refill_children he]; exact hb)
    obtain ⟨f2, h3⟩ := f1.write c0 (d := { c1 with obj := c.obj.refill (ps.map (·.2) ++ [y]) }) hc1 rfl rfl
      ⟨pub_refill he (by
        intro b hb
        rcases List.mem_append.mp hb with hb | hb
        · exact old b hb
        · simp at hb; subst hb; exact k.old), pub.docstr, pub.docvec⟩
    refine Wp.mono (ih (ps ++ [(z, y)]) _ (by simp [e]) (by simpa using f2) ?_) fun a w' t ht => by simpa using ht
    intro p hp'
    rcases List.mem_append.mp hp' with hp' | hp'
    · exact h3 _ _ (h2 _ _ (.inl (by rw [refill_children he]; exact List.mem_map_of_mem hp')) (hp p hp'))
    · simp at hp'; subst hp'; exact h3 _ _ h1

/-- copying the entries of a hash map -/
theorem wp_copyPairs (C : Copies W h) (c0 : v0.Closed W fun _ => False) {c : Cell} {k : Nat} {es : List (Ref × Ref)}
    (hc : v0.mem x = some c) (he : c.obj = .hmap k es) :
    ∀ (xs : List (Ref × Ref)) (qs : List ((Ref × Ref) × (Ref × Ref))) (k' : Nat) (es' : List (Ref × Ref)) (u : Vm),
    es = qs.map (·.1) ++ xs → es'.Perm (qs.map (·.2)) → Filling W v0 B r u (.hmap k' es') s →
    (∀ q ∈ qs, Part W v0 B u q.1.1 q.2.1 ∧ Part W v0 B u q.1.2 q.2.2) →
    Wp W n h (Prog.copyPairs x r xs) u fun _ w t => t = [] ∧ ∃ (qs : List ((Ref × Ref) × (Ref × Ref))) (k' : Nat)
      (es' : List (Ref × Ref)), es = qs.map (·.1) ∧ es'.Perm (qs.map (·.2)) ∧ Filling W v0 B r w (.hmap k' es') s ∧
      ∀ q ∈ qs, Part W v0 B w q.1.1 q.2.1 ∧ Part W v0 B w q.1.2 q.2.2 := by
  intro xs
  induction xs with
  | nil => intro qs k' es' u e pm f hp; exact wp_pure ⟨rfl, qs, k', es', by simpa using e, pm, f, hp⟩
  | cons z xs ih =>
    obtain ⟨z1, z2⟩ := z
    intro qs k' es' u e pm f hp
    unfold Prog.copyPairs
    refine wp_bind (wp_read fun d hd => ?_)
    have hz : v0.Old W z1 ∧ v0.Old W z2 := by
      have := (c0.cells x c hc).obj
      rw [he] at this
      exact this (z1, z2) (by rw [e]; simp)
    refine wp_bind (wp_copyOf C f.sane f.closed (hz.1.mono f.pure.births) fun y1 w1 k1 => ?_)
    obtain ⟨f1, h1, h2⟩ := f.copy c0 hz.1 k1
    refine wp_bind (wp_push ?_)
    have f2 := f1.push k1.old
    refine wp_bind (wp_copyOf C f2.sane f2.closed (hz.2.mono f2.pure.births) fun y2 w2 k2 => ?_)
    obtain ⟨f3, h3, h4⟩ := f2.copy c0 hz.2 k2
    refine wp_bind (wp_push ?_)
    have f4 := f3.push k2.old
    have part1 : Part W v0 B w2 z1 y1 := h4 _ _ (.inr (by simp)) h1
    have parts : ∀ q ∈ qs, Part W v0 B w2 q.1.1 q.2.1 ∧ Part W v0 B w2 q.1.2 q.2.2 := by
      intro q hq
      have hm : q.2 ∈ es' := pm.mem_iff.mpr (List.mem_map_of_mem hq)
      have c1 : q.2.1 ∈ (Obj.hmap k' es').children := by simp only [Obj.children, List.mem_flatMap]; exact ⟨q.2, hm, by simp⟩
      have c2 : q.2.2 ∈ (Obj.hmap k' es').children := by simp only [Obj.children, List.mem_flatMap]; exact ⟨q.2, hm, by simp⟩
      exact ⟨h4 _ _ (.inl c1) (h2 _ _ (.inl c1) (hp q hq).1), h4 _ _ (.inl c2) (h2 _ _ (.inl c2) (hp q hq).2)⟩
    unfold Prog.addPair
    refine wp_bind (wp_bind (wp_read fun d' hd' => ?_))
    obtain ⟨c1, hc1, ho1⟩ := f4.cell
    obtain rfl := same_cell hc1 hd'
    rw [ho1]
    simp only
    refine wp_bind (wp_arrange fun a ha => ?_)
    obtain ⟨k'', es''⟩ := a
    simp only at ha ⊢
    refine wp_setObj fun c2 hc2 => ?_
    have f5 := f4.tick
    have hc2' : w2.mem r = some c2 := hc2
    have hc1' : w2.mem r = some c1 := hc1
    obtain rfl := same_cell hc1' hc2'
    have pub := f5.closed.cells r c1 hc1
    have old1 : w2.Old W y1 := (k1.old).mono k2.pure.births
    obtain ⟨f6, h5⟩ := f5.write c0 (d := { c1 with obj := .hmap k'' es'' }) hc1 rfl rfl
      ⟨by
        intro b hb
        have hb := ha.mem_iff.mp hb
        rcases List.mem_append.mp hb with hb | hb
        · have := pub.obj
          rw [ho1] at this
          exact this b hb
        · simp at hb; subst hb; exact ⟨old1, k2.old⟩, pub.docstr, pub.docvec⟩
    simp only [List.nil_append]
    refine wp_bind (wp_pop fun s1 hs1 => wp_bind (wp_pop fun s2 hs2 => ?_))
    have f7 := f6.pop hs1 (List.mem_cons_of_mem _ f.top)
    have f8 := f7.pop hs2 f.top
    refine Wp.mono (ih (qs ++ [((z1, z2), (y1, y2))]) k'' es'' _ (by simp [e]) ?_ f8 ?_) fun a w' t ht => by simpa using ht
    · refine ha.trans ?_
      rw [List.map_append]
      exact pm.append_right _
    · intro q hq
      rcases List.mem_append.mp hq with hq | hq
      · exact ⟨h5 _ _ (parts q hq).1, h5 _ _ (parts q hq).2⟩
      · simp at hq; subst hq; exact ⟨h5 _ _ part1, h5 _ _ h3⟩

/-- copying the documentation; `ps` are parts of the copy -/
theorem wp_copyDocs (C : Copies W h) (c0 : v0.Closed W fun _ => False) (hx : v0.Old W x) (f : Filling W v0 B r u o s) :
    Wp W n h (Prog.copyDocs x r) u fun _ w t => t = [] ∧ Filling W v0 B r w o s ∧
      ∀ a b, b ∈ o.children → Part W v0 B u a b → Part W v0 B w a b := by
  have back : ∀ {u' : Vm} {d : Cell}, Filling W v0 B r u' o s → u'.mem x = some d → v0.mem x = some d := by
    intro u' d f hd
    cases h0 : v0.mem x with
    | none => rw [f.pure.gone x hx h0] at hd; cases hd
    | some c =>
      rcases f.pure.cells x c h0 with e | e
      · rw [e] at hd; exact hd
      · rw [e] at hd; cases hd
  have second : ∀ u : Vm, Filling W v0 B r u o s → Wp W n h (do
      match (← Prog.read x).docvec with
      | some d => do
        let d' ← Prog.copyOf d
        let c ← Prog.read r
        Prog.setDoc r c.docstr (some d')
      | none => pure ()) u fun _ w t => t = [] ∧ Filling W v0 B r w o s ∧
      ∀ a b, b ∈ o.children → Part W v0 B u a b → Part W v0 B w a b := by
    intro u f
    refine wp_bind (wp_read fun d hd => ?_)
    split
    · rename_i ds hds
      have hds' := (c0.cells x d (back f hd)).docvec _ hds
      refine wp_bind (wp_copyOf C f.sane f.closed (hds'.mono f.pure.births) fun y w k => ?_)
      obtain ⟨f1, h1, h2⟩ := f.copy c0 hds' k
      refine wp_bind (wp_read fun d1 hd1 => wp_setDoc fun d2 hd2 => ?_)
      obtain rfl := same_cell hd1 hd2
      obtain ⟨c1, hc1, ho1⟩ := f1.cell
      obtain rfl := same_cell hc1 hd1
      subst ho1
      have pub := f1.closed.cells r c1 hc1
      obtain ⟨f2, h3⟩ := f1.write c0 (d := { c1 with docstr := c1.docstr, docvec := some y }) hc1 rfl rfl
        ⟨pub.obj, pub.docstr, Prog.pubOpt_some k.old⟩
      exact ⟨rfl, f2, fun a b hb hp => h3 _ _ (h2 _ _ (.inl hb) hp)⟩
    · exact wp_pure ⟨rfl, f, fun _ _ _ h => h⟩
  unfold Prog.copyDocs
  refine wp_bind (wp_read fun d hd => ?_)
  split
  · rename_i ds hds
    have hds' := (c0.cells x d (back f hd)).docstr _ hds
    refine wp_bind (wp_copyOf C f.sane f.closed (hds'.mono f.pure.births) fun y w k => ?_)
    obtain ⟨f1, h1, h2⟩ := f.copy c0 hds' k
    refine wp_bind (wp_read fun d1 hd1 => wp_bind (wp_setDoc fun d2 hd2 => ?_))
    obtain rfl := same_cell hd1 hd2
    obtain ⟨c1, hc1, ho1⟩ := f1.cell
    obtain rfl := same_cell hc1 hd1
    subst ho1
    have pub := f1.closed.cells r c1 hc1
    obtain ⟨f2, h3⟩ := f1.write c0 (d := { c1 with docstr := some y, docvec := c1.docvec }) hc1 rfl rfl
      ⟨pub.obj, Prog.pubOpt_some k.old, pub.docvec⟩
    refine Wp.mono (second _ f2) fun _ w t ⟨ht, f3, h4⟩ => ⟨by simp [ht], f3, fun a b hb hp => h4 _ _ hb (h3 _ _ (h2 _ _ (.inl hb) hp))⟩
  · refine Wp.mono (second _ f) fun _ w t ⟨ht, f3, h4⟩ => ⟨by simp [ht], f3, h4⟩

theorem pub_shell {P : Ref → Prop} {o : Obj} (h : PubObj P o) : PubObj P (Prog.shell o) := by
  cases o <;> first | exact h | simp [Prog.shell, PubObj]

/-- the invariant at the start -/
theorem Filling.start (sv : v.Sane W) (cv : v.Closed W fun _ => False) (ho : PubObj (v.Old W) o)
    (a : Allocated W v o r w) : Filling W v w r { w with stack := r :: w.stack } o [r] := by
  have g := ((Vm.Step.refl (E := fun _ => False) sv cv).alloc a (ho.mono fun x hx => ⟨hx, id⟩)).push a.old
  have hb : v.births ≤ w.births := by rw [a.births]; omega
  have ne : ∀ z, v.Old W z → z ≠ r := by rintro z hz rfl; exact a.fresh hz
  refine ⟨sv, g.sane, g.closed, ⟨hb, ?_, ?_, ?_⟩, by simp [a.stack], by simp, a.fresh, a.old, hb, Nat.le_refl _, _, a.cell, rfl⟩
  · intro y c hc
    rcases a.other y (ne y (sv.old y c hc)) with e | e
    · exact .inl (e.trans hc)
    · exact .inr e
  · intro y hy hn
    rcases a.other y (ne y hy) with e | e
    · exact e.trans hn
    · exact e
  · intro y hy
    exact a.kept y hy (ne y (kept_old cv hy))

theorem wp_copyValue (C : Copies W h) (sv : v.Sane W) (cv : v.Closed W fun _ => False) (hx : v.Old W x) :
    Wp W n h (Prog.copyValue x) v fun a w t => t = [] ∧ ∃ r, a = some r ∧ CopyOk W v x r w := by
  unfold Prog.copyValue
  refine wp_bind (wp_read fun c hc => ?_)
  refine wp_bind (wp_alloc sv fun r w a => ?_)
  refine wp_bind (wp_push ?_)
  have f := Filling.start sv cv (pub_shell (cv.cells x c hc).obj) a
  refine wp_bind (wp_read fun d hd => ?_)
  have hdc : d = c := by
    rcases f.pure.cells x c hc with e | e
    · exact (same_cell e hd).symm
    · rw [e] at hd; cases hd
  subst hdc
  simp only [List.nil_append]
  -- the end
  have fin : ∀ (u : Vm) (o : Obj), Filling W v w r u o [r] →
      (∀ u', Filling W v w r u' o [r] → (∀ a b, b ∈ o.children → Part W v w u a b → Part W v w u' a b) →
        Copied (fun z => ¬ v.Old W z) v.mem u'.mem x r) →
      Wp W n h (do
        Prog.copyDocs x r
        Prog.pop r
        pure (some r)) u fun a w t => t = [] ∧ ∃ r, a = some r ∧ CopyOk W v x r w := by
    intro u o f hk
    refine wp_bind (Wp.mono (wp_copyDocs C cv hx f) fun _ u1 t ⟨ht, f1, h1⟩ => ?_)
    refine wp_bind (wp_pop fun s hs => wp_pure ?_)
    refine ⟨by simp [ht], r, rfl, ?_⟩
    have g := (Vm.Step.refl (E := fun _ => False) f1.sane f1.closed).pop hs
    have e := f1.stack
    rw [hs] at e
    simp only [List.cons_append, List.nil_append, List.cons.injEq, true_and] at e
    exact ⟨g.sane, g.closed, e, ⟨f1.pure.births, f1.pure.cells, f1.pure.gone, f1.pure.kept⟩, f1.base.mono f1.hi, hk u1 f1 h1⟩
  have simp' : ∀ u (f : Filling W v w r u (Prog.shell d.obj) [r]), d.obj.simple = true →
      Wp W n h (do
        Prog.copyDocs x r
        Prog.pop r
        pure (some r)) u fun a w t => t = [] ∧ ∃ r, a = some r ∧ CopyOk W v x r w := by
    intro u f hs
    refine fin u _ f fun u' f' _ => ?_
    obtain ⟨c', hc', ho'⟩ := f'.cell
    refine .simple hc hc' f.new hs (ho'.trans ?_)
    cases hd' : d.obj <;> rw [hd'] at hs <;> first | rfl | cases hs
  have seq : ∀ u es (f : Filling W v w r u (Prog.shell d.obj) [r]), d.obj.elems = some es →
      Wp W n h (do
        Prog.copyElements x r es
        Prog.copyDocs x r
        Prog.pop r
        pure (some r)) u fun a w t => t = [] ∧ ∃ r, a = some r ∧ CopyOk W v x r w := by
    intro u es f he
    have he' : Prog.shell d.obj = d.obj.refill ([] : List (Ref × Ref)).unzip.2 := by
      cases hd' : d.obj <;> rw [hd'] at he <;> first | rfl | cases he
    rw [he'] at f
    refine wp_bind (Wp.mono (wp_copyElements C cv hc he es [] u (by simp) f (by simp)) fun _ u1 t ⟨ht, ps, hps, f1, h1⟩ => ?_)
    subst ht
    refine Wp.mono (fin u1 _ f1 fun u' f' up => ?_) fun a w t ht => by simpa using ht
    obtain ⟨c', hc', ho'⟩ := f'.cell
    refine .seq hc hc' f.new (he.trans (congrArg some hps)) ho' fun p hp => ?_
    exact (up _ _ (by rw [refill_children he]; exact List.mem_map_of_mem hp) (h1 p hp)).mono fun z hz ho => hz (ho.mono f.lo)
  split
  · rename_i es hd'
    exact seq _ es f (by rw [hd']; rfl)
  · rename_i m es hd'
    exact seq _ es f (by rw [hd']; rfl)
  · rename_i es hd'
    exact seq _ es f (by rw [hd']; rfl)
  · rename_i k es hd'
    rw [show Prog.shell d.obj = .hmap k [] by rw [hd']; rfl] at f
    refine wp_bind (Wp.mono (wp_copyPairs C cv hc hd' es [] k [] _ (by simp) (by simp) f (by simp))
      fun _ u1 t ⟨ht, qs, k', es', hq, pm, f1, h1⟩ => ?_)
    subst ht
    refine Wp.mono (fin u1 _ f1 fun u' f' up => ?_) fun a w t ht => by simpa using ht
    obtain ⟨c', hc', ho'⟩ := f'.cell
    have ch : ∀ q ∈ qs, q.2.1 ∈ (Obj.hmap k' es').children ∧ q.2.2 ∈ (Obj.hmap k' es').children := by
      intro q hq
      have hm : q.2 ∈ es' := pm.mem_iff.mpr (List.mem_map_of_mem hq)
      constructor <;> simp only [Obj.children, List.mem_flatMap] <;> exact ⟨q.2, hm, by simp⟩
    refine .hmap hc hc' f.new (hd'.trans (by rw [hq])) ho' pm (fun q hq => ?_) fun q hq => ?_
    · exact (up _ _ (ch q hq).1 (h1 q hq).1).mono fun z hz ho => hz (ho.mono f.lo)
    · exact (up _ _ (ch q hq).2 (h1 q hq).2).mono fun z hz ho => hz (ho.mono f.lo)
  · split
    · exact (wp_bind wp_fail)
    · exact wp_bind (wp_call fun _ _ _ _ => wp_bind wp_fail)
  · exact wp_bind (wp_call fun _ _ _ _ => wp_bind (wp_call fun _ _ _ _ => wp_bind (wp_call fun _ _ _ _ => wp_bind wp_fail)))
  · exact wp_bind (wp_call fun _ _ _ _ => wp_bind (wp_call fun _ _ _ _ => wp_bind (wp_call fun _ _ _ _ => wp_bind wp_fail)))
  · exact (wp_bind wp_fail)
  · exact (wp_bind wp_fail)
  · refine simp' _ f ?_
    cases hd' : d.obj <;> first | rfl | (exfalso; simp_all)

theorem handler_copies {L : Library} : ∀ n, Copies W (handler W (Prog.body L) n) := by
  intro n
  induction n with
  | zero => intro x v a w t sv cv hx h; cases h
  | succ n ih =>
    intro x v a w t sv cv hx h
    simp only [handler, Prog.body] at h
    have := wp_copyValue (n := n) ih sv cv hx
    cases hr : run W n (handler W (Prog.body L) n) (Prog.copyValue x) v with
    | error e' => rw [hr] at h; cases h
    | ok y =>
      obtain ⟨a', w', t'⟩ := y
      rw [hr] at h
      cases h
      exact this _ _ _ hr

end Dern
