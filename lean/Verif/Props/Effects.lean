import Verif.Props.C45
/-
How the results of builtin functions are described: a new vector of new values, or a value changed in place.
-/
namespace Dern.Props
open Dern
open Dern.Prog (Library)
variable {W : World} {L : Library}

/-- The result is a new vector of different new values `os`, and nothing else happens. -/
def GivesVec (W : World) (os : List Obj) (v : Vm) (r : Ref) (w : Vm) (tr : List Event) : Prop :=
  tr = [] ∧ Vm.Quiet W nobody v w ∧ ¬ v.Old W r ∧ ∃ es, w.HasVec r es ∧ (r :: es).Nodup ∧
    List.Forall₂ (fun x o => ¬ v.Old W x ∧ w.HasObj x o) es os

/-- The value `r` becomes `o` and is the result; every other value stays as it is and nothing else happens. -/
def Becomes (W : World) (o : Obj) (v : Vm) (r : Ref) (w : Vm) (tr : List Event) : Prop :=
  tr = [] ∧ Vm.Quiet W (fun z => z = r) v w ∧ w.HasObj r o ∧
    ∀ z o', z ≠ r → (∀ m l, o' ≠ .err m l) → v.HasObj z o' → w.HasObj z o'

/-- The result is a new copy of one of the constants nil, true and false (as long as nobody has changed the constant), and
nothing else happens. -/
def GivesConst (W : World) (which : Root) (o : Obj) (v : Vm) (r : Ref) (w : Vm) (tr : List Event) : Prop :=
  tr = [] ∧ Vm.Quiet W nobody v w ∧ ¬ v.Old W r ∧ (v.HasObj (v.root which) o → w.HasObj r o)

/-- The result is the value `x` itself, and nothing happens. -/
def Returns (W : World) (x : Ref) (v : Vm) (r : Ref) (w : Vm) (tr : List Event) : Prop :=
  tr = [] ∧ r = x ∧ Vm.Quiet W nobody v w

/-! ### a vector being filled -/

/-- `r` is a new vector on the stack, filled with the new values `os` so far -/
structure Building (W : World) (X : Ref → Prop) (v : Vm) (r : Ref) (os : List Obj) (u : Vm) : Prop where
  step : Vm.Step W X nobody v u
  top : r ∈ u.stack
  fresh : ¬ v.Old W r
  known : ¬ X r
  elems : ∃ es, u.HasVec r es ∧ (r :: es).Nodup ∧ List.Forall₂ (fun x o => ¬ v.Old W x ∧ u.HasObj x o) es os

theorem Building.start {X : Ref → Prop} {v u w : Vm} {r : Ref} (g : Vm.Step W X nobody v u) (a : Allocated W u (.vec []) r w) :
    Building W X v r [] { w with stack := r :: w.stack } where
  step := (g.alloc a (by simp [PubObj])).push a.old
  top := by simp
  fresh := fun h => a.fresh (h.mono g.quiet.births)
  known := fun h => a.fresh (g.closed.known r h)
  elems := ⟨[], ⟨_, a.cell, rfl⟩, by simp, .nil⟩

theorem forall₂_snoc {α β : Type} {R : α → β → Prop} {as : List α} {bs : List β} {a : α} {b : β} (h : List.Forall₂ R as bs) (hl : R a b) :
    List.Forall₂ R (as ++ [a]) (bs ++ [b]) := by
  induction h with
  | nil => exact .cons hl .nil
  | cons h1 _ ih => exact .cons h1 ih

theorem forall₂_imp {α β : Type} {R S : α → β → Prop} {as : List α} {bs : List β} (h : List.Forall₂ R as bs)
    (hi : ∀ a b, a ∈ as → R a b → S a b) : List.Forall₂ S as bs := by
  induction h with
  | nil => exact .nil
  | cons h1 _ ih => exact .cons (hi _ _ (by simp) h1) (ih fun a b hb => hi a b (by simp [hb]))

/-- one more new value; what is in use stays as it is -/
theorem Building.putKept {n : Nat} {h : Handler} {X : Ref → Prop} {v u : Vm} {r : Ref} {os : List Obj} {o : Obj} {α : Type} {p : Prog α}
    {Q : α → Vm → List Event → Prop} (b : Building W X v r os u) (ho : ∀ P, PubObj P o)
    (hp : ∀ w, Building W X v r (os ++ [o]) w → w.stack = u.stack → (∀ z, v.Old W z → u.Kept z → w.mem z = u.mem z) → Wp W n h p w Q) :
    Wp W n h (do let i ← Prog.alloc o; Prog.append r i; p) u Q := by
  refine wp_bind (wp_alloc b.step.sane fun x w a => wp_bind (wp_append fun c es hc ho' => ?_))
  obtain ⟨es', ⟨c', hc', ho''⟩, nd, hes⟩ := b.elems
  have hne : r ≠ x := by rintro rfl; exact a.fresh (b.step.sane.old _ _ hc')
  have kr : u.Kept r := .root b.top
  obtain rfl : c' = c := same_cell hc' (by rw [← a.kept r kr hne]; exact hc)
  rw [ho''] at ho'; cases ho'
  have ke : ∀ z ∈ es, u.Kept z := fun z hz => .step kr ⟨c', hc', by simpa [Cell.edges, ho'', Obj.children] using .inr hz⟩
  have gw := b.step.alloc a (ho _)
  have hfx : ¬ v.Old W x := fun h => a.fresh (h.mono b.step.quiet.births)
  have pub := gw.closed.pub r c' hc b.known
  have old : ∀ z ∈ es, u.Old W z := fun z hz => by
    have := (b.step.closed.pub r c' hc' b.known).obj
    rw [ho''] at this
    exact (this z hz).1
  have hxe : x ∉ es := fun h => a.fresh (old x h)
  have hp' : PubCell (w.Pub W X) { c' with obj := .vec (es ++ [x]) } := by
    refine ⟨?_, pub.docstr, pub.docvec⟩
    intro z hz
    rcases List.mem_append.mp hz with hz | hz
    · have := pub.obj
      rw [ho''] at this
      exact this z hz
    · simp at hz; subst hz; exact a.pub b.step.closed
  refine Wp.mono (hp _ ⟨gw.modify (.inr b.fresh) hc rfl rfl hp', ?_, b.fresh, b.known, es ++ [x], ⟨_, Mem.set_self .., rfl⟩, ?_, ?_⟩ a.stack ?_)
    fun _ _ _ h => by simpa using h
  · show r ∈ w.stack
    rw [a.stack]; exact b.top
  · have : r :: (es ++ [x]) = (r :: es) ++ [x] := rfl
    rw [this, List.nodup_append]
    refine ⟨nd, by simp, ?_⟩
    intro y hy z hz
    simp at hz; subst hz
    rcases List.mem_cons.mp hy with rfl | hy
    · exact hne
    · rintro rfl; exact hxe hy
  · refine forall₂_snoc (forall₂_imp hes ?_) ⟨hfx, { obj := o, uid := u.nextUid }, ?_, rfl⟩
    · rintro z o' hz ⟨h1, d, hd, hdo⟩
      have hzr : z ≠ r := fun e => (List.nodup_cons.mp nd).1 (e ▸ hz)
      have hzx : z ≠ x := fun e => hxe (e ▸ hz)
      exact ⟨h1, d, by rw [← hd, ← a.kept z (ke z hz) hzx]; exact Mem.set_other _ _ hzr, hdo⟩
    · rw [← a.cell]; exact Mem.set_other _ _ (Ne.symm hne)
  · intro z hz hk
    rw [← a.kept z hk fun e => hfx (e ▸ hz)]
    exact Mem.set_other _ _ fun e => b.fresh (e ▸ hz)

/-- one more new value -/
theorem Building.put {n : Nat} {h : Handler} {X : Ref → Prop} {v u : Vm} {r : Ref} {os : List Obj} {o : Obj} {α : Type} {p : Prog α}
    {Q : α → Vm → List Event → Prop} (b : Building W X v r os u) (ho : ∀ P, PubObj P o)
    (hp : ∀ w, Building W X v r (os ++ [o]) w → w.stack = u.stack → Wp W n h p w Q) :
    Wp W n h (do let i ← Prog.alloc o; Prog.append r i; p) u Q :=
  b.putKept ho fun w bw hs _ => hp w bw hs

/-- the end of the filling -/
theorem Building.finish {X : Ref → Prop} {v u w : Vm} {r : Ref} {os : List Obj} (b : Building W X v r os u)
    (ho : ∀ o ∈ os, ∀ m l, o ≠ .err m l) (e : Ends u w) : GivesVec W os v r w [] := by
  obtain ⟨es, h1, h2, h3⟩ := b.elems
  refine ⟨rfl, b.step.quiet.trans b.step.sane0 e.quiet, b.fresh, es, e.hasObj h1 (by simp), h2, ?_⟩
  have : List.Forall₂ (fun x o => (¬ v.Old W x ∧ u.HasObj x o) ∧ o ∈ os) es os := by
    clear h1 h2 b ho
    induction h3 with
    | nil => exact .nil
    | cons h1 _ ih => exact .cons ⟨h1, by simp⟩ (forall₂_imp ih fun _ _ _ h => ⟨h.1, by simp [h.2]⟩)
  exact forall₂_imp this fun x o _ h => ⟨h.1.1, e.hasObj h.1.2 (ho o h.2)⟩

/-- a new error -/
theorem wps_errorStack {n : Nat} {h : Handler} {X E : Ref → Prop} {v0 v : Vm} (g : Vm.Step W X E v0 v) {s : String} {Q : Option Ref → Vm → List Event → Prop}
    (hq : ∀ r w, Vm.Step W X E v0 w → w.stack = v.stack → w.IsErr r → ¬ v0.Old W r → Q (some r) w []) :
    Wp W n h (Prog.error s) v Q := by
  unfold Prog.error
  refine wp_bind (wp_text fun t => wp_bind (wp_alloc g.tick.sane fun r w a => wp_pure ?_))
  exact hq r w (g.tick.alloc a trivial) a.stack ⟨_, _, _, a.cell, rfl⟩ fun h => a.fresh (h.mono g.quiet.births)

theorem keeps_mem {v w u : Vm} (q : Vm.Quiet W nobody v w) (hm : u.mem = w.mem) : KeepsBuiltins v u := by
  intro op b b' h1 h2
  obtain ⟨c, hc, ho⟩ := h2
  exact keeps_of_quiet q op b b' h1 ⟨c, by rw [← hm]; exact hc, ho⟩

/-! ### constants -/

theorem giveConst_aux {n : Nat} {h : Handler} {args env : Ref} {ts : List Ref} {v : Vm} (F : Fine W h) (C : Copies W h) (k : Held W args ts env v)
    {which : Root} {o : Obj} (hs : o.simple = true) (hne : ∀ m l, o ≠ .err m l) :
    Wp W n h (do let r ← Prog.getRoot which; pure (some r)) v fun a u t => KeepsBuiltins v u ∧ ∀ r w, a = some r → Ends u w → GivesConst W which o v r w t := by
  unfold Prog.getRoot Prog.copyOf
  refine wp_bind (wp_bind (wp_root (wp_bind (wp_call fun a w t e => wp_deref fun r hr => wp_pure ?_))))
  subst hr
  obtain ⟨sw, rfl, q, fresh⟩ := F.copy _ _ _ _ _ k.sane e
  obtain ⟨_, r', hr', ok⟩ := C _ _ _ _ _ k.sane k.closed.open' (k.closed.roots which).1 e
  cases hr'
  refine ⟨keeps_of_quiet q, ?_⟩
  rintro _ w' ⟨⟩ en
  refine ⟨rfl, q.trans k.sane en.quiet, fresh r rfl, ?_⟩
  rintro ⟨c, hc, rfl⟩
  refine en.hasObj ?_ hne
  cases ok.copied with
  | simple h1 h2 _ _ h5 => cases same_cell hc h1; exact ⟨_, h2, h5⟩
  | seq h1 _ _ h4 => cases same_cell hc h1; revert hs h4; generalize c.obj = o; cases o <;> simp [Obj.simple, Obj.elems]
  | hmap h1 _ _ h4 => cases same_cell hc h1; rw [h4] at hs; cases hs

/-- a builtin function that ends with one of the values -/
theorem giveSelf_aux {n : Nat} {h : Handler} {v : Vm} {x : Ref} (sv : v.Sane W) :
    Wp W n h (pure (some x)) v fun a u t => KeepsBuiltins v u ∧ ∀ r w, a = some r → Ends u w → Returns W x v r w t := by
  refine wp_pure ⟨keeps_of_quiet (W := W) (.refl _), ?_⟩
  rintro _ w ⟨⟩ e
  exact ⟨rfl, rfl, e.quiet⟩

end Dern.Props
