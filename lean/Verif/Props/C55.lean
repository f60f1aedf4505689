import Verif.Props.Secret
import Verif.Props.BuiltinCalling
/-
C55: what is on the protection stack survives.

A value that the embedding program, or the evaluator on behalf of a program, has pushed onto the stack of the machine
(octaspire_dern_vm_push_value) is not released as long as it is there, whatever is evaluated meanwhile and whenever garbage is
collected.  The same holds for what such a value refers to, as far as only the embedding program knows it: no evaluation changes
or releases it.
-/
namespace Dern.Props
open Dern
open Dern.Spec (Reach)
open Dern.Prog (Library)
variable {W : World} {L : Library} {v w : Vm}

/-- the value exists: it has been created and not been released -/
def Live (v : Vm) (x : Ref) : Prop := ∃ c, v.mem x = some c

/-- The values in `X` are known to the embedding program only: no other value refers to them, they are no roots of the machine and no pending
return value. -/
structure OnlyHost (W : World) (v : Vm) (X : Ref → Prop) : Prop where
  made : ∀ x, X x → v.Old W x
  refs : ∀ r c, v.mem r = some c → ¬ X r → ∀ y, y ∈ c.edges ∨ c.docvec = some y → ¬ X y
  ret : ∀ x, v.functionReturn = some x → ¬ X x
  roots : ∀ which, ¬ X (v.root which)

/-- protected by the stack `t`: on it, or referred to by a protected value that only the embedding program knows -/
inductive Protected (X : Ref → Prop) (v : Vm) (t : List Ref) : Ref → Prop
  | pushed {x} : x ∈ t → Protected X v t x
  | within {x y c} : Protected X v t y → X y → v.mem y = some c → x ∈ c.edges → Protected X v t x

theorem c55_guarded_aux {X : Ref → Prop} {t : List Ref} {x : Ref} (h : Protected X v t x) : Guarded X v.mem t x := by
  induction h with
  | pushed h => exact .root h
  | within _ hX hc hx ih => exact .step ih ⟨hX, _, hc, hx⟩

theorem c55_live_aux {x : Ref} : Live v x ↔ (v.mem x).isSome := by
  unfold Live
  cases v.mem x <;> simp

theorem c55_object_aux {P Q : Ref → Prop} {o : Obj} (h : PubObj P o) (hq : ∀ y ∈ o.children, Q y) : PubObj (fun x => P x ∧ Q x) o := by
  cases o <;> simp only [PubObj, Obj.children] at h hq ⊢
  case vec es => exact fun x hx => ⟨h x hx, hq x hx⟩
  case queue m es => exact fun x hx => ⟨h x hx, hq x hx⟩
  case list es => exact fun x hx => ⟨h x hx, hq x hx⟩
  case hmap n es =>
    intro e he
    have hk : ∀ y, y = e.1 ∨ y = e.2 → Q y := fun y hy => hq y (List.mem_flatMap.mpr ⟨e, he, by simpa using hy⟩)
    exact ⟨⟨(h e he).1, hk _ (.inl rfl)⟩, (h e he).2, hk _ (.inr rfl)⟩
  case env bs e =>
    refine ⟨fun b hb => ?_, fun x hx => ⟨h.2 x hx, hq x (List.mem_append_right _ (by simp [hx]))⟩⟩
    have hk : ∀ y, y = b.key ∨ y = b.val → Q y :=
      fun y hy => hq y (List.mem_append_left _ (List.mem_flatMap.mpr ⟨b, hb, by simpa using hy⟩))
    exact ⟨⟨(h.1 b hb).1, hk _ (.inl rfl)⟩, (h.1 b hb).2, hk _ (.inr rfl)⟩
  case fn f => exact ⟨⟨h.1, hq _ (by simp)⟩, ⟨h.2.1, hq _ (by simp)⟩, h.2.2, hq _ (by simp)⟩
  case mac f => exact ⟨⟨h.1, hq _ (by simp)⟩, ⟨h.2.1, hq _ (by simp)⟩, h.2.2, hq _ (by simp)⟩

theorem c55_closed_aux {X : Ref → Prop} (c : v.Closed W fun _ => False) (o : OnlyHost W v X) : v.Closed W X where
  cells := c.cells
  pub := fun r d hd hX => by
    have h := c.cells r d hd
    have hr := o.refs r d hd hX
    refine ⟨c55_object_aux h.obj fun y hy => hr y (.inl (List.mem_append_right _ hy)), fun y e => ⟨h.docstr y e, hr y (.inl ?_)⟩,
      fun y e => ⟨h.docvec y e, hr y (.inr e)⟩⟩
    exact List.mem_append_left _ (by simp [e])
  stack := c.stack
  ret := fun x e => ⟨(c.ret x e).1, o.ret x e⟩
  roots := fun which => ⟨(c.roots which).1, o.roots which⟩
  known := o.made

/-- Evaluating any form: what is protected survives, and what only the embedding program knows is not changed. -/
theorem c55_evaluation (hL : L.Safe) (rv : v.Reached W L) {X : Ref → Prop} (o : OnlyHost W v X) {form env : Ref} (of : v.Old W form)
    (oe : v.Old W env) (hf : ¬ X form) (he : ¬ X env) {r : Option Ref} {tr : List Event} (ev : Evaluates W L v form env r w tr) {x : Ref}
    (hp : Protected X v v.stack x) (hx : Live v x) : Live w x ∧ (X x → w.mem x = v.mem x) ∧ Protected X w w.stack x := by
  obtain ⟨n, e⟩ := ev
  obtain ⟨s, c⟩ := rv.good hL
  have cX := c55_closed_aux c o
  have e' : handler W (Prog.body L) (n + 1) (.eval form env) v = .ok (r, w, [⟨form, env, v, r, w⟩]) := by
    simp only [handler, e]
  have hr : ∀ y ∈ (Call.eval form env).refs, v.Pub W X y := by
    simp [Call.refs, Vm.Pub, of, oe, hf, he]
  have k := handler_keeps (W := W) hL (n + 1) X (.eval form env) v v.stack _ _ _ s cX hr rfl e'
  have g := handler_sound (W := W) hL (n + 1) X (.eval form env) v v.stack s cX hr rfl
  rw [e'] at g
  obtain ⟨g, hst, _⟩ := g
  have live : ∀ y, Protected X v v.stack y → Live v y → Live w y := fun y hy hl => c55_live_aux.mpr (k y (c55_guarded_aux hy) (c55_live_aux.mp hl))
  have same : ∀ y, Protected X v v.stack y → Live v y → X y → w.mem y = v.mem y := by
    intro y hy hl hX
    obtain ⟨d, hd⟩ := live y hy hl
    rcases g.later.priv y hX (o.made y hX) with e | e
    · exact e
    · rw [hd] at e; cases e
  refine ⟨live x hp hx, same x hp hx, ?_⟩
  clear hx
  rw [hst]
  induction hp with
  | pushed h => exact .pushed h
  | within hy hX hc hx ih => exact .within ih hX (by rw [same _ hy ⟨_, hc⟩ hX]; exact hc) hx

/-- Evaluating any form: what is on the stack survives. -/
theorem c55_pushed (hL : L.Safe) (rv : v.Reached W L) {form env : Ref} (of : v.Old W form) (oe : v.Old W env) {r : Option Ref} {tr : List Event}
    (ev : Evaluates W L v form env r w tr) {x : Ref} (hp : x ∈ v.stack) (hx : Live v x) : Live w x := by
  have o : OnlyHost W v (fun _ => False) := ⟨fun _ h => h.elim, fun _ _ _ _ _ _ h => h, fun _ _ h => h, fun _ h => h⟩
  exact (c55_evaluation hL rv o of oe id id ev (.pushed hp) hx).1

/-- Any sequence of operations of the embedding program (evaluations, creating and changing values, pushing and popping …), which leaves the part
`t` of the stack alone: what is on this part survives. -/
theorem c55_host (hL : L.Safe) (rv : v.Reached W L) {α : Type} {p : Prog α} {s t : List Ref} (hs : v.stack = s ++ t)
    (ok : ∀ P : Ref → Prop, (∀ x, v.Old W x → P x) → Prog.Ok P p s fun _ _ => True) {n : Nat} {a : α} {tr : List Event}
    (e : run W n (handler W (Prog.body L) n) p v = .ok (a, w, tr)) {x : Ref} (hp : x ∈ t) (hx : Live v x) : Live w x := by
  obtain ⟨sv, c⟩ := rv.good hL
  have := run_keeps (X := fun _ => False) (handler_sound (W := W) hL n) (handler_keeps hL n) p v s t (fun _ _ _ => True) sv c hs
    (fun P hP => ok P fun x hx => hP x ⟨hx, id⟩) e
  exact c55_live_aux.mpr (this x (.root hp) (c55_live_aux.mp hx))

/-! ### Example -/

/-- a host that pushes a form and a new vector `[7]`, and creates another value, which it does not push -/
def exHost : Prog (Ref × Ref × Ref × Ref) := do
  let f ← setup kit2 [] (.vec [.vec [.sym "fn", .vec [.sym "x", .sym "y"], .vec [.sym "+", .sym "x", .sym "y"]], .vec [.sym "+", .int 1, .int 2], .int 4])
  Prog.push f
  let x ← Prog.alloc (.int 7)
  let y ← Prog.alloc (.vec [x])
  Prog.push y
  let z ← Prog.alloc (.int 8)
  pure (f, x, y, z)

/-- everything that has to be checked: in the end the vector and its element are there, the other value has been released -/
def exCheck (p : Prog (Ref × Ref × Ref × Ref)) (fuel : Nat) : Bool :=
  match run world fuel (handler world (Prog.body library) fuel) p (Vm.base world.malloc) with
  | .error _ => false
  | .ok ((f, x, y, z), v, _) =>
    match run world fuel (handler world (Prog.body library) fuel) (Prog.body library (.eval f v.globalEnv)) { v with gcLimit := 0, preventGc := false } with
    | .error _ => false
    | .ok (_, w, _) => (v.all.all fun r => match v.mem r with
        | some c => r == y || (c.edges.all (· ≠ y) && decide (c.docvec ≠ some y))
        | none => true) && decide (v.functionReturn = none ∧ v.globalEnv ≠ y ∧ v.valueNil ≠ y ∧ v.valueTrue ≠ y ∧ v.valueFalse ≠ y ∧ f ≠ y ∧
          y ∈ v.stack ∧ x ∉ v.stack ∧ (v.mem y).map (fun c => c.obj) = some (.vec [x]) ∧ (v.mem x).isSome ∧ (v.mem z).isSome ∧ (w.mem x).isSome ∧ w.mem z = none)

theorem c55_exHost_aux (P : Ref → Prop) (s : List Ref) (Q : (Ref × Ref × Ref × Ref) → List Ref → Prop)
    (h : ∀ f x y z s, P f → P x → P y → P z → Q (f, x, y, z) s) : Prog.Ok P exHost s Q := by
  unfold exHost
  refine Prog.ok_bind (Machine.ok_setup _ _ _ kit2_plain fun f hf => Prog.ok_bind (Prog.ok_push hf (Prog.ok_bind (Prog.ok_alloc trivial fun x hx =>
    Prog.ok_bind (Prog.ok_alloc ?_ fun y hy => Prog.ok_bind (Prog.ok_push hy (Prog.ok_bind (Prog.ok_alloc trivial fun z hz => Prog.ok_pure ?_))))))))
  · intro a ha; rw [List.mem_singleton.mp ha]; exact hx
  · exact h _ _ _ _ _ hf hx hy hz

theorem c55_example_aux {p : Prog (Ref × Ref × Ref × Ref)} {fuel : Nat}
    (ok : ∀ (P : Ref → Prop) (s : List Ref) (Q : (Ref × Ref × Ref × Ref) → List Ref → Prop), (∀ f x y z s, P f → P x → P y → P z → Q (f, x, y, z) s) → Prog.Ok P p s Q)
    (h : exCheck p fuel = true) : ∃ (v w : Vm) (form x y z : Ref) (r : Option Ref) (tr : List Event), v.Reached world library ∧ v.Old world form ∧
    OnlyHost world v (fun a => a = y) ∧ form ≠ y ∧ v.globalEnv ≠ y ∧ Evaluates world library v form v.globalEnv r w tr ∧
    Protected (fun a => a = y) v v.stack x ∧ x ∉ v.stack ∧ Live v x ∧ Live v z ∧ ¬ Live w z := by
  unfold exCheck at h
  split at h
  · cases h
  · rename_i f x y z v t e
    split at h
    · cases h
    · rename_i r w tr e'
      simp only [Bool.and_eq_true, decide_eq_true_eq, List.all_eq_true] at h
      obtain ⟨hall, hret, h1, h2, h3, h4, hfy, hy, hxs, hyv, hx, hz, hxw, hzw⟩ := h
      have := run_sound (X := fun _ => False) (n := fuel) (handler_sound library_safe fuel) p _
        (Vm.base world.malloc).stack [] (fun P a _ => P a.1 ∧ P a.2.2.1) (base_sane world) (base_closed world) (by simp)
        (fun P _ => ok P _ _ fun f x y z s hf hx hy hz => ⟨hf, hy⟩)
      rw [e] at this
      obtain ⟨g, _, _, hf, hyo⟩ := this
      have rv : v.Reached world library := .host .refl (fun P _ => ok P _ _ fun _ _ _ _ _ _ _ _ _ => trivial) e
      have rv : Vm.Reached world library { v with gcLimit := 0, preventGc := false } := .tune 0 false rv
      obtain ⟨c, hc, ho⟩ := Option.map_eq_some_iff.mp hyv
      refine ⟨_, w, f, x, y, z, r, tr, rv, hf.1, ⟨?_, ?_, ?_, ?_⟩, hfy, h1, ⟨fuel, e'⟩, ?_, ?_, c55_live_aux.mpr hx, c55_live_aux.mpr hz, ?_⟩
      · rintro a rfl; exact hyo.1
      · intro a d hd hne b hb hby
        have := hall a ((g.sane.dom a).mpr (by rw [show v.mem a = some d from hd]; rfl))
        rw [show v.mem a = some d from hd] at this
        simp only [Bool.or_eq_true, beq_iff_eq, Bool.and_eq_true, List.all_eq_true, decide_eq_true_eq] at this
        rcases this with e | ⟨h5, h6⟩
        · exact hne e
        · rcases hb with hb | hb
          · exact h5 b hb hby
          · exact h6 (hby ▸ hb)
      · intro a e; rw [show v.functionReturn = some a from e] at hret; cases hret
      · intro which; cases which <;> assumption
      · exact .within (.pushed hy) rfl hc (by simp [Cell.edges, ho, Obj.children])
      · exact hxs
      · rintro ⟨d, hd⟩; rw [hd] at hzw; cases hzw

/-- `((fn (x y) (+ x y)) (+ 1 2) 4)` with a collection whenever a value is created, while a vector that only the host knows is on the stack:
the hypotheses hold, and another value is released meanwhile -/
example : ∃ (v w : Vm) (form x y z : Ref) (r : Option Ref) (tr : List Event), v.Reached world library ∧ v.Old world form ∧
    OnlyHost world v (fun a => a = y) ∧ form ≠ y ∧ v.globalEnv ≠ y ∧ Evaluates world library v form v.globalEnv r w tr ∧
    Protected (fun a => a = y) v v.stack x ∧ x ∉ v.stack ∧ Live v x ∧ Live v z ∧ ¬ Live w z :=
  c55_example_aux (fuel := 60) c55_exHost_aux (by decide +kernel)

end Dern.Props
