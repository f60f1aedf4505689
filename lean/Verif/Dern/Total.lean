import Verif.Dern.Forms
/-
Programs that cannot fail, except where memory is managed.
-/
namespace Dern
variable {W : World} {n : Nat} {h : Handler} {α β : Type}

/-- The program ends with what `Q` says, unless a new value cannot be created (`alloc` collects garbage
first, and the unique ids may run out). -/
def Wt (W : World) (n : Nat) (h : Handler) (p : Prog α) (v : Vm) (Q : α → Vm → List Event → Prop) : Prop :=
  match run W n h p v with
  | .ok (a, w, t) => Q a w t
  | .error e => ∃ o u, Dern.alloc W.malloc o u = .error e

theorem run_perform {o : Op} {v : Vm} {x : Outcome o.Resp} (e : step W n h o v = x) : run W n h (Prog.perform o) v = x := by
  subst e
  simp only [Prog.perform, run]
  cases step W n h o v with
  | error e => rfl
  | ok x => simp

theorem wt_bind {p : Prog α} {f : α → Prog β} {v : Vm} {Q : β → Vm → List Event → Prop}
    (hp : Wt W n h p v fun a w t => Wt W n h (f a) w fun b w' t' => Q b w' (t ++ t')) : Wt W n h (p >>= f) v Q := by
  unfold Wt at *
  rw [run_bind]
  cases e : run W n h p v with
  | error x => rw [e] at hp; exact hp
  | ok x =>
    obtain ⟨a, w, t⟩ := x
    rw [e] at hp
    simp only at hp ⊢
    cases e2 : run W n h (f a) w with
    | error x => rw [e2] at hp; exact hp
    | ok x => rw [e2] at hp; exact hp

theorem wt_pure {a : α} {v : Vm} {Q : α → Vm → List Event → Prop} (hq : Q a v []) : Wt W n h (pure a) v Q := hq

theorem wt_read {r : Ref} {c : Cell} {v : Vm} {Q : Cell → Vm → List Event → Prop} (hc : v.mem r = some c) (hq : Q c v []) :
    Wt W n h (Prog.read r) v Q := by
  have e : run W n h (Prog.read r) v = .ok (c, v, []) :=
    run_perform (o := .read r) (by simp only [step, quiet, M.read, Mem.read, hc]; rfl)
  unfold Wt
  rw [e]
  exact hq

theorem wt_alloc {o : Obj} {v : Vm} (sv : v.Sane W) {Q : Ref → Vm → List Event → Prop}
    (hq : ∀ r w, Allocated W v o r w → Q r w []) : Wt W n h (Prog.alloc o) v Q := by
  cases e : Dern.alloc W.malloc o v with
  | error x =>
    have e' : run W n h (Prog.alloc o) v = .error x :=
      run_perform (o := .alloc o) (by simp only [step, quiet, e]; rfl)
    unfold Wt
    rw [e']
    exact ⟨o, v, e⟩
  | ok x =>
    have e' : run W n h (Prog.alloc o) v = .ok (x.1, x.2, []) :=
      run_perform (o := .alloc o) (by simp only [step, quiet, e]; rfl)
    unfold Wt
    rw [e']
    exact hq _ _ (alloc_spec sv e)

theorem wt_text {s : String} {v : Vm} {Q : Text → Vm → List Event → Prop} (hq : ∀ t, Q t { v with ticks := v.ticks + 1 } []) :
    Wt W n h (Prog.text s) v Q := hq _

theorem wt_real {v : Vm} {Q : Spec.Dbl → Vm → List Event → Prop} (hq : ∀ t, Q t { v with ticks := v.ticks + 1 } []) :
    Wt W n h Prog.real v Q := hq _

theorem wt_verifyVec {r : Ref} {es : List Ref} {v : Vm} {Q : List Ref → Vm → List Event → Prop} (hv : v.HasVec r es) (hq : Q es v []) :
    Wt W n h (Prog.verifyVec r) v Q := by
  obtain ⟨c, hc, ho⟩ := hv
  unfold Prog.verifyVec
  refine wt_bind (wt_read hc ?_)
  rw [ho]
  exact hq

theorem wt_verifyEnv {r : Ref} {bs : List Binding} {e : Option Ref} {v : Vm} {Q : Unit → Vm → List Event → Prop} (hv : v.HasObj r (.env bs e))
    (hq : Q () v []) : Wt W n h (Prog.verifyEnv r) v Q := by
  obtain ⟨c, hc, ho⟩ := hv
  unfold Prog.verifyEnv
  refine wt_bind (wt_read hc ?_)
  rw [ho]
  exact hq

theorem wt_error {s : String} {v : Vm} (sv : v.Sane W) {Q : Option Ref → Vm → List Event → Prop}
    (hq : ∀ r w t, Allocated W { v with ticks := v.ticks + 1 } (.err t 0) r w → Q (some r) w []) : Wt W n h (Prog.error s) v Q := by
  unfold Prog.error
  refine wt_bind (wt_text fun t => wt_bind (wt_alloc ?_ fun r w a => wt_pure (hq r w t a)))
  exact ⟨sv.nodup, sv.dom, sv.unmarked, sv.old, sv.uidLt, sv.uidInj⟩

theorem Wt.wp {p : Prog α} {v : Vm} {Q : α → Vm → List Event → Prop} (hp : Wt W n h p v Q) : Wp W n h p v Q := by
  intro a w t e
  unfold Wt at hp
  rw [e] at hp
  exact hp

end Dern
