import Verif.Props.Secret
import Verif.Props.Effects
/-
Values on the stack that nobody knows, while programs are evaluated: nobody changes or releases them.
-/
namespace Dern.Props
open Dern
open Dern.Spec (Reach)
open Dern.Prog (Library)
variable {W : World} {n : Nat} {h : Handler} {env : Ref} {os : List (Ref × Cell)} {v w u : Vm}

/-- the values that nobody knows -/
def stash (os : List (Ref × Cell)) (x : Ref) : Prop := ∃ o ∈ os, o.1 = x

/-- nobody knows the values `os`, which are on the stack -/
structure Stashed (W : World) (env : Ref) (os : List (Ref × Cell)) (v : Vm) : Prop where
  sane : v.Sane W
  closed : v.Closed W (stash os)
  env : v.Pub W (stash os) env
  made : ∀ o ∈ os, v.mem o.1 = some o.2
  base : ∀ o ∈ os, o.1 ∈ v.stack

theorem Stashed.here {E : Ref → Prop} (k : Stashed W env os v) : Vm.Step W (stash os) E v v := .refl k.sane k.closed

theorem Stashed.old (k : Stashed W env os v) {o : Ref × Cell} (ho : o ∈ os) : v.Old W o.1 := k.closed.known _ ⟨o, ho, rfl⟩

theorem Stashed.good (k : Stashed W env os v) (g : Vm.Good W (stash os) v w) (kp : Vm.Keeps (stash os) v.stack v w)
    (hst : w.stack = v.stack) : Stashed W env os w where
  sane := g.sane
  closed := g.closed
  env := k.env.mono g.later.births
  made := fun o ho => by
    have hs := kp o.1 (.root (k.base o ho)) (by rw [k.made o ho]; rfl)
    rcases g.later.priv o.1 ⟨o, ho, rfl⟩ (k.old ho) with e | e
    · rw [e, k.made o ho]
    · rw [e] at hs; cases hs
  base := by rw [hst]; exact k.base

theorem alloc_kept {o : Obj} {r x : Ref} {c : Cell} (sv : v.Sane W) (a : Allocated W v o r w) (hx : x ∈ v.stack) (hc : v.mem x = some c) :
    w.mem x = some c := by
  rw [a.kept x (.root hx) (by rintro rfl; exact a.fresh (sv.old _ _ hc)), hc]

theorem Stashed.alloc (k : Stashed W env os v) {o : Obj} {r : Ref} (a : Allocated W v o r w) (ho : PubObj (v.Pub W (stash os)) o) :
    Stashed W env os w where
  sane := a.sane k.sane
  closed := a.closed k.closed ho
  env := k.env.mono (by rw [a.births]; omega)
  made := fun o ho => alloc_kept k.sane a (k.base o ho) (k.made o ho)
  base := by rw [a.stack]; exact k.base

/-- other changes than to these values -/
theorem Stashed.aside (k : Stashed W env os v) {E : Ref → Prop} {v0 : Vm} (g : Vm.Step W (stash os) E v0 w) (hb : v.births ≤ w.births)
    (hm : ∀ o ∈ os, w.mem o.1 = v.mem o.1) (hs : ∀ o ∈ os, o.1 ∈ w.stack) : Stashed W env os w where
  sane := g.sane
  closed := g.closed
  env := k.env.mono hb
  made := fun o ho => by rw [hm o ho, k.made o ho]
  base := hs

theorem Stashed.push (k : Stashed W env os v) {r : Ref} (hr : v.Old W r) : Stashed W env os { v with stack := r :: v.stack } :=
  k.aside (E := nobody) (k.here.push hr) (Nat.le_refl _) (fun _ _ => rfl) fun o ho => .tail _ (k.base o ho)

theorem Stashed.pop (k : Stashed W env os v) {r : Ref} {s : List Ref} (hs : v.stack = r :: s) (hb : ∀ o ∈ os, o.1 ∈ s) :
    Stashed W env os { v with stack := s } :=
  k.aside (E := nobody) (k.here.pop hs) (Nat.le_refl _) (fun _ _ => rfl) hb

theorem Stashed.tick (k : Stashed W env os v) : Stashed W env os { v with ticks := v.ticks + 1 } :=
  k.aside (E := nobody) k.here.tick (Nat.le_refl _) (fun _ _ => rfl) k.base

theorem stash_cons (r : Ref) (c : Cell) (x : Ref) : stash ((r, c) :: os) x ↔ x = r ∨ stash os x := by
  simp only [stash, List.mem_cons, exists_eq_or_imp, eq_comm]

theorem Stashed.congr {os' : List (Ref × Cell)} (k : Stashed W env os v) (e : ∀ o, o ∈ os' ↔ o ∈ os) : Stashed W env os' v := by
  have : stash os' = stash os := funext fun x => propext (by simp only [stash, e])
  exact ⟨k.sane, this ▸ k.closed, this ▸ k.env, fun o ho => k.made o ((e o).mp ho), fun o ho => k.base o ((e o).mp ho)⟩

/-- a new value that is put onto the stack and that nobody knows -/
theorem Stashed.hide (k : Stashed W env os v) {o : Obj} {r : Ref} (a : Allocated W v o r w) (ho : PubObj (v.Pub W (stash os)) o) :
    Stashed W env ((r, { obj := o, uid := v.nextUid }) :: os) { w with stack := r :: w.stack } := by
  have kw := k.alloc a ho
  have g := (hide_more (E := nobody) k.here a ho).push (r := r) a.old
  have e : (fun x => x = r ∨ stash os x) = stash ((r, { obj := o, uid := v.nextUid }) :: os) := funext fun x => propext (stash_cons r _ x).symm
  rw [e] at g
  refine ⟨g.sane, g.closed, ⟨k.env.1.mono g.quiet.births, fun hx => ?_⟩, ?_, ?_⟩
  · rcases (stash_cons _ _ _).mp hx with e | hx
    · exact a.fresh (e ▸ k.env.1)
    · exact k.env.2 hx
  · intro o' ho'
    rcases List.mem_cons.mp ho' with rfl | ho'
    · exact a.cell
    · exact kw.made o' ho'
  · intro o' ho'
    rcases List.mem_cons.mp ho' with rfl | ho'
    · exact .head _
    · exact .tail _ (kw.base o' ho')

/-- changing one of them -/
theorem Stashed.change {r : Ref} {c d : Cell} (k : Stashed W env ((r, c) :: os) v) (ha : ∀ o ∈ os, o.1 ≠ r) (hu : d.uid = c.uid) (hm : d.mark = c.mark)
    (hd : PubCell (v.Old W) d) : Stashed W env ((r, d) :: os) { v with mem := v.mem.set r d } := by
  have g := (k.here (E := fun x => x = r)).change ⟨_, .head _, rfl⟩ (.inl rfl) (k.made _ (.head _)) hu hm hd
  have e : stash ((r, c) :: os) = stash ((r, d) :: os) := funext fun x => propext (by rw [stash_cons, stash_cons])
  rw [e] at g
  refine ⟨g.sane, g.closed, e ▸ k.env, ?_, ?_⟩
  · intro o ho
    rcases List.mem_cons.mp ho with rfl | ho
    · exact Mem.set_self _ _ _
    · exact (Mem.set_other _ _ (ha o ho)).trans (k.made o (.tail _ ho))
  · intro o ho
    rcases List.mem_cons.mp ho with rfl | ho
    · exact k.base (r, c) (.head _)
    · exact k.base o (.tail _ ho)

/-- making one of them known -/
theorem Stashed.reveal {r : Ref} {c : Cell} (k : Stashed W env ((r, c) :: os) v) (ha : ∀ o ∈ os, o.1 ≠ r)
    (hd : PubCell (v.Pub W (stash os)) c) : Stashed W env os v ∧ v.Pub W (stash os) r := by
  have up : ∀ x, v.Pub W (stash ((r, c) :: os)) x → v.Pub W (stash os) x :=
    fun x hx => ⟨hx.1, fun h => hx.2 ((stash_cons _ _ _).mpr (.inr h))⟩
  refine ⟨⟨k.sane, ⟨k.closed.cells, ?_, k.closed.stack, k.closed.ret.mono up, fun which => up _ (k.closed.roots which), ?_⟩, up _ k.env, ?_, ?_⟩, ?_⟩
  · intro x d hx hn
    by_cases e : x = r
    · subst e
      have := k.made _ (.head _)
      obtain rfl := same_cell this hx
      exact hd
    · exact (k.closed.pub x d hx fun h => ((stash_cons _ _ _).mp h).elim e hn).mono up
  · exact fun x hx => k.closed.known x ((stash_cons _ _ _).mpr (.inr hx))
  · exact fun o ho => k.made o (.tail _ ho)
  · exact fun o ho => k.base o (.tail _ ho)
  · refine ⟨k.old (.head _), ?_⟩
    rintro ⟨o, ho, e⟩
    exact ha o ho e

theorem stash_one {args : Ref} {c : Cell} : stash [(args, c)] = fun x => x = args :=
  funext fun x => propext (by simp only [stash, List.mem_singleton, exists_eq_left]; exact eq_comm)

/-- what is known when a special form starts -/
theorem Stashed.start {args : Ref} {xs : List Ref} {c : Cell} (k : Held W args xs env v) (top : args ∈ v.stack) (hc : v.mem args = some c) :
    Stashed W env [(args, c)] v :=
  ⟨k.sane, stash_one ▸ k.closed, stash_one ▸ k.env, fun o ho => by rw [List.mem_singleton.mp ho]; exact hc,
    fun o ho => by rw [List.mem_singleton.mp ho]; exact top⟩

/-- a new error -/
theorem wp_errorStashed (k : Stashed W env os v) {s : String} {Q : Option Ref → Vm → List Event → Prop}
    (hq : ∀ r w, Stashed W env os w → Vm.Step W (stash os) nobody v w → w.stack = v.stack → w.Pub W (stash os) r → ¬ v.Old W r →
      w.IsErr r → Q (some r) w []) : Wp W n h (Prog.error s) v Q := by
  unfold Prog.error
  refine wp_bind (wp_text fun t => wp_bind (wp_alloc k.tick.sane fun r w a => wp_pure ?_))
  exact hq r w (k.tick.alloc a trivial) ((k.here.tick).alloc a trivial) a.stack (a.pub k.tick.closed) a.fresh ⟨_, _, _, a.cell, rfl⟩

/-- evaluating a form -/
theorem wp_evalStashed (F : Fine W h) (k : Stashed W env os v) {x env' : Ref} {Q : Option Ref → Vm → List Event → Prop}
    (hx : v.Pub W (stash os) x) (he : v.Pub W (stash os) env')
    (hq : ∀ a w, Stashed W env os w → Vm.Good W (stash os) v w → Vm.Keeps (stash os) v.stack v w → w.stack = v.stack →
      PubOpt (w.Pub W (stash os)) a → Q a w [⟨x, env', v, a, w⟩]) :
    Wp W n h (Prog.eval x env') v Q :=
  wps_evalKeeps F (k.here (E := nobody)) hx he fun a w g kp hst ha => hq a w (k.good g kp hst) g kp hst ha

end Dern.Props
