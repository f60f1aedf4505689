import Verif.Props.InPlace
import Verif.Dern.CopyData
/-
Filling a new vector while looking at the arguments.
-/
namespace Dern.Props
open Dern
open Dern.Spec (Reach Data)
open Dern.Prog (Library)
variable {W : World} {L : Library} {v u w : Vm} {args : Ref} {ts : List Ref}

/-- the values `ts` (in the vector `args` on the stack) and all their parts are as they were in `v` -/
structure Watching (W : World) (v : Vm) (args : Ref) (ts : List Ref) (u : Vm) : Prop where
  vec : u.HasVec args ts
  top : args ∈ u.stack
  known : v.Old W args
  old : ∀ z, Reach v.mem.Part (· ∈ ts) z → v.Old W z
  src : ∀ z, Reach v.mem.Part (· ∈ ts) z → u.mem z = v.mem z

theorem Watching.start {env : Ref} (k : Held W args ts env v) (hv : v.HasVec args ts) (top : args ∈ u.stack) (hm : u.mem = v.mem) :
    Watching W v args ts u where
  vec := by obtain ⟨c, hc, ho⟩ := hv; exact ⟨c, by rw [hm]; exact hc, ho⟩
  top := top
  known := k.old
  old := fun z hz => by
    induction hz with
    | root h => exact (k.pub _ h).1
    | step _ e _ =>
      obtain ⟨c, hc, hb⟩ := e
      exact (k.closed.cells _ _ hc).obj.children hb
  src := fun z _ => by rw [hm]

theorem Watching.kept (f : Watching W v args ts u) {z : Ref} (hz : Reach v.mem.Part (· ∈ ts) z) : u.Kept z := by
  induction hz with
  | root h =>
    obtain ⟨c, hc, ho⟩ := f.vec
    exact .step (.root f.top) ⟨c, hc, by simpa [Cell.edges, ho, Obj.children] using .inr h⟩
  | step h e ih =>
    obtain ⟨c, hc, hb⟩ := e
    exact ih.step ⟨c, by rw [f.src _ h]; exact hc, List.mem_append_right _ hb⟩

theorem Watching.push (f : Watching W v args ts u) (z : Ref) : Watching W v args ts { u with stack := z :: u.stack } :=
  ⟨f.vec, List.mem_cons_of_mem _ f.top, f.known, f.old, f.src⟩

/-- nothing that is in use changes -/
theorem Watching.same (f : Watching W v args ts u) (hs : w.stack = u.stack) (p : ∀ z, v.Old W z → u.Kept z → w.mem z = u.mem z) :
    Watching W v args ts w := by
  obtain ⟨c, hc, ho⟩ := f.vec
  refine ⟨⟨c, by rw [p args f.known (.root f.top)]; exact hc, ho⟩, by rw [hs]; exact f.top, f.known, f.old, fun z hz => ?_⟩
  rw [p z (f.old z hz) (f.kept hz), f.src z hz]

theorem Watching.alloc (f : Watching W v args ts u) (hb : v.births ≤ u.births) {o : Obj} {r : Ref} (a : Allocated W u o r w) : Watching W v args ts w :=
  f.same a.stack fun z hz hk => a.kept z hk fun e => a.fresh (e ▸ hz.mono hb)

theorem Watching.hasObj (f : Watching W v args ts u) {z : Ref} (hz : Reach v.mem.Part (· ∈ ts) z) {o : Obj} : u.HasObj z o ↔ v.HasObj z o := by
  constructor <;> rintro ⟨c, hc, ho⟩
  · exact ⟨c, by rw [← f.src z hz]; exact hc, ho⟩
  · exact ⟨c, by rw [f.src z hz]; exact hc, ho⟩

theorem Watching.denotes (f : Watching W v args ts u) {z : Ref} (hz : Reach v.mem.Part (· ∈ ts) z) {d : Data} (h : Denotes v.mem z d) : Denotes u.mem z d :=
  h.parts fun y hy => f.src y (hy.mono (by rintro _ rfl; exact hz))

theorem allocated_cell {o : Obj} {r : Ref} (a : Allocated W u o r w) : w.HasObj r o := ⟨_, a.cell, rfl⟩

/-- one more new value in the vector being filled -/
theorem Watching.put {n : Nat} {h : Handler} {X : Ref → Prop} {r : Ref} {os : List Obj} {o : Obj} {α : Type} {p : Prog α}
    {Q : α → Vm → List Event → Prop} (f : Watching W v args ts u) (b : Building W X v r os u) (ho : ∀ P, PubObj P o)
    (hp : ∀ w, Watching W v args ts w → Building W X v r (os ++ [o]) w → w.stack = u.stack → Wp W n h p w Q) :
    Wp W n h (do let i ← Prog.alloc o; Prog.append r i; p) u Q :=
  b.putKept ho fun w bw hs hk => hp w (f.same hs hk) bw hs

end Dern.Props
