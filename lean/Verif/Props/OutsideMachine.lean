import Verif.Dern.SafeOutside
import Verif.Props.Calling
/-
For the examples of C64 and C65: the machine with its whole standard library, in a world in which what comes from outside is given.
-/
namespace Dern.Props
open Dern
open Dern.Prog (Library)

/-- a world in which the questions in `answers` are answered, with a text; all others with the empty text -/
def outWorld (answers : List (String × Text)) : World where
  malloc := ⟨fun n => n, fun _ _ h => h⟩
  text := fun _ what => (answers.lookup what).getD []
  real := fun _ => 0
  fmt := fun _ => []
  arrange := fun _ es => (1, es)
  perm := fun _ _ => .refl _
  buckets := fun _ _ => Nat.one_pos

/-- the whole standard library, with bounds that are enough for the examples -/
def outLibrary : Library := Prog.outsideLibrary asciiCtype 9

/-- what a form evaluates to, after other forms: is it what `P` says -/
def outCheck (answers : List (String × Text)) (table : List (String × Obj × Bool)) (forms : List Form) (last : Form) (fuel : Nat)
    (P : Vm → Ref → Option Ref → Vm → List Event → Bool) : Bool :=
  match run (outWorld answers) fuel (handler (outWorld answers) (Prog.body outLibrary) fuel) (setup table forms last) (Vm.base (outWorld answers).malloc) with
  | .error _ => false
  | .ok (f, v, _) =>
    match run (outWorld answers) fuel (handler (outWorld answers) (Prog.body outLibrary) fuel) (Prog.body outLibrary (.eval f v.globalEnv)) v with
    | .error _ => false
    | .ok (r, w, tr) => P v f r w tr

theorem out_exists {answers table forms last fuel} {P : Vm → Ref → Option Ref → Vm → List Event → Bool}
    (ht : ∀ x ∈ table, x.2.1.children = []) (h : outCheck answers table forms last fuel P = true) :
    ∃ v form r w tr, v.Reached (outWorld answers) outLibrary ∧ v.Old (outWorld answers) form ∧ v.Old (outWorld answers) v.globalEnv ∧
      Evaluates (outWorld answers) outLibrary v form v.globalEnv r w tr ∧ P v form r w tr = true := by
  unfold outCheck at h
  split at h
  · cases h
  · rename_i f v t e
    split at h
    · cases h
    · rename_i r w tr e'
      have b := base_closed (outWorld answers)
      have s := base_sane (outWorld answers)
      have := run_sound (X := fun _ => False) (n := fuel) (handler_sound (Prog.outsideLibrary_safe asciiCtype 9) fuel) (setup table forms last) _
        (Vm.base (outWorld answers).malloc).stack [] (fun P r _ => P r) s b (by simp)
        (fun P _ => Machine.ok_setup table forms last ht fun r hr => hr)
      have e2 : run (outWorld answers) fuel (handler (outWorld answers) (Prog.body (Prog.outsideLibrary asciiCtype 9)) fuel) (setup table forms last)
        (Vm.base (outWorld answers).malloc) = .ok (f, v, t) := e
      rw [e2] at this
      obtain ⟨g, _, _, hf⟩ := this
      refine ⟨v, f, r, w, tr, ?_, hf.1, (g.closed.roots .globalEnv).1, ⟨fuel, e'⟩, h⟩
      exact .host .refl (fun P _ => Machine.ok_setup table forms last ht fun _ _ => trivial) e

end Dern.Props
