import Verif.Dern.New
/-
A concrete machine for the examples: addresses in the order of allocation, empty texts, and the code
without a model replaced by functions that return nil.
-/
namespace Dern.Props
open Dern
open Dern.Prog (Library error ok_error ok_pure registerAll root)

/-- a world -/
def world : World where
  malloc := ⟨fun n => n, fun _ _ h => h⟩
  text := fun _ _ => []
  real := fun _ => 0
  fmt := fun _ => []
  arrange := fun _ es => (1, es)
  perm := fun _ _ => .refl _
  buckets := fun _ _ => Nat.one_pos

/-- a library -/
def library : Library where
  builtin := fun _ _ _ => error "not modelled"

theorem library_safe : library.Safe where
  builtin := fun _ _ _ _ _ _ _ => ok_error fun _ h => ⟨rfl, h⟩

/-- source forms for examples -/
inductive Form
  | int (n : Int)
  | str (s : String)
  | sym (s : String)
  | vec (es : List Form)

mutual
/-- creating the values for a form -/
def Form.build : Form → Prog Ref
  | .int n => Prog.alloc (.int n)
  | .str s => Prog.alloc (.str (txt s))
  | .sym s => Prog.alloc (.sym (txt s))
  | .vec es => do
    let rs ← Form.buildAll es
    Prog.alloc (.vec rs)

def Form.buildAll : List Form → Prog (List Ref)
  | [] => pure []
  | e :: es => do
    let r ← Form.build e
    let rs ← Form.buildAll es
    pure (r :: rs)
end

/-- evaluating forms one after the other -/
def evalAll (env : Ref) : List Ref → Prog Unit
  | [] => pure ()
  | f :: fs => do
    let _ ← Prog.eval f env
    evalAll env fs

/-- registering a table, evaluating forms one after the other in the global environment, and creating
one more form -/
def setup (table : List (String × Obj × Bool)) (forms : List Form) (last : Form) : Prog Ref := do
  registerAll table
  let env ← root .globalEnv
  let fs ← Form.buildAll forms
  evalAll env fs
  last.build

/-- the machine after `setup` and the evaluation of the last form: is it what `P` says -/
def stageCheck (table : List (String × Obj × Bool)) (forms : List Form) (last : Form) (fuel : Nat)
    (P : Vm → Ref → Option Ref → Vm → List Event → Bool) : Bool :=
  match run world fuel (handler world (Prog.body library) fuel) (setup table forms last) (Vm.base world.malloc) with
  | .error _ => false
  | .ok (f, v, _) =>
    match run world fuel (handler world (Prog.body library) fuel) (Prog.body library (.eval f v.globalEnv)) v with
    | .error _ => false
    | .ok (r, w, tr) => P v f r w tr

/-- the payload of a value -/
def objAt (v : Vm) (r : Option Ref) : Option Obj := r.bind fun r => (v.mem r).map (·.obj)

namespace Machine
open Dern.Prog
variable {P : Ref → Prop} {s : List Ref}

theorem ok_register {name o howto} {Q : Unit → List Ref → Prop} (ho : PubObj P o) (h' : Q () s) :
    Ok P (register name o howto) s Q := by
  unfold register
  ok
  all_goals ok_side

theorem ok_registerAll (l : List (String × Obj × Bool)) {Q : Unit → List Ref → Prop}
    (hl : ∀ x ∈ l, x.2.1.children = []) (h' : Q () s) : Ok P (registerAll l) s Q := by
  induction l with
  | nil => exact h'
  | cons x l ih =>
    obtain ⟨name, o, howto⟩ := x
    unfold registerAll
    refine ok_bind (ok_register ?_ ?_)
    · have := hl _ (List.mem_cons_self ..)
      cases o <;> simp_all [Obj.children, PubObj]
    · exact ih fun x hx => hl x (List.mem_cons_of_mem _ hx)

mutual
theorem ok_build (f : Form) {Q : Ref → List Ref → Prop} (h' : ∀ r, P r → Q r s) : Ok P f.build s Q := by
  cases f with
  | int n => unfold Form.build; exact ok_alloc trivial h'
  | str n => unfold Form.build; exact ok_alloc trivial h'
  | sym n => unfold Form.build; exact ok_alloc trivial h'
  | vec es =>
    unfold Form.build
    exact ok_bind (ok_buildAll es fun rs hrs => ok_alloc hrs h')

theorem ok_buildAll (fs : List Form) {Q : List Ref → List Ref → Prop} (h' : ∀ rs, (∀ r ∈ rs, P r) → Q rs s) :
    Ok P (Form.buildAll fs) s Q := by
  cases fs with
  | nil => unfold Form.buildAll; exact h' [] (by simp)
  | cons f fs =>
    unfold Form.buildAll
    refine ok_bind (ok_build f fun r hr => ok_bind (ok_buildAll fs fun rs hrs => ok_pure (h' _ ?_)))
    simpa using ⟨hr, hrs⟩
end

theorem ok_evalAll (env : Ref) (henv : P env) (fs : List Ref) {Q : Unit → List Ref → Prop} (h : ∀ r ∈ fs, P r)
    (h' : Q () s) : Ok P (evalAll env fs) s Q := by
  induction fs with
  | nil => exact h'
  | cons f fs ih =>
    unfold evalAll
    exact ok_bind (ok_eval (h f (List.mem_cons_self ..)) henv fun _ _ => ih fun r hr => h r (List.mem_cons_of_mem _ hr))

theorem ok_setup (table forms last) {Q : Ref → List Ref → Prop} (ht : ∀ x ∈ table, x.2.1.children = [])
    (h' : ∀ r, P r → Q r s) : Ok P (setup table forms last) s Q := by
  unfold setup
  refine ok_bind (ok_registerAll table ht (ok_bind (ok_root fun env henv => ok_bind (ok_buildAll forms fun fs hfs =>
    ok_bind (ok_evalAll env henv fs hfs (ok_build last h'))))))

end Machine

/-- If a check succeeds, then there are a reachable state, a form known to it, and an evaluation of the
form in the global environment for which `P` holds. -/
theorem stage_exists {table forms last fuel} {P : Vm → Ref → Option Ref → Vm → List Event → Bool}
    (ht : ∀ x ∈ table, x.2.1.children = []) (h : stageCheck table forms last fuel P = true) :
    ∃ v form r w tr, v.Reached world library ∧ v.Old world form ∧ v.Old world v.globalEnv ∧
      Evaluates world library v form v.globalEnv r w tr ∧ P v form r w tr = true := by
  unfold stageCheck at h
  split at h
  · cases h
  · rename_i f v t e
    split at h
    · cases h
    · rename_i r w tr e'
      have b := base_closed world
      have s := base_sane world
      have := run_sound (X := fun _ => False) (n := fuel) (handler_sound library_safe fuel) (setup table forms last) _
        (Vm.base world.malloc).stack [] (fun P r _ => P r) s b (by simp)
        (fun P _ => Machine.ok_setup table forms last ht fun r hr => hr)
      rw [e] at this
      obtain ⟨g, _, _, hf⟩ := this
      refine ⟨v, f, r, w, tr, ?_, hf.1, (g.closed.roots .globalEnv).1, ⟨fuel, e'⟩, h⟩
      exact .host .refl (fun P _ => Machine.ok_setup table forms last ht fun _ _ => trivial) e

/-- the machine after creating a value and pushing it on the stack: is it what `P` says -/
def buildCheck (f : Form) (fuel : Nat) (P : Vm → Ref → Bool) : Bool :=
  match run world fuel (handler world (Prog.body library) fuel) (do
    let r ← f.build
    Prog.push r
    pure r) (Vm.base world.malloc) with
  | .error _ => false
  | .ok (r, v, _) => P v r

theorem build_exists {f : Form} {fuel : Nat} {P : Vm → Ref → Bool} (h : buildCheck f fuel P = true) :
    ∃ v r, v.Reached world library ∧ P v r = true := by
  unfold buildCheck at h
  split at h
  · cases h
  · rename_i r v t e
    refine ⟨v, r, .host .refl (fun P _ => ?_) e, h⟩
    exact Prog.ok_bind (Machine.ok_build f fun r hr => Prog.ok_bind (Prog.ok_push hr (Prog.ok_pure trivial)))

/-- some functions for examples -/
def kit : List (String × Obj × Bool) :=
  [("if", .special .if, true), ("do", .special .do, true), ("fn", .special .fn, true), ("+", .builtin .plus, true),
   ("return", .builtin .return, true), ("define", .special .define, false), ("quote", .special .quote, true),
   ("===", .special .eqq, true), ("while", .special .while, true), ("and", .special .and, true),
   ("or", .special .or, true), ("select", .special .select, true), ("exit", .builtin .exit, true),
   ("++", .builtin .plusPlus, true), ("<", .special .lt, true)]

theorem kit_plain : ∀ x ∈ kit, x.2.1.children = [] := by decide

example : stageCheck kit [] (.vec [.sym "if", .sym "true", .vec [.sym "+", .int 1, .int 2], .int 5]) 40
    (fun _ _ r w tr => objAt w r = some (.int 3) && tr.length == 3) = true := by
  decide +kernel

end Dern.Props
