import Verif.Props.Machine
import Verif.Dern.SafeOutside
/-
C24: evaluation leaves the stack balanced.

For every reachable state of the virtual machine (`Vm.Reached`, see C23), every form and every
environment that exist there, and every surroundings `W`.

`c24_balanced`, `c24_special` and `c24_builtin` are about the machine with its whole standard library (`Prog.outsideLibrary`: input and
output with arbitrary answers from the outside); the theorems that end in `_plugins` allow any further functions that keep the stack as it is
(`Library.Safe`).

Partial: the code does abort because of an unbalanced stack: `(input-file-open 5)`, `(output-file-open 5)`, `(io-file-open 5)` and
`(port-close 5)` push their arguments and check the height of the stack before popping them (`c24_open_aborts`, `c24_close_aborts`,
`c24_open_program_aborts`).  `c24_no_abort_partial` says that nothing else is ever found on top of the stack than what the code pops.
-/
namespace Dern.Props
open Dern
open Dern.Prog (Library)
variable {W : World} {L : Library}

/-- When an evaluation returns, with a value or with an error, the stack is exactly as before. -/
theorem c24_balanced_plugins (hL : L.Safe) {v w : Vm} (hv : v.Reached W L) {form env : Ref} (hf : v.Old W form)
    (he : v.Old W env) {r : Option Ref} {tr : List Event} (h : Evaluates W L v form env r w tr) :
    w.stack = v.stack := by
  obtain ⟨n, e⟩ := h
  obtain ⟨s, c⟩ := hv.good hL
  have := handler_sound (W := W) hL (n + 1) (fun _ => False) (.eval form env) v v.stack s c
    (by simp [Call.refs, Vm.Pub, hf, he]) rfl
  simp only [handler, e] at this
  exact this.2.1

/-- No evaluation ends because the stack is not what the code expects. -/
theorem c24_no_abort_plugins (hL : L.Safe) {v : Vm} (hv : v.Reached W L) {form env : Ref} (hf : v.Old W form)
    (he : v.Old W env) (n : Nat) :
    run W n (handler W (Prog.body L) n) (Prog.body L (.eval form env)) v ≠ .error .unbalanced := by
  obtain ⟨s, c⟩ := hv.good hL
  have := handler_sound (W := W) hL (n + 1) (fun _ => False) (.eval form env) v v.stack s c
    (by simp [Call.refs, Vm.Pub, hf, he]) rfl
  simp only [handler] at this
  intro e
  rw [e] at this
  exact this rfl

/-- Every special form returns with the stack it was called with.  (This is what the checks of the
height of the stack at the end of these functions verify; they are not part of the model.) -/
theorem c24_special_plugins (hL : L.Safe) {v : Vm} (hv : v.Reached W L) (n : Nat) (x : Special) {args env : Ref}
    (ha : v.Old W args) (he : v.Old W env) {r : Option Ref} {w : Vm} {tr : List Event}
    (h : run W n (handler W (Prog.body L) n) (Prog.special L x args env) v = .ok (r, w, tr)) :
    w.stack = v.stack := by
  obtain ⟨s, c⟩ := hv.good hL
  have := run_sound (X := fun _ => False) (n := n) (handler_sound hL n) (Prog.special L x args env) v [] v.stack
    (fun _ _ s => s = []) s c (by simp) (fun P hP => Prog.ok_special hL (hP _ ⟨ha, id⟩) (hP _ ⟨he, id⟩) fun _ _ => rfl)
  rw [h] at this
  obtain ⟨_, s', h1, h2⟩ := this
  rw [h1, h2]; rfl

/-- Every builtin function returns with the stack it was called with. -/
theorem c24_builtin_plugins (hL : L.Safe) {v : Vm} (hv : v.Reached W L) (n : Nat) (x : Builtin) {args env : Ref}
    (ha : v.Old W args) (he : v.Old W env) {r : Option Ref} {w : Vm} {tr : List Event}
    (h : run W n (handler W (Prog.body L) n) (Prog.builtin L x args env) v = .ok (r, w, tr)) :
    w.stack = v.stack := by
  obtain ⟨s, c⟩ := hv.good hL
  have := run_sound (X := fun _ => False) (n := n) (handler_sound hL n) (Prog.builtin L x args env) v [] v.stack
    (fun _ _ s => s = []) s c (by simp) (fun P hP => Prog.ok_builtin hL (hP _ ⟨ha, id⟩) (hP _ ⟨he, id⟩) fun _ _ => rfl)
  rw [h] at this
  obtain ⟨_, s', h1, h2⟩ := this
  rw [h1, h2]; rfl

/-- When an evaluation returns, with a value or with an error, the stack is exactly as before. -/
theorem c24_balanced {ct : Ctype} {bound : Nat} {v w : Vm} (hv : v.Reached W (Prog.outsideLibrary ct bound)) {form env : Ref} (hf : v.Old W form)
    (he : v.Old W env) {r : Option Ref} {tr : List Event} (h : Evaluates W (Prog.outsideLibrary ct bound) v form env r w tr) :
    w.stack = v.stack :=
  c24_balanced_plugins (Prog.outsideLibrary_safe ct bound) hv hf he h

/-- No evaluation ends because the code pops a value that is not on top of the stack (vm.c:1749-1752).  Missing: the checks of the height
of the stack, which can fail, see below. -/
theorem c24_no_abort_partial {ct : Ctype} {bound : Nat} {v : Vm} (hv : v.Reached W (Prog.outsideLibrary ct bound)) {form env : Ref}
    (hf : v.Old W form) (he : v.Old W env) (n : Nat) :
    run W n (handler W (Prog.body (Prog.outsideLibrary ct bound)) n) (Prog.body (Prog.outsideLibrary ct bound) (.eval form env)) v
      ≠ .error .unbalanced :=
  c24_no_abort_plugins (Prog.outsideLibrary_safe ct bound) hv hf he n

/-- Every special form returns with the stack it was called with. -/
theorem c24_special {ct : Ctype} {bound : Nat} {v : Vm} (hv : v.Reached W (Prog.outsideLibrary ct bound)) (n : Nat) (x : Special) {args env : Ref}
    (ha : v.Old W args) (he : v.Old W env) {r : Option Ref} {w : Vm} {tr : List Event}
    (h : run W n (handler W (Prog.body (Prog.outsideLibrary ct bound)) n) (Prog.special (Prog.outsideLibrary ct bound) x args env) v = .ok (r, w, tr)) :
    w.stack = v.stack :=
  c24_special_plugins (Prog.outsideLibrary_safe ct bound) hv n x ha he h

/-- Every builtin function returns with the stack it was called with. -/
theorem c24_builtin {ct : Ctype} {bound : Nat} {v : Vm} (hv : v.Reached W (Prog.outsideLibrary ct bound)) (n : Nat) (x : Builtin) {args env : Ref}
    (ha : v.Old W args) (he : v.Old W env) {r : Option Ref} {w : Vm} {tr : List Event}
    (h : run W n (handler W (Prog.body (Prog.outsideLibrary ct bound)) n) (Prog.builtin (Prog.outsideLibrary ct bound) x args env) v = .ok (r, w, tr)) :
    w.stack = v.stack :=
  c24_builtin_plugins (Prog.outsideLibrary_safe ct bound) hv n x ha he h

/-- In every state, opening a file with something that is no string never returns: the check of the height of the stack fails. -/
theorem c24_open_aborts {ct : Ctype} {bound n : Nat} {h : Handler} {v : Vm} {args env x : Ref} {c d e : Cell} {bs : List Binding} {up : Option Ref}
    {name : String} (hname : name = "input-file-open" ∨ name = "output-file-open" ∨ name = "io-file-open")
    (ha : v.mem args = some c) (hc : c.obj = .vec [x]) (he : v.mem env = some e) (heo : e.obj = .env bs up)
    (hx : v.mem x = some d) (hd : ∀ s, d.obj ≠ .str s) :
    run W n h (Prog.builtin (Prog.outsideLibrary ct bound) (.other name) args env) v = .error .abort := by
  rcases hname with rfl | rfl | rfl
  all_goals
    simp [Prog.builtin, Prog.outsideLibrary, Prog.outside, Prog.biFileOpen, Prog.biIoFileOpen, Prog.verifyVec, Prog.verifyEnv, Prog.read, Prog.perform,
      Prog.push, bind, Prog.bind, run, step, quiet, M.read, Mem.read, ha, he, hc, heo, pure]
    cases hdo : d.obj <;>
      simp_all [Prog.fail, Prog.bind, Prog.perform, run, step, quiet, M.read, Mem.read, Dern.push, M.modify, bind, pure] <;> rfl

/-- In every state, closing something that is no port never returns: the check of the height of the stack fails. -/
theorem c24_close_aborts {ct : Ctype} {bound n : Nat} {h : Handler} {v : Vm} {args env x : Ref} {c d e : Cell} {bs : List Binding} {up : Option Ref}
    (ha : v.mem args = some c) (hc : c.obj = .vec [x]) (he : v.mem env = some e) (heo : e.obj = .env bs up)
    (hx : v.mem x = some d) (hd : ∀ k, d.obj ≠ .port k) :
    run W n h (Prog.builtin (Prog.outsideLibrary ct bound) (.other "port-close") args env) v = .error .abort := by
  simp [Prog.builtin, Prog.outsideLibrary, Prog.outside, Prog.biPortClose, Prog.verifyVec, Prog.verifyEnv, Prog.read, Prog.perform,
    Prog.push, bind, Prog.bind, run, step, quiet, M.read, Mem.read, ha, he, hc, heo, pure]
  cases hdo : d.obj <;>
    simp_all [Prog.fail, Prog.bind, Prog.perform, run, step, quiet, M.read, Mem.read, Dern.push, M.modify, bind, pure] <;> rfl

/-- The program `(input-file-open 5)` aborts. -/
theorem c24_open_program_aborts :
    (match run world 80 (handler world (Prog.body (Prog.outsideLibrary asciiCtype 9)) 80) (do
      let f ← setup [("input-file-open", .builtin (.other "input-file-open"), false)] [] (.vec [.sym "input-file-open", .int 5])
      Prog.eval f (← Prog.root .globalEnv)) (Vm.base world.malloc) with
    | .error .abort => true
    | _ => false) = true := by
  decide +kernel

/-- A case with a call of a function, an early return and a nested error -/
example : ∃ v form r w tr, v.Reached world library ∧ v.Old world form ∧ v.Old world v.globalEnv ∧
    Evaluates world library v form v.globalEnv r w tr ∧ ((objAt w r == some (.int 3)) && v.stack != []) = true :=
  stage_exists (table := kit) (forms := [.vec [.sym "+", .sym "unbound", .int 1]])
    (last := .vec [.vec [.sym "fn", .vec [.sym "x"], .vec [.sym "return", .vec [.sym "+", .int 1, .sym "x"]], .int 9], .int 2])
    (fuel := 60) (P := fun v _ r w _ => (objAt w r == some (.int 3)) && v.stack != []) kit_plain (by decide +kernel)

end Dern.Props
