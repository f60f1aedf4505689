import Verif.Props.Machine
import Verif.Dern.SafeOutside
/-
C23: unique ids are never reused.

`Vm.Reached W L v`: the state `v` can be reached from a new virtual machine by any sequence of
operations of an embedding program, including evaluations and the collections they cause; `Vm.Leads`
is a further part of the history.  `W` is any behaviour of the surroundings (addresses, texts …).

The theorems `c23_unique`, `c23_never_reused`, `c23_released_stays` and `c23_identity` are about the machine with its whole standard
library (`Prog.outsideLibrary`: input and output with arbitrary answers from the outside); those that end in `_plugins` allow any further
functions of an embedding program or a plugin that use only references they got (`Library.Safe`).
-/
namespace Dern.Props
open Dern
open Dern.Prog (Library)
variable {W : World} {L : Library}

/-- Two live values with the same unique id are the same value. -/
theorem c23_unique_plugins (hL : L.Safe) {v : Vm} (hv : v.Reached W L) {r r' : Ref} {c c' : Cell}
    (h : v.mem r = some c) (h' : v.mem r' = some c') (e : c.uid = c'.uid) : r = r' :=
  (hv.good hL).1.uidInj r c r' c' h h' e

/-- At different times: if a value `r` that lived in the state `v` and a value `r'` that lives in a
later state `w` have the same unique id, they are the same value.  So an id is not reused even after
its value has been released, and a value keeps its id. -/
theorem c23_never_reused_plugins (hL : L.Safe) {v w : Vm} (hv : v.Reached W L) (hw : Vm.Leads W L v w)
    {r r' : Ref} {c c' : Cell} (h : v.mem r = some c) (h' : w.mem r' = some c') :
    c.uid = c'.uid ↔ r = r' := by
  obtain ⟨sv, cv⟩ := hv.good hL
  have g := hw.good hL sv cv
  constructor
  · intro e
    cases hr : v.mem r' with
    | none =>
      have := g.later.new r' c' hr h'
      have := sv.uidLt r c h
      omega
    | some d =>
      have := g.later.uid r' d c' hr h'
      exact sv.uidInj r c r' d h hr (by omega)
  · rintro rfl
    exact (g.later.uid r c c' h h').symm

/-- A released value never comes back: an address known once and no longer live stays so.  (The
model gives every value its own address; see `Malloc`.) -/
theorem c23_released_stays_plugins (hL : L.Safe) {v w u : Vm} (hv : v.Reached W L) (hw : Vm.Leads W L v w)
    (hu : Vm.Leads W L w u) {r : Ref} {c : Cell} (h : v.mem r = some c) (h' : w.mem r = none) : u.mem r = none := by
  obtain ⟨sv, cv⟩ := hv.good hL
  have g := hw.good hL sv cv
  have g' := hu.good hL g.sane g.closed
  exact g'.later.gone r ((sv.old r c h).mono g.later.births) h'

/-- The test made by `===` (the ids of two values) tells whether they are the same object. -/
theorem c23_identity_plugins (hL : L.Safe) {v w : Vm} (hv : v.Reached W L) {n : Nat} {h : Handler} {a b : Ref}
    {t : Bool} {tr : List Event} (e : run W n h (Prog.sameUid a b) v = .ok (t, w, tr)) : t = true ↔ a = b := by
  have s := (hv.good hL).1
  cases ha : v.mem a with
  | none => simp [Prog.sameUid, Prog.read, Prog.perform, bind, Prog.bind, run, step, quiet, M.read, Mem.read, ha] at e
  | some c =>
    cases hb : v.mem b with
    | none => simp [Prog.sameUid, Prog.read, Prog.perform, bind, Prog.bind, run, step, quiet, M.read, Mem.read, ha, hb] at e
    | some d =>
      simp [Prog.sameUid, Prog.read, Prog.perform, bind, Prog.bind, run, step, quiet, M.read, Mem.read, ha, hb, pure] at e
      obtain ⟨rfl, _⟩ := e
      simp only [beq_iff_eq]
      constructor
      · exact s.uidInj a c b d ha hb
      · rintro rfl
        rw [ha] at hb; cases hb; rfl

/-- Two live values with the same unique id are the same value. -/
theorem c23_unique {ct : Ctype} {bound : Nat} {v : Vm} (hv : v.Reached W (Prog.outsideLibrary ct bound)) {r r' : Ref} {c c' : Cell}
    (h : v.mem r = some c) (h' : v.mem r' = some c') (e : c.uid = c'.uid) : r = r' :=
  c23_unique_plugins (Prog.outsideLibrary_safe ct bound) hv h h' e

/-- A value of one state and a value of a later state have the same unique id exactly if they are the same value. -/
theorem c23_never_reused {ct : Ctype} {bound : Nat} {v w : Vm} (hv : v.Reached W (Prog.outsideLibrary ct bound))
    (hw : Vm.Leads W (Prog.outsideLibrary ct bound) v w) {r r' : Ref} {c c' : Cell} (h : v.mem r = some c) (h' : w.mem r' = some c') :
    c.uid = c'.uid ↔ r = r' :=
  c23_never_reused_plugins (Prog.outsideLibrary_safe ct bound) hv hw h h'

/-- A released value never comes back. -/
theorem c23_released_stays {ct : Ctype} {bound : Nat} {v w u : Vm} (hv : v.Reached W (Prog.outsideLibrary ct bound))
    (hw : Vm.Leads W (Prog.outsideLibrary ct bound) v w) (hu : Vm.Leads W (Prog.outsideLibrary ct bound) w u) {r : Ref} {c : Cell}
    (h : v.mem r = some c) (h' : w.mem r = none) : u.mem r = none :=
  c23_released_stays_plugins (Prog.outsideLibrary_safe ct bound) hv hw hu h h'

/-- The test made by `===` tells whether two values are the same object. -/
theorem c23_identity {ct : Ctype} {bound : Nat} {v w : Vm} (hv : v.Reached W (Prog.outsideLibrary ct bound)) {n : Nat} {h : Handler} {a b : Ref}
    {t : Bool} {tr : List Event} (e : run W n h (Prog.sameUid a b) v = .ok (t, w, tr)) : t = true ↔ a = b :=
  c23_identity_plugins (Prog.outsideLibrary_safe ct bound) hv e

/-- a state that is reached: after evaluating `(+ 1 2)` -/
example : ∃ (v : Vm) (r : Ref) (c : Cell), v.Reached world library ∧ v.mem r = some c := by
  obtain ⟨v, form, r, w, tr, hv, _, _, _, h⟩ := stage_exists (table := kit) (forms := [.vec [.sym "+", .int 1, .int 2]])
    (last := .int 7) (fuel := 40) (P := fun v f _ _ _ => (v.mem f).isSome) kit_plain (by decide +kernel)
  obtain ⟨c, hc⟩ := Option.isSome_iff_exists.mp h
  exact ⟨v, form, c, hv, hc⟩

end Dern.Props
