import Verif.Dern.SafeOutside
import Verif.Props.C48
import Verif.Props.C53
import Verif.Props.C60
import Verif.Props.C64
import Verif.Props.OutsideMachine
/-
C65: ports and the host.

What files contain, and whether reading, writing or opening succeeds, is arbitrary here.  What is said is what programs can rely on all the same:
which results are possible for which arguments, that they are new values, and that no value in the machine changes.
-/
namespace Dern.Props
open Dern
open Dern.Prog (Library)
variable {W : World}

/-- `(input-file-open path)` and `(output-file-open path)`: a new port -/
inductive OpenRun (W : World) (ts : List Ref) (v : Vm) (r : Ref) (w : Vm) (tr : List Event) : Prop
  | port {x : Ref} {s : Text} {k : Nat} : ts = [x] → v.HasObj x (.str s) → Gives W (.port k) v r w tr → OpenRun W ts v r w tr
  | unfit : ts.length ≠ 1 → GivesError W v r w tr → OpenRun W ts v r w tr

/-- `(io-file-open path)`: a new port, or an error -/
inductive IoOpenRun (W : World) (ts : List Ref) (v : Vm) (r : Ref) (w : Vm) (tr : List Event) : Prop
  | port {x : Ref} {s : Text} {k : Nat} : ts = [x] → v.HasObj x (.str s) → Gives W (.port k) v r w tr → IoOpenRun W ts v r w tr
  | failed {x : Ref} {s : Text} : ts = [x] → v.HasObj x (.str s) → GivesError W v r w tr → IoOpenRun W ts v r w tr
  | unfit : ts.length ≠ 1 → GivesError W v r w tr → IoOpenRun W ts v r w tr

/-- the arguments are a single port -/
def OnePort (v : Vm) (ts : List Ref) : Prop := ∃ x k, ts = [x] ∧ v.HasObj x (.port k)

/-- questions about a port that have the answer true or false -/
inductive AskPortRun (W : World) (ts : List Ref) (v : Vm) (r : Ref) (w : Vm) (tr : List Event) : Prop
  | answer {b : Bool} : OnePort v ts → Gives W (.bool b) v r w tr → AskPortRun W ts v r w tr
  | unfit : ¬ OnePort v ts → GivesError W v r w tr → AskPortRun W ts v r w tr

/-- `(port-close port)` -/
inductive ClosePortRun (W : World) (ts : List Ref) (v : Vm) (r : Ref) (w : Vm) (tr : List Event) : Prop
  | answer {b : Bool} : OnePort v ts → Gives W (.bool b) v r w tr → ClosePortRun W ts v r w tr
  | unfit : ts.length ≠ 1 → GivesError W v r w tr → ClosePortRun W ts v r w tr

/-- `(port-dist port)` and `(port-length port)`: a number -/
inductive PortNumberRun (W : World) (ts : List Ref) (v : Vm) (r : Ref) (w : Vm) (tr : List Event) : Prop
  | number {n : Int} : OnePort v ts → Int32 n → Gives W (.int n) v r w tr → PortNumberRun W ts v r w tr
  | unfit : ¬ OnePort v ts → GivesError W v r w tr → PortNumberRun W ts v r w tr

/-- what `port-seek` accepts: a port, an integer, and perhaps a symbol -/
def SeekArgs (v : Vm) (ts : List Ref) : Prop :=
  ∃ x y zs k m, ts = x :: y :: zs ∧ v.HasObj x (.port k) ∧ v.HasObj y (.int m) ∧ zs.length ≤ 1 ∧ ∀ z ∈ zs, ∃ s, v.HasObj z (.sym s)

/-- `(port-seek port distance)` and `(port-seek port distance 'from-current)` -/
inductive SeekRun (W : World) (ts : List Ref) (v : Vm) (r : Ref) (w : Vm) (tr : List Event) : Prop
  | answer {b : Bool} : SeekArgs v ts → Gives W (.bool b) v r w tr → SeekRun W ts v r w tr
  | unfit : ¬ SeekArgs v ts → GivesError W v r w tr → SeekRun W ts v r w tr

/-- an octet as a C `char`, which is signed here -/
def OctetValue (n : Int) : Prop := -128 ≤ n ∧ n ≤ 127

/-- the arguments are a port and a number -/
def PortAndNumber (v : Vm) (ts : List Ref) (m : Int) : Prop := ∃ x y k, ts = [x, y] ∧ v.HasObj x (.port k) ∧ v.HasObj y (.int m)

/-- `(port-read port)`: an octet, or an error; `(port-read port n)`: a new vector of at most `n` octets -/
inductive ReadRun (W : World) (ts : List Ref) (v : Vm) (r : Ref) (w : Vm) (tr : List Event) : Prop
  | one {n : Int} : OnePort v ts → OctetValue n → Gives W (.int n) v r w tr → ReadRun W ts v r w tr
  | ended : OnePort v ts → GivesError W v r w tr → ReadRun W ts v r w tr
  | many {m : Int} {ns : List Int} : PortAndNumber v ts m → ns.length ≤ m.toNat → (∀ n ∈ ns, OctetValue n) → GivesVec W (ns.map .int) v r w tr → ReadRun W ts v r w tr
  | unfit : ¬ OnePort v ts → (∀ m, ¬ PortAndNumber v ts m) → GivesError W v r w tr → ReadRun W ts v r w tr

/-- Writing the value `x` writes `n` octets: a text the octets of its characters in UTF-8; an integer some; a vector what its elements write. -/
inductive WriteCount (v : Vm) : Ref → Int → Prop
  | int {x : Ref} {i n : Int} : v.HasObj x (.int i) → 0 ≤ n → WriteCount v x n
  | text {x : Ref} {s : Text} {n : Int} : v.HasObj x (.str s) ∨ v.HasObj x (.chr s) →
      (Spec.Clean s → n = Int.bmod (s.flatMap Spec.Utf8.encode).length (2 ^ 32)) → WriteCount v x n
  | vec {x : Ref} {xs : List Ref} {ns : List Int} : v.HasVec x xs → xs.length = ns.length → (∀ p ∈ xs.zip ns, WriteCount v p.1 p.2) → WriteCount v x ns.sum

/-- `(port-write port x)`: the number of octets, or an error (the port might not support writing, or writing might fail); always an error if the first argument
is no port, or if the second is, or is a vector with, something else than integers, characters, strings and vectors of these -/
inductive WriteRun (W : World) (ts : List Ref) (v : Vm) (r : Ref) (w : Vm) (tr : List Event) : Prop
  | written {p x : Ref} {k : Nat} {n : Int} : ts = [p, x] → v.HasObj p (.port k) → WriteCount v x n → Gives W (.int n) v r w tr → WriteRun W ts v r w tr
  | failed : GivesError W v r w tr → WriteRun W ts v r w tr

/-- `(host-get-command-line-arguments)` and `(host-get-environment-variables)`: a new vector of new strings -/
inductive HostRun (W : World) (ts : List Ref) (v : Vm) (r : Ref) (w : Vm) (tr : List Event) : Prop
  | texts {ss : List Text} : ts = [] → GivesVec W (ss.map .str) v r w tr → HostRun W ts v r w tr
  | unfit : ts ≠ [] → GivesError W v r w tr → HostRun W ts v r w tr

/-! ### Proofs -/

/-- nothing has happened but that there is a new value: an error, if `E`, or one for which `G` -/
def After (W : World) (v : Vm) (E : Prop) (G : Obj → Prop) (a : Option Ref) (u : Vm) (tr : List Event) : Prop :=
  tr = [] ∧ Vm.Step W nobody nobody v u ∧ ∀ r, a = some r → ¬ v.Old W r ∧ u.Old W r ∧
    ((E ∧ u.IsErr r) ∨ ∃ o, (∀ m l, o ≠ .err m l) ∧ G o ∧ u.HasObj r o)

section
variable {n : Nat} {h : Handler} {args env : Ref} {ts : List Ref} {v u : Vm} {E : Prop} {G : Obj → Prop}

theorem After.finish {Run : Ref → Vm → List Event → Prop} {a : Option Ref} {tr : List Event} (af : After W v E G a u tr)
    (hE : ∀ r w, E → GivesError W v r w [] → Run r w []) (hG : ∀ r w o, G o → Gives W o v r w [] → Run r w []) :
    KeepsBuiltins v u ∧ ∀ r w, a = some r → Ends u w → Run r w tr := by
  obtain ⟨rfl, g, h⟩ := af
  refine ⟨keeps_of_quiet g.quiet, fun r w ha e => ?_⟩
  obtain ⟨h1, _, ⟨he, h2⟩ | ⟨o, ho, hg, h2⟩⟩ := h r ha
  · exact hE r w he ⟨rfl, g.quiet.trans g.sane0 e.quiet, h1, e.isErr h2⟩
  · exact hG r w o hg (c34_finish_aux ho g.sane0 g.quiet h1 h2 e)

theorem after_give (g : Vm.Step W nobody nobody v u) {o : Obj} (hp : ∀ P, PubObj P o) (ho : ∀ m l, o ≠ .err m l) (hG : G o) :
    Wp W n h (do let r ← Prog.alloc o; pure (some r)) u (After W v E G) := by
  refine wp_bind (wp_alloc g.sane fun r w a => wp_pure ?_)
  refine ⟨rfl, g.alloc a (hp _), ?_⟩
  rintro _ ⟨⟩
  exact ⟨fun h => a.fresh (h.mono g.quiet.births), a.old, .inr ⟨o, ho, hG, _, a.cell, rfl⟩⟩

theorem after_error (g : Vm.Step W nobody nobody v u) {s : String} (hE : E) : Wp W n h (Prog.error s) u (After W v E G) := by
  refine wps_error g fun r w t gw hp hm fr => ⟨rfl, gw, ?_⟩
  rintro _ ⟨⟩
  exact ⟨fun h => fr (h.mono g.quiet.births), hp.1, .inl ⟨hE, _, _, _, hm, rfl⟩⟩

/-- the argument is still what it was -/
theorem c65_back_aux (g : Vm.Step W nobody nobody v u) {x : Ref} {c : Cell} {o : Obj} (hx : v.Old W x) (hc : u.mem x = some c) (ho : c.obj = o)
    (ne : ∀ m l, o ≠ .err m l) : v.HasObj x o := g.quiet.hasObj (by simp [nobody]) hx ne ⟨c, hc, ho⟩

theorem c65_stepPop_aux (g : Vm.Step W nobody nobody v u) {r : Ref} {s : List Ref} (hs : u.stack = r :: s) :
    Vm.Step W nobody nobody v { u with stack := s } := g.pop hs

theorem _root_.Dern.Held.opened (k : Held W args ts env v) : Vm.Step W nobody nobody v v := .refl k.sane k.closed.all

theorem _root_.Dern.Held.pushed (k : Held W args ts env v) : Vm.Step W nobody nobody v { v with stack := args :: v.stack } := k.opened.push k.old

theorem c65_open_aux (k : Held W args ts env v) :
    Wp W n h (Prog.biFileOpen args env) v fun a u tr => KeepsBuiltins v u ∧ ∀ r w, a = some r → Ends u w → OpenRun W ts v r w tr := by
  unfold Prog.biFileOpen
  refine c34_first_aux k ?_
  match ts with
  | [] => exact (after_error (G := fun _ => False) k.opened trivial).mono fun _ _ _ h => h.finish (fun _ _ _ h => .unfit (by simp) h) (fun _ _ _ h => h.elim)
  | _ :: _ :: _ => exact (after_error (G := fun _ => False) k.opened trivial).mono fun _ _ _ h => h.finish (fun _ _ _ h => .unfit (by simp) h) (fun _ _ _ h => h.elim)
  | [x] =>
    refine wp_bind (wp_push (wp_bind (wp_read fun c hc => ?_)))
    have hc : v.mem x = some c := hc
    have g := k.pushed
    split
    · rename_i s ho
      unfold Prog.answerNat
      refine wp_bind (wp_bind (wp_text fun t => wp_pure (wp_bind (wp_alloc g.tick.sane fun r w a => wp_bind (wp_pop fun st hst => wp_pure ?_)))))
      have af : After W v False (fun o => ∃ k, o = .port k) (some r) { w with stack := st } [] := by
        refine ⟨rfl, (g.tick.alloc a trivial).pop hst, ?_⟩
        rintro _ ⟨⟩
        exact ⟨fun h => a.fresh (h.mono g.quiet.births), a.old, .inr ⟨_, by simp, ⟨_, rfl⟩, _, a.cell, rfl⟩⟩
      exact af.finish (fun _ _ h => h.elim) fun _ _ o ⟨k, e⟩ h => .port rfl ⟨c, hc, ho⟩ (e ▸ h)
    · exact wp_fail

theorem c65_ioOpen_aux (k : Held W args ts env v) :
    Wp W n h (Prog.biIoFileOpen args env) v fun a u tr => KeepsBuiltins v u ∧ ∀ r w, a = some r → Ends u w → IoOpenRun W ts v r w tr := by
  unfold Prog.biIoFileOpen
  refine c34_first_aux k ?_
  match ts with
  | [] => exact (after_error (G := fun _ => False) k.opened trivial).mono fun _ _ _ h => h.finish (fun _ _ _ h => .unfit (by simp) h) (fun _ _ _ h => h.elim)
  | _ :: _ :: _ => exact (after_error (G := fun _ => False) k.opened trivial).mono fun _ _ _ h => h.finish (fun _ _ _ h => .unfit (by simp) h) (fun _ _ _ h => h.elim)
  | [x] =>
    refine wp_bind (wp_push (wp_bind (wp_read fun c hc => ?_)))
    have hc : v.mem x = some c := hc
    have g := k.pushed
    split
    · rename_i s ho
      unfold Prog.answerNat Prog.answerBool
      refine wp_bind (wp_bind (wp_text fun t => wp_pure (wp_bind (wp_alloc g.tick.sane fun r w a => wp_bind (wp_bind (wp_text fun t' => wp_pure ?_))))))
      have gw := (g.tick.alloc a trivial).tick
      split
      · refine wp_bind (wp_pop fun st hst => wp_pure ?_)
        have af : After W v False (fun o => ∃ k, o = .port k) (some r) { w with ticks := w.ticks + 1, stack := st } [] := by
          refine ⟨rfl, gw.pop hst, ?_⟩
          rintro _ ⟨⟩
          exact ⟨fun h => a.fresh (h.mono g.quiet.births), a.old, .inr ⟨_, by simp, ⟨_, rfl⟩, _, a.cell, rfl⟩⟩
        exact af.finish (fun _ _ h => h.elim) fun _ _ o ⟨k, e⟩ h => .port rfl ⟨c, hc, ho⟩ (e ▸ h)
      · refine wp_bind ((after_error (E := True) (G := fun _ => False) gw trivial).mono fun b u tr h => wp_bind (wp_pop fun st hst => wp_pure ?_))
        obtain ⟨rfl, g', h⟩ := h
        have af : After W v True (fun _ => False) b { u with stack := st } [] := ⟨rfl, g'.pop hst, h⟩
        exact af.finish (fun _ _ _ h => .failed rfl ⟨c, hc, ho⟩ h) fun _ _ _ h => h.elim
    · exact wp_fail

theorem c65_int32_aux (i : Int) : Int32 (Int.bmod i (2 ^ 32)) := by
  unfold Int32 Int.bmod
  simp only
  split <;> omega

theorem c65_octet_aux (i : Int) : OctetValue (Int.bmod i (2 ^ 8)) := by
  unfold OctetValue Int.bmod
  simp only
  split <;> omega

theorem c65_ask_aux (k : Held W args ts env v) :
    Wp W n h (Prog.biPortAsk args env) v fun a u tr => KeepsBuiltins v u ∧ ∀ r w, a = some r → Ends u w → AskPortRun W ts v r w tr := by
  unfold Prog.biPortAsk
  refine c34_first_aux k ?_
  match ts with
  | [] => exact (after_error (E := True) (G := fun _ => False) k.opened trivial).mono fun _ _ _ h => h.finish (fun _ _ _ h => .unfit (by simp [OnePort]) h) (fun _ _ _ h => h.elim)
  | _ :: _ :: _ => exact (after_error (E := True) (G := fun _ => False) k.opened trivial).mono fun _ _ _ h => h.finish (fun _ _ _ h => .unfit (by simp [OnePort]) h) (fun _ _ _ h => h.elim)
  | [x] =>
    refine wp_bind (wp_push (wp_bind (wp_read fun c hc => ?_)))
    have hc : v.mem x = some c := hc
    have g := k.pushed
    split
    · rename_i j ho
      have hx : OnePort v [x] := ⟨x, j, rfl, c, hc, ho⟩
      unfold Prog.answerBool
      refine wp_bind (wp_bind (wp_text fun t => wp_pure (wp_bind (wp_pop fun st hst => ?_))))
      refine (after_give (E := False) (G := fun o => ∃ b, o = .bool b) (g.tick.pop hst) (by intro P; exact trivial) (by simp) ⟨_, rfl⟩).mono fun _ _ _ h => h.finish (fun _ _ h => h.elim) ?_
      rintro r w o ⟨b, rfl⟩ h
      exact .answer hx h
    · rename_i hno
      refine wp_bind (wp_pop fun st hst => ?_)
      refine (after_error (E := True) (G := fun _ => False) (g.pop hst) trivial).mono fun _ _ _ h => h.finish (fun _ _ _ h => .unfit ?_ h) (fun _ _ _ h => h.elim)
      rintro ⟨_, j, ⟨⟩, d, hd, hdo⟩
      obtain rfl := same_cell hc hd
      exact hno j hdo

theorem c65_close_aux (k : Held W args ts env v) :
    Wp W n h (Prog.biPortClose args env) v fun a u tr => KeepsBuiltins v u ∧ ∀ r w, a = some r → Ends u w → ClosePortRun W ts v r w tr := by
  unfold Prog.biPortClose
  refine c34_first_aux k ?_
  match ts with
  | [] => exact (after_error (E := True) (G := fun _ => False) k.opened trivial).mono fun _ _ _ h => h.finish (fun _ _ _ h => .unfit (by simp) h) (fun _ _ _ h => h.elim)
  | _ :: _ :: _ => exact (after_error (E := True) (G := fun _ => False) k.opened trivial).mono fun _ _ _ h => h.finish (fun _ _ _ h => .unfit (by simp) h) (fun _ _ _ h => h.elim)
  | [x] =>
    refine wp_bind (wp_push (wp_bind (wp_read fun c hc => ?_)))
    have hc : v.mem x = some c := hc
    have g := k.pushed
    split
    · rename_i j ho
      have hx : OnePort v [x] := ⟨x, j, rfl, c, hc, ho⟩
      unfold Prog.answerBool
      refine wp_bind (wp_bind (wp_text fun t => wp_pure (wp_bind (wp_pop fun st hst => ?_))))
      refine (after_give (E := False) (G := fun o => ∃ b, o = .bool b) (g.tick.pop hst) (by intro P; exact trivial) (by simp) ⟨_, rfl⟩).mono fun _ _ _ h => h.finish (fun _ _ h => h.elim) ?_
      rintro r w o ⟨b, rfl⟩ h
      exact .answer hx h
    · exact wp_fail

theorem c65_number_aux (k : Held W args ts env v) :
    Wp W n h (Prog.biPortNumber args env) v fun a u tr => KeepsBuiltins v u ∧ ∀ r w, a = some r → Ends u w → PortNumberRun W ts v r w tr := by
  unfold Prog.biPortNumber
  refine c34_first_aux k ?_
  match ts with
  | [] => exact (after_error (E := True) (G := fun _ => False) k.opened trivial).mono fun _ _ _ h => h.finish (fun _ _ _ h => .unfit (by simp [OnePort]) h) (fun _ _ _ h => h.elim)
  | _ :: _ :: _ => exact (after_error (E := True) (G := fun _ => False) k.opened trivial).mono fun _ _ _ h => h.finish (fun _ _ _ h => .unfit (by simp [OnePort]) h) (fun _ _ _ h => h.elim)
  | [x] =>
    refine wp_bind (wp_push (wp_bind (wp_read fun c hc => ?_)))
    have hc : v.mem x = some c := hc
    have g := k.pushed
    split
    · rename_i j ho
      have hx : OnePort v [x] := ⟨x, j, rfl, c, hc, ho⟩
      unfold Prog.answerInt Prog.answerNat
      refine wp_bind (wp_bind (wp_bind (wp_text fun t => wp_pure (wp_pure (wp_bind (wp_pop fun st hst => ?_))))))
      refine (after_give (E := False) (G := fun o => ∃ n, Int32 n ∧ o = .int n) (g.tick.pop hst) (by intro P; exact trivial) (by simp) ⟨_, c65_int32_aux _, rfl⟩).mono fun _ _ _ h => h.finish (fun _ _ h => h.elim) ?_
      rintro r w o ⟨m, hm, rfl⟩ h
      exact .number hx hm h
    · rename_i hno
      refine wp_bind (wp_pop fun st hst => ?_)
      refine (after_error (E := True) (G := fun _ => False) (g.pop hst) trivial).mono fun _ _ _ h => h.finish (fun _ _ _ h => .unfit ?_ h) (fun _ _ _ h => h.elim)
      rintro ⟨_, j, ⟨⟩, d, hd, hdo⟩
      obtain rfl := same_cell hc hd
      exact hno j hdo

theorem c65_seek_aux (k : Held W args ts env v) :
    Wp W n h (Prog.biPortSeek args env) v fun a u tr => KeepsBuiltins v u ∧ ∀ r w, a = some r → Ends u w → SeekRun W ts v r w tr := by
  unfold Prog.biPortSeek
  refine c34_first_aux k ?_
  have bad : ∀ {u : Vm} {s : String}, Vm.Step W nobody nobody v u → ¬ SeekArgs v ts →
      Wp W n h (Prog.error s) u fun a u tr => KeepsBuiltins v u ∧ ∀ r w, a = some r → Ends u w → SeekRun W ts v r w tr := fun g hno =>
    (after_error (E := True) (G := fun _ => False) g trivial).mono fun _ _ _ h => h.finish (fun _ _ _ h => .unfit hno h) (fun _ _ _ h => h.elim)
  match ts with
  | [] => exact bad k.opened (by simp [SeekArgs])
  | [_] => exact bad k.opened (by simp [SeekArgs])
  | x :: y :: zs =>
    by_cases hz : zs.length ≤ 1
    · simp only [if_pos hz]
      refine wp_bind (wp_push (wp_bind (wp_read fun c hc => ?_)))
      have hc : v.mem x = some c := hc
      have g := k.pushed
      split
      · rename_i j ho
        refine wp_bind (wp_read fun d hd => ?_)
        have hd : v.mem y = some d := hd
        split
        · rename_i m hdo
          have good : ∀ {P : Prog (Option Ref)} {u : Vm}, SeekArgs v (x :: y :: zs) → Vm.Step W nobody nobody v u →
              Wp W n h (do let b ← Prog.answerBool "seek"; Prog.pop args; let r ← Prog.alloc (.bool b); pure (some r)) u
                fun a u tr => KeepsBuiltins v u ∧ ∀ r w, a = some r → Ends u w → SeekRun W (x :: y :: zs) v r w tr := by
            intro _ u hs g
            unfold Prog.answerBool
            refine wp_bind (wp_bind (wp_text fun t => wp_pure (wp_bind (wp_pop fun st hst => ?_))))
            refine (after_give (E := False) (G := fun o => ∃ b, o = .bool b) (g.tick.pop hst) (by intro P; exact trivial) (by simp) ⟨_, rfl⟩).mono fun _ _ _ h =>
              h.finish (fun _ _ h => h.elim) ?_
            rintro r w o ⟨b, rfl⟩ h
            exact .answer hs h
          match zs with
          | [] => exact good (P := pure none) ⟨x, y, [], j, m, rfl, ⟨c, hc, ho⟩, ⟨d, hd, hdo⟩, by simp, by simp⟩ g
          | z :: zs =>
            refine wp_bind (wp_read fun f hf => ?_)
            have hf : v.mem z = some f := hf
            have hzs : zs = [] := by simpa using hz
            subst hzs
            split
            · rename_i s hfo
              exact good (P := pure none) ⟨x, y, [z], j, m, rfl, ⟨c, hc, ho⟩, ⟨d, hd, hdo⟩, by simp, by simpa using ⟨s, f, hf, hfo⟩⟩ g
            · rename_i hno
              refine wp_bind (wp_pop fun st hst => bad (g.pop hst) ?_)
              rintro ⟨_, _, _, _, _, ⟨⟩, _, _, _, h⟩
              obtain ⟨s, f', hf', hfo⟩ := h z (by simp)
              obtain rfl := same_cell hf hf'
              exact hno s hfo
        · rename_i hno
          refine wp_bind (wp_pop fun st hst => bad (g.pop hst) ?_)
          rintro ⟨_, _, _, _, m, ⟨⟩, _, ⟨d', hd', hdo⟩, _⟩
          obtain rfl := same_cell hd hd'
          exact hno m hdo
      · rename_i hno
        refine wp_bind (wp_pop fun st hst => bad (g.pop hst) ?_)
        rintro ⟨_, _, _, j, _, ⟨⟩, ⟨d', hd', hdo⟩, _⟩
        obtain rfl := same_cell hc hd'
        exact hno j hdo
    · simp only [if_neg hz]
      refine bad k.opened ?_
      rintro ⟨_, _, _, _, _, ⟨⟩, _, _, h, _⟩
      exact hz h

/-! #### new vectors -/

/-- one more value in a new vector -/
theorem c65_put_aux {r x : Ref} {os : List Obj} {o : Obj} {w : Vm} (b : Building W nobody v r os u) (ho : ∀ P, PubObj P o) (a : Allocated W u o x w)
    {c : Cell} {es : List Ref} (hc : w.mem r = some c) (ho' : c.obj = .vec es) :
    Building W nobody v r (os ++ [o]) { w with mem := w.mem.set r { c with obj := .vec (es ++ [x]) } } := by
  obtain ⟨es', ⟨c', hc', ho''⟩, nd, hes⟩ := b.elems
  have hne : r ≠ x := by rintro rfl; exact a.fresh (b.step.sane.old _ _ hc')
  have kr : u.Kept r := .root b.top
  obtain rfl : c' = c := same_cell hc' (by rw [← a.kept r kr hne]; exact hc)
  rw [ho''] at ho'; cases ho'
  have ke : ∀ z ∈ es, u.Kept z := fun z hz => .step kr ⟨c', hc', by simpa [Cell.edges, ho'', Obj.children] using .inr hz⟩
  have gw := b.step.alloc a (ho _)
  have hfx : ¬ v.Old W x := fun h => a.fresh (h.mono b.step.quiet.births)
  have pub := gw.closed.pub r c' hc b.known
  have old : ∀ z ∈ es, u.Old W z := fun z hz => by
    have := (b.step.closed.pub r c' hc' b.known).obj
    rw [ho''] at this
    exact (this z hz).1
  have hxe : x ∉ es := fun h => a.fresh (old x h)
  have hp' : PubCell (w.Pub W nobody) { c' with obj := .vec (es ++ [x]) } := by
    refine ⟨?_, pub.docstr, pub.docvec⟩
    intro z hz
    rcases List.mem_append.mp hz with hz | hz
    · have := pub.obj
      rw [ho''] at this
      exact this z hz
    · simp at hz; subst hz; exact a.pub b.step.closed
  refine ⟨gw.modify (.inr b.fresh) hc rfl rfl hp', ?_, b.fresh, b.known, es ++ [x], ⟨_, Mem.set_self .., rfl⟩, ?_, ?_⟩
  · show r ∈ w.stack
    rw [a.stack]; exact b.top
  · have : r :: (es ++ [x]) = (r :: es) ++ [x] := rfl
    rw [this, List.nodup_append]
    refine ⟨nd, by simp, ?_⟩
    intro y hy z hz
    simp at hz; subst hz
    rcases List.mem_cons.mp hy with rfl | hy
    · exact hne
    · rintro rfl; exact hxe hy
  · refine forall₂_snoc (forall₂_imp hes ?_) ⟨hfx, { obj := o, uid := u.nextUid }, ?_, rfl⟩
    · rintro z o' hz ⟨h1, d, hd, hdo⟩
      have hzr : z ≠ r := fun e => (List.nodup_cons.mp nd).1 (e ▸ hz)
      have hzx : z ≠ x := fun e => hxe (e ▸ hz)
      exact ⟨h1, d, by rw [← hd, ← a.kept z (ke z hz) hzx]; exact Mem.set_other _ _ hzr, hdo⟩
    · rw [← a.cell]; exact Mem.set_other _ _ (Ne.symm hne)

theorem Building.ticked {r : Ref} {os : List Obj} (b : Building W nobody v r os u) : Building W nobody v r os { u with ticks := u.ticks + 1 } :=
  ⟨b.step.tick, b.top, b.fresh, b.known, b.elems⟩

theorem c65_octets_aux {r : Ref} : ∀ (m : Nat) (u : Vm) (ns : List Int), Building W nobody v r (ns.map .int) u → (∀ n ∈ ns, OctetValue n) →
    Wp W n h (Prog.readOctets r m) u fun _ w tr => tr = [] ∧ w.stack = u.stack ∧ ∃ ns' : List Int, Building W nobody v r (ns'.map .int) w ∧ (∀ n ∈ ns', OctetValue n) ∧
      ns'.length ≤ ns.length + m
  | 0, u, ns, b, hn => wp_pure ⟨rfl, rfl, ns, b, hn, by simp⟩
  | m + 1, u, ns, b, hn => by
    unfold Prog.readOctets Prog.answerBool Prog.answerNat
    refine wp_bind (wp_bind (wp_text fun t => wp_pure ?_))
    split
    · refine wp_bind (wp_bind (wp_text fun t' => wp_pure (wp_bind (wp_alloc b.ticked.ticked.step.sane fun x w a => wp_bind (wp_push (wp_bind (wp_append fun c es hc ho =>
        wp_bind (wp_pop fun st hst => ?_))))))))
      have b' := c65_put_aux b.ticked.ticked (by intro P; exact trivial) a hc ho
      have est : st = w.stack := (List.cons.inj hst).2.symm
      subst est
      refine Wp.mono (c65_octets_aux m _ (ns ++ [Int.bmod t'.length (2 ^ 8)]) (by rw [List.map_append]; exact b') ?_) ?_
      · intro n hn'
        rcases List.mem_append.mp hn' with h | h
        · exact hn n h
        · rw [List.mem_singleton.mp h]; exact c65_octet_aux _
      · rintro _ w' tr ⟨rfl, hs, ns', h1, h2, h3⟩
        refine ⟨rfl, hs.trans a.stack, ns', h1, h2, ?_⟩
        simp at h3; omega
    · exact wp_pure ⟨rfl, rfl, ns, b.ticked, hn, by omega⟩

theorem c65_texts_aux {r : Ref} : ∀ (m : Nat) (u : Vm) (ss : List Text), Building W nobody v r (ss.map .str) u →
    Wp W n h (Prog.hostTexts r m) u fun _ w tr => tr = [] ∧ w.stack = u.stack ∧ ∃ ss' : List Text, Building W nobody v r (ss'.map .str) w
  | 0, u, ss, b => wp_pure ⟨rfl, rfl, ss, b⟩
  | m + 1, u, ss, b => by
    unfold Prog.hostTexts
    refine wp_bind (wp_text fun t => ?_)
    refine b.ticked.put (by intro P; exact trivial) fun w bw hs => ?_
    refine Wp.mono (c65_texts_aux m w (ss ++ [t]) (by rw [List.map_append]; exact bw)) ?_
    rintro _ w' tr ⟨rfl, hs', h⟩
    exact ⟨rfl, hs'.trans hs, h⟩

theorem c65_read_aux (k : Held W args ts env v) :
    Wp W n h (Prog.biPortRead args env) v fun a u tr => KeepsBuiltins v u ∧ ∀ r w, a = some r → Ends u w → ReadRun W ts v r w tr := by
  unfold Prog.biPortRead
  refine c34_first_aux k ?_
  have bad : ∀ {u : Vm} {s : String}, Vm.Step W nobody nobody v u → ¬ OnePort v ts → (∀ m, ¬ PortAndNumber v ts m) →
      Wp W n h (Prog.error s) u fun a u tr => KeepsBuiltins v u ∧ ∀ r w, a = some r → Ends u w → ReadRun W ts v r w tr := fun g h1 h2 =>
    (after_error (E := True) (G := fun _ => False) g trivial).mono fun _ _ _ h => h.finish (fun _ _ _ h => .unfit h1 h2 h) (fun _ _ _ h => h.elim)
  match ts with
  | [] => exact bad k.opened (by simp [OnePort]) (by simp [PortAndNumber])
  | x :: ys =>
    by_cases hz : ys.length ≤ 1
    · simp only [if_pos hz]
      refine wp_bind (wp_push (wp_bind (wp_read fun c hc => ?_)))
      have hc : v.mem x = some c := hc
      have g := k.pushed
      split
      · rename_i j ho
        have hx : v.HasObj x (.port j) := ⟨c, hc, ho⟩
        match ys with
        | [] =>
          unfold Prog.answerBool Prog.answerNat
          have one : OnePort v [x] := ⟨x, j, rfl, hx⟩
          refine wp_bind (wp_bind (wp_text fun t => wp_pure ?_))
          split
          · refine wp_bind (wp_bind (wp_text fun t' => wp_pure (wp_bind (wp_alloc g.tick.tick.sane fun r w a => wp_bind (wp_pop fun st hst => wp_pure ?_)))))
            have af : After W v False (fun o => ∃ n, OctetValue n ∧ o = .int n) (some r) { w with stack := st } [] := by
              refine ⟨rfl, (g.tick.tick.alloc a trivial).pop hst, ?_⟩
              rintro _ ⟨⟩
              exact ⟨fun h => a.fresh (h.mono g.quiet.births), a.old, .inr ⟨_, by simp, ⟨_, c65_octet_aux _, rfl⟩, _, a.cell, rfl⟩⟩
            exact af.finish (fun _ _ h => h.elim) fun _ _ o ⟨m, hm, e⟩ h => .one one hm (e ▸ h)
          · refine wp_bind (wp_pop fun st hst => ?_)
            exact (after_error (E := True) (G := fun _ => False) (g.tick.pop hst) trivial).mono fun _ _ _ h => h.finish (fun _ _ _ h => .ended one h) (fun _ _ _ h => h.elim)
        | y :: ys =>
          have hzs : ys = [] := by simpa using hz
          subst hzs
          refine wp_bind (wp_read fun d hd => ?_)
          have hd : v.mem y = some d := hd
          split
          · rename_i m hdo
            refine wp_bind (wp_alloc g.sane fun r w a => wp_bind (wp_push ?_))
            have b0 := Building.start g a
            refine wp_bind ((c65_octets_aux m.toNat _ [] b0 (by simp)).mono ?_)
            rintro _ w' tr ⟨rfl, hs, ns, b, hn, hl⟩
            refine wp_bind (wp_pop fun st hst => wp_bind (wp_pop fun st' hst' => wp_pure ?_))
            refine ⟨keeps_mem b.step.quiet rfl, ?_⟩
            rintro _ w2 ⟨⟩ e
            have e' : Ends w' w2 := (Ends.pop (s := st')).trans e
            refine .many ⟨x, y, j, rfl, hx, d, hd, hdo⟩ (by simpa using hl) hn (b.finish ?_ e')
            intro o ho
            obtain ⟨i, _, rfl⟩ := List.mem_map.mp ho
            simp
          · rename_i hno
            refine wp_bind (wp_pop fun st hst => bad (g.pop hst) (by simp [OnePort]) ?_)
            rintro m ⟨_, _, _, ⟨⟩, _, d', hd', hdo⟩
            obtain rfl := same_cell hd hd'
            exact hno m hdo
      · rename_i hno
        refine wp_bind (wp_pop fun st hst => bad (g.pop hst) ?_ ?_)
        · rintro ⟨_, j, ⟨⟩, d', hd', hdo⟩
          obtain rfl := same_cell hc hd'
          exact hno j hdo
        · rintro m ⟨_, _, j, ⟨⟩, ⟨d', hd', hdo⟩, _⟩
          obtain rfl := same_cell hc hd'
          exact hno j hdo
    · simp only [if_neg hz]
      refine bad k.opened ?_ ?_
      · rintro ⟨_, _, ⟨⟩, _⟩; simp at hz
      · rintro m ⟨_, _, _, ⟨⟩, _⟩; simp at hz

theorem c65_host_aux (k : Held W args ts env v) :
    Wp W n h (Prog.biHost args env) v fun a u tr => KeepsBuiltins v u ∧ ∀ r w, a = some r → Ends u w → HostRun W ts v r w tr := by
  unfold Prog.biHost
  refine c34_first_aux k ?_
  match ts with
  | _ :: _ => exact (after_error (E := True) (G := fun _ => False) k.opened trivial).mono fun _ _ _ h => h.finish (fun _ _ _ h => .unfit (by simp) h) (fun _ _ _ h => h.elim)
  | [] =>
    unfold Prog.answerNat
    refine wp_bind (wp_alloc k.sane fun r w a => wp_bind (wp_push (wp_bind (wp_bind (wp_text fun t => wp_pure ?_)))))
    have b0 := (Building.start k.opened a).ticked
    refine wp_bind ((c65_texts_aux _ _ [] b0).mono ?_)
    rintro _ w' tr ⟨rfl, hs, ss, b⟩
    refine wp_bind (wp_pop fun st hst => wp_pure ?_)
    refine ⟨keeps_mem b.step.quiet rfl, ?_⟩
    rintro _ w2 ⟨⟩ e
    have e' : Ends w' w2 := (Ends.pop (s := st)).trans e
    refine .texts rfl (b.finish ?_ e')
    intro o ho
    obtain ⟨i, _, rfl⟩ := List.mem_map.mp ho
    simp

/-! #### writing -/

theorem c65_append_aux {tmp x : Ref} (g : Vm.Step W nobody nobody v u) (fr : ¬ v.Old W tmp) (hx : u.Old W x) {c : Cell} {es : List Ref}
    (hc : u.mem tmp = some c) (ho : c.obj = .vec es) : Vm.Step W nobody nobody v { u with mem := u.mem.set tmp { c with obj := .vec (es ++ [x]) } } := by
  have pub := g.closed.pub tmp c hc (by simp [nobody])
  refine g.modify (.inr fr) hc rfl rfl ⟨?_, pub.docstr, pub.docvec⟩
  intro z hz
  rcases List.mem_append.mp hz with hz | hz
  · have := pub.obj
    rw [ho] at this
    exact this z hz
  · rw [List.mem_singleton.mp hz]; exact ⟨hx, by simp [nobody]⟩

theorem c65_length_aux (s : Text) (hs : Spec.Clean s) : (ensureOctets s).length - 1 = (s.flatMap Spec.Utf8.encode).length := by
  have hp : ∀ c ∈ s, PrintCh c := hs
  rw [ensureOctets_eq s hp, ← octetsOf_map s hp]
  simp

theorem c65_text_aux (g : Vm.Step W nobody nobody v u) {x : Ref} {s : Text} {G : Obj → Prop} (hG : ∀ n, (Spec.Clean s → n = Int.bmod (s.flatMap Spec.Utf8.encode).length (2 ^ 32)) →
    G (.int n)) : Wp W n h (Prog.writeText x s) u (After W v True G) := by
  unfold Prog.writeText
  split
  · exact wp_fail
  · refine wp_bind (wp_answerBool fun b => ?_)
    split
    · refine wp_bind (wp_pop fun st hst => ?_)
      refine after_give (g.tick.pop hst) (by intro P; exact trivial) (by simp) (hG _ fun hs => ?_)
      rw [c65_length_aux s hs]
    · exact wp_bind (wp_pop fun st hst => after_error (g.tick.pop hst) trivial)

/-- the arguments of `port-write`, and the number of octets -/
def Written (v : Vm) (es : List Ref) (o : Obj) : Prop := ∃ p x k n, es = [p, x] ∧ v.HasObj p (.port k) ∧ WriteCount v x n ∧ o = .int n

theorem c65_elements_aux (cv : v.Closed W nobody) {write : Ref → Prog (Option Ref)} {port : Ref} (hp : v.Old W port)
    (hw : ∀ {tmp : Ref} {x : Ref} {u : Vm}, Vm.Step W nobody nobody v u → u.Old W tmp → v.Old W x → u.HasVec tmp [port, x] →
      Wp W n h (write tmp) u (After W v True (Written v [port, x]))) : ∀ (xs : List Ref) (m : Int) (u : Vm), Vm.Step W nobody nobody v u → (∀ x ∈ xs, v.Old W x) →
    Wp W n h (Prog.writeElements write args port xs m) u (After W v True fun o => ∃ ns : List Int, xs.length = ns.length ∧ (∀ p ∈ xs.zip ns, WriteCount v p.1 p.2) ∧ o = .int (m + ns.sum))
  | [], m, u, g, _ => by
    unfold Prog.writeElements
    refine wp_bind (wp_pop fun st hst => ?_)
    exact after_give (g.pop hst) (by intro P; exact trivial) (by simp) ⟨[], rfl, by simp, by simp⟩
  | x :: xs, m, u, g, hxs => by
    unfold Prog.writeElements
    refine wp_bind (wp_alloc g.sane fun tmp w a => wp_bind (wp_push (wp_bind (wp_append fun c es hc ho => wp_bind (wp_append fun c' es' hc' ho' => ?_)))))
    have hc : w.mem tmp = some c := hc
    obtain rfl := same_cell a.cell hc
    cases ho
    have fr : ¬ v.Old W tmp := fun h => a.fresh (h.mono g.quiet.births)
    have hc' : (w.mem.set tmp { obj := .vec ([] ++ [port]), uid := u.nextUid }) tmp = some c' := hc'
    rw [Mem.set_self] at hc'
    cases hc'
    cases ho'
    have g1 := (g.alloc a (by simp [PubObj])).push a.old
    have g2 := c65_append_aux (x := port) g1 fr (hp.mono g1.quiet.births) a.cell rfl
    have g3 := c65_append_aux (x := x) g2 fr ((hxs x (by simp)).mono g2.quiet.births) (Mem.set_self ..) rfl
    refine wp_bind ((hw (tmp := tmp) (x := x) g3 a.old (hxs x (by simp)) ⟨_, Mem.set_self .., rfl⟩).mono ?_)
    rintro b u1 tr ⟨rfl, g4, hb⟩
    refine wp_bind (wp_pop fun st hst => ?_)
    have g5 := g4.pop hst
    cases b with
    | none => exact wp_bind wp_fail
    | some b =>
      refine wp_bind (wp_pure (wp_bind (wp_read fun d hd => ?_)))
      have hd : u1.mem b = some d := hd
      obtain ⟨h1, h2, h3⟩ := hb b rfl
      split
      · rename_i msg l hdo
        refine wp_bind (wp_pop fun st' hst' => wp_pure ?_)
        refine ⟨rfl, g5.pop hst', ?_⟩
        rintro _ ⟨⟩
        exact ⟨h1, h2, .inl ⟨trivial, msg, l, d, hd, hdo⟩⟩
      · rename_i i hdo
        refine wp_bind (wp_int32 fun hi => ?_)
        refine (c65_elements_aux cv hp hw xs (m + i) _ g5 fun z hz => hxs z (by simp [hz])).mono ?_
        rintro a' u2 tr ⟨rfl, g6, h6⟩
        refine ⟨rfl, g6, fun r hr => ?_⟩
        obtain ⟨h7, h8, h9⟩ := h6 r hr
        refine ⟨h7, h8, h9.imp id ?_⟩
        rintro ⟨o, ho, ⟨ns, hl, hns, rfl⟩, hobj⟩
        rcases h3 with ⟨_, msg, l, d', hd', hdo'⟩ | ⟨o', _, ⟨p, x', j, k, he, _, hcount, rfl⟩, d', hd', hdo'⟩
        · obtain rfl := same_cell hd hd'
          rw [hdo] at hdo'; cases hdo'
        · obtain rfl := same_cell hd hd'
          rw [hdo] at hdo'; cases hdo'
          simp only [List.cons.injEq, and_true] at he
          obtain ⟨rfl, rfl⟩ := he
          refine ⟨_, by simp, ⟨i :: ns, by simp [hl], ?_, ?_⟩, hobj⟩
          · intro q hq
            rcases List.mem_cons.mp hq with rfl | hq
            · exact hcount
            · exact hns q hq
          · simp [Int.add_assoc]
      · exact wp_fail

theorem c65_writeIn_aux (cv : v.Closed W nobody) : ∀ (d : Nat) {args : Ref} {es : List Ref} {u : Vm}, Vm.Step W nobody nobody v u → u.Old W args → (∀ x ∈ es, v.Old W x) →
    (u.HasVec args es ∨ u.mem args = none) → Wp W n h (Prog.biPortWrite d args env) u (After W v True (Written v es))
  | 0, _, _, _, _, _, _, _ => wp_fail
  | d + 1, args, es, u, g, oa, oe, hv => by
    unfold Prog.biPortWrite
    refine wp_bind (wp_verifyVec_vec hv fun _ => wp_bind (wp_verifyEnv fun _ => ?_))
    match es with
    | [] => exact after_error g trivial
    | [_] => exact after_error g trivial
    | _ :: _ :: _ :: _ => exact after_error g trivial
    | [port, x] =>
      refine wp_bind (wp_push (wp_bind (wp_read fun c hc => ?_)))
      have hc : u.mem port = some c := hc
      have g1 := g.push oa
      split
      · rename_i j ho
        have hport := c65_back_aux g (oe port (by simp)) hc ho (by simp)
        refine wp_bind (wp_answerBool fun b => ?_)
        have g2 := g1.tick
        split
        · refine wp_bind (wp_read fun f hf => ?_)
          have hf : u.mem x = some f := hf
          have ox := oe x (by simp)
          split
          · rename_i i hfo
            have hx := c65_back_aux g ox hf hfo (by simp)
            unfold Prog.answerInt Prog.answerNat
            refine wp_bind (wp_bind (wp_bind (wp_text fun t => wp_pure (wp_pure ?_))))
            split
            · exact wp_fail
            · rename_i hneg
              refine wp_bind (wp_pop fun st hst => ?_)
              exact after_give (g2.tick.pop hst) (by intro P; exact trivial) (by simp) ⟨port, x, j, _, rfl, hport, .int hx (by omega), rfl⟩
          · rename_i s hfo
            have hx := c65_back_aux g ox hf hfo (by simp)
            exact c65_text_aux g2 fun m hm => ⟨port, x, j, m, rfl, hport, .text (.inr hx) hm, rfl⟩
          · rename_i s hfo
            have hx := c65_back_aux g ox hf hfo (by simp)
            exact c65_text_aux g2 fun m hm => ⟨port, x, j, m, rfl, hport, .text (.inl hx) hm, rfl⟩
          · rename_i xs hfo
            have hx : v.HasVec x xs := c65_back_aux g ox hf hfo (by simp)
            have oxs : ∀ z ∈ xs, v.Old W z := by
              obtain ⟨c0, hc0, ho0⟩ := hx
              intro z hz
              have := (cv.cells x c0 hc0).obj
              rw [ho0] at this
              exact this z hz
            refine (c65_elements_aux cv (oe port (by simp)) (fun g' ot ox' hv' => c65_writeIn_aux cv d g' ot (by simpa using ⟨oe port (by simp), ox'⟩) (.inl hv')) xs 0 _ g2 oxs).mono ?_
            rintro a' u2 tr ⟨rfl, g6, h6⟩
            refine ⟨rfl, g6, fun r hr => ?_⟩
            obtain ⟨h7, h8, h9⟩ := h6 r hr
            refine ⟨h7, h8, h9.imp id ?_⟩
            rintro ⟨o, ho, ⟨ns, hl, hns, rfl⟩, hobj⟩
            exact ⟨_, ho, ⟨port, x, j, _, rfl, hport, .vec hx hl hns, by simp⟩, hobj⟩
          · exact wp_bind (wp_pop fun st hst => after_error (g2.pop hst) trivial)
        · exact wp_bind (wp_pop fun st hst => after_error (g2.pop hst) trivial)
      · exact wp_bind (wp_pop fun st hst => after_error (g1.pop hst) trivial)

theorem c65_write_aux (d : Nat) (k : Held W args ts env v) :
    Wp W n h (Prog.biPortWrite d args env) v fun a u tr => KeepsBuiltins v u ∧ ∀ r w, a = some r → Ends u w → WriteRun W ts v r w tr := by
  refine (c65_writeIn_aux k.closed.all d k.opened k.old (fun x hx => (k.pub x hx).1) k.vec).mono fun _ _ _ h => h.finish (fun _ _ _ h => .failed h) ?_
  rintro r w o ⟨p, x, j, m, rfl, h1, h2, rfl⟩ h
  exact .written rfl h1 h2 h

end

/-! ### Theorems -/

/-- opening a file gives a new port -/
theorem c65_open {ct : Ctype} {bound : Nat} {v w : Vm} (rv : v.Reached W (Prog.outsideLibrary ct bound)) {form env op : Ref} {name : Text} {xs : List Ref}
    {b : String} (hb : b ∈ ["input-file-open", "output-file-open"]) (nc : NamedCall W v form env name op xs) (hop : v.HasObj op (.builtin (.other b)))
    {r : Option Ref} {tr : List Event} (ev : Evaluates W (Prog.outsideLibrary ct bound) v form env r w tr) :
    NamedOpCall W (ArgumentsFirst W form env (Runs (.other b) op (OpenRun W))) v env op r w tr := by
  simp only [List.mem_cons, List.not_mem_nil, or_false] at hb
  rcases hb with rfl | rfl <;>
    exact namedBuiltin_aux (Prog.outsideLibrary_safe ct bound) (by simp) (fun _ _ _ _ _ _ _ k => c65_open_aux k) rv nc hop ev

/-- the same for input and output, or an error -/
theorem c65_io_open {ct : Ctype} {bound : Nat} {v w : Vm} (rv : v.Reached W (Prog.outsideLibrary ct bound)) {form env op : Ref} {name : Text} {xs : List Ref}
    (nc : NamedCall W v form env name op xs) (hop : v.HasObj op (.builtin (.other "io-file-open"))) {r : Option Ref} {tr : List Event}
    (ev : Evaluates W (Prog.outsideLibrary ct bound) v form env r w tr) :
    NamedOpCall W (ArgumentsFirst W form env (Runs (.other "io-file-open") op (IoOpenRun W))) v env op r w tr :=
  namedBuiltin_aux (Prog.outsideLibrary_safe ct bound) (by simp) (fun _ _ _ _ _ _ _ k => c65_ioOpen_aux k) rv nc hop ev

/-- questions about ports, and flushing them -/
theorem c65_ask {ct : Ctype} {bound : Nat} {v w : Vm} (rv : v.Reached W (Prog.outsideLibrary ct bound)) {form env op : Ref} {name : Text} {xs : List Ref}
    {b : String} (hb : b ∈ ["port-supports-output?", "port-supports-input?", "port-flush"]) (nc : NamedCall W v form env name op xs) (hop : v.HasObj op (.builtin (.other b)))
    {r : Option Ref} {tr : List Event} (ev : Evaluates W (Prog.outsideLibrary ct bound) v form env r w tr) :
    NamedOpCall W (ArgumentsFirst W form env (Runs (.other b) op (AskPortRun W))) v env op r w tr := by
  simp only [List.mem_cons, List.not_mem_nil, or_false] at hb
  rcases hb with rfl | rfl | rfl <;>
    exact namedBuiltin_aux (Prog.outsideLibrary_safe ct bound) (by simp) (fun _ _ _ _ _ _ _ k => c65_ask_aux k) rv nc hop ev

/-- closing a port -/
theorem c65_close {ct : Ctype} {bound : Nat} {v w : Vm} (rv : v.Reached W (Prog.outsideLibrary ct bound)) {form env op : Ref} {name : Text} {xs : List Ref}
    (nc : NamedCall W v form env name op xs) (hop : v.HasObj op (.builtin (.other "port-close"))) {r : Option Ref} {tr : List Event}
    (ev : Evaluates W (Prog.outsideLibrary ct bound) v form env r w tr) :
    NamedOpCall W (ArgumentsFirst W form env (Runs (.other "port-close") op (ClosePortRun W))) v env op r w tr :=
  namedBuiltin_aux (Prog.outsideLibrary_safe ct bound) (by simp) (fun _ _ _ _ _ _ _ k => c65_close_aux k) rv nc hop ev

/-- the position and the length -/
theorem c65_number {ct : Ctype} {bound : Nat} {v w : Vm} (rv : v.Reached W (Prog.outsideLibrary ct bound)) {form env op : Ref} {name : Text} {xs : List Ref}
    {b : String} (hb : b ∈ ["port-dist", "port-length"]) (nc : NamedCall W v form env name op xs) (hop : v.HasObj op (.builtin (.other b)))
    {r : Option Ref} {tr : List Event} (ev : Evaluates W (Prog.outsideLibrary ct bound) v form env r w tr) :
    NamedOpCall W (ArgumentsFirst W form env (Runs (.other b) op (PortNumberRun W))) v env op r w tr := by
  simp only [List.mem_cons, List.not_mem_nil, or_false] at hb
  rcases hb with rfl | rfl <;>
    exact namedBuiltin_aux (Prog.outsideLibrary_safe ct bound) (by simp) (fun _ _ _ _ _ _ _ k => c65_number_aux k) rv nc hop ev

/-- moving -/
theorem c65_seek {ct : Ctype} {bound : Nat} {v w : Vm} (rv : v.Reached W (Prog.outsideLibrary ct bound)) {form env op : Ref} {name : Text} {xs : List Ref}
    (nc : NamedCall W v form env name op xs) (hop : v.HasObj op (.builtin (.other "port-seek"))) {r : Option Ref} {tr : List Event}
    (ev : Evaluates W (Prog.outsideLibrary ct bound) v form env r w tr) :
    NamedOpCall W (ArgumentsFirst W form env (Runs (.other "port-seek") op (SeekRun W))) v env op r w tr :=
  namedBuiltin_aux (Prog.outsideLibrary_safe ct bound) (by simp) (fun _ _ _ _ _ _ _ k => c65_seek_aux k) rv nc hop ev

/-- reading octets -/
theorem c65_read {ct : Ctype} {bound : Nat} {v w : Vm} (rv : v.Reached W (Prog.outsideLibrary ct bound)) {form env op : Ref} {name : Text} {xs : List Ref}
    (nc : NamedCall W v form env name op xs) (hop : v.HasObj op (.builtin (.other "port-read"))) {r : Option Ref} {tr : List Event}
    (ev : Evaluates W (Prog.outsideLibrary ct bound) v form env r w tr) :
    NamedOpCall W (ArgumentsFirst W form env (Runs (.other "port-read") op (ReadRun W))) v env op r w tr :=
  namedBuiltin_aux (Prog.outsideLibrary_safe ct bound) (by simp) (fun _ _ _ _ _ _ _ k => c65_read_aux k) rv nc hop ev

/-- writing: the result is the number of octets that the value has in UTF-8 -/
theorem c65_write {ct : Ctype} {bound : Nat} {v w : Vm} (rv : v.Reached W (Prog.outsideLibrary ct bound)) {form env op : Ref} {name : Text} {xs : List Ref}
    (nc : NamedCall W v form env name op xs) (hop : v.HasObj op (.builtin (.other "port-write"))) {r : Option Ref} {tr : List Event}
    (ev : Evaluates W (Prog.outsideLibrary ct bound) v form env r w tr) :
    NamedOpCall W (ArgumentsFirst W form env (Runs (.other "port-write") op (WriteRun W))) v env op r w tr :=
  namedBuiltin_aux (Prog.outsideLibrary_safe ct bound) (by simp) (fun _ _ _ _ _ _ _ k => c65_write_aux _ k) rv nc hop ev

/-- the texts of the host -/
theorem c65_host {ct : Ctype} {bound : Nat} {v w : Vm} (rv : v.Reached W (Prog.outsideLibrary ct bound)) {form env op : Ref} {name : Text} {xs : List Ref}
    {b : String} (hb : b ∈ ["host-get-command-line-arguments", "host-get-environment-variables"]) (nc : NamedCall W v form env name op xs) (hop : v.HasObj op (.builtin (.other b)))
    {r : Option Ref} {tr : List Event} (ev : Evaluates W (Prog.outsideLibrary ct bound) v form env r w tr) :
    NamedOpCall W (ArgumentsFirst W form env (Runs (.other b) op (HostRun W))) v env op r w tr := by
  simp only [List.mem_cons, List.not_mem_nil, or_false] at hb
  rcases hb with rfl | rfl <;>
    exact namedBuiltin_aux (Prog.outsideLibrary_safe ct bound) (by simp) (fun _ _ _ _ _ _ _ k => c65_host_aux k) rv nc hop ev

/-! ### Examples -/

/-- names for the examples -/
def kit20 : List (String × Obj × Bool) := [("input-file-open", .builtin (.other "input-file-open"), true), ("io-file-open", .builtin (.other "io-file-open"), true), ("port-supports-input?", .builtin (.other "port-supports-input?"), true), ("port-close", .builtin (.other "port-close"), true), ("port-dist", .builtin (.other "port-dist"), true), ("port-seek", .builtin (.other "port-seek"), true), ("port-read", .builtin (.other "port-read"), true), ("port-write", .builtin (.other "port-write"), true), ("host-get-command-line-arguments", .builtin (.other "host-get-command-line-arguments"), true), ("quote", .special .quote, false)]

theorem kit20_plain : ∀ x ∈ kit20, x.2.1.children = [] := by decide

/-- a port -/
example : ∃ (v w : Vm) (form op : Ref) (xs : List Ref) (r : Option Ref) (tr : List Event), v.Reached (outWorld []) outLibrary ∧
    NamedCall (outWorld []) v form v.globalEnv (txt "input-file-open") op xs ∧ v.HasObj op (.builtin (.other "input-file-open")) ∧
    Evaluates (outWorld []) outLibrary v form v.globalEnv r w tr ∧ objAt w r = some (.port 0) := by
  obtain ⟨v, form, r, w, tr, hr, of, oe, ev, h⟩ := out_exists (answers := []) (table := kit20) (forms := []) (fuel := 40)
    (last := .vec [.sym "input-file-open", .str "a"])
    (P := fun v f r w tr => namedCheck v f "input-file-open" (.builtin (.other "input-file-open")) && decide (objAt w r = some (.port 0))) kit20_plain (by decide +kernel)
  simp only [Bool.and_eq_true, decide_eq_true_eq] at h
  obtain ⟨op, xs, h1, h2, h3⟩ := named_of_check h.1 of oe
  exact ⟨v, w, form, op, xs, r, tr, hr, h1, h2, ev, h.2⟩

/-- a file that cannot be opened -/
example : ∃ (v w : Vm) (form op : Ref) (xs : List Ref) (r : Option Ref) (tr : List Event), v.Reached (outWorld []) outLibrary ∧
    NamedCall (outWorld []) v form v.globalEnv (txt "io-file-open") op xs ∧ v.HasObj op (.builtin (.other "io-file-open")) ∧
    Evaluates (outWorld []) outLibrary v form v.globalEnv r w tr ∧ (objAt w r).any (fun o => match o with | .err _ _ => true | _ => false) = true := by
  obtain ⟨v, form, r, w, tr, hr, of, oe, ev, h⟩ := out_exists (answers := []) (table := kit20) (forms := []) (fuel := 40)
    (last := .vec [.sym "io-file-open", .str "a"])
    (P := fun v f r w tr => namedCheck v f "io-file-open" (.builtin (.other "io-file-open")) && decide ((objAt w r).any (fun o => match o with | .err _ _ => true | _ => false) = true)) kit20_plain (by decide +kernel)
  simp only [Bool.and_eq_true, decide_eq_true_eq] at h
  obtain ⟨op, xs, h1, h2, h3⟩ := named_of_check h.1 of oe
  exact ⟨v, w, form, op, xs, r, tr, hr, h1, h2, ev, h.2⟩

/-- a question -/
example : ∃ (v w : Vm) (form op : Ref) (xs : List Ref) (r : Option Ref) (tr : List Event), v.Reached (outWorld [("port", [1])]) outLibrary ∧
    NamedCall (outWorld [("port", [1])]) v form v.globalEnv (txt "port-supports-input?") op xs ∧ v.HasObj op (.builtin (.other "port-supports-input?")) ∧
    Evaluates (outWorld [("port", [1])]) outLibrary v form v.globalEnv r w tr ∧ objAt w r = some (.bool true) := by
  obtain ⟨v, form, r, w, tr, hr, of, oe, ev, h⟩ := out_exists (answers := [("port", [1])]) (table := kit20) (forms := []) (fuel := 40)
    (last := .vec [.sym "port-supports-input?", .vec [.sym "input-file-open", .str "a"]])
    (P := fun v f r w tr => namedCheck v f "port-supports-input?" (.builtin (.other "port-supports-input?")) && decide (objAt w r = some (.bool true))) kit20_plain (by decide +kernel)
  simp only [Bool.and_eq_true, decide_eq_true_eq] at h
  obtain ⟨op, xs, h1, h2, h3⟩ := named_of_check h.1 of oe
  exact ⟨v, w, form, op, xs, r, tr, hr, h1, h2, ev, h.2⟩

/-- closing -/
example : ∃ (v w : Vm) (form op : Ref) (xs : List Ref) (r : Option Ref) (tr : List Event), v.Reached (outWorld []) outLibrary ∧
    NamedCall (outWorld []) v form v.globalEnv (txt "port-close") op xs ∧ v.HasObj op (.builtin (.other "port-close")) ∧
    Evaluates (outWorld []) outLibrary v form v.globalEnv r w tr ∧ objAt w r = some (.bool false) := by
  obtain ⟨v, form, r, w, tr, hr, of, oe, ev, h⟩ := out_exists (answers := []) (table := kit20) (forms := []) (fuel := 40)
    (last := .vec [.sym "port-close", .vec [.sym "input-file-open", .str "a"]])
    (P := fun v f r w tr => namedCheck v f "port-close" (.builtin (.other "port-close")) && decide (objAt w r = some (.bool false))) kit20_plain (by decide +kernel)
  simp only [Bool.and_eq_true, decide_eq_true_eq] at h
  obtain ⟨op, xs, h1, h2, h3⟩ := named_of_check h.1 of oe
  exact ⟨v, w, form, op, xs, r, tr, hr, h1, h2, ev, h.2⟩

/-- the position of a string -/
example : ∃ (v w : Vm) (form op : Ref) (xs : List Ref) (r : Option Ref) (tr : List Event), v.Reached (outWorld []) outLibrary ∧
    NamedCall (outWorld []) v form v.globalEnv (txt "port-dist") op xs ∧ v.HasObj op (.builtin (.other "port-dist")) ∧
    Evaluates (outWorld []) outLibrary v form v.globalEnv r w tr ∧ (objAt w r).any (fun o => match o with | .err _ _ => true | _ => false) = true := by
  obtain ⟨v, form, r, w, tr, hr, of, oe, ev, h⟩ := out_exists (answers := []) (table := kit20) (forms := []) (fuel := 40)
    (last := .vec [.sym "port-dist", .str "a"])
    (P := fun v f r w tr => namedCheck v f "port-dist" (.builtin (.other "port-dist")) && decide ((objAt w r).any (fun o => match o with | .err _ _ => true | _ => false) = true)) kit20_plain (by decide +kernel)
  simp only [Bool.and_eq_true, decide_eq_true_eq] at h
  obtain ⟨op, xs, h1, h2, h3⟩ := named_of_check h.1 of oe
  exact ⟨v, w, form, op, xs, r, tr, hr, h1, h2, ev, h.2⟩

/-- moving -/
example : ∃ (v w : Vm) (form op : Ref) (xs : List Ref) (r : Option Ref) (tr : List Event), v.Reached (outWorld [("seek", [1])]) outLibrary ∧
    NamedCall (outWorld [("seek", [1])]) v form v.globalEnv (txt "port-seek") op xs ∧ v.HasObj op (.builtin (.other "port-seek")) ∧
    Evaluates (outWorld [("seek", [1])]) outLibrary v form v.globalEnv r w tr ∧ objAt w r = some (.bool true) := by
  obtain ⟨v, form, r, w, tr, hr, of, oe, ev, h⟩ := out_exists (answers := [("seek", [1])]) (table := kit20) (forms := []) (fuel := 40)
    (last := .vec [.sym "port-seek", .vec [.sym "input-file-open", .str "a"], .int 5])
    (P := fun v f r w tr => namedCheck v f "port-seek" (.builtin (.other "port-seek")) && decide (objAt w r = some (.bool true))) kit20_plain (by decide +kernel)
  simp only [Bool.and_eq_true, decide_eq_true_eq] at h
  obtain ⟨op, xs, h1, h2, h3⟩ := named_of_check h.1 of oe
  exact ⟨v, w, form, op, xs, r, tr, hr, h1, h2, ev, h.2⟩

/-- reading three octets -/
example : ∃ (v w : Vm) (form op : Ref) (xs : List Ref) (r : Option Ref) (tr : List Event), v.Reached (outWorld [("read", [1]), ("octet", [1, 1])]) outLibrary ∧
    NamedCall (outWorld [("read", [1]), ("octet", [1, 1])]) v form v.globalEnv (txt "port-read") op xs ∧ v.HasObj op (.builtin (.other "port-read")) ∧
    Evaluates (outWorld [("read", [1]), ("octet", [1, 1])]) outLibrary v form v.globalEnv r w tr ∧ elemsAt w r = some [some (.int 2), some (.int 2), some (.int 2)] := by
  obtain ⟨v, form, r, w, tr, hr, of, oe, ev, h⟩ := out_exists (answers := [("read", [1]), ("octet", [1, 1])]) (table := kit20) (forms := []) (fuel := 40)
    (last := .vec [.sym "port-read", .vec [.sym "input-file-open", .str "a"], .int 3])
    (P := fun v f r w tr => namedCheck v f "port-read" (.builtin (.other "port-read")) && decide (elemsAt w r = some [some (.int 2), some (.int 2), some (.int 2)])) kit20_plain (by decide +kernel)
  simp only [Bool.and_eq_true, decide_eq_true_eq] at h
  obtain ⟨op, xs, h1, h2, h3⟩ := named_of_check h.1 of oe
  exact ⟨v, w, form, op, xs, r, tr, hr, h1, h2, ev, h.2⟩

/-- writing `aä`, which has three octets -/
example : ∃ (v w : Vm) (form op : Ref) (xs : List Ref) (r : Option Ref) (tr : List Event), v.Reached (outWorld [("output", [1]), ("written", [1])]) outLibrary ∧
    NamedCall (outWorld [("output", [1]), ("written", [1])]) v form v.globalEnv (txt "port-write") op xs ∧ v.HasObj op (.builtin (.other "port-write")) ∧
    Evaluates (outWorld [("output", [1]), ("written", [1])]) outLibrary v form v.globalEnv r w tr ∧ objAt w r = some (.int 3) := by
  obtain ⟨v, form, r, w, tr, hr, of, oe, ev, h⟩ := out_exists (answers := [("output", [1]), ("written", [1])]) (table := kit20) (forms := []) (fuel := 40)
    (last := .vec [.sym "port-write", .vec [.sym "input-file-open", .str "a"], .str "aä"])
    (P := fun v f r w tr => namedCheck v f "port-write" (.builtin (.other "port-write")) && decide (objAt w r = some (.int 3))) kit20_plain (by decide +kernel)
  simp only [Bool.and_eq_true, decide_eq_true_eq] at h
  obtain ⟨op, xs, h1, h2, h3⟩ := named_of_check h.1 of oe
  exact ⟨v, w, form, op, xs, r, tr, hr, h1, h2, ev, h.2⟩

/-- writing a vector -/
example : ∃ (v w : Vm) (form op : Ref) (xs : List Ref) (r : Option Ref) (tr : List Event), v.Reached (outWorld [("output", [1]), ("written", [1])]) outLibrary ∧
    NamedCall (outWorld [("output", [1]), ("written", [1])]) v form v.globalEnv (txt "port-write") op xs ∧ v.HasObj op (.builtin (.other "port-write")) ∧
    Evaluates (outWorld [("output", [1]), ("written", [1])]) outLibrary v form v.globalEnv r w tr ∧ objAt w r = some (.int 3) := by
  obtain ⟨v, form, r, w, tr, hr, of, oe, ev, h⟩ := out_exists (answers := [("output", [1]), ("written", [1])]) (table := kit20) (forms := []) (fuel := 40)
    (last := .vec [.sym "port-write", .vec [.sym "input-file-open", .str "a"], .vec [.sym "quote", .vec [.str "ab", .str "c"]]])
    (P := fun v f r w tr => namedCheck v f "port-write" (.builtin (.other "port-write")) && decide (objAt w r = some (.int 3))) kit20_plain (by decide +kernel)
  simp only [Bool.and_eq_true, decide_eq_true_eq] at h
  obtain ⟨op, xs, h1, h2, h3⟩ := named_of_check h.1 of oe
  exact ⟨v, w, form, op, xs, r, tr, hr, h1, h2, ev, h.2⟩

/-- arguments of the command line -/
example : ∃ (v w : Vm) (form op : Ref) (xs : List Ref) (r : Option Ref) (tr : List Event), v.Reached (outWorld [("host", [97, 98])]) outLibrary ∧
    NamedCall (outWorld [("host", [97, 98])]) v form v.globalEnv (txt "host-get-command-line-arguments") op xs ∧ v.HasObj op (.builtin (.other "host-get-command-line-arguments")) ∧
    Evaluates (outWorld [("host", [97, 98])]) outLibrary v form v.globalEnv r w tr ∧ elemsAt w r = some [some (.str [97, 98]), some (.str [97, 98])] := by
  obtain ⟨v, form, r, w, tr, hr, of, oe, ev, h⟩ := out_exists (answers := [("host", [97, 98])]) (table := kit20) (forms := []) (fuel := 40)
    (last := .vec [.sym "host-get-command-line-arguments"])
    (P := fun v f r w tr => namedCheck v f "host-get-command-line-arguments" (.builtin (.other "host-get-command-line-arguments")) && decide (elemsAt w r = some [some (.str [97, 98]), some (.str [97, 98])])) kit20_plain (by decide +kernel)
  simp only [Bool.and_eq_true, decide_eq_true_eq] at h
  obtain ⟨op, xs, h1, h2, h3⟩ := named_of_check h.1 of oe
  exact ⟨v, w, form, op, xs, r, tr, hr, h1, h2, ev, h.2⟩

end Dern.Props
