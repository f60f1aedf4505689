import Verif.Dern.Timing
import Verif.Dern.Fuel
import Verif.Dern.Read
import Verif.Props.C13
import Verif.Props.BuiltinCalling
/-
C25: when garbage collections happen is invisible, as long as no released value is used.

A collection happens when a value is created and the number of values created since the last collection has
reached a limit, unless collections are switched off.  `Retuned v v'`: `v'` is `v` with another limit, another
count and another switch, so the collections happen at other moments.

Two evaluations of the same form that start in such states and both return give the same result and have the
same effects: the same output, the same exit status, the same evaluations in the same order, and a value that
is live in both states afterwards is the same in both.  An evaluation that ends without collections ends in the
same way with them, or uses a released value; an evaluation that ends with collections ends in the same way
without them.

Missing: that no released value is used.  That is false of the code; `c25_witness_*` are three programs where
collections make the difference: the value of a pending `return` is not a root of the collector
(vm.c:2979-3021), the documentation vector of a value is not followed (value.c:4732-4857), and neither are the
values `nil`, `true` and `false` of the machine once their names are bound to something else.
-/
namespace Dern.Props
open Dern Dern.Spec
open Dern.Prog (Library)

variable {W : World} {L : Library}

/-- other settings of the collector, so other moments for collections -/
def Retuned (v v' : Vm) : Prop :=
  ∃ limit since prevent, v' = { v with gcLimit := limit, sinceGc := since, preventGc := prevent }

/-- The same effects: everything a program can see is the same, except that a value may have been released in one
state and not yet in the other one. -/
structure SameEffects (w w' : Vm) : Prop where
  out : w.out = w'.out
  quit : w.quit = w'.quit
  exitCode : w.exitCode = w'.exitCode
  stack : w.stack = w'.stack
  ret : w.functionReturn = w'.functionReturn
  nextUid : w.nextUid = w'.nextUid
  births : w.births = w'.births
  roots : ∀ which, w.root which = w'.root which
  values : ∀ x c c', w.mem x = some c → w'.mem x = some c' → c = c'
  data : ∀ x d d', Denotes w.mem x d → Denotes w'.mem x d' → d = d'

/-- the same evaluation -/
structure SameEvent (e e' : Event) : Prop where
  form : e.form = e'.form
  env : e.env = e'.env
  result : e.result = e'.result
  pre : SameEffects e.pre e'.pre
  post : SameEffects e.post e'.post

/-- collections switched off -/
def Vm.uncollected (v : Vm) : Vm := { v with preventGc := true }

theorem c25_rel_aux {v v' : Vm} (s : v.Sane W) (t : Retuned v v') : Vm.Rel W v' (Vm.uncollected v) := by
  obtain ⟨a, b, c, rfl⟩ := t
  exact ⟨s.congr rfl rfl rfl rfl, by constructor <;> first | rfl | exact fun _ _ h => h, rfl⟩

theorem c25_denotes_aux {m m' : Mem} (h : m.Sub m') {r : Ref} {d : Data} (hd : Denotes m r d) : Denotes m' r d := by
  induction hd with
  | atom h1 h2 => exact .atom (h _ _ h1) h2
  | vec h1 h2 h3 _ ih => exact .vec (h _ _ h1) h2 h3 ih
  | queue h1 h2 h3 _ ih => exact .queue (h _ _ h1) h2 h3 ih
  | list h1 h2 h3 _ ih => exact .list (h _ _ h1) h2 h3 ih
  | hmap h1 h2 h3 _ _ ih1 ih2 => exact .hmap (h _ _ h1) h2 h3 ih1 ih2

theorem c25_both_aux {w w' u : Vm} (h : w.Lags u) (h' : w'.Lags u) : SameEffects w w' where
  out := h.out.trans h'.out.symm
  quit := h.quit.trans h'.quit.symm
  exitCode := h.exitCode.trans h'.exitCode.symm
  stack := h.stack.trans h'.stack.symm
  ret := h.ret.trans h'.ret.symm
  nextUid := h.nextUid.trans h'.nextUid.symm
  births := h.births.trans h'.births.symm
  roots := fun which => (h.root which).trans (h'.root which).symm
  values := fun x c c' hc hc' => by
    have a := h.mem x c hc
    have b := h'.mem x c' hc'
    rw [a] at b
    cases b
    rfl
  data := fun x d d' hd hd' => (c25_denotes_aux h.mem hd).unique d' (c25_denotes_aux h'.mem hd')

theorem c25_events_aux {t t' u : List Event} (h : List.Forall₂ Event.Lags t u) (h' : List.Forall₂ Event.Lags t' u) :
    List.Forall₂ SameEvent t t' := by
  induction h generalizing t' with
  | nil => cases h'; exact .nil
  | cons a _ ih =>
    cases h' with
    | cons b hb =>
      exact .cons ⟨a.form.trans b.form.symm, a.env.trans b.env.symm, a.result.trans b.result.symm,
        c25_both_aux a.pre b.pre, c25_both_aux a.post b.post⟩ (ih hb)

/-- any program: with collections as without them, unless a released value is used -/
theorem c25_program_aux (hL : L.Safe) {v v' : Vm} (hv : v.Reached W L) (t : Retuned v v') (n : Nat) (p : Prog α) :
    Outcome.Rel W (run W n (handler W (Prog.body L) n) p v') (run W n (handler W (Prog.body L) n) p (Vm.uncollected v)) :=
  run_rel (handler_rel _ n) p _ _ (c25_rel_aux (hv.good hL).1 t)

theorem c25_ok_aux (hL : L.Safe) {v v' : Vm} (hv : v.Reached W L) (t : Retuned v v') {n : Nat} {p : Prog α} {a : α} {w : Vm}
    {tr : List Event} (h : run W n (handler W (Prog.body L) n) p v' = .ok (a, w, tr)) :
    ∃ u tu, run W n (handler W (Prog.body L) n) p (Vm.uncollected v) = .ok (a, u, tu) ∧ w.Lags u ∧ List.Forall₂ Event.Lags tr tu := by
  have := c25_program_aux hL hv t n p
  rw [h] at this
  rcases this with e | ⟨e, e1, _⟩ | ⟨a', w', tr', u, tu, e1, e2, r, hf⟩
  · cases e
  · cases e1
  · cases e1
    exact ⟨u, tu, e2, r.lags, hf⟩

theorem c25_same_aux (hL : L.Safe) {v v₁ v₂ : Vm} (hv : v.Reached W L) (t₁ : Retuned v v₁) (t₂ : Retuned v v₂) {n₁ n₂ : Nat}
    {p : Prog α} {a₁ a₂ : α} {w₁ w₂ : Vm} {tr₁ tr₂ : List Event}
    (h₁ : run W n₁ (handler W (Prog.body L) n₁) p v₁ = .ok (a₁, w₁, tr₁))
    (h₂ : run W n₂ (handler W (Prog.body L) n₂) p v₂ = .ok (a₂, w₂, tr₂)) :
    a₁ = a₂ ∧ SameEffects w₁ w₂ ∧ List.Forall₂ SameEvent tr₁ tr₂ := by
  have up : ∀ {n k : Nat} {v a w tr}, run W n (handler W (Prog.body L) n) p v = .ok (a, w, tr) →
      run W (n + k) (handler W (Prog.body L) (n + k)) p v = .ok (a, w, tr) := by
    intro n k v a w tr h
    have := run_more (W := W) (body := Prog.body L) (p := p) (v := v) (n := n) k
    rw [h] at this
    rcases this with e | e
    · cases e
    · exact e
  have h₁ := up (k := n₂) h₁
  have h₂ := up (k := n₁) h₂
  rw [Nat.add_comm n₂ n₁] at h₂
  obtain ⟨u₁, tu₁, e₁, l₁, f₁⟩ := c25_ok_aux hL hv t₁ h₁
  obtain ⟨u₂, tu₂, e₂, l₂, f₂⟩ := c25_ok_aux hL hv t₂ h₂
  rw [e₁] at e₂
  cases e₂
  exact ⟨rfl, c25_both_aux l₁ l₂, c25_events_aux f₁ f₂⟩

/-- Two evaluations with collections at different moments, if both return, have the same result, the same
effects and consist of the same evaluations. -/
theorem c25_evaluate_partial (hL : L.Safe) {v v' : Vm} (hv : v.Reached W L) (t : Retuned v v') {form env : Ref}
    {r r' : Option Ref} {w w' : Vm} {tr tr' : List Event} (h : Evaluates W L v form env r w tr)
    (h' : Evaluates W L v' form env r' w' tr') : r = r' ∧ SameEffects w w' ∧ List.Forall₂ SameEvent tr tr' := by
  obtain ⟨n, h⟩ := h
  obtain ⟨n', h'⟩ := h'
  exact c25_same_aux hL hv ⟨_, _, _, rfl⟩ t h h'

/-- The same for reading and evaluating a text. -/
theorem c25_read_partial (hL : L.Safe) {v v' : Vm} (hv : v.Reached W L) (t : Retuned v v') {ct : Ctype} {text : Text}
    {r r' : Option Ref} {w w' : Vm} {tr tr' : List Event} (n n' k : Nat)
    (h : run W n (handler W (Prog.body L) n) (Prog.readAll ct k text) v = .ok (r, w, tr))
    (h' : run W n' (handler W (Prog.body L) n') (Prog.readAll ct k text) v' = .ok (r', w', tr')) :
    r = r' ∧ SameEffects w w' ∧ List.Forall₂ SameEvent tr tr' :=
  c25_same_aux hL hv ⟨_, _, _, rfl⟩ t h h'

/-- What an evaluation with collections does, it also does without any; then every value that is live with
collections is live. -/
theorem c25_without_partial (hL : L.Safe) {v v' : Vm} (hv : v.Reached W L) (t : Retuned v v') {form env : Ref} {r : Option Ref} {w : Vm}
    {tr : List Event} (h : Evaluates W L v' form env r w tr) :
    ∃ w' tr', Evaluates W L (Vm.uncollected v) form env r w' tr' ∧ SameEffects w w' ∧ List.Forall₂ SameEvent tr tr' ∧
      ∀ x c, w.mem x = some c → w'.mem x = some c := by
  obtain ⟨n, h⟩ := h
  obtain ⟨u, tu, e, l, f⟩ := c25_ok_aux hL hv t h
  have rf : ∀ (l : List Event), List.Forall₂ Event.Lags l l := by
    intro l
    induction l with
    | nil => exact .nil
    | cons a l ih => exact .cons ⟨rfl, rfl, rfl, .refl _, .refl _⟩ ih
  exact ⟨u, tu, ⟨n, e⟩, c25_both_aux l (.refl u), c25_events_aux f (rf tu), l.mem⟩

/-- What an evaluation does without collections, it does with collections at any moments, unless it uses a
released value. -/
theorem c25_with_partial (hL : L.Safe) {v v' : Vm} (hv : v.Reached W L) (t : Retuned v v') {form env : Ref} {r : Option Ref} {w : Vm}
    {tr : List Event} (h : Evaluates W L (Vm.uncollected v) form env r w tr) :
    (∃ w' tr', Evaluates W L v' form env r w' tr' ∧ SameEffects w' w ∧ ∀ x c, w'.mem x = some c → w.mem x = some c) ∨
    ∃ n, run W n (handler W (Prog.body L) n) (Prog.body L (.eval form env)) v' = .error .released := by
  obtain ⟨n, h⟩ := h
  have := c25_program_aux hL hv t n (Prog.body L (.eval form env))
  rw [h] at this
  rcases this with e | ⟨e, _, e2⟩ | ⟨a', w', tr', u, tu, e1, e2, r, hf⟩
  · exact .inr ⟨n, e⟩
  · cases e2
  · cases e2
    exact .inl ⟨w', tr', ⟨n, e1⟩, c25_both_aux r.lags (.refl w), r.lags.mem⟩

/-- Evaluations that do not return: they end in the same way, unless a released value is used. -/
theorem c25_fault_partial (hL : L.Safe) {v v' : Vm} (hv : v.Reached W L) (t : Retuned v v') {form env : Ref} (n : Nat) (e : Fault)
    (h : run W n (handler W (Prog.body L) n) (Prog.body L (.eval form env)) v' = .error e) (he : e ≠ .released) :
    run W n (handler W (Prog.body L) n) (Prog.body L (.eval form env)) (Vm.uncollected v) = .error e := by
  have := c25_program_aux hL hv t n (Prog.body L (.eval form env))
  rw [h] at this
  rcases this with e' | ⟨e', e1, e2⟩ | ⟨a', w', tr', u, tu, e1, e2, r, hf⟩
  · cases e'; exact absurd rfl he
  · cases e1; exact e2
  · cases e1

/-! ### an example with collections -/

/-- both evaluations return, and with collections fewer values are left -/
def bothCheck (table : List (String × Obj × Bool)) (forms : List Form) (last : Form) (fuel : Nat) : Bool :=
  match run world fuel (handler world (Prog.body library) fuel) (setup table forms last) (Vm.base world.malloc) with
  | .error _ => false
  | .ok (f, v, _) =>
    match run world fuel (handler world (Prog.body library) fuel) (Prog.body library (.eval f v.globalEnv)) { v with gcLimit := 0 },
      run world fuel (handler world (Prog.body library) fuel) (Prog.body library (.eval f v.globalEnv)) (Vm.uncollected v) with
    | .ok (_, w, _), .ok (_, w', _) => decide (w.all.length < w'.all.length)
    | _, _ => false

/-- `((fn (x y) (+ x y)) (+ 1 2) 4)` with a collection whenever a value is created -/
example : ∃ v v' form r r' w w' tr tr', v.Reached world library ∧ Retuned v v' ∧ Retuned v (Vm.uncollected v) ∧
    Evaluates world library v' form v.globalEnv r w tr ∧
    Evaluates world library (Vm.uncollected v) form v.globalEnv r' w' tr' ∧ w.all.length < w'.all.length := by
  have h : bothCheck kit2 [] (.vec [.vec [.sym "fn", .vec [.sym "x", .sym "y"], .vec [.sym "+", .sym "x", .sym "y"]],
      .vec [.sym "+", .int 1, .int 2], .int 4]) 60 = true := by decide +kernel
  unfold bothCheck at h
  split at h
  · cases h
  · rename_i f v t e
    split at h
    · rename_i r w tr r' w' tr' h1 h2
      exact ⟨v, _, f, r, r', w, w', tr, tr',
        .host .refl (fun P _ => Machine.ok_setup _ _ _ kit2_plain fun _ _ => trivial) e, ⟨0, _, _, rfl⟩, ⟨_, _, true, rfl⟩,
        ⟨60, h1⟩, ⟨60, h2⟩, by simpa using h⟩
    · cases h

/-! ### the code does use released values -/

/-- after the forms have been evaluated: does the last form use a released value if every creation of a value
collects, and return what `P` says if there are no collections? -/
def timingCheck (table : List (String × Obj × Bool)) (forms : List Form) (last : Form) (fuel : Nat) (P : Option Obj → Bool) : Bool :=
  match run world fuel (handler world (Prog.body library) fuel) (setup table forms last) (Vm.base world.malloc) with
  | .error _ => false
  | .ok (f, v, _) =>
    match run world fuel (handler world (Prog.body library) fuel) (Prog.body library (.eval f v.globalEnv)) { v with gcLimit := 0 },
      run world fuel (handler world (Prog.body library) fuel) (Prog.body library (.eval f v.globalEnv)) (Vm.uncollected v) with
    | .error e, .ok (r, w, _) => decide (e = .released) && P (objAt w r)
    | _, _ => false

/-- the machine after `setup` pushes the last form, as the host does -/
theorem timing_exists {table forms last fuel P} (ht : ∀ x ∈ table, x.2.1.children = [])
    (h : timingCheck table forms last fuel P = true) :
    ∃ v form r w tr n, v.Reached world library ∧ v.Old world form ∧
      Evaluates world library (Vm.uncollected v) form v.globalEnv r w tr ∧ P (objAt w r) = true ∧
      run world n (handler world (Prog.body library) n) (Prog.body library (.eval form v.globalEnv)) { v with gcLimit := 0 } =
        .error .released := by
  unfold timingCheck at h
  split at h
  · cases h
  · rename_i f v t e
    split at h
    · rename_i e1 r w t' h1 h2
      simp only [Bool.and_eq_true, decide_eq_true_eq] at h
      have := run_sound (X := fun _ => False) (n := fuel) (handler_sound library_safe fuel) (setup table forms last) _
        (Vm.base world.malloc).stack [] (fun P r _ => P r) (base_sane world) (base_closed world) (by simp)
        (fun P _ => Machine.ok_setup table forms last ht fun r hr => hr)
      rw [e] at this
      obtain ⟨g, _, _, hf⟩ := this
      refine ⟨v, f, r, w, t', fuel, ?_, hf.1, ⟨fuel, h2⟩, h.2, h.1 ▸ h1⟩
      exact .host .refl (fun P _ => Machine.ok_setup table forms last ht fun _ _ => trivial) e
    · cases h

/-- `((fn () (vector (vector (return (+ 2 3))) (vector 1))))`: the value of the pending return is released while
the remaining argument is evaluated. -/
theorem c25_witness_return : ∃ v form r w tr n, v.Reached world library ∧ v.Old world form ∧
    Evaluates world library (Vm.uncollected v) form v.globalEnv r w tr ∧ objAt w r = some (.bool true) ∧
    run world n (handler world (Prog.body library) n) (Prog.body library (.eval form v.globalEnv)) { v with gcLimit := 0 } =
      .error .released := by
  have := timing_exists (table := kit2) (forms := [])
    (last := .vec [.sym "<", .vec [.vec [.sym "fn", .vec [],
        .vec [.sym "vector", .vec [.sym "vector", .vec [.sym "return", .vec [.sym "+", .int 2, .int 3]]], .vec [.sym "vector", .int 1]]]], .int 6])
    (fuel := 60) (P := fun o => decide (o = some (.bool true))) kit2_plain (by decide +kernel)
  simpa only [decide_eq_true_eq] using this

/-- `(= f 5)` on a function keeps its documentation vector; copying the 5 uses the released vector. -/
theorem c25_witness_docvec : ∃ v form r w tr n, v.Reached world library ∧ v.Old world form ∧
    Evaluates world library (Vm.uncollected v) form v.globalEnv r w tr ∧ objAt w r = some (.int 1) ∧
    run world n (handler world (Prog.body library) n) (Prog.body library (.eval form v.globalEnv)) { v with gcLimit := 0 } =
      .error .released := by
  have := timing_exists (table := kit2)
    (forms := [.vec [.sym "define", .sym "f", .sym "as", .vec [.sym "fn", .vec [.sym "x"], .sym "x"], .str "d",
        .vec [.sym "quote", .vec [.sym "x", .str "e"]], .sym "howto-no"],
      .vec [.sym "=", .sym "f", .int 5]])
    (last := .vec [.sym "len", .vec [.sym "vector", .sym "f"]])
    (fuel := 60) (P := fun o => decide (o = some (.int 1))) kit2_plain (by decide +kernel)
  simpa only [decide_eq_true_eq] using this

/-- Binding the name `nil` to something else: the value the machine uses for nil is released. -/
theorem c25_witness_nil : ∃ v form r w tr n, v.Reached world library ∧ v.Old world form ∧
    Evaluates world library (Vm.uncollected v) form v.globalEnv r w tr ∧ objAt w r = some .nil ∧
    run world n (handler world (Prog.body library) n) (Prog.body library (.eval form v.globalEnv)) { v with gcLimit := 0 } =
      .error .released := by
  have := timing_exists (table := kit2)
    (forms := [.vec [.sym "define", .sym "nil", .sym "as", .int 5, .str "d"]])
    (last := .vec [.sym "if", .sym "false", .int 1])
    (fuel := 60) (P := fun o => decide (o = some .nil)) kit2_plain (by decide +kernel)
  simpa only [decide_eq_true_eq] using this

end Dern.Props
