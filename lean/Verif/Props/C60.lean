import Verif.Props.C48
/-
C60: small builtin functions: `not`, `uid`, `doc`, `vector`, `env-new`, `env-current`, `env-global` and `abort`.
-/
namespace Dern.Props
open Dern
open Dern.Spec (Reach)
open Dern.Prog (Library)
variable {W : World} {L : Library}

/-! ### Specification -/

/-- what `not` does -/
inductive NotRun (W : World) (ts : List Ref) (v : Vm) (r : Ref) (w : Vm) (tr : List Event) : Prop
  | count : ts.length ≠ 1 → GivesError W v r w tr → NotRun W ts v r w tr
  | yes {x} : ts = [x] → v.HasObj x (.bool true) → Gives W (.bool false) v r w tr → NotRun W ts v r w tr
  | no {x} : ts = [x] → v.HasObj x (.bool false) → Gives W (.bool true) v r w tr → NotRun W ts v r w tr
  | other {x o} : ts = [x] → v.HasObj x o → (∀ b, o ≠ .bool b) → GivesError W v r w tr → NotRun W ts v r w tr

/-- what `uid` does; there is no result for a number that is not an int32_t -/
inductive UidRun (W : World) (ts : List Ref) (v : Vm) (r : Ref) (w : Vm) (tr : List Event) : Prop
  | count : ts.length ≠ 1 → GivesError W v r w tr → UidRun W ts v r w tr
  | uid {x c} : ts = [x] → v.mem x = some c → Int32 c.uid → Gives W (.int c.uid) v r w tr → UidRun W ts v r w tr

/-- `d` is the documentation of `x`: the string it was documented with, or a new nil (as long as nobody has changed the
constant nil) -/
inductive DocFor (W : World) (v w : Vm) (x d : Ref) : Prop
  | documented {c} : v.mem x = some c → c.docstr = some d → DocFor W v w x d
  | none {c} : v.mem x = some c → c.docstr = Option.none → ¬ v.Old W d → (v.HasObj (v.root .nil) .nil → w.HasObj d .nil) → DocFor W v w x d

/-- what `doc` does -/
inductive DocRun (W : World) (ts : List Ref) (v : Vm) (r : Ref) (w : Vm) (tr : List Event) : Prop
  | count : ts = [] → GivesError W v r w tr → DocRun W ts v r w tr
  | one {x} : ts = [x] → tr = [] → Vm.Quiet W nobody v w → DocFor W v w x r → DocRun W ts v r w tr
  | more {ds} : 2 ≤ ts.length → tr = [] → Vm.Quiet W nobody v w → ¬ v.Old W r → w.HasVec r ds → List.Forall₂ (DocFor W v w) ts ds → DocRun W ts v r w tr

/-- What `vector` does: the result is a new vector of the values, atoms are copied.  What they consist of stays in memory. -/
inductive VectorRun (W : World) (ts : List Ref) (v : Vm) (r : Ref) (w : Vm) (tr : List Event) : Prop
  | new {es} : tr = [] → Vm.Quiet W nobody v w → ¬ v.Old W r → w.HasVec r es → List.Forall₂ (Taken W r v w) ts es →
      (∀ z o, Reach v.mem.Edge (· ∈ ts) z → (∀ m l, o ≠ .err m l) → v.HasObj z o → w.HasObj z o) → VectorRun W ts v r w tr

/-- what `env-new` does -/
inductive EnvNewRun (W : World) (ts : List Ref) (v : Vm) (r : Ref) (w : Vm) (tr : List Event) : Prop
  | count : 2 ≤ ts.length → GivesError W v r w tr → EnvNewRun W ts v r w tr
  | alone : ts = [] → Gives W (.env [] none) v r w tr → EnvNewRun W ts v r w tr
  | inside {x bs enc} : ts = [x] → v.HasObj x (.env bs enc) → Gives W (.env [] (some x)) v r w tr → EnvNewRun W ts v r w tr
  | other {x o} : ts = [x] → v.HasObj x o → (∀ bs enc, o ≠ .env bs enc) → GivesError W v r w tr → EnvNewRun W ts v r w tr

/-- what `env-current` and `env-global` do: the result is the environment `e` itself -/
inductive EnvRun (W : World) (e : Ref) (ts : List Ref) (v : Vm) (r : Ref) (w : Vm) (tr : List Event) : Prop
  | count : ts ≠ [] → GivesError W v r w tr → EnvRun W e ts v r w tr
  | env : ts = [] → Returns W e v r w tr → EnvRun W e ts v r w tr

/-- what `abort` does: with one value, there is no result -/
inductive AbortRun (W : World) (ts : List Ref) (v : Vm) (r : Ref) (w : Vm) (tr : List Event) : Prop
  | count : ts.length ≠ 1 → GivesError W v r w tr → AbortRun W ts v r w tr

/-! ### Proofs -/

theorem wp_bind_inv {α β : Type} {n : Nat} {h : Handler} {p : Prog α} {f : α → Prog β} {v : Vm} {Q : β → Vm → List Event → Prop}
    (hp : Wp W n h (p >>= f) v Q) : Wp W n h p v fun a w t => Wp W n h (f a) w fun b u t' => Q b u (t ++ t') := by
  intro a w t e b u t' e'
  refine hp b u (t ++ t') ?_
  rw [run_bind, e]
  simp only
  rw [e']

/-- a builtin function called by name, that may look at the environment of the call -/
theorem namedBuiltinEnv_aux {b : Builtin} {Run : List Ref → Vm → Ref → Vm → List Event → Prop} (hL : L.Safe) (hb : b ≠ .return)
    {v w : Vm} (rv : v.Reached W L) {form env op : Ref} {name : Text} {xs : List Ref}
    (hRun : ∀ n args ts v, Fine W (handle W L n) → Copies W (handle W L n) → Held W args ts env v → args ∈ v.stack →
      Wp W n (handle W L n) (Prog.builtin L b args env) v fun a u t =>
        KeepsBuiltins v u ∧ ∀ r w, a = some r → Ends u w → Run ts v r w t)
    (nc : NamedCall W v form env name op xs) (hop : v.HasObj op (.builtin b))
    {r : Option Ref} {tr : List Event} (ev : Evaluates W L v form env r w tr) :
    NamedOpCall W (ArgumentsFirst W form env (Runs b op Run)) v env op r w tr := by
  obtain ⟨e0, tr', h1, h2, h3, h4, h5, h6, h7, h⟩ := c28_builtin hL rv nc hop ev
  refine ⟨e0, tr', h1, h2, h3, h4, h5, h6, h7, argumentsFirst_imp h fun ts u r w tr h => ?_⟩
  obtain ⟨r', rfl, n, args, b0, u0, u1, b', k, top, hb0, hrun, he, hb', hw⟩ := h
  intro hop
  refine ⟨r', rfl, ?_⟩
  have := hb0.unique hop
  cases this
  obtain ⟨hk, hq⟩ := hRun n args ts u (handler_fine hL n) (handler_copies n) k top _ _ _ hrun
  have hbb : b' = b := by
    obtain ⟨c, hc, ho⟩ := hb'
    have : u0.HasObj op (.builtin b') := by
      obtain ⟨c0, hc0, ho0⟩ := hop
      cases hm : u0.mem op with
      | none => rw [he.gone op hm] at hc; cases hc
      | some d =>
        rcases he.stays op d hm with e | ⟨m, t, l, ho', e⟩
        · rw [hc] at e; cases e; exact ⟨c, hm, ho⟩
        · rw [hc] at e; cases e; simp at ho
    exact hk op b b' hop this
  subst hbb
  rw [if_neg hb] at hw
  exact hq r' w rfl (he.trans hw)

section
variable {n : Nat} {h : Handler} {args env : Ref} {ts : List Ref} {v : Vm}

theorem c60_notOne_aux {ts : List Ref} (hne : ∀ x, ts = [x] → False) : ts.length ≠ 1 := by
  intro e
  obtain ⟨x, hx⟩ := List.length_eq_one_iff.mp e
  exact hne x hx

theorem c60_not_aux {x : Ref} {c : Cell} {b : Bool} {r : Ref} {w : Vm} {tr : List Event} (hc : v.mem x = some c) (ho : c.obj = .bool b)
    (g : Gives W (.bool !b) v r w tr) : NotRun W [x] v r w tr := by
  cases b
  · exact .no rfl ⟨c, hc, ho⟩ g
  · exact .yes rfl ⟨c, hc, ho⟩ g

theorem c60_notRun_aux (k : Held W args ts env v) :
    Wp W n h (Prog.biNot args env) v fun a u tr => KeepsBuiltins v u ∧ ∀ r w, a = some r → Ends u w → NotRun W ts v r w tr := by
  unfold Prog.biNot
  refine c34_first_aux k ?_
  split
  · rename_i x
    refine wp_bind (wp_push (wp_bind (wp_read fun c hc => ?_)))
    have hc : v.mem x = some c := hc
    split
    · rename_i b ho
      refine wp_bind (wp_pop fun s hs => ?_)
      obtain rfl : s = v.stack := by simpa using hs.symm
      refine Wp.mono (giveMono_aux (give_aux k (o := .bool (!b)) (by simp)) (Q := fun v r w tr => NotRun W [x] v r w tr) fun r w tr g => c60_not_aux hc ho g) fun _ _ _ h => by simpa using h
    · rename_i hno
      refine wp_bind (wp_pop fun s hs => ?_)
      obtain rfl : s = v.stack := by simpa using hs.symm
      refine Wp.mono (giveMono_aux (c34_error_aux k _) (Q := fun v r w tr => NotRun W [x] v r w tr) fun r w tr g =>
        .other rfl ⟨c, hc, rfl⟩ hno g) fun _ _ _ h => by simpa using h
  · rename_i hne
    exact giveMono_aux (c34_error_aux k _) (Q := fun v r w tr => NotRun W ts v r w tr) fun r w tr g => .count (c60_notOne_aux hne) g

theorem c60_uidRun_aux (k : Held W args ts env v) :
    Wp W n h (Prog.biUid args env) v fun a u tr => KeepsBuiltins v u ∧ ∀ r w, a = some r → Ends u w → UidRun W ts v r w tr := by
  unfold Prog.biUid
  refine c34_first_aux k ?_
  refine wp_bind (wp_push (wp_bind (wp_push ?_)))
  have g : Vm.Step W nobody nobody v { v with stack := env :: args :: v.stack } :=
    ((Vm.Step.refl k.sane k.closed.all).push k.old).push k.env.1
  split
  · rename_i x
    refine wp_bind (wp_read fun c hc => ?_)
    have hc : v.mem x = some c := hc
    split
    · exact wp_fail
    · rename_i hle
      refine wp_bind (wp_alloc g.sane fun r u a => ?_)
      refine wp_bind (wp_pop fun s1 hs1 => wp_bind (wp_pop fun s2 hs2 => wp_pure ?_))
      have q := (g.alloc a trivial).quiet
      refine ⟨keeps_mem q rfl, ?_⟩
      rintro _ w ⟨⟩ e
      have e' : Ends u w := (Ends.pop (s := s2)).trans e
      refine .uid rfl hc ⟨by omega, by simpa [Prog.intMax] using hle⟩ ⟨rfl, q.trans k.sane e'.quiet, a.fresh, e'.hasObj ⟨_, a.cell, rfl⟩ (by simp)⟩
  · rename_i hne
    refine wp_bind (wp_pop fun s1 hs1 => wp_bind (wp_pop fun s2 hs2 => ?_))
    obtain rfl : s1 = args :: v.stack := by simpa using hs1.symm
    obtain rfl : s2 = v.stack := by simpa using hs2.symm
    refine Wp.mono (giveMono_aux (c34_error_aux k _) (Q := fun v r w tr => UidRun W ts v r w tr) fun r w tr g => .count (c60_notOne_aux hne) g) fun _ _ _ h => by simpa using h

theorem c60_envNewRun_aux (k : Held W args ts env v) :
    Wp W n h (Prog.biEnvNew args env) v fun a u tr => KeepsBuiltins v u ∧ ∀ r w, a = some r → Ends u w → EnvNewRun W ts v r w tr := by
  unfold Prog.biEnvNew
  refine c34_first_aux k ?_
  split
  · exact giveMono_aux (give_aux k (by simp)) (Q := fun v r w tr => EnvNewRun W [] v r w tr) fun r w tr g => .alone rfl g
  · rename_i x
    refine wp_bind (wp_read fun c hc => ?_)
    split
    · rename_i bs enc ho
      refine Wp.mono (giveMono_aux (give_aux k (o := .env [] (some x)) (by simp)) (Q := fun v r w tr => EnvNewRun W [x] v r w tr) fun r w tr g =>
        .inside rfl ⟨c, hc, ho⟩ g) fun _ _ _ h => by simpa using h
    · rename_i hno
      refine Wp.mono (giveMono_aux (c34_error_aux k _) (Q := fun v r w tr => EnvNewRun W [x] v r w tr) fun r w tr g =>
        .other rfl ⟨c, hc, rfl⟩ hno g) fun _ _ _ h => by simpa using h
  · rename_i h0 h1
    refine giveMono_aux (c34_error_aux k _) (Q := fun v r w tr => EnvNewRun W ts v r w tr) fun r w tr g => .count ?_ g
    match ts, h0, h1 with
    | [], h0, _ => exact absurd rfl h0
    | [x], _, h1 => exact absurd rfl (h1 x)
    | _ :: _ :: _, _, _ => simp

theorem c60_envCurrentRun_aux (k : Held W args ts env v) :
    Wp W n h (Prog.biEnvCurrent args env) v fun a u tr => KeepsBuiltins v u ∧ ∀ r w, a = some r → Ends u w → EnvRun W env ts v r w tr := by
  unfold Prog.biEnvCurrent
  refine c34_first_aux k ?_
  split
  · rename_i e
    exact giveMono_aux (giveSelf_aux k.sane) (Q := fun v r w tr => EnvRun W env ts v r w tr) fun r w tr g => .env e g
  · rename_i e
    exact giveMono_aux (c34_error_aux k _) (Q := fun v r w tr => EnvRun W env ts v r w tr) fun r w tr g => .count e g

theorem c60_envGlobalRun_aux (k : Held W args ts env v) :
    Wp W n h (Prog.biEnvGlobal args env) v fun a u tr => KeepsBuiltins v u ∧ ∀ r w, a = some r → Ends u w → EnvRun W v.globalEnv ts v r w tr := by
  unfold Prog.biEnvGlobal
  refine c34_first_aux k ?_
  split
  · rename_i e
    refine wp_bind (wp_root ?_)
    refine Wp.mono (giveMono_aux (giveSelf_aux k.sane) (Q := fun v r w tr => EnvRun W v.globalEnv ts v r w tr) fun r w tr g => .env e g) fun _ _ _ h => by simpa using h
  · rename_i e
    exact giveMono_aux (c34_error_aux k _) (Q := fun v r w tr => EnvRun W v.globalEnv ts v r w tr) fun r w tr g => .count e g

theorem c60_abortRun_aux (k : Held W args ts env v) :
    Wp W n h (Prog.biAbort args env) v fun a u tr => KeepsBuiltins v u ∧ ∀ r w, a = some r → Ends u w → AbortRun W ts v r w tr := by
  unfold Prog.biAbort
  refine c34_first_aux k ?_
  split
  · exact wp_bind (wp_read fun c hc => wp_fail)
  · rename_i hne
    exact giveMono_aux (c34_error_aux k _) (Q := fun v r w tr => AbortRun W ts v r w tr) fun r w tr g => .count (c60_notOne_aux hne) g

/-! #### filling a new vector -/

/-- a new vector on the stack, to be filled -/
theorem Pushing.fresh {r : Ref} {u : Vm} (k : Held W args ts env v) (hv : v.HasVec args ts) (top : args ∈ v.stack) (a : Allocated W v (.vec []) r u) :
    Pushing W v args ts r (fun _ => False) { u with stack := r :: u.stack } (.vec []) := by
  have fresh := a.fresh
  have gw : Vm.Step W nobody nobody v u := (Vm.Step.refl k.sane k.closed.all).alloc a (by simp [PubObj])
  have hne : args ≠ r := by
    rintro rfl
    obtain ⟨c, hc, _⟩ := hv
    exact fresh (k.sane.old _ _ hc)
  have kept : ∀ z, v.Kept z → z ≠ r → u.mem z = v.mem z := a.kept
  have keptArg : ∀ z ∈ ts, v.Kept z := by
    intro z hz
    obtain ⟨c, hc, ho⟩ := hv
    exact .step (.root top) ⟨c, hc, by simpa [Cell.edges, ho, Obj.children] using .inr hz⟩
  have keptSrc : ∀ z, Reach (fun a b => a ≠ r ∧ v.mem.Edge a b) (fun z => z ∈ ts ∨ False) z → v.Kept z := by
    intro z hz
    induction hz with
    | root h => exact keptArg _ (h.elim id False.elim)
    | @step a b _ he ih => exact ih.step he.2
  refine ⟨⟨gw.sane0, (gw.push a.old).sane, (gw.push a.old).closed, (gw.push a.old).quiet.mono fun _ h => h.elim⟩, ?_, ?_, hne, .inr (by simp), ⟨_, a.cell, rfl⟩,
    fun _ h => h.elim, fun z hz hne => kept z (keptSrc z hz) hne⟩
  · obtain ⟨c, hc, ho⟩ := hv
    exact ⟨c, by rw [← hc]; exact kept args (.root top) hne, ho⟩
  · show args ∈ r :: u.stack
    rw [a.stack]; exact List.mem_cons_of_mem _ top

theorem c60_reach_aux {r z : Ref} (hr : ¬ v.Old W r) (sv : v.Sane W) (hz : Reach v.mem.Edge (· ∈ ts) z) :
    Reach (fun a b => a ≠ r ∧ v.mem.Edge a b) (fun z => z ∈ ts ∨ False) z := by
  induction hz with
  | root h => exact .root (.inl h)
  | @step a b _ he ih =>
    refine ih.step ⟨?_, he⟩
    rintro rfl
    obtain ⟨c, hc, _⟩ := he
    exact hr (sv.old _ _ hc)

/-- one more element -/
theorem Pushing.append {r x : Ref} {u : Vm} {es : List Ref} (f : Pushing W v args ts r (fun _ => False) u (.vec es)) (hx : u.Old W x)
    {Q : Unit → Vm → List Event → Prop}
    (hq : ∀ c, u.mem r = some c → Pushing W v args ts r (fun _ => False) { u with mem := u.mem.set r { c with obj := .vec (es ++ [x]) } } (.vec (es ++ [x])) →
      Q () { u with mem := u.mem.set r { c with obj := .vec (es ++ [x]) } } []) : Wp W n h (Prog.append r x) u Q := by
  refine wp_append fun c es' hc ho => ?_
  obtain ⟨c', hc', ho'⟩ := f.cell
  cases same_cell hc hc'
  rw [ho] at ho'; cases ho'
  refine hq c hc (f.set hc ?_ fun _ h => h.elim)
  have := (f.step.closed.cells r c hc).obj
  rw [ho] at this
  intro z hz
  rcases List.mem_append.mp hz with hz | hz
  · exact this z hz
  · simp at hz; subst hz; exact hx

theorem c60_vectorLoop_aux (F : Fine W h) (C : Copies W h) {r : Ref} (old : ∀ z ∈ ts, v.Old W z) :
    ∀ (xs done cur : List Ref) (u : Vm), (∀ z ∈ xs, z ∈ ts) → Pushing W v args ts r (fun _ => False) u (.vec cur) → List.Forall₂ (Taken W r v u) done cur →
    Wp W n h (Prog.vectorLoop r xs) u fun _ w t => t = [] ∧ w.stack = u.stack ∧ ∃ cur',
      Pushing W v args ts r (fun _ => False) w (.vec cur') ∧ List.Forall₂ (Taken W r v w) (done ++ xs) cur' := by
  intro xs
  induction xs with
  | nil =>
    intro done cur u _ f hf
    exact wp_pure ⟨rfl, rfl, cur, f, by simpa using hf⟩
  | cons y ys ih =>
    intro done cur u hts f hf
    have hy : y ∈ ts := hts y (by simp)
    unfold Prog.vectorLoop
    refine wp_bind (f.take F C rfl (old y hy) (fun hne => f.src y (.root (.inl hy)) hne) fun y' u1 f1 hst ho tk keep => ?_)
    refine wp_bind (f1.append ho fun c hc f2 => ?_)
    have key : List.Forall₂ (Taken W r v u1) (done ++ [y]) (cur ++ [y']) :=
      forall₂_snoc (c35_rel_aux hf fun a b hb hh => Taken.keep hh (keep b (f.keptChild (by simpa [Obj.children] using hb)))) tk
    have key2 : List.Forall₂ (Taken W r v { u1 with mem := u1.mem.set r { c with obj := .vec (cur ++ [y']) } }) (done ++ [y]) (cur ++ [y']) :=
      forall₂_imp key fun a b _ hh => taken_write_aux hh ⟨_, f1.cell, rfl⟩
    refine Wp.mono (ih (done ++ [y]) _ _ (fun z hz => hts z (by simp [hz])) f2 key2) ?_
    rintro _ w t ⟨rfl, hst', cur', h1, h2⟩
    exact ⟨rfl, by rw [hst']; exact hst, cur', h1, by simpa using h2⟩

theorem c60_quiet_aux {r : Ref} {u : Vm} (sv : v.Sane W) (fresh : ¬ v.Old W r) (q : Vm.Quiet W (fun z => z = r) v u) : Vm.Quiet W nobody v u :=
  ⟨q.births, fun z c _ hc => q.cells z c (fun e => fresh (e ▸ sv.old z c hc)) hc, q.gone, q.ret, q.quit, q.exitCode, q.out, q.roots, q.readably⟩

theorem c60_vectorRun_aux (F : Fine W h) (C : Copies W h) (k : Held W args ts env v) (top : args ∈ v.stack) :
    Wp W n h (Prog.biVector args env) v fun a u tr => KeepsBuiltins v u ∧ ∀ r w, a = some r → Ends u w → VectorRun W ts v r w tr := by
  unfold Prog.biVector
  refine first_aux k fun hv => ?_
  refine wp_bind (wp_alloc k.sane fun r u a => wp_bind (wp_push ?_))
  refine wp_bind (Wp.mono (c60_vectorLoop_aux F C (fun z hz => (k.pub z hz).1) ts [] [] _ (fun _ h => h) (Pushing.fresh k hv top a) .nil) ?_)
  rintro _ u1 t ⟨rfl, hst, cur, f, hf⟩
  have q := c60_quiet_aux k.sane a.fresh f.step.quiet
  refine wp_bind (wp_pop fun s hs => wp_pure ⟨keeps_mem q rfl, ?_⟩)
  rintro _ w ⟨⟩ e
  have e' : Ends u1 w := (Ends.pop (s := s)).trans e
  refine .new rfl (q.trans k.sane e'.quiet) a.fresh (e'.hasObj f.cell (by simp)) (forall₂_imp hf fun _ _ _ h => Taken.ends h e') ?_
  rintro z o hz ho ⟨c, hc, hco⟩
  refine e'.hasObj ⟨c, ?_, hco⟩ ho
  rw [f.src z (c60_reach_aux a.fresh k.sane hz) (fun e => a.fresh (e ▸ k.sane.old z c hc))]
  exact hc

/-! #### documentation -/

/-- a copy of the constant nil -/
theorem Pushing.nil (F : Fine W h) (C : Copies W h) {r : Ref} {u : Vm} {o : Obj} (f : Pushing W v args ts r (fun _ => False) u o)
    {Q : Ref → Vm → List Event → Prop}
    (hq : ∀ d w, Pushing W v args ts r (fun _ => False) w o → w.stack = u.stack → w.Old W d → ¬ u.Old W d →
      (∃ c, u.mem (u.root .nil) = some c ∧ (c.obj = .nil → w.HasObj d .nil)) → (∀ z, u.Kept z → w.mem z = u.mem z) → Q d w []) :
    Wp W n h (Prog.getRoot .nil) u Q := by
  unfold Prog.getRoot Prog.copyOf
  refine wp_bind (wp_root (wp_bind (wp_call fun a w t e => wp_deref fun d hd => ?_)))
  subst hd
  obtain ⟨sw, rfl, q, fresh⟩ := F.copy _ _ _ _ _ f.step.sane e
  obtain ⟨_, r', hr', ok⟩ := C _ _ _ _ _ f.step.sane f.step.closed.open' (f.step.closed.roots .nil).1 e
  cases hr'
  refine hq d w (f.same ⟨f.step.sane0, sw, ok.closed, f.step.quiet.trans f.step.sane0 (q.mono fun _ h => h.elim)⟩ ok.stack ok.pure.kept) ok.stack ok.old (fresh d rfl) ?_ ok.pure.kept
  cases ok.copied with
  | simple h1 h2 _ _ h5 => exact ⟨_, h1, fun ho => ⟨_, h2, by rw [h5, ho]⟩⟩
  | seq h1 _ _ h4 => exact ⟨_, h1, fun ho => by rw [ho] at h4; cases h4⟩
  | hmap h1 _ _ h4 => exact ⟨_, h1, fun ho => by rw [ho] at h4; cases h4⟩

/-- documentation, once more has happened -/
theorem DocFor.keep {u w : Vm} {x d : Ref} (h : DocFor W v u x d) (k : ∀ o, u.HasObj d o → o = .nil → w.HasObj d o) : DocFor W v w x d := by
  cases h with
  | documented h1 h2 => exact .documented h1 h2
  | none h1 h2 h3 h4 => exact .none h1 h2 h3 fun hn => k _ (h4 hn) rfl

theorem c60_docLoop_aux (F : Fine W h) (C : Copies W h) {r : Ref} (old : ∀ z ∈ ts, v.Old W z) (cv : v.Closed W nobody) (fresh : ¬ v.Old W r) :
    ∀ (xs done cur : List Ref) (u : Vm), (∀ z ∈ xs, z ∈ ts) → Pushing W v args ts r (fun _ => False) u (.vec cur) → List.Forall₂ (DocFor W v u) done cur →
    Wp W n h (Prog.docLoop r xs) u fun _ w t => t = [] ∧ w.stack = u.stack ∧ ∃ cur',
      Pushing W v args ts r (fun _ => False) w (.vec cur') ∧ List.Forall₂ (DocFor W v w) (done ++ xs) cur' := by
  intro xs
  induction xs with
  | nil =>
    intro done cur u _ f hf
    exact wp_pure ⟨rfl, rfl, cur, f, by simpa using hf⟩
  | cons y ys ih =>
    intro done cur u hts f hf
    have hy : y ∈ ts := hts y (by simp)
    have rest : ∀ (d : Ref) (u1 : Vm), Pushing W v args ts r (fun _ => False) u1 (.vec cur) → u1.stack = u.stack → u1.Old W d → List.Forall₂ (DocFor W v u1) (done ++ [y]) (cur ++ [d]) →
        Wp W n h (do Prog.append r d; Prog.docLoop r ys) u1 fun _ w t => t = [] ∧ w.stack = u.stack ∧ ∃ cur',
          Pushing W v args ts r (fun _ => False) w (.vec cur') ∧ List.Forall₂ (DocFor W v w) (done ++ y :: ys) cur' := by
      intro d u1 f1 hst od hf1
      refine wp_bind (f1.append od fun c hc f2 => ?_)
      refine Wp.mono (ih (done ++ [y]) _ _ (fun z hz => hts z (by simp [hz])) f2 ?_) ?_
      · refine forall₂_imp hf1 fun a b _ hh => hh.keep ?_
        rintro o ⟨c', hc', ho'⟩ rfl
        refine ⟨c', ?_, ho'⟩
        rw [← hc']
        refine Mem.set_other _ _ ?_
        rintro rfl
        obtain ⟨c1, hc1, ho1⟩ := f1.cell
        cases same_cell hc' hc1
        rw [ho'] at ho1; cases ho1
      · rintro _ w t ⟨rfl, hst', cur', h1, h2⟩
        exact ⟨rfl, by rw [hst']; exact hst, cur', h1, by simpa using h2⟩
    unfold Prog.docLoop Prog.docOf
    refine wp_bind (wp_bind (wp_read fun c hc => ?_))
    have hyr : y ≠ r := fun e => fresh (e ▸ old y hy)
    have hcv : v.mem y = some c := by rw [← f.src y (.root (.inl hy)) hyr]; exact hc
    split
    · rename_i d hd
      refine wp_pure ?_
      simp only [List.nil_append]
      exact rest d u f rfl ((f.step.closed.cells y c hc).docstr d hd) (forall₂_snoc hf (.documented hcv hd))
    · rename_i hd
      refine f.nil F C fun d w fw hst od fr hv keep => ?_
      simp only [List.nil_append]
      have hroot : u.root .nil = v.root .nil := f.step.quiet.roots .nil
      refine rest d w fw hst od (forall₂_snoc (c35_rel_aux hf fun a b hb hh => hh.keep fun o ho _ => ?_) (.none hcv hd (fun h => fr (h.mono f.step.quiet.births)) ?_))
      · obtain ⟨c', hc', ho'⟩ := ho
        exact ⟨c', by rw [keep b (f.keptChild (by simpa [Obj.children] using hb))]; exact hc', ho'⟩
      · rintro ⟨c', hc', ho'⟩
        obtain ⟨c2, hc2, h2⟩ := hv
        rw [hroot] at hc2
        refine h2 ?_
        rcases f.step.quiet.cells _ c' (fun e => fresh (e ▸ (cv.roots .nil).1)) hc' with e | e | ⟨_, _, _, e, _⟩
        · rw [hc2] at e; cases e; exact ho'
        · rw [hc2] at e; cases e
        · rw [ho'] at e; cases e

theorem c60_docRun_aux (F : Fine W h) (C : Copies W h) (k : Held W args ts env v) (top : args ∈ v.stack) :
    Wp W n h (Prog.biDoc args env) v fun a u tr => KeepsBuiltins v u ∧ ∀ r w, a = some r → Ends u w → DocRun W ts v r w tr := by
  unfold Prog.biDoc
  refine first_aux k fun hv => ?_
  split
  · exact giveMono_aux (c34_error_aux k _) (Q := fun v r w tr => DocRun W [] v r w tr) fun r w tr g => .count rfl g
  · rename_i x
    unfold Prog.docOf
    refine wp_bind (wp_bind (wp_read fun c hc => ?_))
    split
    · rename_i d hd
      refine wp_pure (Wp.mono (giveMono_aux (giveSelf_aux k.sane) (Q := fun v r w tr => DocRun W [x] v r w tr) fun r w tr g => ?_) fun _ _ _ h => by simpa using h)
      obtain ⟨rfl, rfl, q⟩ := g
      exact .one rfl rfl q (.documented hc hd)
    · rename_i hd
      have := giveMono_aux (n := n) (h := h) (giveConst_aux F C k (which := .nil) (o := .nil) rfl (by simp)) (Q := fun v r w tr => DocRun W [x] v r w tr) fun r w tr g =>
        .one rfl g.1 g.2.1 (.none hc hd g.2.2.1 g.2.2.2)
      have := wp_bind_inv this
      simpa using this
  · rename_i h0 h1
    refine wp_bind (wp_alloc k.sane fun r u a => wp_bind (wp_push ?_))
    refine wp_bind (Wp.mono (c60_docLoop_aux F C (fun z hz => (k.pub z hz).1) k.closed.all a.fresh ts [] [] _ (fun _ h => h) (Pushing.fresh k hv top a) .nil) ?_)
    rintro _ u1 t ⟨rfl, hst, cur, f, hf⟩
    have q := c60_quiet_aux k.sane a.fresh f.step.quiet
    refine wp_bind (wp_pop fun s hs => wp_pure ⟨keeps_mem q rfl, ?_⟩)
    rintro _ w ⟨⟩ e
    have e' : Ends u1 w := (Ends.pop (s := s)).trans e
    refine .more ?_ rfl (q.trans k.sane e'.quiet) a.fresh (e'.hasObj f.cell (by simp)) (forall₂_imp hf fun _ _ _ h => h.keep fun o ho hn => e'.hasObj ho (by simp [hn]))
    match ts, h0, h1 with
    | [], h0, _ => exact absurd rfl h0
    | [x], _, h1 => exact absurd rfl (h1 x)
    | _ :: _ :: _, _, _ => simp

end

/-! ### Theorems -/

/-- `not` -/
theorem c60_not (hL : L.Safe) {v w : Vm} (rv : v.Reached W L) {form env op : Ref} {name : Text} {xs : List Ref}
    (nc : NamedCall W v form env name op xs) (hop : v.HasObj op (.builtin .not)) {r : Option Ref} {tr : List Event}
    (ev : Evaluates W L v form env r w tr) :
    NamedOpCall W (ArgumentsFirst W form env (Runs .not op (NotRun W))) v env op r w tr :=
  namedBuiltin_aux hL (by simp) (fun _ _ _ _ _ _ _ k => c60_notRun_aux k) rv nc hop ev

/-- `uid` -/
theorem c60_uid (hL : L.Safe) {v w : Vm} (rv : v.Reached W L) {form env op : Ref} {name : Text} {xs : List Ref}
    (nc : NamedCall W v form env name op xs) (hop : v.HasObj op (.builtin .uid)) {r : Option Ref} {tr : List Event}
    (ev : Evaluates W L v form env r w tr) :
    NamedOpCall W (ArgumentsFirst W form env (Runs .uid op (UidRun W))) v env op r w tr :=
  namedBuiltin_aux hL (by simp) (fun _ _ _ _ _ _ _ k => c60_uidRun_aux k) rv nc hop ev

/-- `doc` -/
theorem c60_doc (hL : L.Safe) {v w : Vm} (rv : v.Reached W L) {form env op : Ref} {name : Text} {xs : List Ref}
    (nc : NamedCall W v form env name op xs) (hop : v.HasObj op (.builtin .doc)) {r : Option Ref} {tr : List Event}
    (ev : Evaluates W L v form env r w tr) :
    NamedOpCall W (ArgumentsFirst W form env (Runs .doc op (DocRun W))) v env op r w tr :=
  namedBuiltinStack_aux hL (by simp) (fun _ _ _ _ _ F C k top => c60_docRun_aux F C k top) rv nc hop ev

/-- `vector` -/
theorem c60_vector (hL : L.Safe) {v w : Vm} (rv : v.Reached W L) {form env op : Ref} {name : Text} {xs : List Ref}
    (nc : NamedCall W v form env name op xs) (hop : v.HasObj op (.builtin .vector)) {r : Option Ref} {tr : List Event}
    (ev : Evaluates W L v form env r w tr) :
    NamedOpCall W (ArgumentsFirst W form env (Runs .vector op (VectorRun W))) v env op r w tr :=
  namedBuiltinStack_aux hL (by simp) (fun _ _ _ _ _ F C k top => c60_vectorRun_aux F C k top) rv nc hop ev

/-- `env-new` -/
theorem c60_env_new (hL : L.Safe) {v w : Vm} (rv : v.Reached W L) {form env op : Ref} {name : Text} {xs : List Ref}
    (nc : NamedCall W v form env name op xs) (hop : v.HasObj op (.builtin .envNew)) {r : Option Ref} {tr : List Event}
    (ev : Evaluates W L v form env r w tr) :
    NamedOpCall W (ArgumentsFirst W form env (Runs .envNew op (EnvNewRun W))) v env op r w tr :=
  namedBuiltin_aux hL (by simp) (fun _ _ _ _ _ _ _ k => c60_envNewRun_aux k) rv nc hop ev

/-- `env-current`: the environment of the call -/
theorem c60_env_current (hL : L.Safe) {v w : Vm} (rv : v.Reached W L) {form env op : Ref} {name : Text} {xs : List Ref}
    (nc : NamedCall W v form env name op xs) (hop : v.HasObj op (.builtin .envCurrent)) {r : Option Ref} {tr : List Event}
    (ev : Evaluates W L v form env r w tr) :
    NamedOpCall W (ArgumentsFirst W form env (Runs .envCurrent op (EnvRun W env))) v env op r w tr :=
  namedBuiltinEnv_aux hL (by simp) rv (fun _ _ _ _ _ _ k _ => c60_envCurrentRun_aux k) nc hop ev

/-- `env-global` -/
theorem c60_env_global (hL : L.Safe) {v w : Vm} (rv : v.Reached W L) {form env op : Ref} {name : Text} {xs : List Ref}
    (nc : NamedCall W v form env name op xs) (hop : v.HasObj op (.builtin .envGlobal)) {r : Option Ref} {tr : List Event}
    (ev : Evaluates W L v form env r w tr) :
    NamedOpCall W (ArgumentsFirst W form env (Runs .envGlobal op fun ts u r w tr => EnvRun W u.globalEnv ts u r w tr)) v env op r w tr :=
  namedBuiltin_aux hL (by simp) (fun _ _ _ _ _ _ _ k => c60_envGlobalRun_aux k) rv nc hop ev

/-- `abort` -/
theorem c60_abort (hL : L.Safe) {v w : Vm} (rv : v.Reached W L) {form env op : Ref} {name : Text} {xs : List Ref}
    (nc : NamedCall W v form env name op xs) (hop : v.HasObj op (.builtin .abort)) {r : Option Ref} {tr : List Event}
    (ev : Evaluates W L v form env r w tr) :
    NamedOpCall W (ArgumentsFirst W form env (Runs .abort op (AbortRun W))) v env op r w tr :=
  namedBuiltin_aux hL (by simp) (fun _ _ _ _ _ _ _ k => c60_abortRun_aux k) rv nc hop ev

/-- The numbers that `uid` gives for two values of a state are different. -/
theorem c60_uid_distinct (hL : L.Safe) {v : Vm} (rv : v.Reached W L) {x y : Ref} {c d : Cell} (hc : v.mem x = some c) (hd : v.mem y = some d)
    (ne : x ≠ y) : (c.uid : Int) ≠ d.uid := by
  intro e
  exact ne ((rv.good hL).1.uidInj x c y d hc hd (by exact_mod_cast e))

/-! ### Examples -/

/-- names for the examples -/
def kit15 : List (String × Obj × Bool) := [("not", .builtin .not, true), ("vector", .builtin .vector, true), ("env-new", .builtin .envNew, true),
  ("env-current", .builtin .envCurrent, true), ("env-global", .builtin .envGlobal, true), ("uid", .builtin .uid, true), ("doc", .builtin .doc, true),
  ("abort", .builtin .abort, true), ("define", .special .define, false), ("number?", .builtin (.isA .number), true)]

theorem kit15_plain : ∀ x ∈ kit15, x.2.1.children = [] := by decide

/-- `(not (number? 1))` -/
example : ∃ (v w : Vm) (form op : Ref) (xs : List Ref) (r : Option Ref) (tr : List Event), v.Reached world library ∧
    NamedCall world v form v.globalEnv (txt "not") op xs ∧ v.HasObj op (.builtin .not) ∧
    Evaluates world library v form v.globalEnv r w tr ∧ objAt w r = some (.bool false) := by
  obtain ⟨v, form, r, w, tr, hr, of, oe, ev, h⟩ := stage_exists (table := kit15) (forms := []) (fuel := 60)
    (last := .vec [.sym "not", .vec [.sym "number?", .int 1]])
    (P := fun v f r w tr => namedCheck v f "not" (.builtin .not) && decide (objAt w r = some (.bool false))) kit15_plain (by decide +kernel)
  simp only [Bool.and_eq_true, decide_eq_true_eq] at h
  obtain ⟨op, xs, h1, h2, h3⟩ := named_of_check h.1 of oe
  exact ⟨v, w, form, op, xs, r, tr, hr, h1, h2, ev, h.2⟩

/-- `(vector 1 x)` -/
example : ∃ (v w : Vm) (form op : Ref) (xs : List Ref) (r : Option Ref) (tr : List Event), v.Reached world library ∧
    NamedCall world v form v.globalEnv (txt "vector") op xs ∧ v.HasObj op (.builtin .vector) ∧
    Evaluates world library v form v.globalEnv r w tr ∧ elemsAt w r = some [some (.int 1), some (.int 7)] := by
  obtain ⟨v, form, r, w, tr, hr, of, oe, ev, h⟩ := stage_exists (table := kit15) (forms := [.vec [.sym "define", .sym "x", .sym "as", .int 7, .str "the x"]]) (fuel := 60)
    (last := .vec [.sym "vector", .int 1, .sym "x"])
    (P := fun v f r w tr => namedCheck v f "vector" (.builtin .vector) && decide (elemsAt w r = some [some (.int 1), some (.int 7)])) kit15_plain (by decide +kernel)
  simp only [Bool.and_eq_true, decide_eq_true_eq] at h
  obtain ⟨op, xs, h1, h2, h3⟩ := named_of_check h.1 of oe
  exact ⟨v, w, form, op, xs, r, tr, hr, h1, h2, ev, h.2⟩

/-- `(env-new (env-current))` -/
example : ∃ (v w : Vm) (form op : Ref) (xs : List Ref) (r : Option Ref) (tr : List Event), v.Reached world library ∧
    NamedCall world v form v.globalEnv (txt "env-new") op xs ∧ v.HasObj op (.builtin .envNew) ∧
    Evaluates world library v form v.globalEnv r w tr ∧ objAt w r = some (.env [] (some v.globalEnv)) := by
  obtain ⟨v, form, r, w, tr, hr, of, oe, ev, h⟩ := stage_exists (table := kit15) (forms := []) (fuel := 60)
    (last := .vec [.sym "env-new", .vec [.sym "env-current"]])
    (P := fun v f r w tr => namedCheck v f "env-new" (.builtin .envNew) && decide (objAt w r = some (.env [] (some v.globalEnv)))) kit15_plain (by decide +kernel)
  simp only [Bool.and_eq_true, decide_eq_true_eq] at h
  obtain ⟨op, xs, h1, h2, h3⟩ := named_of_check h.1 of oe
  exact ⟨v, w, form, op, xs, r, tr, hr, h1, h2, ev, h.2⟩

/-- `(env-current)` -/
example : ∃ (v w : Vm) (form op : Ref) (xs : List Ref) (r : Option Ref) (tr : List Event), v.Reached world library ∧
    NamedCall world v form v.globalEnv (txt "env-current") op xs ∧ v.HasObj op (.builtin .envCurrent) ∧
    Evaluates world library v form v.globalEnv r w tr ∧ r = some v.globalEnv := by
  obtain ⟨v, form, r, w, tr, hr, of, oe, ev, h⟩ := stage_exists (table := kit15) (forms := []) (fuel := 60)
    (last := .vec [.sym "env-current"])
    (P := fun v f r w tr => namedCheck v f "env-current" (.builtin .envCurrent) && decide (r = some v.globalEnv)) kit15_plain (by decide +kernel)
  simp only [Bool.and_eq_true, decide_eq_true_eq] at h
  obtain ⟨op, xs, h1, h2, h3⟩ := named_of_check h.1 of oe
  exact ⟨v, w, form, op, xs, r, tr, hr, h1, h2, ev, h.2⟩

/-- `(env-global)` -/
example : ∃ (v w : Vm) (form op : Ref) (xs : List Ref) (r : Option Ref) (tr : List Event), v.Reached world library ∧
    NamedCall world v form v.globalEnv (txt "env-global") op xs ∧ v.HasObj op (.builtin .envGlobal) ∧
    Evaluates world library v form v.globalEnv r w tr ∧ r = some v.globalEnv := by
  obtain ⟨v, form, r, w, tr, hr, of, oe, ev, h⟩ := stage_exists (table := kit15) (forms := []) (fuel := 60)
    (last := .vec [.sym "env-global"])
    (P := fun v f r w tr => namedCheck v f "env-global" (.builtin .envGlobal) && decide (r = some v.globalEnv)) kit15_plain (by decide +kernel)
  simp only [Bool.and_eq_true, decide_eq_true_eq] at h
  obtain ⟨op, xs, h1, h2, h3⟩ := named_of_check h.1 of oe
  exact ⟨v, w, form, op, xs, r, tr, hr, h1, h2, ev, h.2⟩

/-- `(uid x)` -/
example : ∃ (v w : Vm) (form op : Ref) (xs : List Ref) (r : Option Ref) (tr : List Event), v.Reached world library ∧
    NamedCall world v form v.globalEnv (txt "uid") op xs ∧ v.HasObj op (.builtin .uid) ∧
    Evaluates world library v form v.globalEnv r w tr ∧ (match objAt w r with | some (.int i) => decide (0 ≤ i) | _ => false) = true := by
  obtain ⟨v, form, r, w, tr, hr, of, oe, ev, h⟩ := stage_exists (table := kit15) (forms := [.vec [.sym "define", .sym "x", .sym "as", .int 7, .str "the x"]]) (fuel := 60)
    (last := .vec [.sym "uid", .sym "x"])
    (P := fun v f r w tr => namedCheck v f "uid" (.builtin .uid) && decide ((match objAt w r with | some (.int i) => decide (0 ≤ i) | _ => false) = true)) kit15_plain (by decide +kernel)
  simp only [Bool.and_eq_true, decide_eq_true_eq] at h
  obtain ⟨op, xs, h1, h2, h3⟩ := named_of_check h.1 of oe
  exact ⟨v, w, form, op, xs, r, tr, hr, h1, h2, ev, h.2⟩

/-- `(doc x)` -/
example : ∃ (v w : Vm) (form op : Ref) (xs : List Ref) (r : Option Ref) (tr : List Event), v.Reached world library ∧
    NamedCall world v form v.globalEnv (txt "doc") op xs ∧ v.HasObj op (.builtin .doc) ∧
    Evaluates world library v form v.globalEnv r w tr ∧ objAt w r = some (.str (txt "the x")) := by
  obtain ⟨v, form, r, w, tr, hr, of, oe, ev, h⟩ := stage_exists (table := kit15) (forms := [.vec [.sym "define", .sym "x", .sym "as", .int 7, .str "the x"]]) (fuel := 60)
    (last := .vec [.sym "doc", .sym "x"])
    (P := fun v f r w tr => namedCheck v f "doc" (.builtin .doc) && decide (objAt w r = some (.str (txt "the x")))) kit15_plain (by decide +kernel)
  simp only [Bool.and_eq_true, decide_eq_true_eq] at h
  obtain ⟨op, xs, h1, h2, h3⟩ := named_of_check h.1 of oe
  exact ⟨v, w, form, op, xs, r, tr, hr, h1, h2, ev, h.2⟩

/-- `(doc x 2)` -/
example : ∃ (v w : Vm) (form op : Ref) (xs : List Ref) (r : Option Ref) (tr : List Event), v.Reached world library ∧
    NamedCall world v form v.globalEnv (txt "doc") op xs ∧ v.HasObj op (.builtin .doc) ∧
    Evaluates world library v form v.globalEnv r w tr ∧ elemsAt w r = some [some (.str (txt "the x")), some .nil] := by
  obtain ⟨v, form, r, w, tr, hr, of, oe, ev, h⟩ := stage_exists (table := kit15) (forms := [.vec [.sym "define", .sym "x", .sym "as", .int 7, .str "the x"]]) (fuel := 60)
    (last := .vec [.sym "doc", .sym "x", .int 2])
    (P := fun v f r w tr => namedCheck v f "doc" (.builtin .doc) && decide (elemsAt w r = some [some (.str (txt "the x")), some .nil])) kit15_plain (by decide +kernel)
  simp only [Bool.and_eq_true, decide_eq_true_eq] at h
  obtain ⟨op, xs, h1, h2, h3⟩ := named_of_check h.1 of oe
  exact ⟨v, w, form, op, xs, r, tr, hr, h1, h2, ev, h.2⟩

/-- `(abort)` -/
example : ∃ (v w : Vm) (form op : Ref) (xs : List Ref) (r : Option Ref) (tr : List Event), v.Reached world library ∧
    NamedCall world v form v.globalEnv (txt "abort") op xs ∧ v.HasObj op (.builtin .abort) ∧
    Evaluates world library v form v.globalEnv r w tr ∧ (objAt w r).isSome := by
  obtain ⟨v, form, r, w, tr, hr, of, oe, ev, h⟩ := stage_exists (table := kit15) (forms := []) (fuel := 60)
    (last := .vec [.sym "abort"])
    (P := fun v f r w tr => namedCheck v f "abort" (.builtin .abort) && decide ((objAt w r).isSome)) kit15_plain (by decide +kernel)
  simp only [Bool.and_eq_true, decide_eq_true_eq] at h
  obtain ⟨op, xs, h1, h2, h3⟩ := named_of_check h.1 of oe
  exact ⟨v, w, form, op, xs, r, tr, hr, h1, h2, ev, h.2⟩


end Dern.Props
