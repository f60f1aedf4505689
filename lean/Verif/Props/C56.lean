import Verif.Props.Stash
import Verif.Props.C40
import Verif.Props.C53
import Verif.Props.C54
/-
C56: `generate` fills new collections.

For every reachable state and every call of `generate`: which forms are evaluated, in which order and environment, and what the
result consists of (see `Calling.lean` for the vocabulary).

`(generate 'vector of count x)` and `(generate 'string of count x)`: if the value of `x` is not callable, the new collection consists of
`count` times this value; if it is callable, the form `(x (quote result) index)` is evaluated for the indices 0, 1, … below `count`, and each
value is appended to the result.

`(generate 'vector mapping f on a b …)`: the new vector consists of the values of the forms `(f' a'ᵢ b'ᵢ …)`, f', a', b', … being the values of
f, a, b, …, for all indices i below the length of the longest of the vectors a', b', ….
-/
namespace Dern.Props
open Dern
open Dern.Prog (Library)
open Dern.Spec (Dbl)
variable {W : World} {L : Library}

/-- the value can be called -/
def CanCall (v : Vm) (x : Ref) : Prop :=
  (∃ f, v.HasObj x (.fn f)) ∨ (∃ f, v.HasObj x (.mac f)) ∨ (∃ b, v.HasObj x (.builtin b)) ∨ ∃ s, v.HasObj x (.special s)

/-- the value is a number that is not negative; `k` is its integer part -/
def Amount (v : Vm) (x : Ref) (k : Nat) : Prop :=
  (∃ n : Int, v.HasObj x (.int n) ∧ n = k) ∨
  ∃ d y, v.HasObj x (.real d) ∧ d.value = some y ∧ (k : Int) * Dbl.unit ≤ y ∧ y < ((k : Int) + 1) * Dbl.unit

/-- the value is not such a number -/
def NoAmount (v : Vm) (x : Ref) : Prop :=
  (∀ n, v.HasObj x (.int n) → n < 0) ∧ ∀ d, v.HasObj x (.real d) → ∃ y, d.value = some y ∧ y < 0

/-- the kind of collection a symbol stands for, with the collection in the beginning -/
inductive Kind : Text → Obj → Prop
  | vector : Kind (txt "vector") (.vec [])
  | string : Kind (txt "string") (.str [])

/-- appending the value `t` to a collection: strings and symbols take characters -/
inductive Added (v : Vm) (t : Ref) : Obj → Obj → Prop
  | vec {es} : Added v t (.vec es) (.vec (es ++ [t]))
  | str {s c cs} : v.HasObj t (.chr (c :: cs)) → Added v t (.str s) (.str (s ++ [c]))
  | sym {s c cs} : v.HasObj t (.chr (c :: cs)) → Added v t (.sym s) (.sym (s ++ [c]))

/-- `r` is a new error, made after the state `v`, since when otherwise only the values in `E` were changed -/
def ErrorAfter (W : World) (E : Ref → Prop) (v : Vm) (r : Ref) (w : Vm) : Prop := Vm.Quiet W E v w ∧ ¬ v.Old W r ∧ w.IsErr r

/-- the form `(gen (quote r) i)` -/
def TurnForm (v : Vm) (form gen r : Ref) (i : Nat) : Prop :=
  ∃ q s ix j, v.HasVec form [gen, q, ix] ∧ v.HasVec q [s, r] ∧ v.HasObj s (.sym (txt "quote")) ∧ v.HasObj ix (.int j) ∧ (i < 2 ^ 31 → j = i)

/-- `k` turns with the generator `gen` and the indices from `i` on; `r` is the object `o` before and the object `o'` after them.  (The generator knows
the result and may change it.) -/
inductive GenTurns (W : World) (env gen r : Ref) : (k i : Nat) → (v : Vm) → (o : Obj) → (w : Vm) → (o' : Obj) → List Event → Prop
  | done {i v o} : v.HasObj r o → GenTurns W env gen r 0 i v o v o []
  | turn {k i v o e t o1 o2 u w o' tr} : Evals W v e.form env e t → ¬ v.Old W e.form → TurnForm e.pre e.form gen r i → v.HasObj r o →
      e.pre.HasObj r o → e.post.HasObj r o1 → Added e.post t o1 o2 → Vm.Quiet W (fun x => x = r) e.post u →
      GenTurns W env gen r k (i + 1) u o2 w o' tr → GenTurns W env gen r (k + 1) i v o w o' (e :: tr)

/-- What `(generate type x1 x2 x3)` does after the type has been determined; `o` is the collection in the beginning. -/
inductive FillRun (W : World) (v : Vm) (env x1 x2 x3 : Ref) (o : Obj) (r : Ref) (w : Vm) : List Event → Prop
  | noOf : ¬ v.HasObj x1 (.sym (txt "of")) → ErrorAfter W nobody v r w → FillRun W v env x1 x2 x3 o r w []
  | noAmount {e1 t1} : v.HasObj x1 (.sym (txt "of")) → Evals W v x2 env e1 t1 → NoAmount e1.post t1 → ErrorAfter W nobody e1.post r w →
      FillRun W v env x1 x2 x3 o r w [e1]
  | repeated {e1 t1 k e2 g} : v.HasObj x1 (.sym (txt "of")) → Evals W v x2 env e1 t1 → Amount e1.post t1 k → Evals W e1.post x3 env e2 g →
      ¬ CanCall e2.post g → ¬ v.Old W r → Vm.Quiet W (fun x => x = r) e2.post w → (o = .vec [] → w.HasVec r (List.replicate k g)) →
      (o = .str [] → ∃ s : Text, w.HasObj r (.str s) ∧ s.length = k ∧ ∀ c ∈ s, ∃ cs, e2.post.HasObj g (.chr (c :: cs))) →
      FillRun W v env x1 x2 x3 o r w [e1, e2]
  | generated {e1 t1 k e2 g u o' tr} : v.HasObj x1 (.sym (txt "of")) → Evals W v x2 env e1 t1 → Amount e1.post t1 k → Evals W e1.post x3 env e2 g →
      CanCall e2.post g → ¬ v.Old W r → GenTurns W env x3 r k 0 e2.post o u o' tr → Vm.Quiet W nobody u w → w.HasObj r o' →
      FillRun W v env x1 x2 x3 o r w (e1 :: e2 :: tr)

/-- evaluating the vectors `xs`, their values are the vectors `ys`, `len` the largest length -/
inductive OnVectors (W : World) (E : Ref → Prop) (env : Ref) : (xs : List Ref) → (v : Vm) → (ys : List Ref) → (len : Nat) → (w : Vm) → List Event → Prop
  | nil {v} : OnVectors W E env [] v [] 0 v []
  | cons {x xs v es e y es' ys len w tr} : v.HasVec x es → e.form = x → e.env = env → e.result = some y → Vm.Quiet W E v e.pre → e.post.HasVec y es' →
      OnVectors W E env xs e.post ys len w tr → OnVectors W E env (x :: xs) v (y :: ys) (max es'.length len) w (e :: tr)

/-- `k` calls of `f` with the elements of `ys` at the indices from `i` on, `ts` are their values -/
inductive MapTurns (W : World) (E : Ref → Prop) (env f : Ref) (ys : List Ref) : (k i : Nat) → (v : Vm) → (ts : List Ref) → (w : Vm) → List Event → Prop
  | done {i v} : MapTurns W E env f ys 0 i v [] v []
  | turn {k i v e as t ts w tr} : Vm.Quiet W E v e.pre → ¬ v.Old W e.form → e.pre.HasVec e.form (f :: as) →
      List.Forall₂ (fun y a => ∃ es, e.pre.HasVec y es ∧ es[i]? = some a) ys as → e.env = env → e.result = some t →
      MapTurns W E env f ys k (i + 1) e.post ts w tr → MapTurns W E env f ys (k + 1) i v (t :: ts) w (e :: tr)

/-- What `(generate type x1 x2 x3 x…)` does after the type has been determined.  The helper vector `a` holds the vectors. -/
inductive MapRun (W : World) (v : Vm) (env x1 x2 x3 : Ref) (xs : List Ref) (o : Obj) (r : Ref) (w : Vm) : List Event → Prop
  | noMapping : ¬ v.HasObj x1 (.sym (txt "mapping")) → ErrorAfter W nobody v r w → MapRun W v env x1 x2 x3 xs o r w []
  | noCallable {e1 f} : v.HasObj x1 (.sym (txt "mapping")) → Evals W v x2 env e1 f → ¬ CanCall e1.post f → ErrorAfter W nobody e1.post r w →
      MapRun W v env x1 x2 x3 xs o r w [e1]
  | noOn {e1 f} : v.HasObj x1 (.sym (txt "mapping")) → Evals W v x2 env e1 f → CanCall e1.post f → ¬ e1.post.HasObj x3 (.sym (txt "on")) →
      ErrorAfter W nobody e1.post r w → MapRun W v env x1 x2 x3 xs o r w [e1]
  | noVector {e1 f a ps x qs ys len u tr} : v.HasObj x1 (.sym (txt "mapping")) → Evals W v x2 env e1 f → CanCall e1.post f →
      e1.post.HasObj x3 (.sym (txt "on")) → ¬ e1.post.Old W a → xs = ps ++ x :: qs → OnVectors W (fun y => y = a) env ps e1.post ys len u tr →
      (∀ es, ¬ u.HasVec x es) → ErrorAfter W (fun y => y = a) u r w → MapRun W v env x1 x2 x3 xs o r w (e1 :: tr)
  | mapped {e1 f a ys len u ts z tr tr'} : v.HasObj x1 (.sym (txt "mapping")) → Evals W v x2 env e1 f → CanCall e1.post f →
      e1.post.HasObj x3 (.sym (txt "on")) → ¬ e1.post.Old W a → ¬ v.Old W r → OnVectors W (fun y => y = a) env xs e1.post ys len u tr →
      MapTurns W (fun y => y = a ∨ y = r) env f ys len 0 u ts z tr' → Vm.Quiet W (fun y => y = a ∨ y = r) z w →
      (o = .vec [] ∧ w.HasVec r ts ∨ o = .str [] ∧ len = 0 ∧ w.HasObj r (.str [])) → MapRun W v env x1 x2 x3 xs o r w (e1 :: tr ++ tr')

/-- What `generate` does with the arguments `xs`. -/
inductive GenerateRun (W : World) (v : Vm) : (xs : List Ref) → (env r : Ref) → (w : Vm) → List Event → Prop
  | few {xs env r w} : xs.length < 4 → ErrorAfter W nobody v r w → GenerateRun W v xs env r w []
  | noKind {x0 xs env r w e0 t0} : 3 ≤ xs.length → Evals W v x0 env e0 t0 → (∀ s o, Kind s o → ¬ e0.post.HasObj t0 (.sym s)) →
      ErrorAfter W nobody e0.post r w → GenerateRun W v (x0 :: xs) env r w [e0]
  | fill {x0 x1 x2 x3 env r w e0 t0 s o tr} : Evals W v x0 env e0 t0 → e0.post.HasObj t0 (.sym s) → Kind s o →
      FillRun W e0.post env x1 x2 x3 o r w tr → GenerateRun W v [x0, x1, x2, x3] env r w (e0 :: tr)
  | map {x0 x1 x2 x3 xs env r w e0 t0 s o tr} : xs ≠ [] → Evals W v x0 env e0 t0 → e0.post.HasObj t0 (.sym s) → Kind s o →
      MapRun W e0.post env x1 x2 x3 xs o r w tr → GenerateRun W v (x0 :: x1 :: x2 :: x3 :: xs) env r w (e0 :: tr)

/-! ### proofs -/

variable {n : Nat} {h : Handler} {env : Ref} {os : List (Ref × Cell)} {v w u : Vm}

theorem c56_canCall_aux {x : Ref} {c : Cell} (hc : v.mem x = some c) : CanCall v x ↔ Prog.isCallable c.obj = true := by
  have key : ∀ o, v.HasObj x o ↔ c.obj = o := fun o => ⟨fun ⟨c', hc', ho⟩ => by rw [same_cell hc hc', ho], fun ho => ⟨c, hc, ho⟩⟩
  simp only [CanCall, key]
  cases c.obj <;> simp [Prog.isCallable]

theorem wp_argStashed {args : Ref} {xs : List Ref} {c : Cell} {i : Nat} (k : Stashed W env os v) (hm : (args, c) ∈ os) (ho : c.obj = .vec xs)
    {Q : Option Ref → Vm → List Event → Prop} (hq : Q xs[i]? v []) : Wp W n h (Prog.elemAt args i) v Q := by
  refine wp_elemAt fun c' es hc ho' => ?_
  obtain rfl := same_cell (k.made _ hm) hc
  rw [ho] at ho'; cases ho'
  exact hq

theorem wp_expectSymbol {args x : Ref} {xs : List Ref} {c : Cell} {i : Nat} {s : Text} (k : Stashed W env os v) (hm : (args, c) ∈ os) (ho : c.obj = .vec xs)
    (hx : xs[i]? = some x) {Q : Option Ref → Vm → List Event → Prop} (hy : v.HasObj x (.sym s) → Q none v [])
    (hn : ∀ r w, ¬ v.HasObj x (.sym s) → Vm.Step W (stash os) nobody v w → ¬ v.Old W r → w.IsErr r → Q (some r) w []) :
    Wp W n h (Prog.expectSymbol args i s) v Q := by
  unfold Prog.expectSymbol
  refine wp_bind (wp_argStashed k hm ho (wp_bind (wp_require fun y e => ?_)))
  rw [hx] at e; cases e
  refine wp_bind (wp_isSymbol fun b hb => ?_)
  split
  · rename_i h1; exact wp_pure (hy (hb.mp h1))
  · rename_i h1; exact wp_errorStashed k fun r w kw g hst hp fr he => hn r w (fun h2 => h1 (hb.mpr h2)) g fr he

theorem wp_toSize {o : Obj} {Q : Option Nat → Vm → List Event → Prop} {x : Ref} {c : Cell} (hc : v.mem x = some c) (ho : c.obj = o)
    (hn : NoAmount v x → Q none v []) (hy : ∀ k, Amount v x k → Q (some k) v []) : Wp W n h (Prog.toSize o) v Q := by
  have key : ∀ o', v.HasObj x o' ↔ o = o' := fun o' => ⟨fun ⟨c', hc', ho'⟩ => by rw [← ho, same_cell hc hc', ho'], fun e => ⟨c, hc, ho.trans e⟩⟩
  unfold Prog.toSize
  split
  · rename_i m
    refine wp_pure ?_
    split
    · refine hn ⟨fun m' hm => ?_, fun d hd => ?_⟩
      · cases (key _).mp hm; assumption
      · cases (key _).mp hd
    · exact hy _ (.inl ⟨m, (key _).mpr rfl, by omega⟩)
  · rename_i d
    split
    · rename_i y hd
      split
      · refine wp_pure (hn ⟨fun m' hm => ?_, fun d' hd' => ?_⟩)
        · cases (key _).mp hm
        · cases (key _).mp hd'; exact ⟨y, hd, by assumption⟩
      · rename_i h0
        split
        · exact wp_fail
        · split
          · refine wp_pure (hy _ (.inr ⟨d, y, (key _).mpr rfl, hd, ?_⟩))
            have hu : (0 : Int) < (Dbl.unit : Int) := Int.ofNat_lt.mpr Dbl.unit_pos
            have h1 : (y.tdiv (Dbl.unit : Int)) = y / (Dbl.unit : Int) := Int.tdiv_eq_ediv_of_nonneg (by omega)
            have h2 : 0 ≤ y / (Dbl.unit : Int) := Int.ediv_nonneg (by omega) (by omega)
            rw [h1, Int.toNat_of_nonneg h2]
            exact ⟨Int.ediv_mul_le y (by omega), Int.lt_ediv_add_one_mul_self y hu⟩
          · exact wp_fail
    · exact wp_fail
  · exact wp_fail

/-- evaluating one of the arguments -/
theorem wp_evalArgStashed (F : Fine W h) {args : Ref} {xs : List Ref} {c : Cell} {i : Nat} {x : Ref} (k : Stashed W env os v) (hm : (args, c) ∈ os)
    (ho : c.obj = .vec xs) (hx : xs[i]? = some x) (hp : v.Pub W (stash os) x) {Q : Ref → Vm → List Event → Prop}
    (hq : ∀ a w, Stashed W env os w → v.births ≤ w.births → w.stack = v.stack → w.Pub W (stash os) a → Q a w [⟨x, env, v, some a, w⟩]) :
    Wp W n h (Prog.evalReq args i env) v Q := by
  unfold Prog.evalReq
  refine wp_bind (wp_argStashed k hm ho ?_)
  rw [hx]
  unfold Prog.evalOpt
  refine wp_bind (wp_evalStashed F k hp k.env fun a w kw g kp hst ha => wp_require fun t e => ?_)
  subst e
  exact hq t w kw g.later.births hst (ha t rfl)

/-- appending to a new vector -/
theorem wp_appendOpen {v0 : Vm} {r x : Ref} {c : Cell} {es : List Ref} (k : Stashed W env os v) (g : Vm.Step W (stash os) nobody v0 v) (hc : v.mem r = some c)
    (ho : c.obj = .vec es) (hn : v.Pub W (stash os) r) (hx : v.Pub W (stash os) x) (hf : ¬ v0.Old W r) {Q : Unit → Vm → List Event → Prop}
    (hq : ∀ w, Stashed W env os w → Vm.Step W (stash os) nobody v0 w → w.mem r = some { c with obj := .vec (es ++ [x]) } →
      (∀ y, y ≠ r → w.mem y = v.mem y) → w.births = v.births → w.stack = v.stack → Q () w []) : Wp W n h (Prog.append r x) v Q := by
  refine wp_append fun c' es' hc' ho' => ?_
  obtain rfl := same_cell hc hc'
  rw [ho] at ho'; cases ho'
  have hp := k.closed.pub r c hc hn.2
  have g' := g.modify (d := { c with obj := .vec (es ++ [x]) }) (.inr hf) hc rfl rfl
    ⟨by
      have := hp.obj
      rw [ho] at this
      intro y hy
      rcases List.mem_append.mp hy with hy | hy
      · exact this y hy
      · rw [List.mem_singleton.mp hy]; exact hx, hp.docstr, hp.docvec⟩
  have hs : ∀ o ∈ os, o.1 ≠ r := fun o ho e => hn.2 ⟨o, ho, e⟩
  exact hq _ (k.aside g' (Nat.le_refl _) (fun o ho => Mem.set_other _ _ (hs o ho)) k.base) g' (Mem.set_self _ _ _) (fun y hy => Mem.set_other _ _ hy) rfl rfl

/-- appending the value of a turn -/
theorem c56_collect_aux {r t : Ref} (k : Stashed W env os v) (hr : v.Pub W (stash os) r) (ht : v.Pub W (stash os) t) {Q : Unit → Vm → List Event → Prop}
    (hq : ∀ o1 o2 w, v.HasObj r o1 → Added v t o1 o2 → Vm.Quiet W (fun x => x = r) v w → w.HasObj r o2 → Stashed W env os w → w.stack = v.stack →
      w.births = v.births → Q () w []) : Wp W n h (Prog.collect r t) v Q := by
  have put : ∀ (c : Cell) (o2 : Obj), v.mem r = some c → Added v t c.obj o2 → PubObj (v.Pub W (stash os)) o2 →
      Q () { v with mem := v.mem.set r { c with obj := o2 } } [] := by
    intro c o2 hc ha ho2
    have hp := k.closed.pub r c hc hr.2
    have g := (k.here (E := fun x => x = r)).modify (d := { c with obj := o2 }) (.inl rfl) hc rfl rfl ⟨ho2, hp.docstr, hp.docvec⟩
    have hs : ∀ o ∈ os, o.1 ≠ r := fun o ho e => hr.2 ⟨o, ho, e⟩
    exact hq c.obj o2 _ ⟨c, hc, rfl⟩ ha g.quiet ⟨_, Mem.set_self _ _ _, rfl⟩ (k.aside g (Nat.le_refl _) (fun o ho => Mem.set_other _ _ (hs o ho)) k.base) rfl rfl
  unfold Prog.collect
  refine wp_bind (wp_read fun c hc => ?_)
  split
  · rename_i es ho
    refine wp_setObj fun c' hc' => ?_
    obtain rfl := same_cell hc hc'
    have hp := (k.closed.pub r c hc hr.2).obj
    rw [ho] at hp
    refine put c _ hc (by rw [ho]; exact .vec) ?_
    intro y hy
    rcases List.mem_append.mp hy with hy | hy
    · exact hp y hy
    · rw [List.mem_singleton.mp hy]; exact ht
  · rename_i s ho
    refine wp_bind (wp_read fun d hd => ?_)
    split
    · rename_i t' ho'
      refine wp_bind (wp_codeOf fun a cs e => wp_setObj fun c' hc' => ?_)
      subst e
      obtain rfl := same_cell hc hc'
      exact put c _ hc (by rw [ho]; exact .str ⟨d, hd, ho'⟩) trivial
    · exact wp_fail
  · rename_i s ho
    refine wp_bind (wp_read fun d hd => ?_)
    split
    · rename_i t' ho'
      refine wp_bind (wp_codeOf fun a cs e => wp_setObj fun c' hc' => ?_)
      subst e
      obtain rfl := same_cell hc hc'
      exact put c _ hc (by rw [ho]; exact .sym ⟨d, hd, ho'⟩) trivial
    · exact wp_fail
  · exact wp_fail

theorem c56_turn_aux (F : Fine W h) {gen r : Ref} {i : Nat} {c : Cell} (k : Stashed W env os v) (hrs : r ∈ v.stack) (hr : v.Pub W (stash os) r)
    (hc : v.mem r = some c) (hg : v.Pub W (stash os) gen) {Q : Unit → Vm → List Event → Prop}
    (hq : ∀ e t o1 o2 u, Evals W v e.form env e t → ¬ v.Old W e.form → TurnForm e.pre e.form gen r i → e.pre.HasObj r c.obj → e.post.HasObj r o1 →
      Added e.post t o1 o2 → Vm.Quiet W (fun x => x = r) e.post u → u.HasObj r o2 → Stashed W env os u → u.stack = v.stack → v.births ≤ u.births →
      Q () u [e]) : Wp W n h (Prog.generateTurn r gen env i) v Q := by
  unfold Prog.generateTurn
  -- the index
  refine wp_bind (wp_alloc k.sane fun ix w1 a1 => wp_bind (wp_push ?_))
  have k1 := (k.alloc a1 trivial).push a1.old
  have g1 := ((k.here (E := nobody)).alloc a1 trivial).push a1.old
  have hr1 := alloc_kept k.sane a1 hrs hc
  have b1 : v.births ≤ w1.births := g1.quiet.births
  have p1 := a1.pub k.closed
  -- the quoted result
  refine wp_bind (wp_alloc k1.sane fun q w2 a2 => wp_bind (wp_push ?_))
  have k2 := (k1.alloc a2 (by simp [PubObj])).push a2.old
  have g2 := (g1.alloc a2 (by simp [PubObj])).push a2.old
  have hr2 := alloc_kept k1.sane a2 (.tail _ (by rw [a1.stack]; exact hrs)) hr1
  have hi2 := alloc_kept k1.sane a2 (.head _) a1.cell
  have b2 : w1.births ≤ w2.births := (a2.quiet (E := nobody) k1.sane).births
  have p2 := a2.pub k1.closed
  have f2 : ¬ v.Old W q := fun h => a2.fresh (h.mono b1)
  refine wp_bind (wp_alloc k2.sane fun s w3 a3 => ?_)
  have k3 := k2.alloc a3 trivial
  have g3 := g2.alloc a3 trivial
  have s3 : w3.stack = q :: ix :: v.stack := by rw [a3.stack, a2.stack, a1.stack]
  have hr3 := alloc_kept k2.sane a3 (by simp [a2.stack, a1.stack, hrs]) hr2
  have hi3 := alloc_kept k2.sane a3 (by simp [a2.stack]) hi2
  have hq3 := alloc_kept k2.sane a3 (.head _) a2.cell
  have b3 : w2.births ≤ w3.births := (a3.quiet (E := nobody) k2.sane).births
  have p3 := a3.pub k2.closed
  have p2' := p2.mono b3
  have rq : r ≠ q := fun e => f2 (e ▸ hr.1)
  have iq : ix ≠ q := fun e => a2.fresh (e ▸ p1.1)
  have sq : s ≠ q := fun e => a3.fresh (e ▸ p2.1)
  have hr3' : w3.Pub W (stash os) r := hr.mono (Nat.le_trans b1 (Nat.le_trans b2 b3))
  refine wp_bind (wp_appendOpen k3 g3 hq3 rfl p2' p3 f2 fun w4 k4 g4 hq4 same4 hb4 s4 => ?_)
  refine wp_bind (wp_appendOpen k4 g4 hq4 rfl (p2'.mono (Nat.le_of_eq hb4.symm)) (hr3'.mono (Nat.le_of_eq hb4.symm)) f2 fun w5 k5 g5 hq5 same5 hb5 s5 => ?_)
  have hr5 := ((same5 r rq).trans (same4 r rq)).trans hr3
  have hi5 := ((same5 ix iq).trans (same4 ix iq)).trans hi3
  have hs5 := ((same5 s sq).trans (same4 s sq)).trans a3.cell
  have st5 : w5.stack = q :: ix :: v.stack := by rw [s5, s4, s3]
  -- the form
  refine wp_bind (wp_alloc k5.sane fun form w6 a6 => ?_)
  have k6 := k5.alloc a6 (by simp [PubObj])
  have g6 := g5.alloc a6 (by simp [PubObj])
  have hr6 := alloc_kept k5.sane a6 (by rw [st5]; simp [hrs]) hr5
  have hi6 := alloc_kept k5.sane a6 (by rw [st5]; simp) hi5
  have hq6 := alloc_kept k5.sane a6 (by rw [st5]; simp) hq5
  have ks5 : w5.Kept s := .step (.root (by rw [st5]; simp)) ⟨_, hq5, by simp [Cell.edges, Obj.children]⟩
  have hs6 : w6.mem s = _ := (a6.kept s ks5 (by rintro rfl; exact a6.fresh (k5.sane.old _ _ hs5))).trans hs5
  have b6 : w3.births ≤ w6.births := by rw [a6.births, hb5, hb4]; omega
  have f6 : ¬ v.Old W form := fun h => a6.fresh (h.mono g5.quiet.births)
  have p6 := a6.pub k5.closed
  have nf : ∀ y, w5.Old W y → y ≠ form := fun y hy e => a6.fresh (e ▸ hy)
  have b5 : w5.births = w3.births := by rw [hb5, hb4]
  have rf : r ≠ form := nf r (k5.sane.old _ _ hr5)
  have xf : ix ≠ form := nf ix (k5.sane.old _ _ hi5)
  have qf : q ≠ form := nf q (k5.sane.old _ _ hq5)
  have sf : s ≠ form := nf s (k5.sane.old _ _ hs5)
  have up6 : ∀ y, w3.Pub W (stash os) y → w6.Pub W (stash os) y := fun y hy => hy.mono b6
  have pg : w6.Pub W (stash os) gen := up6 _ (hg.mono (Nat.le_trans b1 (Nat.le_trans b2 b3)))
  have pi : w6.Pub W (stash os) ix := up6 _ (p1.mono (Nat.le_trans b2 b3))
  refine wp_bind (wp_appendOpen k6 g6 a6.cell rfl p6 pg f6 fun w7 k7 g7 hf7 same7 hb7 s7 => ?_)
  have up7 : ∀ y, w6.Pub W (stash os) y → w7.Pub W (stash os) y := fun y hy => hy.mono (Nat.le_of_eq hb7.symm)
  refine wp_bind (wp_appendOpen k7 g7 hf7 rfl (up7 _ p6) (up7 _ (up6 _ p2')) f6 fun w8 k8 g8 hf8 same8 hb8 s8 => ?_)
  have up8 : ∀ y, w7.Pub W (stash os) y → w8.Pub W (stash os) y := fun y hy => hy.mono (Nat.le_of_eq hb8.symm)
  refine wp_bind (wp_appendOpen k8 g8 hf8 rfl (up8 _ (up7 _ p6)) (up8 _ (up7 _ pi)) f6 fun w9 k9 g9 hf9 same9 hb9 s9 => wp_bind (wp_push ?_))
  have same : ∀ y, y ≠ form → w9.mem y = w6.mem y := fun y hy => ((same9 y hy).trans (same8 y hy)).trans (same7 y hy)
  have b9 : w9.births = w6.births := by rw [hb9, hb8, hb7]
  have up9 : ∀ y, w6.Pub W (stash os) y → w9.Pub W (stash os) y := fun y hy => hy.mono (Nat.le_of_eq b9.symm)
  have st9 : w9.stack = q :: ix :: v.stack := by rw [s9, s8, s7, a6.stack, st5]
  have kp := k9.push (up9 _ p6).1
  have gp := g9.push (up9 _ p6).1
  have hr9 : w9.mem r = some c := (same r rf).trans hr6
  -- its value
  refine wp_bind (wp_evalStashed F kp (up9 _ p6) kp.env fun a w k' g' keep hst ha => wp_bind (wp_require fun t e => ?_))
  subst e
  have ht := ha t rfl
  have bw : v.births ≤ w.births := Nat.le_trans gp.quiet.births g'.later.births
  refine wp_bind (c56_collect_aux k' (hr.mono bw) ht fun o1 o2 u h1 hadd hqu h2 ku hsu hbu => ?_)
  refine wp_bind (wp_pop fun t1 e1 => wp_bind (wp_pop fun t2 e2 => wp_pop fun t3 e3 => ?_))
  have hu : u.stack = form :: q :: ix :: v.stack := by rw [hsu, hst]; simp [st9]
  rw [hu] at e1; cases e1
  cases e2
  cases e3
  have kz : Stashed W env os { u with stack := v.stack } := by
    refine ku.aside (E := nobody) (v0 := u) ?_ (Nat.le_refl _) (fun _ _ => rfl) k.base
    exact ((ku.here (E := nobody)).same rfl rfl rfl rfl (fun x => by cases x <;> rfl) (fun x hx => (k.closed.stack x hx).mono (by
      show v.births ≤ u.births
      rw [hbu]; exact bw)) rfl rfl rfl rfl)
  refine hq ⟨form, env, { w9 with stack := form :: w9.stack }, some t, w⟩ t o1 o2 _ ⟨rfl, rfl, rfl, gp.quiet⟩ f6 ?_ ⟨c, hr9, rfl⟩ h1 hadd
    (hqu.trans k'.sane Ends.pop.quiet) h2 kz rfl (by show v.births ≤ u.births; rw [hbu]; exact bw)
  refine ⟨q, s, ix, Int.bmod i (2 ^ 32), ⟨_, hf9, rfl⟩, ⟨_, (same q qf).trans hq6, rfl⟩, ⟨_, (same s sf).trans hs6, rfl⟩, ⟨_, (same ix xf).trans hi6, rfl⟩, ?_⟩
  intro hi
  exact Int.bmod_eq_of_le_mul_two (by omega) (by omega)

/-- the turns -/
theorem c56_turns_aux (F : Fine W h) {gen r : Ref} : ∀ (m i : Nat) {v : Vm} {c : Cell}, Stashed W env os v → r ∈ v.stack → v.Pub W (stash os) r →
    v.mem r = some c → v.Pub W (stash os) gen → Wp W n h (Prog.generateLoop r gen env m i) v fun _ u tr => ∃ o', u.HasObj r o' ∧
      GenTurns W env gen r m i v c.obj u o' tr ∧ Stashed W env os u ∧ u.stack = v.stack ∧ v.births ≤ u.births
  | 0, i, v, c, k, hrs, hr, hc, hg => wp_pure ⟨c.obj, ⟨c, hc, rfl⟩, .done ⟨c, hc, rfl⟩, k, rfl, Nat.le_refl _⟩
  | m + 1, i, v, c, k, hrs, hr, hc, hg => by
    show Wp W n h (Prog.generateTurn r gen env i >>= fun _ => Prog.generateLoop r gen env m (i + 1)) v _
    refine wp_bind (c56_turn_aux F k hrs hr hc hg fun e t o1 o2 u ev fr tf hp h1 ha hq h2 ku hst hb => ?_)
    obtain ⟨c2, hc2, rfl⟩ := h2
    refine Wp.mono (c56_turns_aux F m (i + 1) ku (by rw [hst]; exact hrs) (hr.mono hb) hc2 (hg.mono hb)) ?_
    rintro _ z tr ⟨o', ho', ht, kz, hsz, hbz⟩
    exact ⟨o', ho', .turn ev fr tf ⟨c, hc, rfl⟩ hp h1 ha hq ht, kz, hsz.trans hst, Nat.le_trans hb hbz⟩

/-! #### the same value again and again -/

theorem c56_repeatVec_aux {r g : Ref} : ∀ (m : Nat) {v : Vm} {c : Cell} {es : List Ref}, Stashed W env ((r, c) :: os) v → (∀ o ∈ os, o.1 ≠ r) → c.obj = .vec es →
    v.Old W g → Wp W n h (Prog.repeatLoop r g m) v fun _ u tr => tr = [] ∧ u.HasVec r (es ++ List.replicate m g) ∧ Vm.Quiet W (fun x => x = r) v u
  | 0, v, c, es, k, ha, ho, hg => wp_pure ⟨rfl, ⟨c, k.made _ (.head _), by simpa using ho⟩, .refl v⟩
  | m + 1, v, c, es, k, ha, ho, hg => by
    show Wp W n h (Prog.collect r g >>= fun _ => Prog.repeatLoop r g m) v _
    have hc : v.mem r = some c := k.made _ (.head _)
    unfold Prog.collect
    refine wp_bind (wp_bind (wp_read fun c' hc' => ?_))
    obtain rfl := same_cell hc hc'
    rw [ho]
    refine wp_setObj fun c' hc' => ?_
    obtain rfl := same_cell hc hc'
    have hp := k.closed.cells r c hc
    have k' := k.change (d := { c with obj := .vec (es ++ [g]) }) ha rfl rfl ⟨by
      have := hp.obj
      rw [ho] at this
      intro y hy
      rcases List.mem_append.mp hy with hy | hy
      · exact this y hy
      · rw [List.mem_singleton.mp hy]; exact hg, hp.docstr, hp.docvec⟩
    refine Wp.mono (c56_repeatVec_aux m (v := { v with mem := v.mem.set r { c with obj := .vec (es ++ [g]) } }) k' ha rfl hg) ?_
    rintro _ u tr ⟨rfl, hv, q⟩
    refine ⟨rfl, by simpa [List.replicate_succ] using hv, Vm.Quiet.trans k.sane ?_ q⟩
    exact (Vm.Quiet.refl v).write k.sane (.inl rfl) hc

theorem c56_repeatStr_aux {r g : Ref} : ∀ (m : Nat) {v : Vm} {c : Cell} {s : Text}, Stashed W env ((r, c) :: os) v → (∀ o ∈ os, o.1 ≠ r) → c.obj = .str s →
    v.Old W g → r ≠ g → Wp W n h (Prog.repeatLoop r g m) v fun _ u tr => tr = [] ∧ Vm.Quiet W (fun x => x = r) v u ∧
      ∃ s', u.HasObj r (.str (s ++ s')) ∧ s'.length = m ∧ ∀ a ∈ s', ∃ cs, v.HasObj g (.chr (a :: cs))
  | 0, v, c, s, k, ha, ho, hg, hne => wp_pure ⟨rfl, .refl v, [], ⟨c, k.made _ (.head _), by simpa using ho⟩, rfl, by simp⟩
  | m + 1, v, c, s, k, ha, ho, hg, hne => by
    show Wp W n h (Prog.collect r g >>= fun _ => Prog.repeatLoop r g m) v _
    have hc : v.mem r = some c := k.made _ (.head _)
    unfold Prog.collect
    refine wp_bind (wp_bind (wp_read fun c' hc' => ?_))
    obtain rfl := same_cell hc hc'
    rw [ho]
    refine wp_bind (wp_read fun d hd => ?_)
    split
    · rename_i t' ho'
      refine wp_bind (wp_codeOf fun a cs e => wp_setObj fun c' hc' => ?_)
      subst e
      obtain rfl := same_cell hc hc'
      have hp := k.closed.cells r c hc
      have k' := k.change (d := { c with obj := .str (s ++ [a]) }) ha rfl rfl ⟨trivial, hp.docstr, hp.docvec⟩
      refine Wp.mono (c56_repeatStr_aux m (v := { v with mem := v.mem.set r { c with obj := .str (s ++ [a]) } }) k' ha rfl hg hne) ?_
      rintro _ u tr ⟨rfl, q, s', hs', hl, hall⟩
      refine ⟨rfl, Vm.Quiet.trans k.sane ((Vm.Quiet.refl v).write k.sane (.inl rfl) hc) q, a :: s', by simpa using hs', by simp [hl], ?_⟩
      intro b hb
      rcases List.mem_cons.mp hb with rfl | hb
      · exact ⟨cs, d, hd, ho'⟩
      · obtain ⟨cs', d', hd', ho''⟩ := hall b hb
        exact ⟨cs', d', (Mem.set_other _ _ hne.symm).symm.trans hd', ho''⟩
    · exact wp_fail

/-! #### the special form -/

/-- what is known after the type has been determined, in the state `p`: the new collection `r` has been put onto the stack -/
structure Begun (W : World) (env args type r : Ref) (ca : Cell) (o : Obj) (xs : List Ref) (p v : Vm) : Prop where
  stashed : ∃ uid, Stashed W env [(r, { obj := o, uid := uid }), (args, ca)] v
  held : ca.obj = .vec xs
  apart : args ≠ r
  fresh : ¬ p.Old W r
  sane : p.Sane W
  quiet : Vm.Quiet W nobody p v
  kept : ∀ x ∈ xs, v.mem x = p.mem x
  stack : ∃ s, v.stack = r :: type :: s ∧ args ∈ s
  pub : ∀ x ∈ xs, p.Pub W (fun x => x = args) x

theorem Begun.pub' {args type r : Ref} {ca : Cell} {o : Obj} {xs : List Ref} {p : Vm} (b : Begun W env args type r ca o xs p v) {co : Cell} {x : Ref}
    (hx : x ∈ xs) : v.Pub W (stash [(r, co), (args, ca)]) x := by
  have := b.pub x hx
  refine ⟨this.1.mono b.quiet.births, ?_⟩
  rintro ⟨o, ho, e⟩
  simp only [List.mem_cons, List.not_mem_nil, or_false] at ho
  rcases ho with rfl | rfl
  · exact b.fresh (show p.Old W r by rw [show r = x from e]; exact this.1)
  · exact this.2 e.symm

theorem c56_hasObj_aux {x : Ref} {o : Obj} (hm : v.mem x = u.mem x) : v.HasObj x o ↔ u.HasObj x o := by
  unfold Vm.HasObj; rw [hm]

theorem c56_turns_obj_aux {gen r : Ref} {m i : Nat} {o o' : Obj} {tr : List Event} (t : GenTurns W env gen r m i v o w o' tr)
    (ho : ∀ m l, o ≠ .err m l) : ∀ m l, o' ≠ .err m l := by
  induction t with
  | done => exact ho
  | turn _ _ _ _ _ _ ha _ _ ih => exact ih (by cases ha <;> simp)

theorem c56_turns_start_aux {gen r : Ref} {m i : Nat} {o o' : Obj} {tr : List Event} {st : List Ref}
    (t : GenTurns W env gen r m i { v with stack := st } o w o' tr) (sv : v.Sane W) : ∃ u, GenTurns W env gen r m i v o u o' tr ∧ Ends u w := by
  cases t with
  | done h => exact ⟨v, .done h, Ends.pop⟩
  | turn ev fr tf h1 h2 h3 ha hq t =>
    exact ⟨w, .turn ⟨ev.form, ev.env, ev.result, Vm.Quiet.trans sv Ends.pop.quiet ev.quiet⟩ fr tf h1 h2 h3 ha hq t, .refl w⟩

/-- the part of `generate` after the number has been evaluated -/
def generateRest (args env type r t1 : Ref) : Prog (Option Ref) := do
  Prog.push t1
  match ← Prog.toSize (← Prog.read t1).obj with
  | none => do
    Prog.pop t1
    Prog.pop r
    Prog.pop type
    Prog.error "Special '%s' expects non negative number as the third argument when used to generate values."
  | some n => do
    let gen ← Prog.require (← Prog.elemAt args 3)
    let g ← Prog.require (← Prog.eval gen env)
    Prog.push g
    if Prog.isCallable (← Prog.read g).obj then Prog.generateLoop r gen env n 0 else Prog.repeatLoop r g n
    Prog.pop g
    Prog.pop t1
    Prog.pop r
    Prog.pop type
    pure (some r)

theorem c56_rest_aux (F : Fine W h) {args type r x0 x1 x2 x3 t1 : Ref} {ca : Cell} {o : Obj} {s : Text} {p v1 : Vm} {uid : Nat} {e1 : Event} {st : List Ref}
    (k : Stashed W env [(r, { obj := o, uid := uid }), (args, ca)] v1) (hca : ca.obj = .vec [x0, x1, x2, x3]) (apart : args ≠ r) (kind : Kind s o)
    (fr : ¬ p.Old W r) (h1 : p.HasObj x1 (.sym (txt "of"))) (ev1 : Evals W p x2 env e1 t1) (hv1 : e1.post = v1) (hst : v1.stack = r :: type :: st)
    (hargs : args ∈ st) (ht : v1.Pub W (stash [(r, { obj := o, uid := uid }), (args, ca)]) t1) (hx3 : v1.Pub W (stash [(r, { obj := o, uid := uid }), (args, ca)]) x3) :
    Wp W n h (generateRest args env type r t1) v1 fun a u t => ∀ r' w, a = some r' → Ends u w → FillRun W p env x1 x2 x3 o r' w (e1 :: t) := by
  subst hv1
  have ha : ∀ o' ∈ [(args, ca)], o'.1 ≠ r := by
    intro o' ho'; rw [List.mem_singleton.mp ho']; exact apart
  unfold generateRest
  have kp := k.push ht.1
  refine wp_bind (wp_push (wp_bind (wp_read fun d hd => ?_)))
  refine wp_bind (wp_toSize (v := { e1.post with stack := t1 :: e1.post.stack }) hd rfl ?_ ?_)
  · intro hno
    have hno : NoAmount e1.post t1 := hno
    refine wp_bind (wp_pop fun s1 e1' => wp_bind (wp_pop fun s2 e2' => wp_bind (wp_pop fun s3 e3' => ?_)))
    cases e1'
    rw [show e1.post.stack = _ from hst] at e2'; cases e2'; cases e3'
    refine wps_error (((((k.here (E := nobody)).push ht.1).pop rfl).pop hst).pop rfl) fun r' w t gw hp hm fr' => ?_
    rintro _ w' ⟨⟩ e'
    refine .noAmount h1 ev1 hno ⟨gw.quiet.trans k.sane e'.quiet, fr', e'.isErr ⟨_, _, _, hm, rfl⟩⟩
  · intro m hm
    have hm : Amount e1.post t1 m := hm
    refine wp_bind (wp_argStashed kp (by simp) hca (wp_bind (wp_require fun y e => ?_)))
    cases e
    refine wp_bind (wp_evalStashed F kp hx3 kp.env fun a v2 k2 g2 kp2 st2 ha2 => wp_bind (wp_require fun g e => wp_bind (wp_push ?_)))
    subst e
    have hg := ha2 g rfl
    have k3 := k2.push hg.1
    have hs2 : v2.stack = t1 :: r :: type :: st := by rw [st2]; simp [hst]
    have ev2 : Evals W e1.post x3 env ⟨x3, env, { e1.post with stack := t1 :: e1.post.stack }, some g, v2⟩ g := ⟨rfl, rfl, rfl, Ends.pop.quiet⟩
    have fr2 : ¬ p.Old W r := fr
    refine wp_bind (wp_read fun dg hdg => ?_)
    have hdg : v2.mem g = some dg := hdg
    split
    · rename_i hcall
      obtain ⟨kr, hr⟩ := k3.reveal ha (by
        refine ⟨?_, by simp [PubOpt], by simp [PubOpt]⟩
        cases kind <;> simp [PubObj])
      have hrm : v2.mem r = some { obj := o, uid := uid } := k2.made (r, { obj := o, uid := uid }) (.head _)
      have hx3' : Vm.Pub W (stash [(args, ca)]) { v2 with stack := g :: v2.stack } x3 := by
        have := hx3.mono g2.later.births
        exact ⟨this.1, fun h => this.2 ((stash_cons _ _ _).mpr (.inr h))⟩
      refine wp_bind (Wp.mono (c56_turns_aux F m 0 (c := { obj := o, uid := uid }) kr (by simp [hs2]) hr hrm hx3') ?_)
      rintro _ u tr ⟨o', ho', turns, ku, hsu, hbu⟩
      refine wp_bind (wp_pop fun s1 q1 => wp_bind (wp_pop fun s2 q2 => wp_bind (wp_pop fun s3 q3 => wp_bind (wp_pop fun s4 q4 => wp_pure ?_))))
      rintro _ w' ⟨⟩ e'
      have e2 : Ends u w' := (Ends.pop (s := s4)).trans e'
      simp only [List.append_nil, List.nil_append]
      have herr := c56_turns_obj_aux turns (by cases kind <;> simp)
      obtain ⟨u', turns', eu⟩ := c56_turns_start_aux turns k2.sane
      exact .generated h1 ev1 hm ev2 ((c56_canCall_aux hdg).mpr hcall) fr turns' (eu.trans e2).quiet (e2.hasObj ho' herr)
    · rename_i hcall
      have noCall : ¬ CanCall v2 g := fun h => hcall ((c56_canCall_aux hdg).mp h)
      have hne : r ≠ g := fun e => hg.2 ⟨_, .head _, e⟩
      cases kind with
      | vector =>
        refine wp_bind (Wp.mono (c56_repeatVec_aux m k3 ha rfl hg.1) ?_)
        rintro _ u tr ⟨rfl, hv, q⟩
        refine wp_bind (wp_pop fun s1 q1 => wp_bind (wp_pop fun s2 q2 => wp_bind (wp_pop fun s3 q3 => wp_bind (wp_pop fun s4 q4 => wp_pure ?_))))
        rintro _ w' ⟨⟩ e'
        have e2 : Ends u w' := (Ends.pop (s := s4)).trans e'
        simp only [List.append_nil, List.nil_append]
        refine .repeated h1 ev1 hm ev2 noCall fr ((Vm.Quiet.trans k2.sane Ends.pop.quiet q).trans k2.sane e2.quiet) (fun _ => ?_) (by simp)
        exact ends_hasVec e2 (by simpa using hv)
      | string =>
        refine wp_bind (Wp.mono (c56_repeatStr_aux m k3 ha rfl hg.1 hne) ?_)
        rintro _ u tr ⟨rfl, q, s', hv, hl, hall⟩
        refine wp_bind (wp_pop fun s1 q1 => wp_bind (wp_pop fun s2 q2 => wp_bind (wp_pop fun s3 q3 => wp_bind (wp_pop fun s4 q4 => wp_pure ?_))))
        rintro _ w' ⟨⟩ e'
        have e2 : Ends u w' := (Ends.pop (s := s4)).trans e'
        simp only [List.append_nil, List.nil_append]
        refine .repeated h1 ev1 hm ev2 noCall fr ((Vm.Quiet.trans k2.sane Ends.pop.quiet q).trans k2.sane e2.quiet) (by simp) (fun _ => ?_)
        exact ⟨s', e2.hasObj (by simpa using hv) (by simp), hl, hall⟩

theorem c56_fill_aux (F : Fine W h) {args type r x0 x1 x2 x3 : Ref} {ca : Cell} {o : Obj} {s : Text} {p : Vm}
    (b : Begun W env args type r ca o [x0, x1, x2, x3] p v) (kind : Kind s o) :
    Wp W n h (Prog.generateFill args env type r) v fun a u tr => ∀ r' w, a = some r' → Ends u w → FillRun W p env x1 x2 x3 o r' w tr := by
  obtain ⟨uid, k⟩ := b.stashed
  have hx1 : v.mem x1 = p.mem x1 := b.kept x1 (by simp)
  obtain ⟨st, hst, hargs⟩ := b.stack
  unfold Prog.generateFill
  refine wp_bind (wp_expectSymbol (x := x1) k (by simp) b.held rfl ?_ ?_)
  · intro h1
    have h1 := (c56_hasObj_aux hx1).mp h1
    refine wp_bind (wp_argStashed k (by simp) b.held ?_)
    show Wp W n h (Prog.evalOpt (some x2) env >>= _) v _
    unfold Prog.evalOpt
    refine wp_bind (wp_evalStashed F k (b.pub' (by simp)) k.env fun a v1 k1 g1 kp1 st1 ha1 => wp_bind (wp_deref fun t1 e => ?_))
    subst e
    have ht1 := ha1 t1 rfl
    have ev1 : Evals W p x2 env ⟨x2, env, v, some t1, v1⟩ t1 := ⟨rfl, rfl, rfl, b.quiet⟩
    have rest := c56_rest_aux (n := n) F k1 b.held b.apart kind b.fresh h1 ev1 rfl (st1.trans hst) hargs ht1 ((b.pub' (by simp)).mono g1.later.births)
    refine wp_bind (wp_read fun d hd => ?_)
    split
    · exact rest
    · exact rest
    · rename_i h2 h3
      refine wp_bind (wp_errorStashed k1 fun r' w kw g hs hp fr he => wp_bind (wp_pop fun s1 hs1 => wp_bind (wp_pop fun s2 hs2 => wp_pure ?_)))
      rintro _ w' ⟨⟩ e'
      have e1 : Ends w w' := (Ends.pop (s := s2)).trans e'
      refine .noAmount h1 ev1 ⟨?_, ?_⟩ ⟨g.quiet.trans k1.sane e1.quiet, fr, e1.isErr he⟩
      · rintro m ⟨d', hd', ho⟩
        obtain rfl := same_cell hd hd'
        exact absurd ho (h2 m)
      · rintro m ⟨d', hd', ho⟩
        obtain rfl := same_cell hd hd'
        exact absurd ho (h3 m)
  · intro e w hno g fr he
    refine wp_bind (wp_pop fun s1 hs1 => wp_bind (wp_pop fun s2 hs2 => wp_pure ?_))
    rintro _ w' ⟨⟩ e'
    have e1 : Ends w w' := (Ends.pop (s := s2)).trans e'
    exact .noOf (fun h1 => hno ((c56_hasObj_aux hx1).mpr h1)) ⟨(b.quiet.trans b.sane g.quiet).trans b.sane e1.quiet,
      fun h1 => fr (h1.mono b.quiet.births), e1.isErr he⟩

/-! #### mapping -/

theorem c56_onStart_aux {a : Ref} {xs ys : List Ref} {l : Nat} {z v2 : Vm} {tr : List Event} (o : OnVectors W (fun y => y = a) env xs v2 ys l z tr) (sv : v.Sane W)
    (q : Vm.Quiet W (fun y => y = a) v v2) (hm : ∀ y ∈ xs, v2.mem y = v.mem y) (sz : z.Sane W) :
    ∃ z', z'.Sane W ∧ OnVectors W (fun y => y = a) env xs v ys l z' tr ∧ (∀ u, Vm.Quiet W (fun y => y = a) z u → Vm.Quiet W (fun y => y = a) z' u) ∧
      z'.births ≤ z.births ∧ ∀ y, v2.mem y = v.mem y → z.mem y = z'.mem y := by
  cases o with
  | nil => exact ⟨v, sv, .nil, fun u q' => q.trans sv q', q.births, fun _ h => h⟩
  | @cons x xs v es e y es' ys len w tr h1 h2 h3 h4 h5 h6 h7 =>
    refine ⟨z, sz, .cons (es := es) ?_ h2 h3 h4 (q.trans sv h5) h6 h7, fun _ => id, Nat.le_refl _, fun _ _ => rfl⟩
    unfold Vm.HasVec at *
    rwa [← hm x (.head _)]

/-- what has happened when the vectors have been evaluated -/
def OnDone (W : World) (env a : Ref) (os : List (Ref × Cell)) (xs ys0 : List Ref) (len : Nat) (v : Vm) (res : Option Ref ⊕ Nat) (u : Vm) (tr : List Event) : Prop :=
  (∃ e ps x qs ys l z, z.Sane W ∧ res = .inl (some e) ∧ xs = ps ++ x :: qs ∧ OnVectors W (fun y => y = a) env ps v ys l z tr ∧ (∀ es, ¬ z.HasVec x es) ∧
    ErrorAfter W (fun y => y = a) z e u) ∨
  (∃ ys l z c', z.Sane W ∧ res = .inr (max len l) ∧ OnVectors W (fun y => y = a) env xs v ys l z tr ∧ Vm.Quiet W (fun y => y = a) z u ∧
    Stashed W env ((a, c') :: os) u ∧ c'.obj = .vec (ys0 ++ ys) ∧ u.stack = v.stack ∧ v.births ≤ u.births ∧ ∀ y ∈ ys, u.Pub W (stash ((a, c') :: os)) y)

theorem c56_pubCell_aux {a : Ref} {c c' : Cell} {x : Ref} (hx : v.Pub W (stash ((a, c) :: os)) x) (hb : v.births ≤ w.births) :
    w.Pub W (stash ((a, c') :: os)) x :=
  ⟨hx.1.mono hb, fun h => hx.2 ((stash_cons _ _ _).mpr ((stash_cons _ _ _).mp h))⟩

theorem c56_vectors_aux (F : Fine W h) {args a : Ref} {ca : Cell} {xs : List Ref} (hm : (args, ca) ∈ os) (hca : ca.obj = .vec xs) (ha : ∀ o ∈ os, o.1 ≠ a) :
    ∀ (m i len : Nat) {v : Vm} {c : Cell} {ys0 : List Ref}, Stashed W env ((a, c) :: os) v → c.obj = .vec ys0 → i + m = xs.length →
    (∀ x ∈ xs, v.Pub W (stash ((a, c) :: os)) x) →
    Wp W n h (Prog.mappingVectors args env a m i len) v fun res u tr => OnDone W env a os (xs.drop i) ys0 len v res u tr
  | 0, i, len, v, c, ys0, k, hc, hi, hx => by
    have : xs.drop i = [] := List.drop_eq_nil_of_le (by omega)
    rw [this]
    exact wp_pure (.inr ⟨[], 0, v, c, k.sane, by simp, .nil, .refl v, k, by simpa using hc, rfl, Nat.le_refl _, by simp⟩)
  | m + 1, i, len, v, c, ys0, k, hc, hi, hx => by
    show Wp W n h (Prog.elemAt args i >>= _) v _
    refine wp_bind (wp_argStashed k (.tail _ hm) hca (wp_bind (wp_require fun x e => ?_)))
    have hd : xs.drop i = x :: xs.drop (i + 1) := by
      obtain ⟨hlt, e⟩ := List.getElem?_eq_some_iff.mp e
      rw [← e]; exact List.drop_eq_getElem_cons hlt
    have hpx := hx x (List.mem_of_getElem? e)
    rw [hd]
    refine wp_bind (wp_read fun d hdx => ?_)
    split
    · rename_i es hes
      refine wp_bind (wp_evalStashed F k hpx k.env fun b v1 k1 g1 kp1 st1 hb1 => wp_bind (wp_deref fun y e => ?_))
      subst e
      have hy := hb1 y rfl
      have hya : y ≠ a := fun e => hy.2 ((stash_cons _ _ _).mpr (.inl e))
      refine wp_bind (wp_append fun c' es' hc' ho' => ?_)
      obtain rfl := same_cell (k1.made (a, c) (.head _)) hc'
      rw [hc] at ho'; cases ho'
      have hp := k1.closed.cells a c hc'
      have k2 := k1.change (d := { c with obj := .vec (ys0 ++ [y]) }) ha rfl rfl ⟨by
        have := hp.obj
        rw [hc] at this
        intro z hz
        rcases List.mem_append.mp hz with hz | hz
        · exact this z hz
        · rw [List.mem_singleton.mp hz]; exact hy.1, hp.docstr, hp.docvec⟩
      have q12 : Vm.Quiet W (fun z => z = a) v1 { v1 with mem := v1.mem.set a { c with obj := .vec (ys0 ++ [y]) } } :=
        (Vm.Quiet.refl v1).write k1.sane (.inl rfl) hc'
      refine wp_bind (wp_verifyVec fun cy eys hcy hoy => ?_)
      have hcy : v1.mem y = some cy := (Mem.set_other _ _ hya).symm.trans hcy
      refine Wp.mono (c56_vectors_aux F hm hca ha m (i + 1) (max len eys.length) (v := { v1 with mem := v1.mem.set a { c with obj := .vec (ys0 ++ [y]) } })
        k2 rfl (by omega) fun z hz => c56_pubCell_aux (hx z hz) g1.later.births) ?_
      have xa : ∀ z ∈ xs, z ≠ a := fun z hz e => (hx z hz).2 ((stash_cons _ _ _).mpr (.inl e))
      rintro res u tr (⟨e, ps, x', qs, ys, l, z, sz, rfl, hxs, on, hno, q, fr, he⟩ | ⟨ys, l, z, c', sz, rfl, on, q, ku, hc', hst, hb, hpub⟩)
      · have hin : ∀ z ∈ ps ++ x' :: qs, z ≠ a := fun z hz => xa z (List.mem_of_mem_drop (hxs ▸ hz))
        obtain ⟨z', sz', on', qz, bz, mz⟩ := c56_onStart_aux on k1.sane q12 (fun z hz => Mem.set_other _ _ (hin z (by simp [hz]))) sz
        refine .inl ⟨e, x :: ps, x', qs, y :: ys, _, z', sz', rfl, by rw [hxs]; rfl, .cons ⟨d, hdx, hes⟩ rfl rfl rfl (.refl v) ⟨cy, hcy, hoy⟩ on', ?_, ?_, ?_, he⟩
        · intro es h; refine hno es ?_
          unfold Vm.HasVec at *
          rwa [mz x' (Mem.set_other _ _ (hin x' (by simp)))]
        · exact qz _ q
        · exact fun h => fr (h.mono bz)
      · obtain ⟨z', sz', on', qz, bz, mz⟩ := c56_onStart_aux on k1.sane q12 (fun z hz => Mem.set_other _ _ (xa z (List.mem_of_mem_drop hz))) sz
        refine .inr ⟨y :: ys, max eys.length l, z', c', sz', by rw [Nat.max_assoc], .cons ⟨d, hdx, hes⟩ rfl rfl rfl (.refl v) ⟨cy, hcy, hoy⟩ on', qz _ q, ku, by simpa using hc', hst.trans st1,
          Nat.le_trans g1.later.births hb, ?_⟩
        intro z hz
        rcases List.mem_cons.mp hz with rfl | hz
        · exact c56_pubCell_aux hy hb
        · exact hpub z hz
    · rename_i hno
      refine wp_bind (wp_errorStashed k fun r w kw g hst hp fr he => wp_pure ?_)
      refine .inl ⟨r, [], x, xs.drop (i + 1), [], 0, v, k.sane, rfl, rfl, .nil, ?_, g.quiet.mono (fun _ h => h.elim), fr, he⟩
      rintro es ⟨d', hd', ho'⟩
      obtain rfl := same_cell hdx hd'
      exact hno es ho'

theorem c56_args_aux {form : Ref} {i : Nat} {v0 : Vm} (hf : ¬ v0.Old W form) : ∀ (ys : List Ref) {v : Vm} {c : Cell} {as0 : List Ref}, Stashed W env os v →
    Vm.Step W (stash os) nobody v0 v → v.mem form = some c → c.obj = .vec as0 → v.Pub W (stash os) form → (∀ y ∈ ys, v.Pub W (stash os) y ∧ y ≠ form) →
    Wp W n h (Prog.mappingArgs form i ys) v fun _ u tr => tr = [] ∧ ∃ as c', u.mem form = some c' ∧ c'.obj = .vec (as0 ++ as) ∧
      List.Forall₂ (fun y a => ∃ es, v.HasVec y es ∧ es[i]? = some a) ys as ∧ (∀ z, z ≠ form → u.mem z = v.mem z) ∧ Stashed W env os u ∧
      Vm.Step W (stash os) nobody v0 u ∧ u.births = v.births ∧ u.stack = v.stack
  | [], v, c, as0, k, g, hc, ho, hp, hy => wp_pure ⟨rfl, [], c, hc, by simpa using ho, .nil, fun _ _ => rfl, k, g, rfl, rfl⟩
  | y :: ys, v, c, as0, k, g, hc, ho, hp, hy => by
    show Wp W n h (Prog.elemAt y i >>= _) v _
    obtain ⟨hyp, hyf⟩ := hy y (.head _)
    refine wp_bind (wp_elemAt fun cy es hcy hoy => wp_bind (wp_require fun x e => ?_))
    have hx : v.Pub W (stash os) x := by
      have := (k.closed.pub y cy hcy hyp.2).obj
      rw [hoy] at this
      exact this x (List.mem_of_getElem? e)
    refine wp_bind (wp_appendOpen k g hc ho hp hx hf fun w kw gw hcw same hb hst => ?_)
    refine Wp.mono (c56_args_aux hf ys kw gw hcw rfl (hp.mono (Nat.le_of_eq hb.symm)) fun z hz => ⟨(hy z (.tail _ hz)).1.mono (Nat.le_of_eq hb.symm), (hy z (.tail _ hz)).2⟩) ?_
    rintro _ u tr ⟨rfl, as, c', hc', ho', hall, same', ku, gu, hbu, hsu⟩
    refine ⟨rfl, x :: as, c', hc', by simpa using ho', .cons ⟨es, ⟨cy, hcy, hoy⟩, e⟩ ?_, fun z hz => (same' z hz).trans (same z hz), ku, gu, hbu.trans hb, hsu.trans hst⟩
    refine forall₂_imp hall fun z b hz ⟨es, hes, hb⟩ => ⟨es, ?_, hb⟩
    unfold Vm.HasVec at *
    rwa [← same z (hy z (.tail _ hz)).2]

theorem c56_mapStart_aux {E : Ref → Prop} {f : Ref} {ys ts : List Ref} {m i : Nat} {z v2 : Vm} {tr : List Event} (t : MapTurns W E env f ys m i v2 ts z tr)
    (sv : v.Sane W) (q : Vm.Quiet W E v v2) (sz : z.Sane W) : ∃ z', z'.Sane W ∧ MapTurns W E env f ys m i v ts z' tr ∧ ∀ u, Vm.Quiet W E z u → Vm.Quiet W E z' u := by
  cases t with
  | done => exact ⟨v, sv, .done, fun u q' => q.trans sv q'⟩
  | turn h1 h2 h3 h4 h5 h6 h7 => exact ⟨z, sz, .turn (q.trans sv h1) (fun h => h2 (h.mono q.births)) h3 h4 h5 h6 h7, fun _ => id⟩

theorem c56_mapTurns_aux (F : Fine W h) {r a f : Ref} {ca : Cell} {ys : List Ref} (hm : (a, ca) ∈ os) (hca : ca.obj = .vec ys) (ha : ∀ o ∈ os, o.1 ≠ r) :
    ∀ (m i : Nat) {v : Vm} {c : Cell}, Stashed W env ((r, c) :: os) v → v.Pub W (stash ((r, c) :: os)) f → (∀ y ∈ ys, v.Pub W (stash ((r, c) :: os)) y) →
    Wp W n h (Prog.mappingLoop r f a env m i) v fun _ u tr => ∃ ts' z, z.Sane W ∧ MapTurns W (fun y => y = a ∨ y = r) env f ys m i v ts' z tr ∧
      Vm.Quiet W (fun y => y = a ∨ y = r) z u ∧ ((m = 0 ∧ ts' = [] ∧ u.HasObj r c.obj) ∨ ∃ ts, c.obj = .vec ts ∧ u.HasVec r (ts ++ ts'))
  | 0, i, v, c, k, hf, hy => wp_pure ⟨[], v, k.sane, .done, .refl v, .inl ⟨rfl, rfl, c, k.made _ (.head _), rfl⟩⟩
  | m + 1, i, v, c, k, hf, hy => by
    show Wp W n h (Prog.alloc (.vec []) >>= _) v _
    refine wp_bind (wp_alloc k.sane fun form w1 a1 => wp_bind (wp_push ?_))
    have k1 := (k.alloc a1 (by simp [PubObj])).push a1.old
    have g1 := ((k.here (E := nobody)).alloc a1 (by simp [PubObj])).push a1.old
    have b1 : v.births ≤ w1.births := g1.quiet.births
    have p1 := a1.pub k.closed
    refine wp_bind (wp_appendOpen k1 g1 a1.cell rfl p1 (hf.mono b1) a1.fresh fun w2 k2 g2 hc2 same2 hb2 st2 => ?_)
    have b2 : v.births ≤ w2.births := g2.quiet.births
    refine wp_bind (wp_verifyVec fun c' ys' hc' ho' => ?_)
    obtain rfl := same_cell (k2.made (a, ca) (.tail _ hm)) hc'
    rw [hca] at ho'; cases ho'
    refine wp_bind (Wp.mono (c56_args_aux a1.fresh ys k2 g2 hc2 rfl (p1.mono (Nat.le_of_eq hb2.symm)) fun y hy' => ⟨(hy y hy').mono b2, ?_⟩) ?_)
    · rintro rfl; exact a1.fresh (hy y hy').1
    rintro _ w3 tr0 ⟨rfl, as, c3, hc3, ho3, hall, same3, k3, g3, hb3, st3⟩
    have b3 : v.births ≤ w3.births := g3.quiet.births
    have p3 : w3.Pub W (stash ((r, c) :: os)) form := (p1.mono (Nat.le_of_eq hb2.symm)).mono (Nat.le_of_eq hb3.symm)
    refine wp_bind (wp_evalStashed F k3 p3 k3.env fun b w4 k4 g4 kp4 st4 hb4 => wp_bind (wp_require fun t e => ?_))
    subst e
    have ht := hb4 t rfl
    refine wp_bind (wp_verifyVec fun c' ts hc' ho' => ?_)
    obtain rfl := same_cell (k4.made (r, c) (.head _)) hc'
    refine wp_bind (wp_append fun c' es' hc'' ho'' => ?_)
    obtain rfl := same_cell hc' hc''
    rw [ho'] at ho''; cases ho''
    have hp := k4.closed.cells r c hc'
    have k5 := k4.change (d := { c with obj := .vec (ts ++ [t]) }) ha rfl rfl ⟨by
      have := hp.obj
      rw [ho'] at this
      intro z hz
      rcases List.mem_append.mp hz with hz | hz
      · exact this z hz
      · rw [List.mem_singleton.mp hz]; exact ht.1, hp.docstr, hp.docvec⟩
    have q5 : Vm.Quiet W (fun y => y = a ∨ y = r) w4 { w4 with mem := w4.mem.set r { c with obj := .vec (ts ++ [t]) } } :=
      (Vm.Quiet.refl w4).write k4.sane (.inl (.inr rfl)) hc'
    refine wp_bind (wp_pop fun st6 e6 => ?_)
    have hs4 : w4.stack = form :: v.stack := by rw [st4, st3, st2]; show form :: w1.stack = _; rw [a1.stack]
    have e6 : w4.stack = form :: st6 := e6
    rw [hs4] at e6; cases e6
    have k6 : Stashed W env ((r, { c with obj := .vec (ts ++ [t]) }) :: os) { { w4 with mem := w4.mem.set r { c with obj := .vec (ts ++ [t]) } } with stack := v.stack } :=
      k5.pop hs4 fun o ho => by
        rcases List.mem_cons.mp ho with rfl | ho
        · exact k.base (r, c) (.head _)
        · exact k.base o (.tail _ ho)
    have b4 : v.births ≤ w4.births := Nat.le_trans b3 g4.later.births
    refine Wp.mono (c56_mapTurns_aux F hm hca ha m (i + 1)
      (v := { { w4 with mem := w4.mem.set r { c with obj := .vec (ts ++ [t]) } } with stack := v.stack }) k6 (c56_pubCell_aux hf b4)
      fun y hy' => c56_pubCell_aux (hy y hy') b4) ?_
    rintro _ u tr ⟨ts', z, sz, mt, qz, fin⟩
    obtain ⟨z', sz', mt', qz'⟩ := c56_mapStart_aux mt k4.sane (q5.trans k4.sane Ends.pop.quiet) sz
    have turn := MapTurns.turn (W := W) (E := fun y => y = a ∨ y = r) (env := env) (f := f) (ys := ys) (k := m) (i := i) (v := v) (e := ⟨form, env, w3, some t, w4⟩) (as := as) (t := t)
      (g3.quiet.mono fun _ h => h.elim) a1.fresh ⟨c3, hc3, by simpa using ho3⟩ (forall₂_imp hall fun y b hy' ⟨es, hes, hb⟩ => ⟨es, by
        unfold Vm.HasVec at *
        rwa [same3 y (by rintro rfl; exact a1.fresh (hy y hy').1)], hb⟩) rfl rfl mt'
    refine ⟨t :: ts', z', sz', turn, qz' _ qz, .inr ⟨ts, ho', ?_⟩⟩
    rcases fin with ⟨rfl, rfl, hu⟩ | ⟨ts2, e2, hu⟩
    · exact hu
    · cases e2; simpa using hu

theorem c56_mapping_aux (F : Fine W h) {args type r x0 x1 x2 x3 : Ref} {xs : List Ref} {ca : Cell} {o : Obj} {s : Text} {p : Vm}
    (b : Begun W env args type r ca o (x0 :: x1 :: x2 :: x3 :: xs) p v) (kind : Kind s o) {m : Nat} (hm : m = (x0 :: x1 :: x2 :: x3 :: xs).length) :
    Wp W n h (Prog.mappingFill args env type r m) v fun a u tr => ∀ r' w, a = some r' → Ends u w → MapRun W p env x1 x2 x3 xs o r' w tr := by
  obtain ⟨uid, k⟩ := b.stashed
  have hx1 : v.mem x1 = p.mem x1 := b.kept x1 (by simp)
  obtain ⟨st, hst, hargs⟩ := b.stack
  unfold Prog.mappingFill
  refine wp_bind (wp_expectSymbol (x := x1) k (by simp) b.held rfl ?_ ?_)
  · intro h1
    have h1 := (c56_hasObj_aux hx1).mp h1
    refine wp_bind (wp_evalArgStashed (x := x2) F k (by simp) b.held rfl (b.pub' (by simp)) fun f v1 k1 b1 st1 hf => ?_)
    have ev1 : Evals W p x2 env ⟨x2, env, v, some f, v1⟩ f := ⟨rfl, rfl, rfl, b.quiet⟩
    refine wp_bind (wp_read fun d hd => ?_)
    split
    · rename_i hcall
      have can : CanCall v1 f := (c56_canCall_aux hd).mpr hcall
      have kp := k1.push hf.1
      refine wp_bind (wp_push (wp_bind (wp_expectSymbol (v := { v1 with stack := f :: v1.stack }) (x := x3) kp (by simp) b.held rfl ?_ ?_)))
      · intro h3
        have h3 : v1.HasObj x3 (.sym (txt "on")) := h3
        refine wp_bind (wp_alloc kp.sane fun a w2 a2 => wp_bind (wp_push ?_))
        have k2 := kp.hide a2 (by simp [PubObj])
        have b2 : v1.births ≤ w2.births := (a2.quiet (E := nobody) kp.sane).births
        have q2 : Vm.Quiet W nobody v1 { w2 with stack := a :: w2.stack } :=
          (Vm.Quiet.trans k1.sane Ends.pop.quiet (a2.quiet kp.sane)).trans k1.sane Ends.pop.quiet
        have fra : ¬ v1.Old W a := a2.fresh
        have hne : ∀ o' ∈ [(r, ({ obj := o, uid := uid } : Cell)), (args, ca)], o'.1 ≠ a := fun o' ho' e => fra (e ▸ k1.old ho')
        have pub2 : ∀ x, v1.Pub W (stash [(r, ({ obj := o, uid := uid } : Cell)), (args, ca)]) x → ∀ c,
            Vm.Pub W (stash ((a, c) :: [(r, ({ obj := o, uid := uid } : Cell)), (args, ca)])) { w2 with stack := a :: w2.stack } x :=
          fun x hx c => ⟨hx.1.mono b2, fun hh => ((stash_cons _ _ _).mp hh).elim (fun e => fra (e ▸ hx.1)) hx.2⟩
        have keep : ∀ x ∈ xs, w2.mem x = v1.mem x := by
          intro x hx
          refine a2.kept x (.step (.root (.tail _ (k1.base (args, ca) (by simp)))) ⟨ca, k1.made (args, ca) (by simp), ?_⟩) ?_
          · simp [Cell.edges, b.held, Obj.children, hx]
          · rintro rfl; exact fra (((b.pub x (by simp [hx])).1.mono b.quiet.births).mono b1)
        refine wp_bind (Wp.mono (c56_vectors_aux F (args := args) (ca := ca) (by simp) b.held hne (m - 4) 4 0 k2 rfl (by rw [hm]; simp; omega) fun x hx =>
          pub2 x ((b.pub' hx).mono b1) _) ?_)
        rintro res u tr (⟨e, ps, x, qs, ys, l, z, sz, rfl, hxs, on, hno, q, fr, he⟩ | ⟨ys, l, z, c', sz, rfl, on, q, ku, hc', hsu, hbu, hpub⟩)
        · have hxs : xs = ps ++ x :: qs := hxs
          obtain ⟨z', sz', on', qz, bz, mz⟩ := c56_onStart_aux on k1.sane (q2.mono fun _ h => h.elim) (fun y hy => keep y (by rw [hxs]; simp [hy])) sz
          refine wp_bind (wp_pop fun s1 _ => wp_bind (wp_pop fun s2 _ => wp_bind (wp_pop fun s3 _ => wp_bind (wp_pop fun s4 _ => wp_pure ?_))))
          rintro _ w' ⟨⟩ e'
          have e1 : Ends u w' := (Ends.pop (s := s4)).trans e'
          simp only [List.append_nil, List.nil_append]
          refine .noVector h1 ev1 can h3 fra hxs on' ?_ ⟨?_, fun h => fr (h.mono bz), e1.isErr he⟩
          · intro es h; refine hno es ?_
            unfold Vm.HasVec at *
            rwa [mz x (keep x (by rw [hxs]; simp))]
          · exact (qz _ q).trans sz' e1.quiet
        · obtain ⟨z', sz', on', qz, bz, mz⟩ := c56_onStart_aux on k1.sane (q2.mono fun _ h => h.elim) keep sz
          have k3 : Stashed W env ((r, { obj := o, uid := uid }) :: [(a, c'), (args, ca)]) u := ku.congr fun o' => by
            simp only [List.mem_cons, List.not_mem_nil, or_false]; exact or_left_comm
          have up3 : ∀ x, u.Pub W (stash ((a, c') :: [(r, ({ obj := o, uid := uid } : Cell)), (args, ca)])) x →
              u.Pub W (stash ((r, ({ obj := o, uid := uid } : Cell)) :: [(a, c'), (args, ca)])) x := fun x hx =>
            ⟨hx.1, fun hh => hx.2 (by
              obtain ⟨o', ho', e⟩ := hh
              refine ⟨o', ?_, e⟩
              simp only [List.mem_cons, List.not_mem_nil, or_false] at ho' ⊢; exact or_left_comm.mp ho')⟩
          have ha3 : ∀ o' ∈ [(a, c'), (args, ca)], o'.1 ≠ r := by
            intro o' ho'
            simp only [List.mem_cons, List.not_mem_nil, or_false] at ho'
            rcases ho' with rfl | rfl
            · exact fun e => hne (r, { obj := o, uid := uid }) (.head _) e.symm
            · exact b.apart
          refine wp_bind (Wp.mono (c56_mapTurns_aux F (.head _) (by simpa using hc') ha3 (max 0 l) 0 k3 (up3 f (c56_pubCell_aux (pub2 f hf c') hbu)) fun y hy =>
            up3 y (hpub y hy)) ?_)
          rintro _ u2 tr2 ⟨ts, z2, sz2, mt, qz2, fin⟩
          obtain ⟨z3, sz3, mt', qz3⟩ := c56_mapStart_aux mt sz' ((qz _ q).mono fun _ h => .inl h) sz2
          refine wp_bind (wp_pop fun s1 _ => wp_bind (wp_pop fun s2 _ => wp_bind (wp_pop fun s3 _ => wp_bind (wp_pop fun s4 _ => wp_pure ?_))))
          rintro _ w' ⟨⟩ e'
          have e1 : Ends u2 w' := (Ends.pop (s := s4)).trans e'
          simp only [Nat.zero_max] at mt' fin
          suffices MapRun W p env x1 x2 x3 xs o r w' (⟨x2, env, v, some f, v1⟩ :: tr ++ tr2) by simpa using this
          refine .mapped h1 ev1 can h3 fra b.fresh on' mt' ((qz3 _ qz2).trans sz3 e1.quiet) ?_
          rcases fin with ⟨e0, e1', hr⟩ | ⟨ts0, e0, hr⟩
          · cases kind with
            | vector => exact .inl ⟨rfl, by rw [e1']; exact ends_hasVec e1 hr⟩
            | string => exact .inr ⟨rfl, e0, e1.hasObj hr (by simp)⟩
          · cases kind with
            | vector => cases e0; exact .inl ⟨rfl, ends_hasVec e1 (by simpa using hr)⟩
            | string => cases e0
      · intro e w hno g fr he
        refine wp_bind (wp_pop fun s1 _ => wp_bind (wp_pop fun s2 _ => wp_bind (wp_pop fun s3 _ => wp_pure ?_)))
        rintro _ w' ⟨⟩ e'
        have e1 : Ends w w' := (Ends.pop (s := s3)).trans e'
        exact .noOn h1 ev1 can hno ⟨(Vm.Quiet.trans k1.sane Ends.pop.quiet g.quiet).trans k1.sane e1.quiet, fr, e1.isErr he⟩
    · rename_i hcall
      refine wp_bind (wp_errorStashed k1 fun r' w kw g hs hp fr he => wp_bind (wp_pop fun s1 hs1 => wp_bind (wp_pop fun s2 hs2 => wp_pure ?_)))
      rintro _ w' ⟨⟩ e'
      have e1 : Ends w w' := (Ends.pop (s := s2)).trans e'
      exact .noCallable h1 ev1 (fun hh => hcall ((c56_canCall_aux hd).mp hh)) ⟨g.quiet.trans k1.sane e1.quiet, fr, e1.isErr he⟩
  · intro e w hno g fr he
    refine wp_bind (wp_pop fun s1 hs1 => wp_bind (wp_pop fun s2 hs2 => wp_pure ?_))
    rintro _ w' ⟨⟩ e'
    have e1 : Ends w w' := (Ends.pop (s := s2)).trans e'
    exact .noMapping (fun h1 => hno ((c56_hasObj_aux hx1).mpr h1)) ⟨(b.quiet.trans b.sane g.quiet).trans b.sane e1.quiet,
      fun h1 => fr (h1.mono b.quiet.births), e1.isErr he⟩

theorem wp_generateNew {t : Text} (sv : v.Sane W) {Q : Option Ref → Vm → List Event → Prop} (hn : (∀ o, ¬ Kind t o) → Q none v [])
    (hy : ∀ o r w, Kind t o → Allocated W v o r w → Q (some r) w []) : Wp W n h (Prog.generateNew t) v Q := by
  unfold Prog.generateNew
  by_cases h1 : t = txt "vector"
  · subst h1
    rw [if_pos rfl]
    exact wp_bind (wp_alloc sv fun r w a => wp_pure (hy _ r w .vector a))
  · rw [if_neg h1]
    by_cases h2 : t = txt "string"
    · subst h2
      rw [if_pos rfl]
      exact wp_bind (wp_alloc sv fun r w a => wp_pure (hy _ r w .string a))
    · rw [if_neg h2]
      refine wp_pure (hn fun o hk => ?_)
      cases hk
      · exact h1 rfl
      · exact h2 rfl

theorem c56_generate_aux (F : Fine W h) {args : Ref} {xs : List Ref} {v0 : Vm} (k : Held W args xs env v)
    (g : Vm.Step W (fun x => x = args) nobody v0 v) (top : args ∈ v.stack) :
    Wp W n h (Prog.spGenerate args env) v fun a u t => ∀ r w, a = some r → Ends u w → GenerateRun W v0 xs env r w t := by
  unfold Prog.spGenerate
  refine wp_bind (wp_verifyVec fun c es hc ho => wp_bind (wp_verifyEnv fun _ => ?_))
  obtain rfl : es = xs := by
    rcases k.vec with h | h
    · exact hasVec_one h ⟨c, hc, ho⟩
    · rw [hc] at h; cases h
  have ks := Stashed.start k top hc
  by_cases hlen : es.length < 4
  · rw [if_pos hlen]
    refine wp_errorStashed ks fun r w kw g' hst hp fr he => ?_
    rintro _ w' ⟨⟩ e'
    exact .few hlen ⟨(g.quiet.trans g.sane0 g'.quiet).trans g.sane0 e'.quiet, fun h => fr (h.mono g.quiet.births), e'.isErr he⟩
  rw [if_neg hlen]
  match es, k, ho, ks, hlen with
  | x0 :: rest, k, ho, ks, hlen =>
    have pub : ∀ x ∈ x0 :: rest, v.Pub W (fun x => x = args) x := k.pub
    refine wp_bind (wp_evalArgStashed (x := x0) F ks (.head _) ho rfl (by rw [stash_one]; exact pub x0 (.head _)) fun t0 v1 k1 b1 st1 ht => ?_)
    have ev0 : Evals W v0 x0 env ⟨x0, env, v, some t0, v1⟩ t0 := ⟨rfl, rfl, rfl, g.quiet⟩
    have hs1 : args ∈ v1.stack := by rw [st1]; exact top
    have k2 := k1.push ht.1
    refine wp_bind (wp_push (wp_bind (wp_read fun d hd => ?_)))
    have hd : v1.mem t0 = some d := hd
    have key : ∀ o, v1.HasObj t0 o → d.obj = o := fun o ⟨c', hc', ho'⟩ => by rw [same_cell hd hc', ho']
    have bad : (∀ s o, Kind s o → ¬ v1.HasObj t0 (.sym s)) → ∀ msg, Wp W n h (do Prog.pop t0; Prog.error msg) { v1 with stack := t0 :: v1.stack } fun a u t =>
        ∀ r w, a = some r → Ends u w → GenerateRun W v0 (x0 :: rest) env r w (⟨x0, env, v, some t0, v1⟩ :: t) := by
      intro hk msg
      refine wp_bind (wp_pop fun s e => ?_)
      cases e
      refine wps_error (((k1.here (E := nobody)).push ht.1).pop rfl) fun r' w t gw hp hm fr' => ?_
      rintro _ w' ⟨⟩ e'
      refine .noKind (by simp at hlen; omega) ev0 hk ⟨gw.quiet.trans k1.sane e'.quiet, fr', e'.isErr ⟨_, _, _, hm, rfl⟩⟩
    split
    · rename_i t hobj
      refine wp_bind (wp_generateNew k2.sane ?_ ?_)
      · intro hno
        exact bad (fun s o hk hs => by
          have := key _ hs
          rw [hobj] at this; cases this
          exact hno o hk) _
      · intro o r w hk a
        have k3 := k2.hide a (by cases hk <;> simp [PubObj])
        have q3 : Vm.Quiet W nobody v1 { w with stack := r :: w.stack } :=
          (Vm.Quiet.trans k1.sane Ends.pop.quiet (a.quiet k2.sane)).trans k1.sane Ends.pop.quiet
        have fr : ¬ v1.Old W r := a.fresh
        have b : Begun W env args t0 r c o (x0 :: rest) v1 { w with stack := r :: w.stack } := by
          refine ⟨⟨_, k3⟩, ho, fun e => fr (e ▸ k1.old (.head _)), fr, k1.sane, q3, ?_, ⟨v1.stack, by rw [a.stack], hs1⟩, fun x hx => (pub x hx).mono b1⟩
          intro x hx
          refine a.kept x (.step (.root (.tail _ hs1)) ⟨c, k1.made (args, c) (.head _), ?_⟩) ?_
          · simp only [Cell.edges, ho, Obj.children]
            exact List.mem_append_right _ hx
          · rintro rfl; exact fr ((pub x hx).mono b1).1
        have hs : v1.HasObj t0 (.sym t) := ⟨d, hd, hobj⟩
        refine wp_bind (wp_push ?_)
        obtain ⟨x1, x2, x3, xs, rfl⟩ : ∃ x1 x2 x3 xs, rest = x1 :: x2 :: x3 :: xs := by
          match rest, hlen with
          | x1 :: x2 :: x3 :: xs, _ => exact ⟨x1, x2, x3, xs, rfl⟩
          | [], h | [_], h | [_, _], h => simp at h
        cases xs with
        | nil =>
          refine Wp.mono (c56_fill_aux F b hk) fun a' u tr h' => ?_
          intro r' w' ea e'
          simp only [List.nil_append, List.append_nil]
          exact .fill ev0 hs hk (h' r' w' ea e')
        | cons x4 xs =>
          rw [if_neg (by simp)]
          refine Wp.mono (c56_mapping_aux F b hk rfl) fun a' u tr h' => ?_
          intro r' w' ea e'
          simp only [List.nil_append, List.append_nil]
          exact .map (by simp) ev0 hs hk (h' r' w' ea e')
    · rename_i hno
      exact bad (fun s o hk hs => hno s (key _ hs)) _

/-- `generate`, called by its name -/
theorem c56_generate (hL : L.Safe) {v w : Vm} (rv : v.Reached W L) {form env op : Ref} {name : Text} {xs : List Ref}
    (nc : NamedCall W v form env name op xs) (hop : v.HasObj op (.special .generate)) (hargs : ∀ x ∈ xs, ¬ v.IsErr x)
    {r : Option Ref} {tr : List Event} (ev : Evaluates W L v form env r w tr) :
    NamedFormCall W (GenerateRun W) v xs env op r w tr :=
  namedFormCall_aux' hL (fun _ _ _ _ _ _ F _ k g _ _ _ top => c56_generate_aux F k g top.2) rv nc hop hargs ev

/-- `generate`, the operator being given by any form -/
theorem c56_generate_operator (hL : L.Safe) {v w : Vm} (rv : v.Reached W L) {form env first : Ref} {rest : List Ref}
    (hq : v.quit = false) (hf : v.HasVec form (first :: rest)) (of : v.Old W form) (oe : v.Old W env)
    {r : Option Ref} {tr : List Event} (ev : Evaluates W L v form env r w tr) :
    FormCall W .generate (GenerateRun W) v form first env r w tr :=
  formCall_aux' hL (fun _ _ _ _ _ _ F _ k g _ _ _ top => c56_generate_aux F k g top.2) rv hq hf of oe ev

/-! ### Examples -/
def kit11 : List (String × Obj × Bool) := [("generate", .special .generate, false), ("quote", .special .quote, true), ("+", .builtin .plus, true),
  ("fn", .special .fn, true), ("character", .builtin .character, true)]

theorem kit11_plain : ∀ x ∈ kit11, x.2.1.children = [] := by decide

/-- `(generate 'vector of 3 7)` -/
example : ∃ (v w : Vm) (form op : Ref) (xs : List Ref) (r : Option Ref) (tr : List Event), v.Reached world library ∧
    NamedCall world v form v.globalEnv (txt "generate") op xs ∧ v.HasObj op (.special .generate) ∧ (∀ x ∈ xs, ¬ v.IsErr x) ∧
    Evaluates world library v form v.globalEnv r w tr ∧ partsAt w r = [some (.int 7), some (.int 7), some (.int 7)] := by
  obtain ⟨v, form, r, w, tr, hr, of, oe, ev, h⟩ := stage_exists (table := kit11) (forms := []) (fuel := 60)
    (last := .vec [.sym "generate", .vec [.sym "quote", .sym "vector"], .sym "of", .int 3, .int 7])
    (P := fun v f r w tr => namedCheck v f "generate" (.special .generate) && decide (partsAt w r = [some (.int 7), some (.int 7), some (.int 7)])) kit11_plain (by decide +kernel)
  simp only [Bool.and_eq_true, decide_eq_true_eq] at h
  obtain ⟨op, xs, h1, h2, h3⟩ := named_of_check h.1 of oe
  exact ⟨v, w, form, op, xs, r, tr, hr, h1, h2, h3, ev, h.2⟩

/-- `(generate 'string of 2 (character 120))` -/
example : ∃ (v w : Vm) (form op : Ref) (xs : List Ref) (r : Option Ref) (tr : List Event), v.Reached world library ∧
    NamedCall world v form v.globalEnv (txt "generate") op xs ∧ v.HasObj op (.special .generate) ∧ (∀ x ∈ xs, ¬ v.IsErr x) ∧
    Evaluates world library v form v.globalEnv r w tr ∧ objAt w r = some (.str [120, 120]) := by
  obtain ⟨v, form, r, w, tr, hr, of, oe, ev, h⟩ := stage_exists (table := kit11) (forms := []) (fuel := 60)
    (last := .vec [.sym "generate", .vec [.sym "quote", .sym "string"], .sym "of", .int 2, .vec [.sym "character", .int 120]])
    (P := fun v f r w tr => namedCheck v f "generate" (.special .generate) && decide (objAt w r = some (.str [120, 120]))) kit11_plain (by decide +kernel)
  simp only [Bool.and_eq_true, decide_eq_true_eq] at h
  obtain ⟨op, xs, h1, h2, h3⟩ := named_of_check h.1 of oe
  exact ⟨v, w, form, op, xs, r, tr, hr, h1, h2, h3, ev, h.2⟩

/-- `(generate 'vector of 3 (fn (r i) (+ i 10)))` -/
example : ∃ (v w : Vm) (form op : Ref) (xs : List Ref) (r : Option Ref) (tr : List Event), v.Reached world library ∧
    NamedCall world v form v.globalEnv (txt "generate") op xs ∧ v.HasObj op (.special .generate) ∧ (∀ x ∈ xs, ¬ v.IsErr x) ∧
    Evaluates world library v form v.globalEnv r w tr ∧ partsAt w r = [some (.int 10), some (.int 11), some (.int 12)] := by
  obtain ⟨v, form, r, w, tr, hr, of, oe, ev, h⟩ := stage_exists (table := kit11) (forms := []) (fuel := 90)
    (last := .vec [.sym "generate", .vec [.sym "quote", .sym "vector"], .sym "of", .int 3, .vec [.sym "fn", .vec [.sym "r", .sym "i"], .vec [.sym "+", .sym "i", .int 10]]])
    (P := fun v f r w tr => namedCheck v f "generate" (.special .generate) && decide (partsAt w r = [some (.int 10), some (.int 11), some (.int 12)])) kit11_plain (by decide +kernel)
  simp only [Bool.and_eq_true, decide_eq_true_eq] at h
  obtain ⟨op, xs, h1, h2, h3⟩ := named_of_check h.1 of oe
  exact ⟨v, w, form, op, xs, r, tr, hr, h1, h2, h3, ev, h.2⟩

/-- `(generate 'vector mapping + on (quote (1 2)) (quote (30 40)))` -/
example : ∃ (v w : Vm) (form op : Ref) (xs : List Ref) (r : Option Ref) (tr : List Event), v.Reached world library ∧
    NamedCall world v form v.globalEnv (txt "generate") op xs ∧ v.HasObj op (.special .generate) ∧ (∀ x ∈ xs, ¬ v.IsErr x) ∧
    Evaluates world library v form v.globalEnv r w tr ∧ partsAt w r = [some (.int 31), some (.int 42)] := by
  obtain ⟨v, form, r, w, tr, hr, of, oe, ev, h⟩ := stage_exists (table := kit11) (forms := []) (fuel := 90)
    (last := .vec [.sym "generate", .vec [.sym "quote", .sym "vector"], .sym "mapping", .sym "+", .sym "on", .vec [.sym "quote", .vec [.int 1, .int 2]], .vec [.sym "quote", .vec [.int 30, .int 40]]])
    (P := fun v f r w tr => namedCheck v f "generate" (.special .generate) && decide (partsAt w r = [some (.int 31), some (.int 42)])) kit11_plain (by decide +kernel)
  simp only [Bool.and_eq_true, decide_eq_true_eq] at h
  obtain ⟨op, xs, h1, h2, h3⟩ := named_of_check h.1 of oe
  exact ⟨v, w, form, op, xs, r, tr, hr, h1, h2, h3, ev, h.2⟩

/-- `(generate 'vector of + 7)` is an error -/
example : ∃ (v w : Vm) (form op : Ref) (xs : List Ref) (r : Option Ref) (tr : List Event), v.Reached world library ∧
    NamedCall world v form v.globalEnv (txt "generate") op xs ∧ v.HasObj op (.special .generate) ∧ (∀ x ∈ xs, ¬ v.IsErr x) ∧
    Evaluates world library v form v.globalEnv r w tr ∧ (match objAt w r with | some (.err _ _) => true | _ => false) = true := by
  obtain ⟨v, form, r, w, tr, hr, of, oe, ev, h⟩ := stage_exists (table := kit11) (forms := []) (fuel := 60)
    (last := .vec [.sym "generate", .vec [.sym "quote", .sym "vector"], .sym "of", .sym "+", .int 7])
    (P := fun v f r w tr => namedCheck v f "generate" (.special .generate) && decide ((match objAt w r with | some (.err _ _) => true | _ => false) = true)) kit11_plain (by decide +kernel)
  simp only [Bool.and_eq_true, decide_eq_true_eq] at h
  obtain ⟨op, xs, h1, h2, h3⟩ := named_of_check h.1 of oe
  exact ⟨v, w, form, op, xs, r, tr, hr, h1, h2, h3, ev, h.2⟩

end Dern.Props
