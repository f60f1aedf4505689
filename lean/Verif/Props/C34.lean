import Verif.Props.BuiltinCalling
import Verif.Dern.Total
import Mathlib.Algebra.BigOperators.Group.List.Basic
/-
C34: integer arithmetic.

For `+`, `-`, `*` and `mod`, called with integers: if the call returns, the result is a new integer, the
exact one, and nothing else happens (`c34_plus_partial`, …).  It returns, unless memory management fails,
if the result and all intermediate results fit into 32 bits (`c34_no_overflow_plus` …).  `mod` and `/` with a divisor
that is zero return an error (`c34_mod_zero`, `c34_slash`), `/` with other integers returns a real.

Partial: the property does not ask intermediate results to fit; (+ 2147483647 1 -1) is signed overflow, as is
(mod -2147483648 -1), whose result would be 0 (witnesses at the end).
-/
namespace Dern.Props
open Dern
open Dern.Prog (Library)
variable {W : World} {L : Library}

/-- the values are these integers -/
def Vm.Ints (v : Vm) (ts : List Ref) (ks : List Int) : Prop := List.Forall₂ (fun t k => v.HasObj t (.int k)) ts ks

/-- The result is a new value `o`, and nothing else happens. -/
def Gives (W : World) (o : Obj) (v : Vm) (r : Ref) (w : Vm) (tr : List Event) : Prop :=
  tr = [] ∧ Vm.Quiet W nobody v w ∧ ¬ v.Old W r ∧ w.HasObj r o

/-- a number is representable as int32_t -/
def Int32 (n : Int) : Prop := -2147483648 ≤ n ∧ n ≤ 2147483647

/-- `(- a b c…)`: the negation of a single number, otherwise the first one minus the others -/
def difference : List Int → Int
  | [] => 0
  | [a] => -a
  | a :: b :: l => a - (b :: l).sum

theorem c34_fits_aux {n : Int} : Prog.fits n = true ↔ Int32 n := by simp [Prog.fits, Int32]

theorem c34_int32_aux {n m : Nat} {h : Handler} {k : Int} {v : Vm} {Q : Int → Vm → List Event → Prop} (hq : Q k v []) :
    Wp W n h (Prog.int32 k) v Q := by
  unfold Prog.int32
  split
  · exact wp_pure hq
  · exact wp_fail

/-- the loop of `+`, `-` and `*` on integers -/
theorem c34_loop_aux {n : Nat} {h : Handler} {op : Nat → Int → Int → Int} {v0 : Vm} : ∀ (ts : List Ref) (ks : List Int) (i : Nat) (m : Int) (v : Vm)
    {X : Ref → Prop}, Vm.Step W X nobody v0 v → Vm.Ints v ts ks →
    Wp W n h (Prog.numLoop op ts i m true) v fun a u t => t = [] ∧ ∃ r, a = some r ∧ Vm.Step W X nobody v0 u ∧ ¬ v0.Old W r ∧
      u.HasObj r (.int (ks.foldl (fun (s : Nat × Int) k => (s.1 + 1, op s.1 s.2 k)) (i, m)).2) := by
  intro ts
  induction ts with
  | nil =>
    intro ks i m v X g hk
    cases hk
    unfold Prog.numLoop
    refine wp_bind (wp_alloc g.sane fun r w a => wp_pure ⟨rfl, r, rfl, g.alloc a trivial, ?_, _, a.cell, rfl⟩)
    exact fun ho => a.fresh (ho.mono g.quiet.births)
  | cons t ts ih =>
    intro ks i m v X g hk
    cases hk with
    | @cons _ k _ ks hk hks =>
      unfold Prog.numLoop
      refine wp_bind (wp_read fun c hc => ?_)
      obtain ⟨c', hc', ho⟩ := hk
      obtain rfl := same_cell hc hc'
      rw [ho]
      refine wp_bind (c34_int32_aux (m := 0) ?_)
      simp only [List.nil_append]
      exact ih ks (i + 1) _ v g hks

theorem c34_int32_total_aux {n : Nat} {h : Handler} {k : Int} {v : Vm} {Q : Int → Vm → List Event → Prop} (hk : Int32 k) (hq : Q k v []) :
    Wt W n h (Prog.int32 k) v Q := by
  unfold Prog.int32
  rw [if_pos (c34_fits_aux.mpr hk)]
  exact wt_pure hq

/-- the same, with the guarantee that it returns if the intermediate results fit -/
theorem c34_total_aux {n : Nat} {h : Handler} {op : Nat → Int → Int → Int} {v : Vm} (sv : v.Sane W) :
    ∀ (ts : List Ref) (ks : List Int) (i : Nat) (m : Int), Vm.Ints v ts ks →
    (∀ j ≤ ks.length, 0 < j → Int32 ((ks.take j).foldl (fun (s : Nat × Int) k => (s.1 + 1, op s.1 s.2 k)) (i, m)).2) →
    Wt W n h (Prog.numLoop op ts i m true) v fun a u t => ∃ r, a = some r ∧
      Gives W (.int (ks.foldl (fun (s : Nat × Int) k => (s.1 + 1, op s.1 s.2 k)) (i, m)).2) v r u t := by
  intro ts
  induction ts with
  | nil =>
    intro ks i m hk _
    cases hk
    unfold Prog.numLoop
    exact wt_bind (wt_alloc sv fun r w a => wt_pure ⟨r, rfl, rfl, a.quiet sv, a.fresh, _, a.cell, rfl⟩)
  | cons t ts ih =>
    intro ks i m hk hf
    cases hk with
    | @cons _ k _ ks hk hks =>
      unfold Prog.numLoop
      obtain ⟨c, hc, ho⟩ := hk
      refine wt_bind (wt_read hc ?_)
      rw [ho]
      refine wt_bind (c34_int32_total_aux (hf 1 (by simp) (by simp)) ?_)
      exact ih ks (i + 1) _ hks fun j hj h0 => by
        have := hf (j + 1) (by simpa using hj) (by simp)
        simpa using this

theorem c34_fold_aux (f : Int → Int → Int) : ∀ (ks : List Int) (i : Nat) (m : Int),
    (ks.foldl (fun (s : Nat × Int) k => (s.1 + 1, f s.2 k)) (i, m)).2 = ks.foldl f m := by
  intro ks
  induction ks with
  | nil => intro i m; rfl
  | cons k ks ih => intro i m; simp only [List.foldl_cons]; exact ih _ _

theorem c34_sum_aux : ∀ (ks : List Int) (m : Int), ks.foldl (fun n k => n + k) m = m + ks.sum := by
  intro ks
  induction ks with
  | nil => intro m; simp
  | cons k ks ih => intro m; simp only [List.foldl_cons, List.sum_cons, ih]; omega

theorem c34_sub_aux : ∀ (ks : List Int) (m : Int), ks.foldl (fun n k => n - k) m = m - ks.sum := by
  intro ks
  induction ks with
  | nil => intro m; simp
  | cons k ks ih => intro m; simp only [List.foldl_cons, List.sum_cons, ih]; omega

theorem c34_prod_aux : ∀ (ks : List Int) (m : Int), ks.foldl (fun n k => n * k) m = m * ks.prod := by
  intro ks
  induction ks with
  | nil => intro m; simp
  | cons k ks ih => intro m; simp only [List.foldl_cons, List.prod_cons, ih, Int.mul_assoc]

theorem c34_minus_aux (ks : List Int) (len : Nat) (hl : len = ks.length) :
    (ks.foldl (fun (s : Nat × Int) k => (s.1 + 1, (fun i n k => if len = 1 then -k else if i = 0 then k else n - k) s.1 s.2 k)) (0, 0)).2 =
      difference ks := by
  match ks with
  | [] => rfl
  | [k] => subst hl; rfl
  | k :: b :: l =>
    have h1 : ¬ len = 1 := by simp at hl; omega
    have key : ∀ (ks : List Int) (i : Nat) (m : Int),
        (ks.foldl (fun (s : Nat × Int) k => (s.1 + 1, (fun i n k => if len = 1 then -k else if i = 0 then k else n - k) s.1 s.2 k)) (i + 1, m)).2 =
          ks.foldl (fun n k => n - k) m := by
      intro ks
      induction ks with
      | nil => intro i m; rfl
      | cons k ks ih =>
        intro i m
        simp only [List.foldl_cons, h1, if_false, Nat.add_eq_zero_iff, Nat.one_ne_zero, and_false]
        simp only [h1, if_false] at ih
        exact ih _ _
    rw [List.foldl_cons]
    simp only [h1, if_false, if_true]
    simp only [h1, if_false] at key
    rw [key (b :: l) 0 k, c34_sub_aux]
    rfl

theorem c34_finish_aux {o : Obj} (ho : ∀ m l, o ≠ .err m l) {v u w : Vm} {r : Ref} (sv : v.Sane W) (q : Vm.Quiet W nobody v u) (fr : ¬ v.Old W r)
    (hr : u.HasObj r o) (e : Ends u w) : Gives W o v r w [] :=
  ⟨rfl, q.trans sv e.quiet, fr, e.hasObj hr ho⟩

theorem c34_first_aux {n : Nat} {h : Handler} {args env : Ref} {ts : List Ref} {v : Vm} (k : Held W args ts env v)
    {f : List Ref → Prog (Option Ref)} {Q : Option Ref → Vm → List Event → Prop} (hq : Wp W n h (f ts) v Q) :
    Wp W n h (do let es ← Prog.verifyVec args; Prog.verifyEnv env; f es) v Q := by
  refine wp_bind (wp_verifyVec_vec k.vec fun _ => wp_bind (wp_verifyEnv fun _ => ?_))
  simpa using hq

theorem c34_loop'_aux {n : Nat} {h : Handler} {op : Nat → Int → Int → Int} {args env : Ref} {ts : List Ref} {v : Vm} (k : Held W args ts env v)
    {ks : List Int} (hk : Vm.Ints v ts ks) (m : Int) :
    Wp W n h (Prog.numLoop op ts 0 m true) v fun a u t => KeepsBuiltins v u ∧ ∀ r w, a = some r → Ends u w →
      Gives W (.int (ks.foldl (fun (s : Nat × Int) k => (s.1 + 1, op s.1 s.2 k)) (0, m)).2) v r w t := by
  refine (c34_loop_aux ts ks 0 m v k.here hk).mono ?_
  rintro a u t ⟨rfl, r, rfl, g, fr, hr⟩
  refine ⟨keeps_of_quiet g.quiet, ?_⟩
  rintro _ w ⟨⟩ e
  exact c34_finish_aux (by simp) k.sane g.quiet fr hr e

theorem c34_plusRun_aux {n : Nat} {h : Handler} {args env : Ref} {ts : List Ref} {v : Vm} (k : Held W args ts env v) {ks : List Int} (hk : Vm.Ints v ts ks) :
    Wp W n h (Prog.biPlus args env) v fun a u t => KeepsBuiltins v u ∧ ∀ r w, a = some r → Ends u w → Gives W (.int ks.sum) v r w t := by
  unfold Prog.biPlus
  refine c34_first_aux k ?_
  have key : Wp W n h (Prog.plusNumerical args env) v fun a u t => KeepsBuiltins v u ∧ ∀ r w, a = some r → Ends u w → Gives W (.int ks.sum) v r w t := by
    unfold Prog.plusNumerical
    refine c34_first_aux k ?_
    have := c34_loop'_aux (n := n) (h := h) (op := fun _ n k => n + k) k hk 0
    rw [c34_fold_aux (fun n k => n + k), c34_sum_aux, Int.zero_add] at this
    exact this
  cases hk with
  | nil => exact key
  | cons h1 h2 =>
    refine wp_bind (wp_read fun c hc => ?_)
    obtain ⟨c', hc', ho⟩ := h1
    obtain rfl := same_cell hc hc'
    rw [ho]
    simpa using key

theorem c34_minusRun_aux {n : Nat} {h : Handler} {args env : Ref} {ts : List Ref} {v : Vm} (k : Held W args ts env v) {ks : List Int} (hk : Vm.Ints v ts ks) :
    Wp W n h (Prog.biMinus args env) v fun a u t => KeepsBuiltins v u ∧ ∀ r w, a = some r → Ends u w → Gives W (.int (difference ks)) v r w t := by
  unfold Prog.biMinus
  refine c34_first_aux k ?_
  have key : Wp W n h (Prog.minusNumerical args env) v fun a u t => KeepsBuiltins v u ∧ ∀ r w, a = some r → Ends u w →
      Gives W (.int (difference ks)) v r w t := by
    unfold Prog.minusNumerical
    refine c34_first_aux k (f := fun es => Prog.numLoop (fun i n k => if es.length = 1 then -k else if i = 0 then k else n - k) es 0 0 true) ?_
    have := c34_loop'_aux (n := n) (h := h) (op := fun i n k => if ts.length = 1 then -k else if i = 0 then k else n - k) k hk 0
    rw [c34_minus_aux ks ts.length (forall₂_len hk)] at this
    exact this
  cases hk with
  | nil => exact key
  | cons h1 h2 =>
    refine wp_bind (wp_read fun c hc => ?_)
    obtain ⟨c', hc', ho⟩ := h1
    obtain rfl := same_cell hc hc'
    rw [ho]
    simpa using key

theorem c34_timesRun_aux {n : Nat} {h : Handler} {args env : Ref} {ts : List Ref} {v : Vm} (k : Held W args ts env v) {ks : List Int} (hk : Vm.Ints v ts ks) :
    Wp W n h (Prog.biTimes args env) v fun a u t => KeepsBuiltins v u ∧ ∀ r w, a = some r → Ends u w → Gives W (.int ks.prod) v r w t := by
  unfold Prog.biTimes
  refine c34_first_aux k ?_
  have := c34_loop'_aux (n := n) (h := h) (op := fun _ n k => n * k) k hk 1
  rw [c34_fold_aux (fun n k => n * k), c34_prod_aux, Int.one_mul] at this
  exact this

/-- an error is the result, and nothing else happens -/
def GivesError (W : World) (v : Vm) (r : Ref) (w : Vm) (tr : List Event) : Prop :=
  tr = [] ∧ Vm.Quiet W nobody v w ∧ ¬ v.Old W r ∧ w.IsErr r

theorem c34_error_aux {n : Nat} {h : Handler} {args env : Ref} {ts : List Ref} {v : Vm} (k : Held W args ts env v) (s : String) :
    Wp W n h (Prog.error s) v fun a u t => KeepsBuiltins v u ∧ ∀ r w, a = some r → Ends u w → GivesError W v r w t := by
  refine wps_error (E := nobody) k.here fun r w t gw hp hm fr => ⟨keeps_of_quiet gw.quiet, ?_⟩
  rintro _ w' ⟨⟩ e
  exact ⟨rfl, gw.quiet.trans k.sane e.quiet, fr, e.isErr ⟨_, _, _, hm, rfl⟩⟩

/-- what `mod` does with integers -/
def ModRun (W : World) (x y : Int) (v : Vm) (r : Ref) (w : Vm) (tr : List Event) : Prop :=
  if y = 0 then GivesError W v r w tr else Gives W (.int (x.tmod y)) v r w tr

theorem c34_modRun_aux {n : Nat} {h : Handler} {args env : Ref} {ts : List Ref} {v : Vm} (k : Held W args ts env v) {x y : Int} (hk : Vm.Ints v ts [x, y]) :
    Wp W n h (Prog.biMod args env) v fun a u t => KeepsBuiltins v u ∧ ∀ r w, a = some r → Ends u w → ModRun W x y v r w t := by
  unfold Prog.biMod
  refine c34_first_aux k ?_
  cases hk with
  | cons h1 h2 =>
    cases h2 with
    | cons h2 h3 =>
      cases h3
      obtain ⟨c1, hc1, ho1⟩ := h1
      obtain ⟨c2, hc2, ho2⟩ := h2
      refine wp_bind (wp_read fun c hc => ?_)
      obtain rfl := same_cell hc hc1
      rw [ho1]
      refine wp_bind (wp_read fun c' hc' => ?_)
      obtain rfl := same_cell hc' hc2
      rw [ho2]
      simp only [List.nil_append]
      unfold ModRun
      split
      · exact c34_error_aux k _
      · refine wp_bind (c34_int32_aux (m := 0) (wp_bind (wp_alloc k.sane fun r w a => wp_pure ⟨keeps_of_quiet (a.quiet k.sane), ?_⟩)))
        rintro _ w' ⟨⟩ e
        exact c34_finish_aux (by simp) k.sane (a.quiet k.sane) a.fresh ⟨_, a.cell, rfl⟩ e

/-- what `/` does with integers: an error if there is none or if a divisor is zero (a single argument is a
divisor), otherwise a new real -/
def SlashRun (W : World) (ks : List Int) (v : Vm) (r : Ref) (w : Vm) (tr : List Event) : Prop :=
  if ks = [] ∨ ks = [0] ∨ 0 ∈ ks.tail then GivesError W v r w tr else ∃ d, Gives W (.real d) v r w tr

theorem c34_slashLoop_aux {n : Nat} {h : Handler} {args env : Ref} {ts0 : List Ref} {v : Vm} (k : Held W args ts0 env v) :
    ∀ (ts : List Ref) (ks : List Int) (i : Nat), Vm.Ints v ts ks →
    Wp W n h (Prog.slashLoop ts i) v fun a u t => KeepsBuiltins v u ∧ ∀ r w, a = some r → Ends u w →
      if 0 ∈ (if i = 0 then ks.tail else ks) then GivesError W v r w t else ∃ d, Gives W (.real d) v r w t := by
  intro ts
  induction ts with
  | nil =>
    intro ks i hk
    cases hk
    unfold Prog.slashLoop
    refine wp_bind (wp_real fun d => wp_bind (wp_alloc (k.here (E := nobody)).tick.sane fun r w a => wp_pure ?_))
    have g : Vm.Step W (fun x => x = args) nobody v w := k.here.tick.alloc a trivial
    refine ⟨keeps_of_quiet g.quiet, ?_⟩
    rintro _ w' ⟨⟩ e
    simp only [List.tail_nil, ite_self, List.not_mem_nil, if_false]
    exact ⟨_, c34_finish_aux (by simp) k.sane g.quiet a.fresh ⟨_, a.cell, rfl⟩ e⟩
  | cons t ts ih =>
    intro ks i hk
    cases hk with
    | @cons _ m _ ks h1 h2 =>
      unfold Prog.slashLoop
      obtain ⟨c, hc, ho⟩ := h1
      refine wp_bind (wp_read fun c' hc' => ?_)
      obtain rfl := same_cell hc' hc
      rw [ho]
      simp only [Prog.isZero, List.nil_append]
      have hrec := ih ks (i + 1) h2
      simp only [Nat.add_eq_zero_iff, Nat.one_ne_zero, and_false, if_false] at hrec
      by_cases hi : i = 0
      · subst hi
        simpa using hrec
      · by_cases hm : m = 0
        · subst hm
          simpa [hi] using c34_error_aux (n := n) (h := h) k _
        · have : ¬ (0 = m) := fun e => hm e.symm
          simpa [hi, hm, this] using hrec

theorem c34_slashRun_aux {n : Nat} {h : Handler} {args env : Ref} {ts : List Ref} {v : Vm} (k : Held W args ts env v) {ks : List Int} (hk : Vm.Ints v ts ks) :
    Wp W n h (Prog.biSlash args env) v fun a u t => KeepsBuiltins v u ∧ ∀ r w, a = some r → Ends u w → SlashRun W ks v r w t := by
  unfold Prog.biSlash SlashRun
  refine c34_first_aux k ?_
  match ts, ks, hk with
  | [], _, .nil => simpa using c34_error_aux (n := n) (h := h) k _
  | [t], [m], .cons h1 .nil =>
    have := c34_slashLoop_aux (n := n) (h := h) k [t] [m] 1 (.cons h1 .nil)
    simpa [eq_comm] using this
  | t :: t' :: ts, m :: m' :: ks, hk =>
    have := c34_slashLoop_aux (n := n) (h := h) k _ _ 0 hk
    simpa using this

/-! ### the theorems

The arguments are evaluated first (`ArgumentsFirst`); `ts` are their values in the state `u`. -/

theorem c34_plus_partial (hL : L.Safe) {v w : Vm} (rv : v.Reached W L) {form env op : Ref} {name : Text} {xs : List Ref}
    (nc : NamedCall W v form env name op xs) (hop : v.HasObj op (.builtin .plus))
    {r : Option Ref} {tr : List Event} (ev : Evaluates W L v form env r w tr) (ks : List Int) :
    NamedOpCall W (ArgumentsFirst W form env (Runs .plus op fun ts u r w tr => Vm.Ints u ts ks → Gives W (.int ks.sum) u r w tr)) v env op r w tr :=
  namedBuiltinPre_aux (Pre := fun ts u => Vm.Ints u ts ks) (Run := fun _ u r w tr => Gives W (.int ks.sum) u r w tr) hL (by simp)
    (fun _ _ _ _ _ _ _ k hk => c34_plusRun_aux k hk) rv nc hop ev

theorem c34_minus_partial (hL : L.Safe) {v w : Vm} (rv : v.Reached W L) {form env op : Ref} {name : Text} {xs : List Ref}
    (nc : NamedCall W v form env name op xs) (hop : v.HasObj op (.builtin .minus))
    {r : Option Ref} {tr : List Event} (ev : Evaluates W L v form env r w tr) (ks : List Int) :
    NamedOpCall W (ArgumentsFirst W form env (Runs .minus op fun ts u r w tr => Vm.Ints u ts ks → Gives W (.int (difference ks)) u r w tr)) v env op r w tr :=
  namedBuiltinPre_aux (Pre := fun ts u => Vm.Ints u ts ks) (Run := fun _ u r w tr => Gives W (.int (difference ks)) u r w tr) hL (by simp)
    (fun _ _ _ _ _ _ _ k hk => c34_minusRun_aux k hk) rv nc hop ev

theorem c34_times_partial (hL : L.Safe) {v w : Vm} (rv : v.Reached W L) {form env op : Ref} {name : Text} {xs : List Ref}
    (nc : NamedCall W v form env name op xs) (hop : v.HasObj op (.builtin .times))
    {r : Option Ref} {tr : List Event} (ev : Evaluates W L v form env r w tr) (ks : List Int) :
    NamedOpCall W (ArgumentsFirst W form env (Runs .times op fun ts u r w tr => Vm.Ints u ts ks → Gives W (.int ks.prod) u r w tr)) v env op r w tr :=
  namedBuiltinPre_aux (Pre := fun ts u => Vm.Ints u ts ks) (Run := fun _ u r w tr => Gives W (.int ks.prod) u r w tr) hL (by simp)
    (fun _ _ _ _ _ _ _ k hk => c34_timesRun_aux k hk) rv nc hop ev

/-- `(mod x y)`: an error if `y` is zero, otherwise the remainder with the sign of `x` -/
theorem c34_mod_partial (hL : L.Safe) {v w : Vm} (rv : v.Reached W L) {form env op : Ref} {name : Text} {xs : List Ref}
    (nc : NamedCall W v form env name op xs) (hop : v.HasObj op (.builtin .mod))
    {r : Option Ref} {tr : List Event} (ev : Evaluates W L v form env r w tr) (x y : Int) :
    NamedOpCall W (ArgumentsFirst W form env (Runs .mod op fun ts u r w tr => Vm.Ints u ts [x, y] → ModRun W x y u r w tr)) v env op r w tr :=
  namedBuiltinPre_aux (Pre := fun ts u => Vm.Ints u ts [x, y]) (Run := fun _ u r w tr => ModRun W x y u r w tr) hL (by simp)
    (fun _ _ _ _ _ _ _ k hk => c34_modRun_aux k hk) rv nc hop ev

/-- the remainder in `ModRun` is what one expects -/
theorem c34_remainder (x y : Int) (hy : y ≠ 0) : (∃ q, x = q * y + x.tmod y) ∧ (x.tmod y).natAbs < y.natAbs ∧
    (0 ≤ x → 0 ≤ x.tmod y) ∧ (x ≤ 0 → x.tmod y ≤ 0) := by
  refine ⟨⟨x.tdiv y, ?_⟩, ?_, Int.tmod_nonneg y, ?_⟩
  · rw [Int.mul_comm]; exact (Int.mul_tdiv_add_tmod x y).symm
  · rw [Int.natAbs_tmod]; exact Nat.mod_lt _ (Int.natAbs_pos.mpr hy)
  · intro hx
    have := Int.tmod_nonneg (a := -x) y (by omega)
    rw [Int.neg_tmod] at this
    omega

/-- `/`: an error if a divisor is zero, otherwise a real -/
theorem c34_slash (hL : L.Safe) {v w : Vm} (rv : v.Reached W L) {form env op : Ref} {name : Text} {xs : List Ref}
    (nc : NamedCall W v form env name op xs) (hop : v.HasObj op (.builtin .slash))
    {r : Option Ref} {tr : List Event} (ev : Evaluates W L v form env r w tr) (ks : List Int) :
    NamedOpCall W (ArgumentsFirst W form env (Runs .slash op fun ts u r w tr => Vm.Ints u ts ks → SlashRun W ks u r w tr)) v env op r w tr :=
  namedBuiltinPre_aux (Pre := fun ts u => Vm.Ints u ts ks) (Run := fun _ u r w tr => SlashRun W ks u r w tr) hL (by simp)
    (fun _ _ _ _ _ _ _ k hk => c34_slashRun_aux k hk) rv nc hop ev

/-! ### it returns

`Wt`: it ends with the stated result, unless a new value cannot be created. -/

theorem c34_sane_aux {v : Vm} (sv : v.Sane W) : Vm.Sane W { v with ticks := v.ticks + 1 } :=
  ⟨sv.nodup, sv.dom, sv.unmarked, sv.old, sv.uidLt, sv.uidInj⟩

theorem c34_firstTotal_aux {n : Nat} {h : Handler} {args env : Ref} {ts : List Ref} {bs : List Binding} {e : Option Ref} {v : Vm}
    (ha : v.HasVec args ts) (he : v.HasObj env (.env bs e))
    {f : List Ref → Prog (Option Ref)} {Q : Option Ref → Vm → List Event → Prop} (hq : Wt W n h (f ts) v Q) :
    Wt W n h (do let es ← Prog.verifyVec args; Prog.verifyEnv env; f es) v Q := by
  refine wt_bind (wt_verifyVec ha (wt_bind (wt_verifyEnv he ?_)))
  simpa using hq

theorem c34_plus_returns (n : Nat) {v : Vm} (sv : v.Sane W) {args env : Ref} {ts : List Ref} {bs : List Binding} {e : Option Ref} {ks : List Int}
    (ha : v.HasVec args ts) (he : v.HasObj env (.env bs e)) (hk : Vm.Ints v ts ks) (hf : ∀ j ≤ ks.length, Int32 (ks.take j).sum) :
    Wt W n (handle W L n) (Prog.builtin L .plus args env) v fun a w t => ∃ r, a = some r ∧ Gives W (.int ks.sum) v r w t := by
  show Wt W n (handle W L n) (Prog.biPlus args env) v _
  unfold Prog.biPlus
  refine c34_firstTotal_aux ha he ?_
  have key : Wt W n (handle W L n) (Prog.plusNumerical args env) v fun a w t => ∃ r, a = some r ∧ Gives W (.int ks.sum) v r w t := by
    unfold Prog.plusNumerical
    refine c34_firstTotal_aux ha he ?_
    have := c34_total_aux (n := n) (h := handle W L n) (op := fun _ n k => n + k) sv ts ks 0 0 hk fun j hj _ => by
      rw [c34_fold_aux (fun n k => n + k), c34_sum_aux, Int.zero_add]; exact hf j hj
    rw [c34_fold_aux (fun n k => n + k), c34_sum_aux, Int.zero_add] at this
    exact this
  cases hk with
  | nil => exact key
  | cons h1 h2 =>
    obtain ⟨c', hc', ho⟩ := h1
    refine wt_bind (wt_read hc' ?_)
    rw [ho]
    simpa using key

theorem c34_times_returns (n : Nat) {v : Vm} (sv : v.Sane W) {args env : Ref} {ts : List Ref} {bs : List Binding} {e : Option Ref} {ks : List Int}
    (ha : v.HasVec args ts) (he : v.HasObj env (.env bs e)) (hk : Vm.Ints v ts ks) (hf : ∀ j ≤ ks.length, Int32 (ks.take j).prod) :
    Wt W n (handle W L n) (Prog.builtin L .times args env) v fun a w t => ∃ r, a = some r ∧ Gives W (.int ks.prod) v r w t := by
  show Wt W n (handle W L n) (Prog.biTimes args env) v _
  unfold Prog.biTimes
  refine c34_firstTotal_aux ha he ?_
  have := c34_total_aux (n := n) (h := handle W L n) (op := fun _ n k => n * k) sv ts ks 0 1 hk fun j hj _ => by
    rw [c34_fold_aux (fun n k => n * k), c34_prod_aux, Int.one_mul]; exact hf j hj
  rw [c34_fold_aux (fun n k => n * k), c34_prod_aux, Int.one_mul] at this
  exact this

/-- for `-` the results of subtracting the first ones have to fit -/
theorem c34_minus_returns (n : Nat) {v : Vm} (sv : v.Sane W) {args env : Ref} {ts : List Ref} {bs : List Binding} {e : Option Ref} {ks : List Int}
    (ha : v.HasVec args ts) (he : v.HasObj env (.env bs e)) (hk : Vm.Ints v ts ks) (h1 : ∀ k ∈ ks, Int32 k)
    (hf : ∀ j ≤ ks.length, j ≠ 1 → Int32 (difference (ks.take j))) (hs : Int32 (difference ks)) :
    Wt W n (handle W L n) (Prog.builtin L .minus args env) v fun a w t => ∃ r, a = some r ∧ Gives W (.int (difference ks)) v r w t := by
  show Wt W n (handle W L n) (Prog.biMinus args env) v _
  unfold Prog.biMinus
  refine c34_firstTotal_aux ha he ?_
  have key : Wt W n (handle W L n) (Prog.minusNumerical args env) v fun a w t => ∃ r, a = some r ∧ Gives W (.int (difference ks)) v r w t := by
    unfold Prog.minusNumerical
    refine c34_firstTotal_aux ha he (f := fun es => Prog.numLoop (fun i n k => if es.length = 1 then -k else if i = 0 then k else n - k) es 0 0 true) ?_
    have := c34_total_aux (n := n) (h := handle W L n) (op := fun i n k => if ts.length = 1 then -k else if i = 0 then k else n - k) sv ts ks 0 0 hk ?_
    · rw [c34_minus_aux ks ts.length (forall₂_len hk)] at this
      exact this
    · intro j hj h0
      by_cases hj1 : j = ks.length
      · subst hj1
        rw [List.take_length, c34_minus_aux ks ts.length (forall₂_len hk)]
        exact hs
      · by_cases hj2 : j = 1
        · subst hj2
          match ks, hk, h1, hj, hj1 with
          | k :: ks, hk, h1, hj, hj1 =>
            have : ¬ ts.length = 1 := by rw [forall₂_len hk]; exact fun e => hj1 e.symm
            simpa [this] using h1 k (by simp)
        · have hl : ¬ ts.length = 1 := by rw [forall₂_len hk]; omega
          have hl' : ¬ (ks.take j).length = 1 := by rw [List.length_take]; omega
          have := c34_minus_aux (ks.take j) _ rfl
          simp only [hl', if_false] at this
          simp only [hl, if_false, this]
          exact hf j hj hj2
  cases hk with
  | nil => exact key
  | cons g1 g2 =>
    obtain ⟨c', hc', ho⟩ := g1
    refine wt_bind (wt_read hc' ?_)
    rw [ho]
    simpa using key

/-- `mod` never crashes, except for -2147483648 and -1 -/
theorem c34_mod_returns (n : Nat) {v : Vm} (sv : v.Sane W) {args env : Ref} {ts : List Ref} {bs : List Binding} {e : Option Ref} {x y : Int}
    (ha : v.HasVec args ts) (he : v.HasObj env (.env bs e)) (hk : Vm.Ints v ts [x, y]) (hx : Int32 x) (hxy : ¬ (x = -2147483648 ∧ y = -1)) :
    Wt W n (handle W L n) (Prog.builtin L .mod args env) v fun a w t => ∃ r, a = some r ∧ ModRun W x y v r w t := by
  show Wt W n (handle W L n) (Prog.biMod args env) v _
  unfold Prog.biMod
  refine c34_firstTotal_aux ha he ?_
  cases hk with
  | cons h1 h2 =>
    cases h2 with
    | cons h2 h3 =>
      cases h3
      obtain ⟨c1, hc1, ho1⟩ := h1
      obtain ⟨c2, hc2, ho2⟩ := h2
      refine wt_bind (wt_read hc1 ?_)
      rw [ho1]
      refine wt_bind (wt_read hc2 ?_)
      rw [ho2]
      simp only [List.nil_append]
      unfold ModRun
      split
      · refine wt_error sv fun r w t a => ⟨r, rfl, rfl, ?_, a.fresh, _, _, _, a.cell, rfl⟩
        have q : Vm.Quiet W nobody v { v with ticks := v.ticks + 1 } := .same rfl rfl rfl rfl rfl rfl fun x => by cases x <;> rfl
        exact q.trans sv (a.quiet (c34_sane_aux sv))
      · rename_i hy
        refine wt_bind (c34_int32_total_aux ?_ (wt_bind (wt_alloc sv fun r w a => wt_pure ⟨r, rfl, rfl, a.quiet sv, a.fresh, _, a.cell, rfl⟩)))
        have hle : (x.tdiv y).natAbs ≤ x.natAbs := by rw [Int.natAbs_tdiv]; exact Nat.div_le_self _ _
        have : x = -2147483648 → x.tdiv y ≠ 2147483648 := by
          rintro rfl he
          have h2 : Int.natAbs ((-2147483648 : Int).tdiv y) = 2147483648 := by rw [he]; rfl
          rw [Int.natAbs_tdiv] at h2
          have h3 : (-2147483648 : Int).natAbs = 2147483648 := rfl
          rw [h3] at h2
          have h4 : y.natAbs = 1 := by
            have hpos : 0 < y.natAbs := Int.natAbs_pos.mpr hy
            by_contra hne
            have hlt := Nat.div_lt_self (n := 2147483648) (by decide) (show 1 < y.natAbs by omega)
            exact absurd h2 (Nat.ne_of_lt hlt)
          have : y = 1 ∨ y = -1 := by omega
          rcases this with rfl | rfl
          · simp at he
          · exact hxy ⟨rfl, rfl⟩
        unfold Int32 at *
        omega

/-- `/` never crashes -/
theorem c34_slash_returns (n : Nat) {v : Vm} (sv : v.Sane W) {args env : Ref} {ts : List Ref} {bs : List Binding} {e : Option Ref} {ks : List Int}
    (ha : v.HasVec args ts) (he : v.HasObj env (.env bs e)) (hk : Vm.Ints v ts ks) :
    Wt W n (handle W L n) (Prog.builtin L .slash args env) v fun a _ _ => ∃ r, a = some r := by
  show Wt W n (handle W L n) (Prog.biSlash args env) v _
  unfold Prog.biSlash
  refine c34_firstTotal_aux ha he ?_
  have loop : ∀ (ts : List Ref) (ks : List Int) (i : Nat), Vm.Ints v ts ks → Wt W n (handle W L n) (Prog.slashLoop ts i) v fun a _ _ => ∃ r, a = some r := by
    intro ts
    induction ts with
    | nil =>
      intro ks i hk
      unfold Prog.slashLoop
      exact wt_bind (wt_real fun d => wt_bind (wt_alloc (c34_sane_aux sv) fun r w a => wt_pure ⟨r, rfl⟩))
    | cons t ts ih =>
      intro ks i hk
      cases hk with
      | @cons _ m _ ks h1 h2 =>
        unfold Prog.slashLoop
        obtain ⟨c, hc, ho⟩ := h1
        refine wt_bind (wt_read hc ?_)
        rw [ho]
        simp only [Prog.isZero, List.nil_append]
        split
        · exact wt_error sv fun r w t a => ⟨r, rfl⟩
        · exact ih ks (i + 1) h2
  match ts, ks, hk with
  | [], _, .nil => exact wt_error sv fun r w t a => ⟨r, rfl⟩
  | [t], _, hk => exact loop _ _ _ hk
  | t :: t' :: ts, _, hk => exact loop _ _ _ hk

/-! ### examples and negative results -/

/-- the hypotheses hold: `(- 10 (* 2 3) (mod -7 3) 1)` is 4 -/
example : ∃ (v w : Vm) (form op : Ref) (xs : List Ref) (r : Option Ref) (tr : List Event), v.Reached world library ∧
    NamedCall world v form v.globalEnv (txt "-") op xs ∧ v.HasObj op (.builtin .minus) ∧
    Evaluates world library v form v.globalEnv r w tr ∧ objAt w r = some (.int 4) := by
  obtain ⟨v, form, r, w, tr, hr, of, oe, ev, h⟩ := stage_exists (table := kit2) (forms := []) (fuel := 60)
    (last := .vec [.sym "-", .int 10, .vec [.sym "*", .int 2, .int 3], .vec [.sym "mod", .int (-7), .int 3], .int 1])
    (P := fun v f r w tr => namedCheck v f "-" (.builtin .minus) && decide (objAt w r = some (.int 4))) kit2_plain (by decide +kernel)
  simp only [Bool.and_eq_true, decide_eq_true_eq] at h
  obtain ⟨op, xs, h1, h2, h3⟩ := named_of_check h.1 of oe
  exact ⟨v, w, form, op, xs, r, tr, hr, h1, h2, ev, h.2⟩

/-- the number of arguments, the integers and the prefixes of `c34_minus_returns` for `(- 10 6 -1 1)` -/
example : difference [10, 6, -1, 1] = 4 ∧ (∀ k ∈ [10, 6, -1, (1 : Int)], Int32 k) ∧ Int32 (difference [10, 6]) := by
  unfold Int32
  decide

/-- `(/ 1 2 0)` and `(mod 5 0)` are errors, `(/ 1 2)` is a real -/
example : stageCheck kit2 [] (.vec [.sym "/", .int 1, .int 2, .int 0]) 60
      (fun _ _ r w _ => match objAt w r with | some (.err _ _) => true | _ => false) = true ∧
    stageCheck kit2 [] (.vec [.sym "mod", .int 5, .int 0]) 60
      (fun _ _ r w _ => match objAt w r with | some (.err _ _) => true | _ => false) = true ∧
    stageCheck kit2 [] (.vec [.sym "/", .int 1, .int 2]) 60
      (fun _ _ r w _ => match objAt w r with | some (.real _) => true | _ => false) = true := by
  refine ⟨?_, ?_, ?_⟩ <;> decide +kernel

/-- running a form on the example machine fails like this -/
def c34_fails_aux (f : Form) : Option Fault :=
  match run world 60 (handler world (Prog.body library) 60) (do
      let f ← setup kit2 [] f
      Prog.eval f (← Prog.root .globalEnv)) (Vm.base world.malloc) with
  | .error e => some e
  | .ok _ => none

/-- `(+ 2147483647 1 -1)`: the exact result is representable, but the addition overflows -/
theorem c34_intermediate_overflow : c34_fails_aux (.vec [.sym "+", .int 2147483647, .int 1, .int (-1)]) = some .ub := by
  decide +kernel

/-- `(* 65536 65536 0)` overflows, although the product is zero -/
theorem c34_product_overflow : c34_fails_aux (.vec [.sym "*", .int 65536, .int 65536, .int 0]) = some .ub := by
  decide +kernel

/-- `(mod -2147483648 -1)`, whose remainder is zero, is undefined -/
theorem c34_mod_overflow : c34_fails_aux (.vec [.sym "mod", .int (-2147483648), .int (-1)]) = some .ub := by
  decide +kernel

end Dern.Props
