import Verif.Props.C52
import Verif.Props.C38
/-
C63: adding and subtracting versions, as programs see it.

`+` and `-` with a version first make a new version and leave their arguments as they are; `+=` and `-=` change the first one in
place.  `+`, `-` and `+=` go on when a version cannot be added or subtracted (two non-zero numbers, more than there is, an
identifier that is missing), `-=` ends with an error.
-/
namespace Dern.Props
open Dern
open Dern.Spec (Version Ident)
open Dern.Prog (Library)
variable {W : World} {L : Library}

/-! ### Specification -/

/-- taking pre-release identifiers away, one after the other: `false` at the first one that is missing; those before it are gone -/
inductive IdsTaken : List Ident → List Ident → Bool → List Ident → Prop
  | done {pre} : IdsTaken pre [] true pre
  | next {pre i is ok q} : i ∈ pre → IdsTaken (pre.erase i) is ok q → IdsTaken pre (i :: is) ok q
  | missing {pre i is} : i ∉ pre → IdsTaken pre (i :: is) false pre

/-- the only number of the version that is not zero is the `k`-th -/
def Alone (b : Version) (k : Fin 3) : Prop := component b k ≠ 0 ∧ ∀ j, j ≠ k → component b j = 0

/-- a number raised, modulo 2^64; the lower ones start again -/
def raised (a : Version) : Fin 3 → Nat → Version
  | 0, n => { a with major := (a.major + n) % 2 ^ 64, minor := 0, patch := 0 }
  | 1, n => { a with minor := (a.minor + n) % 2 ^ 64, patch := 0 }
  | 2, n => { a with patch := (a.patch + n) % 2 ^ 64 }

/-- `b` is added to `a`, or subtracted from it: whether it is possible, and what becomes of `a` -/
inductive VersionStep : Bool → Version → Version → Bool → Version → Prop
  | mixed {add a b i j} : i ≠ j → component b i ≠ 0 → component b j ≠ 0 → VersionStep add a b false a
  | short {a b k} : Alone b k → component a k < component b k → VersionStep false a b false a
  | add {a b k} : Alone b k → VersionStep true a b true { raised a k (component b k) with pre := a.pre ++ b.pre }
  | sub {a b k ok q} : Alone b k → component b k ≤ component a k → IdsTaken a.pre b.pre ok q →
      VersionStep false a b ok { lower a k (component b k) with pre := q }
  | addIds {a b} : (∀ k, component b k = 0) → VersionStep true a b true { a with pre := a.pre ++ b.pre }
  | subIds {a b ok q} : (∀ k, component b k = 0) → IdsTaken a.pre b.pre ok q → VersionStep false a b ok { a with pre := q }

/-- versions added or subtracted one after the other, possible or not -/
inductive Summed (add : Bool) : Version → List Version → Version → Prop
  | nil {a} : Summed add a [] a
  | cons {a b ok a1 bs c} : VersionStep add a b ok a1 → Summed add a1 bs c → Summed add a (b :: bs) c

/-- the first value is a version -/
def VersionFirst (ts : List Ref) (v : Vm) : Prop := ∃ x ys a, ts = x :: ys ∧ v.HasObj x (.semver a)

/-- what `+` and `-` do with a version and more values -/
inductive SumRun (W : World) (add : Bool) (ts : List Ref) (v : Vm) (r : Ref) (w : Vm) (tr : List Event) : Prop
  | sum {x xs a bs c} : ts = x :: xs → v.HasObj x (.semver a) → List.Forall₂ (fun y b => v.HasObj y (.semver b)) xs bs → Summed add a bs c →
      Gives W (.semver c) v r w tr → SumRun W add ts v r w tr
  | wrong {x xs a y} : ts = x :: xs → v.HasObj x (.semver a) → y ∈ xs → (∀ b, ¬ v.HasObj y (.semver b)) → GivesError W v r w tr →
      SumRun W add ts v r w tr

/-- the version `b` that `y` is when the version `x` has become `a`; a version with identifiers does not meet itself -/
inductive Meets (v : Vm) (x : Ref) (a : Version) : Ref → Version → Prop
  | other {y b} : y ≠ x → v.HasObj y (.semver b) → Meets v x a y b
  | self : a.pre = [] → Meets v x a x a

/-- `+=`: values that are no versions, and versions that cannot be added, do nothing -/
inductive Accumulates (v : Vm) (x : Ref) : Version → List Ref → Version → Prop
  | nil {a} : Accumulates v x a [] a
  | version {a y b ok a1 ys c} : Meets v x a y b → VersionStep true a b ok a1 → Accumulates v x a1 ys c → Accumulates v x a (y :: ys) c
  | ignored {a y ys c} : (∀ b, ¬ v.HasObj y (.semver b)) → Accumulates v x a ys c → Accumulates v x a (y :: ys) c

/-- what `+=` does with a version and more values -/
def AccumulateRun (W : World) (ts : List Ref) (v : Vm) (r : Ref) (w : Vm) (tr : List Event) : Prop :=
  ∃ x ys a c, ts = x :: ys ∧ v.HasObj x (.semver a) ∧ Accumulates v x a ys c ∧ r = x ∧ Becomes W (.semver c) v x w tr

/-- `-=`: all of the versions can be subtracted -/
inductive Diminishes (v : Vm) (x : Ref) : Version → List Ref → Version → Prop
  | nil {a} : Diminishes v x a [] a
  | cons {a y b a1 ys c} : Meets v x a y b → VersionStep false a b true a1 → Diminishes v x a1 ys c → Diminishes v x a (y :: ys) c

/-- the value `y` cannot be subtracted from `a`, of which `c` is left -/
def Refused (v : Vm) (x : Ref) (a : Version) (y : Ref) (c : Version) : Prop :=
  (∀ b, ¬ v.HasObj y (.semver b)) ∧ c = a ∨ ∃ b, Meets v x a y b ∧ VersionStep false a b false c

/-- what `-=` does with a version and more values; an error leaves what was subtracted before -/
inductive DiminishRun (W : World) (ts : List Ref) (v : Vm) (r : Ref) (w : Vm) (tr : List Event) : Prop
  | done {x ys a c} : ts = x :: ys → v.HasObj x (.semver a) → Diminishes v x a ys c → r = x → Becomes W (.semver c) v x w tr → DiminishRun W ts v r w tr
  | refused {x ys y zs a b c} : ts = x :: (ys ++ y :: zs) → v.HasObj x (.semver a) → Diminishes v x a ys b → Refused v x b y c →
      ¬ v.Old W r → w.IsErr r → tr = [] → Vm.Quiet W (fun z => z = x) v w → w.HasObj x (.semver c) → DiminishRun W ts v r w tr

/-! ### Versions -/

theorem c63_addPre_aux : ∀ (is pre : List Ident), Semver.addPre pre is = (true, pre ++ is)
  | [], pre => by simp [Semver.addPre]
  | i :: is, pre => by simp [Semver.addPre, c63_addPre_aux is]

theorem c63_subPre_aux : ∀ (is pre : List Ident), IdsTaken pre is (Semver.subPre pre is).1 (Semver.subPre pre is).2
  | [], pre => .done
  | i :: is, pre => by
    unfold Semver.subPre Semver.removePre
    by_cases h : i ∈ pre
    · simp only [h, if_true]; exact .next h (c63_subPre_aux is _)
    · simp only [h, if_false]; exact .missing h

theorem fin3_aux {P : Fin 3 → Prop} (h0 : P 0) (h1 : P 1) (h2 : P 2) : ∀ k, P k
  | 0 => h0
  | 1 => h1
  | 2 => h2

/-- the model does the step -/
theorem c63_step (a b : Version) (add : Bool) : VersionStep add a b (Semver.addOrSubtract a b add).1 (Semver.addOrSubtract a b add).2 := by
  have m01 : b.major ≠ 0 → b.minor ≠ 0 → VersionStep add a b false a := fun h h' => .mixed (i := 0) (j := 1) (by simp) h h'
  have m02 : b.major ≠ 0 → b.patch ≠ 0 → VersionStep add a b false a := fun h h' => .mixed (i := 0) (j := 2) (by simp) h h'
  have m12 : b.minor ≠ 0 → b.patch ≠ 0 → VersionStep add a b false a := fun h h' => .mixed (i := 1) (j := 2) (by simp) h h'
  unfold Semver.addOrSubtract
  by_cases h0 : b.major = 0 <;> by_cases h1 : b.minor = 0 <;> by_cases h2 : b.patch = 0
  all_goals simp only [h0, h1, h2, ne_eq, not_true_eq_false, not_false_eq_true, false_and, true_and, or_false, or_true, false_or, if_true, if_false, or_self, and_true, and_false]
  · have z : ∀ k, component b k = 0 := fin3_aux h0 h1 h2
    cases add
    · exact .subIds z (c63_subPre_aux _ _)
    · simp only [if_true, c63_addPre_aux]; exact .addIds z
  · have z : Alone b 2 := ⟨h2, fin3_aux (fun _ => h0) (fun _ => h1) (fun h => absurd rfl h)⟩
    cases add
    · by_cases hs : a.patch < b.patch
      · simp only [hs, if_true, true_and]; exact .short z hs
      · simp only [hs, if_true, and_false, if_false, Bool.false_eq_true]
        exact .sub z (Nat.le_of_not_lt hs) (c63_subPre_aux _ _)
    · simp only [if_true, c63_addPre_aux, Bool.true_eq_false, false_and, if_false]; exact .add z
  · have z : Alone b 1 := ⟨h1, fin3_aux (fun _ => h0) (fun h => absurd rfl h) (fun _ => h2)⟩
    cases add
    · by_cases hs : a.minor < b.minor
      · simp only [hs, if_true, true_and]; exact .short z hs
      · simp only [hs, if_true, and_false, if_false, Bool.false_eq_true]
        exact .sub z (Nat.le_of_not_lt hs) (c63_subPre_aux _ _)
    · simp only [if_true, c63_addPre_aux, Bool.true_eq_false, false_and, if_false]; exact .add z
  · exact m12 h1 h2
  · have z : Alone b 0 := ⟨h0, fin3_aux (fun h => absurd rfl h) (fun _ => h1) (fun _ => h2)⟩
    cases add
    · by_cases hs : a.major < b.major
      · simp only [hs, if_true, true_and]; exact .short z hs
      · simp only [hs, if_true, and_false, if_false, Bool.false_eq_true]
        exact .sub z (Nat.le_of_not_lt hs) (c63_subPre_aux _ _)
    · simp only [if_true, c63_addPre_aux, Bool.true_eq_false, false_and, if_false]; exact .add z
  · exact m02 h0 h2
  · exact m01 h0 h1
  · exact m01 h0 h1

theorem c63_idsUnique_aux {pre is : List Ident} {ok ok' : Bool} {q q' : List Ident} (h : IdsTaken pre is ok q) (h' : IdsTaken pre is ok' q') : ok = ok' ∧ q = q' := by
  induction h generalizing ok' q' with
  | done => cases h'; exact ⟨rfl, rfl⟩
  | next hi _ ih =>
    cases h' with
    | next _ h => exact ih h
    | missing h => exact absurd hi h
  | missing hi =>
    cases h' with
    | next h _ => exact absurd h hi
    | missing _ => exact ⟨rfl, rfl⟩

theorem Alone.unique {b : Version} {k j : Fin 3} (h : Alone b k) (h' : Alone b j) : j = k := by
  by_cases e : j = k
  · exact e
  · exact absurd (h.2 j e) h'.1

/-- A step has only one result. -/
theorem c63_step_unique {add : Bool} {a b c c' : Version} {ok ok' : Bool} (h : VersionStep add a b ok c) (h' : VersionStep add a b ok' c') : ok = ok' ∧ c = c' := by
  have mix : ∀ {i j k : Fin 3}, i ≠ j → component b i ≠ 0 → component b j ≠ 0 → Alone b k → False := by
    intro i j k hij hi hj hk
    by_cases e : i = k
    · exact hj (hk.2 j fun e' => hij (e.trans e'.symm))
    · exact hi (hk.2 i e)
  cases h with
  | mixed h1 h2 h3 =>
    cases h' with
    | mixed => exact ⟨rfl, rfl⟩
    | short => exact ⟨rfl, rfl⟩
    | add h => exact (mix h1 h2 h3 h).elim
    | sub h => exact (mix h1 h2 h3 h).elim
    | addIds h => exact absurd (h _) h2
    | subIds h => exact absurd (h _) h2
  | short h1 h2 =>
    cases h' with
    | mixed => exact ⟨rfl, rfl⟩
    | short => exact ⟨rfl, rfl⟩
    | sub h h3 => obtain rfl := h1.unique h; exact absurd h2 (Nat.not_lt.mpr h3)
    | subIds h => exact absurd (h _) h1.1
  | add h1 =>
    cases h' with
    | mixed h2 h3 h4 => exact (mix h2 h3 h4 h1).elim
    | add h => obtain rfl := h1.unique h; exact ⟨rfl, rfl⟩
    | addIds h => exact absurd (h _) h1.1
  | sub h1 h2 h3 =>
    cases h' with
    | mixed h4 h5 h6 => exact (mix h4 h5 h6 h1).elim
    | short h h4 => obtain rfl := h1.unique h; exact absurd h4 (Nat.not_lt.mpr h2)
    | sub h _ h4 =>
      obtain rfl := h1.unique h
      obtain ⟨rfl, rfl⟩ := c63_idsUnique_aux h3 h4
      exact ⟨rfl, rfl⟩
    | subIds h => exact absurd (h _) h1.1
  | addIds h1 =>
    cases h' with
    | mixed h2 h3 => exact absurd (h1 _) h3
    | add h => exact absurd (h1 _) h.1
    | addIds => exact ⟨rfl, rfl⟩
  | subIds h1 h2 =>
    cases h' with
    | mixed h3 h4 => exact absurd (h1 _) h4
    | short h => exact absurd (h1 _) h.1
    | sub h => exact absurd (h1 _) h.1
    | subIds _ h =>
      obtain ⟨rfl, rfl⟩ := c63_idsUnique_aux h2 h
      exact ⟨rfl, rfl⟩

/-! ### new versions -/

theorem c63_sum_aux {n : Nat} {h : Handler} {v : Vm} {r : Ref} {add : Bool} (xs : List Ref) : ∀ (u : Vm) (a : Version), Joining W v xs r (.semver a) u →
    (∀ y ∈ xs, v.Old W y) →
    Wp W n h (Prog.sumVersions add r xs) u fun o u tr => KeepsBuiltins v u ∧ ∀ q w, o = some q → Ends u w →
      (∃ bs c, List.Forall₂ (fun y b => v.HasObj y (.semver b)) xs bs ∧ Summed add a bs c ∧ Gives W (.semver c) v q w tr) ∨
      ∃ y ∈ xs, (∀ b, ¬ v.HasObj y (.semver b)) ∧ GivesError W v q w tr := by
  induction xs with
  | nil =>
    intro u a g _
    unfold Prog.sumVersions
    refine wp_bind (wp_pop fun st _ => wp_pure ⟨keeps_mem g.step.quiet rfl, ?_⟩)
    rintro q w ⟨⟩ e
    have e' : Ends u w := (Ends.pop (s := st)).trans e
    exact .inl ⟨[], a, .nil, .nil, rfl, g.step.quiet.trans g.step.sane0 e'.quiet, g.fresh, e'.hasObj g.cell (by simp)⟩
  | cons x xs ih =>
    intro u a g hold
    unfold Prog.sumVersions
    refine wp_bind (wp_read fun c hc => ?_)
    have hc' : v.mem x = some c := by rw [← g.same x (by simp)]; exact hc
    have hne : r ≠ x := fun e => g.fresh (e ▸ hold x (by simp))
    simp only [List.nil_append]
    split
    · rename_i b ho
      unfold Prog.addVersion
      simp only [bind_assoc]
      refine wp_bind (wp_read fun c1 hc1 => ?_)
      obtain ⟨c1', hc1', ho1⟩ := g.cell
      obtain rfl := same_cell hc1' hc1
      simp only [ho1, bind_assoc]
      refine wp_bind (wp_read fun c2 hc2 => ?_)
      obtain rfl := same_cell hc hc2
      simp only [ho, hne, false_and, if_false, bind_assoc]
      refine wp_bind (wp_setObj fun c3 hc3 => ?_)
      simp only [pure_bind]
      have g' := g.set hold hc3 (o' := .semver (Semver.addOrSubtract a b add).2) (fun P => trivial)
      refine Wp.mono (ih _ _ ⟨g'.step, g'.fresh, g'.cell, fun y hy => g'.same y (by simp [hy])⟩ (fun y hy => hold y (by simp [hy]))) ?_
      rintro o u tr ⟨h1, h2⟩
      refine ⟨h1, fun q w ho e => ?_⟩
      rcases h2 q w ho e with ⟨bs, c, h3, h4, h5⟩ | ⟨y, hy, h3, h4⟩
      · exact .inl ⟨b :: bs, c, .cons ⟨_, hc', by assumption⟩ h3, .cons (c63_step a b add) h4, by simpa using h5⟩
      · exact .inr ⟨y, by simp [hy], h3, by simpa using h4⟩
    · rename_i hno
      refine wp_bind (wp_pop fun st hst => ?_)
      have g' : Vm.Step W nobody nobody v { u with stack := st } := g.step.pop (r := r) hst
      refine wps_errorStack g' fun q w gw hst hm fr => ⟨keeps_of_quiet gw.quiet, ?_⟩
      rintro q' w' ⟨⟩ e
      refine .inr ⟨x, by simp, ?_, rfl, gw.quiet.trans gw.sane0 e.quiet, fr, e.isErr hm⟩
      rintro b ⟨c1, h1, h2⟩
      obtain rfl := same_cell h1 hc'
      exact hno b h2

theorem c63_sumSemver_aux {n : Nat} {h : Handler} {args env : Ref} {x : Ref} {xs : List Ref} {a : Version} {add : Bool} {v : Vm} (k : Held W args (x :: xs) env v)
    (top : args ∈ v.stack) (hv : v.HasVec args (x :: xs)) (hx : v.HasObj x (.semver a)) :
    Wp W n h (Prog.sumSemver add a xs) v fun o u tr => KeepsBuiltins v u ∧ ∀ r w, o = some r → Ends u w → SumRun W add (x :: xs) v r w tr := by
  have old : ∀ y ∈ xs, v.Old W y := fun y hy => (k.pub y (by simp [hy])).1
  unfold Prog.sumSemver
  refine wp_bind (wp_alloc k.sane fun r w al => wp_bind (wp_push ?_))
  have g : Vm.Step W nobody nobody v w := Vm.Step.alloc (.refl k.sane k.closed.all) al trivial
  refine Wp.mono (c63_sum_aux xs { w with stack := r :: w.stack } a ⟨g.push al.old, al.fresh, ⟨_, al.cell, rfl⟩, ?_⟩ old) ?_
  · intro y hy
    obtain ⟨c, hc, ho⟩ := hv
    exact al.kept y (.step (.root top) ⟨c, hc, by simpa [Cell.edges, ho, Obj.children] using .inr (.inr hy)⟩) fun e => al.fresh (e ▸ old y hy)
  · rintro o u tr ⟨h1, h2⟩
    refine ⟨h1, fun q w ho e => ?_⟩
    rcases h2 q w ho e with ⟨bs, c, h3, h4, h5⟩ | ⟨y, hy, h3, h4⟩
    · exact .sum rfl hx h3 h4 (by simpa using h5)
    · exact .wrong rfl hx hy h3 (by simpa using h4)

theorem c63_plusRun_aux {n : Nat} {h : Handler} {args env : Ref} {ts : List Ref} {v : Vm} (k : Held W args ts env v) (top : args ∈ v.stack) (hp : VersionFirst ts v) :
    Wp W n h (Prog.biPlus args env) v fun a u tr => KeepsBuiltins v u ∧ ∀ r w, a = some r → Ends u w → SumRun W true ts v r w tr := by
  obtain ⟨x, xs, a, rfl, hx⟩ := hp
  unfold Prog.biPlus
  refine first_aux k fun hv => ?_
  refine wp_bind (wp_read fun c hc => ?_)
  obtain ⟨c0, hc0, ho0⟩ := id hx
  obtain rfl := same_cell hc0 hc
  simp only [ho0, List.nil_append]
  exact c63_sumSemver_aux k top hv hx

theorem c63_minusRun_aux {n : Nat} {h : Handler} {args env : Ref} {ts : List Ref} {v : Vm} (k : Held W args ts env v) (top : args ∈ v.stack) (hp : VersionFirst ts v) :
    Wp W n h (Prog.biMinus args env) v fun a u tr => KeepsBuiltins v u ∧ ∀ r w, a = some r → Ends u w → SumRun W false ts v r w tr := by
  obtain ⟨x, xs, a, rfl, hx⟩ := hp
  unfold Prog.biMinus
  refine first_aux k fun hv => ?_
  refine wp_bind (wp_read fun c hc => ?_)
  obtain ⟨c0, hc0, ho0⟩ := id hx
  obtain rfl := same_cell hc0 hc
  simp only [ho0, List.nil_append]
  exact c63_sumSemver_aux k top hv hx

/-! ### in place -/

theorem wp_addVersion {n : Nat} {h : Handler} {add : Bool} {v u : Vm} {x y : Ref} {a0 a : Version} (hx : v.HasObj x (.semver a0)) (g : Changing W x v u (.semver a))
    {Q : Bool → Vm → List Event → Prop}
    (hyes : ∀ b ok c w, Meets v x a y b → VersionStep add a b ok c → Changing W x v w (.semver c) → Q ok w [])
    (hno : (∀ b, ¬ v.HasObj y (.semver b)) → Q false u []) : Wp W n h (Prog.addVersion add x y) u Q := by
  unfold Prog.addVersion
  refine wp_bind (wp_read fun c hc => ?_)
  obtain ⟨c', hc', ho'⟩ := g.cell
  obtain rfl := same_cell hc' hc
  simp only [ho']
  refine wp_bind (wp_read fun d hd => ?_)
  by_cases hxy : y = x
  · subst hxy
    obtain rfl := same_cell hc' hd
    simp only [ho', true_and]
    split
    · exact wp_fail
    · rename_i hpre
      refine wp_bind (wp_setObj fun c hc => wp_pure ?_)
      exact hyes a _ _ _ (.self (by simpa using hpre)) (c63_step a a add) (g.set hc trivial)
  · have hd' : v.mem y = some d := by rw [← g.other y hxy]; exact hd
    have hxy' : ¬ x = y := fun e => hxy e.symm
    split
    · rename_i b ho
      simp only [hxy', false_and, if_false]
      refine wp_bind (wp_setObj fun c hc => wp_pure ?_)
      exact hyes b _ _ _ (.other hxy ⟨d, hd', ho⟩) (c63_step a b add) (g.set hc trivial)
    · rename_i h1
      refine wp_pure (hno ?_)
      rintro b ⟨c2, h3, h4⟩
      obtain rfl := same_cell h3 hd'
      exact h1 _ h4

theorem c63_plusEqLoop_aux {n : Nat} {h : Handler} {v : Vm} {x : Ref} {a0 : Version} (hx : v.HasObj x (.semver a0)) (ys : List Ref) : ∀ (u : Vm) (a : Version),
    Changing W x v u (.semver a) →
    Wp W n h (Prog.each (fun y => do let _ ← Prog.addVersion true x y) ys) u fun _ w t => t = [] ∧ ∃ c, Accumulates v x a ys c ∧ Changing W x v w (.semver c) := by
  induction ys with
  | nil => intro u a g; exact wp_pure ⟨rfl, a, .nil, g⟩
  | cons y ys ih =>
    intro u a g
    show Wp W n h ((Prog.addVersion true x y >>= fun _ => pure ()) >>= fun _ => Prog.each (fun y => do let _ ← Prog.addVersion true x y) ys) u _
    simp only [bind_assoc, pure_bind]
    refine wp_bind (wp_addVersion hx g ?_ ?_)
    · intro b ok c w hm hs g'
      refine Wp.mono (ih w c g') ?_
      rintro _ w t ⟨rfl, c', h1, h2⟩
      exact ⟨rfl, c', .version hm hs h1, h2⟩
    · intro hno
      refine Wp.mono (ih u a g) ?_
      rintro _ w t ⟨rfl, c', h1, h2⟩
      exact ⟨rfl, c', .ignored hno h1, h2⟩

theorem c63_plusEqRun_aux {n : Nat} {h : Handler} {args env : Ref} {ts : List Ref} {v : Vm} (k : Held W args ts env v) (hp : VersionFirst ts v) :
    Wp W n h (Prog.biPlusEq L args env) v fun a u tr => KeepsBuiltins v u ∧ ∀ r w, a = some r → Ends u w → AccumulateRun W ts v r w tr := by
  obtain ⟨x, ys, a, rfl, hx⟩ := hp
  unfold Prog.biPlusEq
  refine first_aux k fun hv => ?_
  refine wp_bind (wp_read fun c hc => ?_)
  obtain ⟨c0, hc0, ho0⟩ := id hx
  obtain rfl := same_cell hc0 hc
  simp only [ho0, List.nil_append]
  refine wp_bind (Wp.mono (c63_plusEqLoop_aux hx ys v a (.start k.sane k.closed.all hx)) ?_)
  rintro _ u t ⟨rfl, c, h1, h2⟩
  refine wp_pure ⟨h2.keeps (by simp), ?_⟩
  rintro r w ⟨⟩ e
  exact ⟨x, ys, a, c, rfl, hx, h1, rfl, h2.finish (by simp) e⟩

/-- the end of the subtracting -/
inductive DimEnd (W : World) (v : Vm) (x : Ref) (a : Version) (ys : List Ref) (o : Option Ref) (w : Vm) : Prop
  | done {c} : o = none → Diminishes v x a ys c → Changing W x v w (.semver c) → DimEnd W v x a ys o w
  | refused {xs y zs b c r} : ys = xs ++ y :: zs → Diminishes v x a xs b → Refused v x b y c → o = some r → ¬ v.Old W r → w.IsErr r →
      Vm.Step W nobody (fun z => z = x) v w → w.HasObj x (.semver c) → DimEnd W v x a ys o w

theorem DimEnd.cons {v w : Vm} {x y : Ref} {a b a1 : Version} {ys : List Ref} {o : Option Ref} (hm : Meets v x a y b) (hs : VersionStep false a b true a1)
    (e : DimEnd W v x a1 ys o w) : DimEnd W v x a (y :: ys) o w := by
  cases e with
  | done h0 h1 h2 => exact .done h0 (.cons hm hs h1) h2
  | refused h1 h2 h3 h4 h5 h6 h7 h8 => exact .refused (by rw [h1]; rfl) (.cons hm hs h2) h3 h4 h5 h6 h7 h8

theorem c63_bad_aux {n : Nat} {h : Handler} {v u : Vm} {args x : Ref} {ts : List Ref} {a a0 : Version} (hx : v.HasObj x (.semver a0)) (hv : v.HasVec args ts)
    (top : args ∈ v.stack) (hxt : x ∈ ts) (g : Changing W x v u (.semver a)) {m : String} {Q : Option Ref → Vm → List Event → Prop}
    (hq : ∀ r w, ¬ v.Old W r → w.IsErr r → Vm.Step W nobody (fun z => z = x) v w → w.HasObj x (.semver a) → Q (some r) w []) : Wp W n h (Prog.error m) u Q := by
  refine wps_errorKept g.step fun r w gw hkept he hfr => hq r w hfr he gw ?_
  obtain ⟨c, hc, ho⟩ := hv
  obtain ⟨c1, hc1, ho1⟩ := hx
  have hne : args ≠ x := by rintro rfl; cases same_cell hc hc1; rw [ho] at ho1; cases ho1
  have ka : u.Kept args := .root (by rw [g.stack]; exact top)
  have kx : u.Kept x := ka.step ⟨c, by rw [g.other _ hne]; exact hc, by simpa [Cell.edges, ho, Obj.children] using .inr hxt⟩
  obtain ⟨c2, hc2, ho2⟩ := g.cell
  exact ⟨c2, by rw [hkept x (g.step.sane0.old _ _ hc1) kx]; exact hc2, ho2⟩

theorem c63_minusEqLoop_aux {n : Nat} {h : Handler} {v : Vm} {args x : Ref} {ts : List Ref} {a0 : Version} (hx : v.HasObj x (.semver a0)) (hv : v.HasVec args ts)
    (top : args ∈ v.stack) (hxt : x ∈ ts) (ys : List Ref) : ∀ (u : Vm) (a : Version), Changing W x v u (.semver a) →
    Wp W n h (Prog.eachUntil (fun y => Prog.orFail (Prog.addVersion false x y)) ys) u fun o w t => t = [] ∧ DimEnd W v x a ys o w := by
  induction ys with
  | nil => intro u a g; exact wp_pure ⟨rfl, .done rfl .nil g⟩
  | cons y ys ih =>
    intro u a g
    show Wp W n h (Prog.orFail (Prog.addVersion false x y) >>= fun a => match a with
      | some e => pure (some e)
      | none => Prog.eachUntil (fun y => Prog.orFail (Prog.addVersion false x y)) ys) u _
    unfold Prog.orFail
    simp only [bind_assoc]
    refine wp_bind (wp_addVersion hx g ?_ ?_)
    · intro b ok c w hm hs g'
      cases ok
      · simp only [if_false, Bool.false_eq_true]
        exact wp_bind (c63_bad_aux hx hv top hxt g' fun r w h1 h2 h3 h4 => wp_pure ⟨rfl, .refused (xs := []) rfl .nil (.inr ⟨b, hm, hs⟩) rfl h1 h2 h3 h4⟩)
      · simp only [if_true]
        refine wp_bind (wp_pure (Wp.mono (ih w c g') ?_))
        rintro o w t ⟨rfl, h1⟩
        exact ⟨rfl, h1.cons hm hs⟩
    · intro hno
      simp only [if_false, Bool.false_eq_true]
      exact wp_bind (c63_bad_aux hx hv top hxt g fun r w h1 h2 h3 h4 => wp_pure ⟨rfl, .refused (xs := []) rfl .nil (.inl ⟨hno, rfl⟩) rfl h1 h2 h3 h4⟩)

theorem c63_minusEqRun_aux {n : Nat} {h : Handler} {args env : Ref} {ts : List Ref} {v : Vm} (k : Held W args ts env v) (top : args ∈ v.stack) (hp : VersionFirst ts v) :
    Wp W n h (Prog.biMinusEq args env) v fun a u tr => KeepsBuiltins v u ∧ ∀ r w, a = some r → Ends u w → DiminishRun W ts v r w tr := by
  obtain ⟨x, ys, a, rfl, hx⟩ := hp
  unfold Prog.biMinusEq
  refine first_aux k fun hv => ?_
  refine wp_bind (wp_read fun c hc => ?_)
  obtain ⟨c0, hc0, ho0⟩ := id hx
  obtain rfl := same_cell hc0 hc
  simp only [ho0, List.nil_append]
  refine wp_bind (Wp.mono (c63_minusEqLoop_aux hx hv top (by simp) ys v a (.start k.sane k.closed.all hx)) ?_)
  rintro o u t ⟨rfl, he⟩
  unfold Prog.unlessError
  cases he with
  | done h0 h1 h2 =>
    subst h0
    refine wp_pure ⟨h2.keeps (by simp), ?_⟩
    rintro r w ⟨⟩ e
    exact .done rfl hx h1 rfl (h2.finish (by simp) e)
  | refused h1 h2 h3 h4 h5 h6 h7 h8 =>
    subst h4
    refine wp_pure ⟨?_, ?_⟩
    · intro op b b' ⟨c1, hc1, ho1⟩ ⟨c2, hc2, ho2⟩
      have hne : op ≠ x := by rintro rfl; cases same_cell hc0 hc1; rw [ho0] at ho1; cases ho1
      rcases h7.quiet.cells op c1 hne hc1 with e | e | ⟨_, _, _, e, _⟩
      · rw [hc2] at e; cases e; rw [ho1] at ho2; cases ho2; rfl
      · rw [hc2] at e; cases e
      · rw [ho1] at e; cases e
    · rintro r w ⟨⟩ e
      exact .refused (by rw [h1]) hx h2 h3 h5 (e.isErr h6) rfl (h7.quiet.trans h7.sane0 e.quiet) (e.hasObj h8 (by simp))

/-! ### Theorems -/

/-- `+` with a version first -/
theorem c63_plus (hL : L.Safe) {v w : Vm} (rv : v.Reached W L) {form env op : Ref} {name : Text} {xs : List Ref}
    (nc : NamedCall W v form env name op xs) (hop : v.HasObj op (.builtin .plus)) {r : Option Ref} {tr : List Event}
    (ev : Evaluates W L v form env r w tr) :
    NamedOpCall W (ArgumentsFirst W form env (Runs .plus op fun ts u r w tr => VersionFirst ts u → SumRun W true ts u r w tr)) v env op r w tr :=
  namedBuiltinTop_aux hL (by simp) (fun _ _ _ _ _ _ _ k top hp => c63_plusRun_aux k top hp) rv nc hop ev

/-- `-` with a version first -/
theorem c63_minus (hL : L.Safe) {v w : Vm} (rv : v.Reached W L) {form env op : Ref} {name : Text} {xs : List Ref}
    (nc : NamedCall W v form env name op xs) (hop : v.HasObj op (.builtin .minus)) {r : Option Ref} {tr : List Event}
    (ev : Evaluates W L v form env r w tr) :
    NamedOpCall W (ArgumentsFirst W form env (Runs .minus op fun ts u r w tr => VersionFirst ts u → SumRun W false ts u r w tr)) v env op r w tr :=
  namedBuiltinTop_aux hL (by simp) (fun _ _ _ _ _ _ _ k top hp => c63_minusRun_aux k top hp) rv nc hop ev

/-- `+=` with a version first -/
theorem c63_plusEq (hL : L.Safe) {v w : Vm} (rv : v.Reached W L) {form env op : Ref} {name : Text} {xs : List Ref}
    (nc : NamedCall W v form env name op xs) (hop : v.HasObj op (.builtin .plusEq)) {r : Option Ref} {tr : List Event}
    (ev : Evaluates W L v form env r w tr) :
    NamedOpCall W (ArgumentsFirst W form env (Runs .plusEq op fun ts u r w tr => VersionFirst ts u → AccumulateRun W ts u r w tr)) v env op r w tr :=
  namedBuiltinPre_aux hL (by simp) (fun _ _ _ _ _ _ _ k hp => c63_plusEqRun_aux k hp) rv nc hop ev

/-- `-=` with a version first -/
theorem c63_minusEq (hL : L.Safe) {v w : Vm} (rv : v.Reached W L) {form env op : Ref} {name : Text} {xs : List Ref}
    (nc : NamedCall W v form env name op xs) (hop : v.HasObj op (.builtin .minusEq)) {r : Option Ref} {tr : List Event}
    (ev : Evaluates W L v form env r w tr) :
    NamedOpCall W (ArgumentsFirst W form env (Runs .minusEq op fun ts u r w tr => VersionFirst ts u → DiminishRun W ts u r w tr)) v env op r w tr :=
  namedBuiltinTop_aux hL (by simp) (fun _ _ _ _ _ _ _ k top hp => c63_minusEqRun_aux k top hp) rv nc hop ev

/-! ### Examples -/

/-- names for the examples: 1.2.3-a-7, 0.1.0, 0.0.4-7, 1.1.0 -/
def kit18 : List (String × Obj × Bool) := [("+", .builtin .plus, true), ("-", .builtin .minus, true), ("+=", .builtin .plusEq, true), ("-=", .builtin .minusEq, true),
  ("v", .semver ⟨1, 2, 3, [.lex (txt "a"), .num 7], []⟩, true), ("m", .semver ⟨0, 1, 0, [], []⟩, true), ("p", .semver ⟨0, 0, 2, [.num 7], []⟩, true),
  ("x", .semver ⟨1, 1, 0, [], []⟩, true), ("q", .semver ⟨0, 0, 0, [.num 7, .num 8], []⟩, true)]

theorem kit18_plain : ∀ x ∈ kit18, x.2.1.children = [] := by decide

/-- `(+ v m)` -/
example : ∃ (v w : Vm) (form op : Ref) (xs : List Ref) (r : Option Ref) (tr : List Event), v.Reached world library ∧
    NamedCall world v form v.globalEnv (txt "+") op xs ∧ v.HasObj op (.builtin .plus) ∧
    Evaluates world library v form v.globalEnv r w tr ∧ objAt w r = some (.semver ⟨1, 3, 0, [.lex (txt "a"), .num 7], []⟩) := by
  obtain ⟨v, form, r, w, tr, hr, of, oe, ev, h⟩ := stage_exists (table := kit18) (forms := []) (fuel := 60)
    (last := .vec [.sym "+", .sym "v", .sym "m"])
    (P := fun v f r w tr => namedCheck v f "+" (.builtin .plus) && decide (objAt w r = some (.semver ⟨1, 3, 0, [.lex (txt "a"), .num 7], []⟩))) kit18_plain (by decide +kernel)
  simp only [Bool.and_eq_true, decide_eq_true_eq] at h
  obtain ⟨op, xs, h1, h2, h3⟩ := named_of_check h.1 of oe
  exact ⟨v, w, form, op, xs, r, tr, hr, h1, h2, ev, h.2⟩

/-- `(+ v x p)` -/
example : ∃ (v w : Vm) (form op : Ref) (xs : List Ref) (r : Option Ref) (tr : List Event), v.Reached world library ∧
    NamedCall world v form v.globalEnv (txt "+") op xs ∧ v.HasObj op (.builtin .plus) ∧
    Evaluates world library v form v.globalEnv r w tr ∧ objAt w r = some (.semver ⟨1, 2, 5, [.lex (txt "a"), .num 7, .num 7], []⟩) := by
  obtain ⟨v, form, r, w, tr, hr, of, oe, ev, h⟩ := stage_exists (table := kit18) (forms := []) (fuel := 60)
    (last := .vec [.sym "+", .sym "v", .sym "x", .sym "p"])
    (P := fun v f r w tr => namedCheck v f "+" (.builtin .plus) && decide (objAt w r = some (.semver ⟨1, 2, 5, [.lex (txt "a"), .num 7, .num 7], []⟩))) kit18_plain (by decide +kernel)
  simp only [Bool.and_eq_true, decide_eq_true_eq] at h
  obtain ⟨op, xs, h1, h2, h3⟩ := named_of_check h.1 of oe
  exact ⟨v, w, form, op, xs, r, tr, hr, h1, h2, ev, h.2⟩

/-- `(+ v 5)` -/
example : ∃ (v w : Vm) (form op : Ref) (xs : List Ref) (r : Option Ref) (tr : List Event), v.Reached world library ∧
    NamedCall world v form v.globalEnv (txt "+") op xs ∧ v.HasObj op (.builtin .plus) ∧
    Evaluates world library v form v.globalEnv r w tr ∧ (match objAt w r with | some (.err _ _) => true | _ => false) = true := by
  obtain ⟨v, form, r, w, tr, hr, of, oe, ev, h⟩ := stage_exists (table := kit18) (forms := []) (fuel := 60)
    (last := .vec [.sym "+", .sym "v", .int 5])
    (P := fun v f r w tr => namedCheck v f "+" (.builtin .plus) && decide ((match objAt w r with | some (.err _ _) => true | _ => false) = true)) kit18_plain (by decide +kernel)
  simp only [Bool.and_eq_true, decide_eq_true_eq] at h
  obtain ⟨op, xs, h1, h2, h3⟩ := named_of_check h.1 of oe
  exact ⟨v, w, form, op, xs, r, tr, hr, h1, h2, ev, h.2⟩

/-- `(- v p)` -/
example : ∃ (v w : Vm) (form op : Ref) (xs : List Ref) (r : Option Ref) (tr : List Event), v.Reached world library ∧
    NamedCall world v form v.globalEnv (txt "-") op xs ∧ v.HasObj op (.builtin .minus) ∧
    Evaluates world library v form v.globalEnv r w tr ∧ objAt w r = some (.semver ⟨1, 2, 1, [.lex (txt "a")], []⟩) := by
  obtain ⟨v, form, r, w, tr, hr, of, oe, ev, h⟩ := stage_exists (table := kit18) (forms := []) (fuel := 60)
    (last := .vec [.sym "-", .sym "v", .sym "p"])
    (P := fun v f r w tr => namedCheck v f "-" (.builtin .minus) && decide (objAt w r = some (.semver ⟨1, 2, 1, [.lex (txt "a")], []⟩))) kit18_plain (by decide +kernel)
  simp only [Bool.and_eq_true, decide_eq_true_eq] at h
  obtain ⟨op, xs, h1, h2, h3⟩ := named_of_check h.1 of oe
  exact ⟨v, w, form, op, xs, r, tr, hr, h1, h2, ev, h.2⟩

/-- `(- m v p)` -/
example : ∃ (v w : Vm) (form op : Ref) (xs : List Ref) (r : Option Ref) (tr : List Event), v.Reached world library ∧
    NamedCall world v form v.globalEnv (txt "-") op xs ∧ v.HasObj op (.builtin .minus) ∧
    Evaluates world library v form v.globalEnv r w tr ∧ objAt w r = some (.semver ⟨0, 1, 0, [], []⟩) := by
  obtain ⟨v, form, r, w, tr, hr, of, oe, ev, h⟩ := stage_exists (table := kit18) (forms := []) (fuel := 60)
    (last := .vec [.sym "-", .sym "m", .sym "v", .sym "p"])
    (P := fun v f r w tr => namedCheck v f "-" (.builtin .minus) && decide (objAt w r = some (.semver ⟨0, 1, 0, [], []⟩))) kit18_plain (by decide +kernel)
  simp only [Bool.and_eq_true, decide_eq_true_eq] at h
  obtain ⟨op, xs, h1, h2, h3⟩ := named_of_check h.1 of oe
  exact ⟨v, w, form, op, xs, r, tr, hr, h1, h2, ev, h.2⟩

/-- `(+= m m 5 m)` -/
example : ∃ (v w : Vm) (form op : Ref) (xs : List Ref) (r : Option Ref) (tr : List Event), v.Reached world library ∧
    NamedCall world v form v.globalEnv (txt "+=") op xs ∧ v.HasObj op (.builtin .plusEq) ∧
    Evaluates world library v form v.globalEnv r w tr ∧ objAt w r = some (.semver ⟨0, 4, 0, [], []⟩) := by
  obtain ⟨v, form, r, w, tr, hr, of, oe, ev, h⟩ := stage_exists (table := kit18) (forms := []) (fuel := 60)
    (last := .vec [.sym "+=", .sym "m", .sym "m", .int 5, .sym "m"])
    (P := fun v f r w tr => namedCheck v f "+=" (.builtin .plusEq) && decide (objAt w r = some (.semver ⟨0, 4, 0, [], []⟩))) kit18_plain (by decide +kernel)
  simp only [Bool.and_eq_true, decide_eq_true_eq] at h
  obtain ⟨op, xs, h1, h2, h3⟩ := named_of_check h.1 of oe
  exact ⟨v, w, form, op, xs, r, tr, hr, h1, h2, ev, h.2⟩

/-- `(-= v p)` -/
example : ∃ (v w : Vm) (form op : Ref) (xs : List Ref) (r : Option Ref) (tr : List Event), v.Reached world library ∧
    NamedCall world v form v.globalEnv (txt "-=") op xs ∧ v.HasObj op (.builtin .minusEq) ∧
    Evaluates world library v form v.globalEnv r w tr ∧ objAt w r = some (.semver ⟨1, 2, 1, [.lex (txt "a")], []⟩) := by
  obtain ⟨v, form, r, w, tr, hr, of, oe, ev, h⟩ := stage_exists (table := kit18) (forms := []) (fuel := 60)
    (last := .vec [.sym "-=", .sym "v", .sym "p"])
    (P := fun v f r w tr => namedCheck v f "-=" (.builtin .minusEq) && decide (objAt w r = some (.semver ⟨1, 2, 1, [.lex (txt "a")], []⟩))) kit18_plain (by decide +kernel)
  simp only [Bool.and_eq_true, decide_eq_true_eq] at h
  obtain ⟨op, xs, h1, h2, h3⟩ := named_of_check h.1 of oe
  exact ⟨v, w, form, op, xs, r, tr, hr, h1, h2, ev, h.2⟩

/-- `(-= v p q)` -/
example : ∃ (v w : Vm) (form op : Ref) (xs : List Ref) (r : Option Ref) (tr : List Event), v.Reached world library ∧
    NamedCall world v form v.globalEnv (txt "-=") op xs ∧ v.HasObj op (.builtin .minusEq) ∧
    Evaluates world library v form v.globalEnv r w tr ∧ (match objAt w r with | some (.err _ _) => true | _ => false) = true := by
  obtain ⟨v, form, r, w, tr, hr, of, oe, ev, h⟩ := stage_exists (table := kit18) (forms := []) (fuel := 60)
    (last := .vec [.sym "-=", .sym "v", .sym "p", .sym "q"])
    (P := fun v f r w tr => namedCheck v f "-=" (.builtin .minusEq) && decide ((match objAt w r with | some (.err _ _) => true | _ => false) = true)) kit18_plain (by decide +kernel)
  simp only [Bool.and_eq_true, decide_eq_true_eq] at h
  obtain ⟨op, xs, h1, h2, h3⟩ := named_of_check h.1 of oe
  exact ⟨v, w, form, op, xs, r, tr, hr, h1, h2, ev, h.2⟩

end Dern.Props
