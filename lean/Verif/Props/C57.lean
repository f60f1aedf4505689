import Verif.Props.C46
import Verif.Props.C49
/-
C57: the comparison operators.

For every reachable state and every call of `==`, `===`, `!=`, `<`, `<=`, `>` or `>=` (see `Calling.lean` for the vocabulary): the first
argument is evaluated, and then the others from left to right, each being compared with the value of the first one as soon as it has been
evaluated; the first comparison that fails ends the form, without any further evaluation.
-/
namespace Dern.Props
open Dern
open Dern.Prog (Library)
open Dern.Spec (sign)
variable {W : World} {L : Library}

/-- `x` comes before, with or after `y` in the order of values (see C14) -/
def Stands (v : Vm) (x y : Ref) (o : Ordering) : Prop :=
  ∃ d e, Denotes v.mem x d ∧ Denotes v.mem y e ∧ Plain d ∧ Plain e ∧ dataCmp d e = o

/-- a comparison of `x` and `y` in the state `v` with the outcome `b` -/
abbrev Judge := Vm → Ref → Ref → Bool → Prop

/-- they are equal (see C13) -/
def judgeEqual : Judge := fun v x y b => IsData v x → IsData v y → (b = true ↔ EqualData v x y)

/-- they are the same value -/
def judgeSame : Judge := fun _ x y b => (b = true ↔ x = y)

/-- they stand in the order as said -/
def judgeOrder (ok : Ordering → Prop) : Judge := fun v x y b => ∀ o, Stands v x y o → (b = true ↔ ok o)

/-- the others are evaluated and compared with the first value from the state `v` on -/
inductive ComparesWith (W : World) (J : Judge) (env first : Ref) : (v : Vm) → (xs : List Ref) → (b : Bool) → (w : Vm) → List Event → Prop
  | all {v} : ComparesWith W J env first v [] true v []
  | fails {v x xs e t} : Evals W v x env e t → J e.post first t false → ComparesWith W J env first v (x :: xs) false e.post [e]
  | holds {v x xs e t b w tr} : Evals W v x env e t → J e.post first t true → ComparesWith W J env first e.post xs b w tr →
      ComparesWith W J env first v (x :: xs) b w (e :: tr)

/-- What these operators do with the arguments `xs`; `neg` is true for `!=`.  The result is a new boolean (provided that nobody has changed the
values true and false of the machine). -/
inductive CompareRun (W : World) (J : Judge) (neg : Bool) (v : Vm) : (xs : List Ref) → (env r : Ref) → (w : Vm) → List Event → Prop
  | few {xs env r w tr} : xs.length < 2 → GivesError W v r w tr → CompareRun W J neg v xs env r w tr
  | compared {x xs env r w e t b u tr} : xs ≠ [] → Evals W v x env e t → ComparesWith W J env t e.post xs b u tr →
      Vm.Quiet W nobody u w → ¬ u.Old W r → (u.HasObj (u.root (if b then .true else .false)) (.bool b) → w.HasObj r (.bool (b != neg))) →
      CompareRun W J neg v (x :: xs) env r w (e :: tr)

/-! ### the order of numbers and texts -/

/-- integers are ordered by their values -/
theorem c57_stands_int {v : Vm} {x y : Ref} {m n : Int} (hx : v.HasObj x (.int m)) (hy : v.HasObj y (.int n)) : Stands v x y (compare m n) := by
  obtain ⟨c, hc, ho⟩ := hx
  obtain ⟨d, hd, ho'⟩ := hy
  refine ⟨.int m, .int n, .atom hc (by rw [ho]; rfl), .atom hd (by rw [ho']; rfl), .int, .int, ?_⟩
  have hu : (0 : Int) < (Spec.Dbl.unit : Int) := Int.ofNat_lt.mpr Spec.Dbl.unit_pos
  have key : intCmp (Spec.Dbl.ofInt m) (Spec.Dbl.ofInt n) = compare m n := by
    have lt : ∀ a b : Int, Spec.Dbl.ofInt a < Spec.Dbl.ofInt b ↔ a < b := fun a b => Int.mul_lt_mul_right hu
    unfold intCmp
    rcases Int.lt_trichotomy m n with h | h | h
    · rw [if_pos ((lt _ _).mpr h), compare_lt_iff_lt.mpr h]
    · subst h; simp
    · rw [if_neg fun h' => by have := (lt _ _).mp h'; omega, if_pos ((lt _ _).mpr h), compare_gt_iff_gt.mpr h]
  show (intCmp 2 2).then (intCmp (Spec.Dbl.ofInt m) (Spec.Dbl.ofInt n)) = _
  rw [intCmp_refl, Ordering.eq_then, key]

/-- strings are ordered lexicographically by code points -/
theorem c57_stands_str {v : Vm} {x y : Ref} {s t : Text} (hx : v.HasObj x (.str s)) (hy : v.HasObj y (.str t)) (ps : Printable s) (pt : Printable t) :
    Stands v x y (Spec.lexCmp s t) := by
  obtain ⟨c, hc, ho⟩ := hx
  obtain ⟨d, hd, ho'⟩ := hy
  refine ⟨.str s, .str t, .atom hc (by rw [ho]; rfl), .atom hd (by rw [ho']; rfl), .str ps, .str pt, ?_⟩
  simp [dataCmp, top, within, kind, intCmp]

/-! ### Proofs -/

variable {n : Nat} {h : Handler} {args env : Ref} {xs : List Ref}

/-- the program compares as said -/
def Compares (W : World) (n : Nat) (h : Handler) (J : Judge) (same : Ref → Ref → Prog Bool) : Prop :=
  ∀ (v : Vm) (s : List Ref) (x y : Ref), v.Sane W → Wp W n h (same x y) { v with stack := s } fun b u t => t = [] ∧ u = { v with stack := s } ∧ J v x y b

theorem c57_compare_aux {v : Vm} {x y : Ref} {c : Int} (hc : compareRef v.mem n x y = .ok c) {o : Ordering} (h : Stands v x y o) : Int.sign c = sign o := by
  obtain ⟨d, e, hd, he, pd, pe, rfl⟩ := h
  exact compareRef_sign _ _ _ _ _ _ _ hd he pd pe hc

theorem c57_equal_aux : Compares W n h judgeEqual Prog.equalValues := by
  intro v s x y sv
  unfold Prog.equalValues
  refine wp_bind (wp_compare fun c hc => wp_pure ⟨rfl, rfl, ?_⟩)
  rintro ⟨d, hd, rd⟩ ⟨e, he, re⟩
  rw [beq_iff_eq, compareRef_zero _ _ _ _ _ _ _ hd he rd re hc]
  constructor
  · exact fun h => ⟨d, e, hd, he, h⟩
  · rintro ⟨d', e', hd', he', hs⟩
    cases hd.unique _ hd'; cases he.unique _ he'
    exact hs

theorem c57_same_aux : Compares W n h judgeSame Prog.sameUid := by
  intro v s x y sv
  unfold Prog.sameUid
  refine wp_bind (wp_read fun c hc => wp_bind (wp_read fun d hd => wp_pure ⟨rfl, rfl, ?_⟩))
  show (c.uid == d.uid) = true ↔ x = y
  rw [beq_iff_eq]
  constructor
  · exact sv.uidInj x c y d hc hd
  · rintro rfl; rw [same_cell hc hd]

/-- the loop of the orders, written like the one of `==` -/
def orderTest (ok : Int → Bool) (x y : Ref) : Prog Bool := do
  let c ← Prog.compare x y
  pure (ok c)

theorem c57_order_aux {ok : Int → Bool} {ok' : Ordering → Prop} (hok : ∀ c o, Int.sign c = sign o → (ok c = true ↔ ok' o)) :
    Compares W n h (judgeOrder ok') (orderTest ok) := by
  intro v s x y sv
  unfold orderTest
  refine wp_bind (wp_compare fun c hc => wp_pure ⟨rfl, rfl, ?_⟩)
  exact fun o ho => hok c o (c57_compare_aux hc ho)

theorem c57_loop_aux (F : Fine W h) {J : Judge} {same : Ref → Ref → Prog Bool} (hs : Compares W n h J same) {first : Ref} :
    ∀ (k i : Nat) (v : Vm) (s : List Ref), v.Sane W → Held W args xs env { v with stack := s } → i + k = xs.length →
    Wp W n h (Prog.equalLoop same args env first k i) { v with stack := s } fun b u tr =>
      ∃ u', u = { u' with stack := s } ∧ u'.Sane W ∧ Held W args xs env u ∧ ComparesWith W J env first v (xs.drop i) b u' tr
  | 0, i, v, s, sv, k, hi => by
    rw [List.drop_eq_nil_of_le (by omega)]
    exact wp_pure ⟨v, rfl, sv, k, .all⟩
  | m + 1, i, v, s, sv, k, hi => by
    show Wp W n h (Prog.evalElem args i env >>= _) _ _
    have hlt : i < xs.length := by omega
    rw [List.drop_eq_getElem_cons hlt]
    refine wp_bind (wp_evalElem F k hlt fun x t w hx kw g hst hp => wp_bind (wp_push ?_))
    rw [List.getElem?_eq_getElem hlt] at hx; cases hx
    have ev : Evals W v xs[i] env ⟨xs[i], env, { v with stack := s }, some t, w⟩ t := ⟨rfl, rfl, rfl, Ends.pop.quiet⟩
    refine wp_bind (Wp.mono (hs w (t :: w.stack) first t kw.sane) ?_)
    rintro b u _ ⟨rfl, rfl, hj⟩
    refine wp_bind (wp_pop fun s' e => ?_)
    cases e
    have hst : w.stack = s := hst
    have kw' : Held W args xs env { w with stack := w.stack } := kw
    cases b with
    | false => exact wp_pure ⟨w, by rw [← hst], kw.sane, kw', .fails ev hj⟩
    | true =>
      refine Wp.mono (c57_loop_aux F hs m (i + 1) w w.stack kw.sane kw' (by omega)) ?_
      rintro b u tr ⟨u', hu, su, ku, hc⟩
      exact ⟨u', by rw [← hst]; exact hu, su, ku, .holds ev hj hc⟩

theorem c57_orderLoop_aux (F : Fine W h) {J : Judge} {ok : Int → Bool} (hs : Compares W n h J (orderTest ok)) {first : Ref} :
    ∀ (k i : Nat) (v : Vm) (s : List Ref), v.Sane W → Held W args xs env { v with stack := s } → i + k = xs.length →
    Wp W n h (Prog.orderLoop ok args env first k i) { v with stack := s } fun b u tr =>
      ∃ u', u = { u' with stack := s } ∧ u'.Sane W ∧ Held W args xs env u ∧ ComparesWith W J env first v (xs.drop i) b u' tr
  | 0, i, v, s, sv, k, hi => by
    rw [List.drop_eq_nil_of_le (by omega)]
    exact wp_pure ⟨v, rfl, sv, k, .all⟩
  | m + 1, i, v, s, sv, k, hi => by
    show Wp W n h (Prog.evalReq args i env >>= _) _ _
    have hlt : i < xs.length := by omega
    rw [List.drop_eq_getElem_cons hlt]
    refine wp_bind (wp_evalReq F k hlt fun x t w hx kw g hst hp => ?_)
    rw [List.getElem?_eq_getElem hlt] at hx; cases hx
    have ev : Evals W v xs[i] env ⟨xs[i], env, { v with stack := s }, some t, w⟩ t := ⟨rfl, rfl, rfl, Ends.pop.quiet⟩
    have hst : w.stack = s := hst
    have kw' : Held W args xs env { w with stack := w.stack } := kw
    have test : Wp W n h (orderTest ok first t >>= fun b => if b = true then Prog.orderLoop ok args env first m (i + 1) else pure false) w fun b u tr =>
        ∃ u', u = { u' with stack := s } ∧ u'.Sane W ∧ Held W args xs env u ∧
          ComparesWith W J env first v (xs[i] :: xs.drop (i + 1)) b u' (⟨xs[i], env, { v with stack := s }, some t, w⟩ :: tr) := by
      refine wp_bind (Wp.mono (hs w w.stack first t kw.sane) ?_)
      rintro b u _ ⟨rfl, rfl, hj⟩
      cases b with
      | false => exact wp_pure ⟨w, by rw [← hst], kw.sane, kw', .fails ev hj⟩
      | true =>
        refine Wp.mono (c57_orderLoop_aux F hs m (i + 1) w w.stack kw.sane kw' (by omega)) ?_
        rintro b u tr ⟨u', hu, su, ku, hc⟩
        exact ⟨u', by rw [← hst]; exact hu, su, ku, .holds ev hj hc⟩
    unfold orderTest at test
    simp only [bind_assoc, pure_bind] at test
    exact test

/-- what the two loops have in common -/
def LoopSpec (W : World) (n : Nat) (h : Handler) (J : Judge) (args env : Ref) (xs : List Ref) (loop : Ref → Prog Bool) : Prop :=
  ∀ (first : Ref) (v : Vm) (s : List Ref), v.Sane W → Held W args xs env { v with stack := s } →
    Wp W n h (loop first) { v with stack := s } fun b u tr =>
      ∃ u', u = { u' with stack := s } ∧ u'.Sane W ∧ Held W args xs env u ∧ ComparesWith W J env first v xs.tail b u' tr

/-- the common part of the comparison operators -/
def compareForm (loop : List Ref → Ref → Prog Bool) (args env : Ref) : Prog (Option Ref) := do
  let es ← Prog.verifyVec args
  Prog.verifyEnv env
  if es.length < 2 then Prog.error "expects at least two arguments."
  else do
    Prog.push args
    let first ← Prog.evalElem args 0 env
    Prog.push first
    let b ← loop es first
    Prog.pop first
    Prog.pop args
    let r ← Prog.getRoot (if b then .true else .false)
    pure (some r)

theorem c57_form_aux (F : Fine W h) (C : Copies W h) {J : Judge} {loop : List Ref → Ref → Prog Bool} {v0 v : Vm} (k : Held W args xs env v)
    (hl : 2 ≤ xs.length → LoopSpec W n h J args env xs (loop xs))
    (g : Vm.Step W (fun x => x = args) nobody v0 v) {Q : Option Ref → Vm → List Event → Prop}
    (few : ∀ r w, xs.length < 2 → w.Sane W → Vm.Quiet W nobody v0 w → ¬ v0.Old W r → w.IsErr r → Q (some r) w [])
    (done : ∀ x ys e t b u r w tr, xs = x :: ys → ys ≠ [] → Evals W v0 x env e t → ComparesWith W J env t e.post ys b u tr → u.Sane W → w.Sane W →
      Vm.Quiet W nobody u w → ¬ u.Old W r → (u.HasObj (u.root (if b then .true else .false)) (.bool b) → w.HasObj r (.bool b)) → Q (some r) w (e :: tr)) :
    Wp W n h (compareForm loop args env) v Q := by
  unfold compareForm
  refine wp_bind (wp_verifyVec_vec k.vec fun _ => wp_bind (wp_verifyEnv fun _ => ?_))
  split
  · rename_i hlen
    exact wps_error g fun r w t gw hp hm fr => few r w hlen gw.sane gw.quiet (fun h => fr (h.mono g.quiet.births)) ⟨_, _, _, hm, rfl⟩
  · rename_i hlen
    obtain ⟨x, ys, rfl⟩ : ∃ x ys, xs = x :: ys := by
      cases xs with
      | nil => simp at hlen
      | cons x ys => exact ⟨x, ys, rfl⟩
    refine wp_bind (wp_push ?_)
    have kp : Held W args (x :: ys) env { v with stack := args :: v.stack } := k.push k.old
    refine wp_bind (wp_evalElem F kp (by simp) fun x' t w hx kw gw hst hp => wp_bind (wp_push ?_))
    cases hx
    have ev : Evals W v0 x env ⟨x, env, { v with stack := args :: v.stack }, some t, w⟩ t := ⟨rfl, rfl, rfl, g.quiet.trans g.sane0 Ends.pop.quiet⟩
    have kt : Held W args (x :: ys) env { w with stack := t :: w.stack } := kw.push hp.1
    refine wp_bind (Wp.mono (hl (by omega) t w _ kw.sane kt) ?_)
    rintro b u tr ⟨u', rfl, su, ku, hc⟩
    refine wp_bind (wp_pop fun s1 e1 => wp_bind (wp_pop fun s2 e2 => ?_))
    cases e1
    have hs : w.stack = args :: v.stack := hst
    rw [show w.stack = args :: s2 from e2] at hs
    cases hs
    have k2 : Held W args (x :: ys) env { u' with stack := v.stack } := by
      have k1 : Held W args (x :: ys) env { u' with stack := w.stack } := ku.pop rfl
      exact k1.pop e2
    refine wp_bind (wp_rootCopy F C k2 fun r w' gw' fr hst' hr => wp_pure ?_)
    simp only [List.append_nil, List.nil_append]
    refine done x ys _ t b u' r w' tr rfl ?_ ev hc su gw'.sane (Vm.Quiet.trans su Ends.pop.quiet gw'.quiet) fr fun hb => hr _ rfl hb
    rintro rfl; simp at hlen

theorem c57_run_aux (F : Fine W h) (C : Copies W h) {J : Judge} {loop : List Ref → Ref → Prog Bool} {v0 v : Vm} (k : Held W args xs env v)
    (hl : 2 ≤ xs.length → LoopSpec W n h J args env xs (loop xs)) (g : Vm.Step W (fun x => x = args) nobody v0 v) :
    Wp W n h (compareForm loop args env) v fun a u t => ∀ r w, a = some r → Ends u w → CompareRun W J false v0 xs env r w t := by
  refine c57_form_aux F C k hl g ?_ ?_
  · rintro r w hlen sw q fr he _ w' ⟨⟩ e'
    exact .few hlen ⟨rfl, q.trans g.sane0 e'.quiet, fr, e'.isErr he⟩
  · rintro x ys e t b u r w tr rfl hne ev hc su sw q fr hr _ w' ⟨⟩ e'
    exact .compared hne ev hc (q.trans su e'.quiet) fr fun hb => by
      rw [Bool.bne_false]; exact e'.hasObj (hr hb) (by simp)

theorem c57_not_aux (F : Fine W h) (C : Copies W h) {J : Judge} {loop : List Ref → Ref → Prog Bool} {v0 v : Vm} (k : Held W args xs env v)
    (hl : 2 ≤ xs.length → LoopSpec W n h J args env xs (loop xs)) (g : Vm.Step W (fun x => x = args) nobody v0 v) :
    Wp W n h (do
      let r ← Prog.deref (← compareForm loop args env)
      match (← Prog.read r).obj with
      | .err _ _ => pure (some r)
      | .bool b => do
        let r ← Prog.alloc (.bool (!b))
        pure (some r)
      | _ => Prog.fail .abort) v fun a u t => ∀ r w, a = some r → Ends u w → CompareRun W J true v0 xs env r w t := by
  refine wp_bind (c57_form_aux F C k hl g ?_ ?_)
  · intro r w hlen sw q fr he
    refine wp_bind (wp_deref fun r' er => ?_)
    cases er
    refine wp_bind (wp_read fun c hc => ?_)
    obtain ⟨m, l, c', hc', ho⟩ := he
    obtain rfl := same_cell hc hc'
    rw [ho]
    refine wp_pure ?_
    rintro _ w' ⟨⟩ e'
    exact .few hlen ⟨rfl, q.trans g.sane0 e'.quiet, fr, e'.isErr ⟨m, l, c, hc, ho⟩⟩
  · intro x ys e t b u r w tr hxs hne ev hc su sw q fr hr
    subst hxs
    refine wp_bind (wp_deref fun r' er => ?_)
    cases er
    refine wp_bind (wp_read fun c hcr => ?_)
    split
    · rename_i m l ho
      refine wp_pure ?_
      rintro _ w' ⟨⟩ e'
      simp only [List.append_nil]
      refine .compared hne ev hc (q.trans su e'.quiet) fr fun hb => ?_
      obtain ⟨c', hc', ho'⟩ := hr hb
      obtain rfl := same_cell hcr hc'
      rw [ho] at ho'; cases ho'
    · rename_i b' ho
      refine wp_bind (wp_alloc sw fun r2 w2 a => wp_pure ?_)
      rintro _ w' ⟨⟩ e'
      simp only [List.append_nil]
      refine .compared hne ev hc ((q.trans su (a.quiet sw)).trans su e'.quiet) (fun h => a.fresh (h.mono q.births)) fun hb => ?_
      obtain ⟨c', hc', ho'⟩ := hr hb
      obtain rfl := same_cell hcr hc'
      rw [ho] at ho'; cases ho'
      rw [Bool.bne_true]
      exact e'.hasObj ⟨_, a.cell, rfl⟩ (by simp)
    · exact wp_fail

theorem c57_equalLoop_aux (F : Fine W h) {J : Judge} {same : Ref → Ref → Prog Bool} (hs : Compares W n h J same) (hl : 2 ≤ xs.length) :
    LoopSpec W n h J args env xs fun first => Prog.equalLoop same args env first (xs.length - 1) 1 := fun first v s sv k => by
  have := c57_loop_aux F hs (first := first) (xs.length - 1) 1 v s sv k (by omega)
  rwa [List.drop_one] at this

theorem c57_orderForm_aux (F : Fine W h) {J : Judge} {ok : Int → Bool} (hs : Compares W n h J (orderTest ok)) (hl : 2 ≤ xs.length) :
    LoopSpec W n h J args env xs fun first => Prog.orderLoop ok args env first (xs.length - 1) 1 := fun first v s sv k => by
  have := c57_orderLoop_aux F hs (first := first) (xs.length - 1) 1 v s sv k (by omega)
  rwa [List.drop_one] at this

theorem c57_sign_aux {c : Int} {o : Ordering} (h : Int.sign c = sign o) :
    (c ≤ 0 ↔ o ≠ .gt) ∧ (c < 0 ↔ o = .lt) ∧ (0 < c ↔ o = .gt) ∧ (0 ≤ c ↔ o ≠ .lt) := by
  have h1 : c < 0 → Int.sign c = -1 := Int.sign_eq_neg_one_of_neg
  have h2 : 0 < c → Int.sign c = 1 := Int.sign_eq_one_of_pos
  have h3 : c = 0 → Int.sign c = 0 := fun e => by subst e; rfl
  rcases Int.lt_trichotomy c 0 with hc | hc | hc
  · rw [h1 hc] at h; cases o <;> simp [sign] at h ⊢ <;> omega
  · rw [h3 hc] at h; cases o <;> simp [sign] at h ⊢ <;> omega
  · rw [h2 hc] at h; cases o <;> simp [sign] at h ⊢ <;> omega

/-- `==`, called by its name -/
theorem c57_equal (hL : L.Safe) {v w : Vm} (rv : v.Reached W L) {form env op : Ref} {name : Text} {xs : List Ref}
    (nc : NamedCall W v form env name op xs) (hop : v.HasObj op (.special .eq)) (hargs : ∀ x ∈ xs, ¬ v.IsErr x)
    {r : Option Ref} {tr : List Event} (ev : Evaluates W L v form env r w tr) :
    NamedFormCall W (CompareRun W judgeEqual false) v xs env op r w tr :=
  namedFormCall_aux hL (fun _ _ _ _ _ _ F C k g _ _ _ => c57_run_aux (loop := fun es first => Prog.equalLoop Prog.equalValues _ _ first (es.length - 1) 1) F C k (c57_equalLoop_aux F c57_equal_aux) g) rv nc hop hargs ev

/-- `==`, the operator being given by any form -/
theorem c57_equal_operator (hL : L.Safe) {v w : Vm} (rv : v.Reached W L) {form env first : Ref} {rest : List Ref}
    (hq : v.quit = false) (hf : v.HasVec form (first :: rest)) (of : v.Old W form) (oe : v.Old W env)
    {r : Option Ref} {tr : List Event} (ev : Evaluates W L v form env r w tr) :
    FormCall W .eq (CompareRun W judgeEqual false) v form first env r w tr :=
  formCall_aux hL (fun _ _ _ _ _ _ F C k g _ _ _ => c57_run_aux (loop := fun es first => Prog.equalLoop Prog.equalValues _ _ first (es.length - 1) 1) F C k (c57_equalLoop_aux F c57_equal_aux) g) rv hq hf of oe ev

/-- `===`, called by its name -/
theorem c57_same (hL : L.Safe) {v w : Vm} (rv : v.Reached W L) {form env op : Ref} {name : Text} {xs : List Ref}
    (nc : NamedCall W v form env name op xs) (hop : v.HasObj op (.special .eqq)) (hargs : ∀ x ∈ xs, ¬ v.IsErr x)
    {r : Option Ref} {tr : List Event} (ev : Evaluates W L v form env r w tr) :
    NamedFormCall W (CompareRun W judgeSame false) v xs env op r w tr :=
  namedFormCall_aux hL (fun _ _ _ _ _ _ F C k g _ _ _ => c57_run_aux (loop := fun es first => Prog.equalLoop Prog.sameUid _ _ first (es.length - 1) 1) F C k (c57_equalLoop_aux F c57_same_aux) g) rv nc hop hargs ev

/-- `===`, the operator being given by any form -/
theorem c57_same_operator (hL : L.Safe) {v w : Vm} (rv : v.Reached W L) {form env first : Ref} {rest : List Ref}
    (hq : v.quit = false) (hf : v.HasVec form (first :: rest)) (of : v.Old W form) (oe : v.Old W env)
    {r : Option Ref} {tr : List Event} (ev : Evaluates W L v form env r w tr) :
    FormCall W .eqq (CompareRun W judgeSame false) v form first env r w tr :=
  formCall_aux hL (fun _ _ _ _ _ _ F C k g _ _ _ => c57_run_aux (loop := fun es first => Prog.equalLoop Prog.sameUid _ _ first (es.length - 1) 1) F C k (c57_equalLoop_aux F c57_same_aux) g) rv hq hf of oe ev

/-- `!=`, called by its name -/
theorem c57_different (hL : L.Safe) {v w : Vm} (rv : v.Reached W L) {form env op : Ref} {name : Text} {xs : List Ref}
    (nc : NamedCall W v form env name op xs) (hop : v.HasObj op (.special .ne)) (hargs : ∀ x ∈ xs, ¬ v.IsErr x)
    {r : Option Ref} {tr : List Event} (ev : Evaluates W L v form env r w tr) :
    NamedFormCall W (CompareRun W judgeEqual true) v xs env op r w tr :=
  namedFormCall_aux hL (fun _ _ _ _ _ _ F C k g _ _ _ => c57_not_aux (loop := fun es first => Prog.equalLoop Prog.equalValues _ _ first (es.length - 1) 1) F C k (c57_equalLoop_aux F c57_equal_aux) g) rv nc hop hargs ev

/-- `!=`, the operator being given by any form -/
theorem c57_different_operator (hL : L.Safe) {v w : Vm} (rv : v.Reached W L) {form env first : Ref} {rest : List Ref}
    (hq : v.quit = false) (hf : v.HasVec form (first :: rest)) (of : v.Old W form) (oe : v.Old W env)
    {r : Option Ref} {tr : List Event} (ev : Evaluates W L v form env r w tr) :
    FormCall W .ne (CompareRun W judgeEqual true) v form first env r w tr :=
  formCall_aux hL (fun _ _ _ _ _ _ F C k g _ _ _ => c57_not_aux (loop := fun es first => Prog.equalLoop Prog.equalValues _ _ first (es.length - 1) 1) F C k (c57_equalLoop_aux F c57_equal_aux) g) rv hq hf of oe ev

/-- `<=`, called by its name -/
theorem c57_at_most (hL : L.Safe) {v w : Vm} (rv : v.Reached W L) {form env op : Ref} {name : Text} {xs : List Ref}
    (nc : NamedCall W v form env name op xs) (hop : v.HasObj op (.special .le)) (hargs : ∀ x ∈ xs, ¬ v.IsErr x)
    {r : Option Ref} {tr : List Event} (ev : Evaluates W L v form env r w tr) :
    NamedFormCall W (CompareRun W (judgeOrder (· ≠ .gt)) false) v xs env op r w tr :=
  namedFormCall_aux hL (fun _ _ _ _ _ _ F C k g _ _ _ => c57_run_aux (loop := fun es first => Prog.orderLoop (· ≤ 0) _ _ first (es.length - 1) 1) F C k (c57_orderForm_aux F (c57_order_aux fun c o h => by simpa using (c57_sign_aux h).1)) g) rv nc hop hargs ev

/-- `<=`, the operator being given by any form -/
theorem c57_at_most_operator (hL : L.Safe) {v w : Vm} (rv : v.Reached W L) {form env first : Ref} {rest : List Ref}
    (hq : v.quit = false) (hf : v.HasVec form (first :: rest)) (of : v.Old W form) (oe : v.Old W env)
    {r : Option Ref} {tr : List Event} (ev : Evaluates W L v form env r w tr) :
    FormCall W .le (CompareRun W (judgeOrder (· ≠ .gt)) false) v form first env r w tr :=
  formCall_aux hL (fun _ _ _ _ _ _ F C k g _ _ _ => c57_run_aux (loop := fun es first => Prog.orderLoop (· ≤ 0) _ _ first (es.length - 1) 1) F C k (c57_orderForm_aux F (c57_order_aux fun c o h => by simpa using (c57_sign_aux h).1)) g) rv hq hf of oe ev

/-- `<`, called by its name -/
theorem c57_less (hL : L.Safe) {v w : Vm} (rv : v.Reached W L) {form env op : Ref} {name : Text} {xs : List Ref}
    (nc : NamedCall W v form env name op xs) (hop : v.HasObj op (.special .lt)) (hargs : ∀ x ∈ xs, ¬ v.IsErr x)
    {r : Option Ref} {tr : List Event} (ev : Evaluates W L v form env r w tr) :
    NamedFormCall W (CompareRun W (judgeOrder (· = .lt)) false) v xs env op r w tr :=
  namedFormCall_aux hL (fun _ _ _ _ _ _ F C k g _ _ _ => c57_run_aux (loop := fun es first => Prog.orderLoop (· < 0) _ _ first (es.length - 1) 1) F C k (c57_orderForm_aux F (c57_order_aux fun c o h => by simpa using (c57_sign_aux h).2.1)) g) rv nc hop hargs ev

/-- `<`, the operator being given by any form -/
theorem c57_less_operator (hL : L.Safe) {v w : Vm} (rv : v.Reached W L) {form env first : Ref} {rest : List Ref}
    (hq : v.quit = false) (hf : v.HasVec form (first :: rest)) (of : v.Old W form) (oe : v.Old W env)
    {r : Option Ref} {tr : List Event} (ev : Evaluates W L v form env r w tr) :
    FormCall W .lt (CompareRun W (judgeOrder (· = .lt)) false) v form first env r w tr :=
  formCall_aux hL (fun _ _ _ _ _ _ F C k g _ _ _ => c57_run_aux (loop := fun es first => Prog.orderLoop (· < 0) _ _ first (es.length - 1) 1) F C k (c57_orderForm_aux F (c57_order_aux fun c o h => by simpa using (c57_sign_aux h).2.1)) g) rv hq hf of oe ev

/-- `>`, called by its name -/
theorem c57_greater (hL : L.Safe) {v w : Vm} (rv : v.Reached W L) {form env op : Ref} {name : Text} {xs : List Ref}
    (nc : NamedCall W v form env name op xs) (hop : v.HasObj op (.special .gt)) (hargs : ∀ x ∈ xs, ¬ v.IsErr x)
    {r : Option Ref} {tr : List Event} (ev : Evaluates W L v form env r w tr) :
    NamedFormCall W (CompareRun W (judgeOrder (· = .gt)) false) v xs env op r w tr :=
  namedFormCall_aux hL (fun _ _ _ _ _ _ F C k g _ _ _ => c57_run_aux (loop := fun es first => Prog.orderLoop (0 < ·) _ _ first (es.length - 1) 1) F C k (c57_orderForm_aux F (c57_order_aux fun c o h => by simpa using (c57_sign_aux h).2.2.1)) g) rv nc hop hargs ev

/-- `>`, the operator being given by any form -/
theorem c57_greater_operator (hL : L.Safe) {v w : Vm} (rv : v.Reached W L) {form env first : Ref} {rest : List Ref}
    (hq : v.quit = false) (hf : v.HasVec form (first :: rest)) (of : v.Old W form) (oe : v.Old W env)
    {r : Option Ref} {tr : List Event} (ev : Evaluates W L v form env r w tr) :
    FormCall W .gt (CompareRun W (judgeOrder (· = .gt)) false) v form first env r w tr :=
  formCall_aux hL (fun _ _ _ _ _ _ F C k g _ _ _ => c57_run_aux (loop := fun es first => Prog.orderLoop (0 < ·) _ _ first (es.length - 1) 1) F C k (c57_orderForm_aux F (c57_order_aux fun c o h => by simpa using (c57_sign_aux h).2.2.1)) g) rv hq hf of oe ev

/-- `>=`, called by its name -/
theorem c57_at_least (hL : L.Safe) {v w : Vm} (rv : v.Reached W L) {form env op : Ref} {name : Text} {xs : List Ref}
    (nc : NamedCall W v form env name op xs) (hop : v.HasObj op (.special .ge)) (hargs : ∀ x ∈ xs, ¬ v.IsErr x)
    {r : Option Ref} {tr : List Event} (ev : Evaluates W L v form env r w tr) :
    NamedFormCall W (CompareRun W (judgeOrder (· ≠ .lt)) false) v xs env op r w tr :=
  namedFormCall_aux hL (fun _ _ _ _ _ _ F C k g _ _ _ => c57_run_aux (loop := fun es first => Prog.orderLoop (0 ≤ ·) _ _ first (es.length - 1) 1) F C k (c57_orderForm_aux F (c57_order_aux fun c o h => by simpa using (c57_sign_aux h).2.2.2)) g) rv nc hop hargs ev

/-- `>=`, the operator being given by any form -/
theorem c57_at_least_operator (hL : L.Safe) {v w : Vm} (rv : v.Reached W L) {form env first : Ref} {rest : List Ref}
    (hq : v.quit = false) (hf : v.HasVec form (first :: rest)) (of : v.Old W form) (oe : v.Old W env)
    {r : Option Ref} {tr : List Event} (ev : Evaluates W L v form env r w tr) :
    FormCall W .ge (CompareRun W (judgeOrder (· ≠ .lt)) false) v form first env r w tr :=
  formCall_aux hL (fun _ _ _ _ _ _ F C k g _ _ _ => c57_run_aux (loop := fun es first => Prog.orderLoop (0 ≤ ·) _ _ first (es.length - 1) 1) F C k (c57_orderForm_aux F (c57_order_aux fun c o h => by simpa using (c57_sign_aux h).2.2.2)) g) rv hq hf of oe ev

/-! ### Examples -/
def kit12 : List (String × Obj × Bool) := [("==", .special .eq, false), ("===", .special .eqq, false), ("!=", .special .ne, false), ("<", .special .lt, false),
  ("<=", .special .le, false), (">", .special .gt, false), (">=", .special .ge, false), ("quote", .special .quote, false), ("=", .builtin .assign, true), ("vector", .builtin .vector, true), ("define", .special .define, false)]

theorem kit12_plain : ∀ x ∈ kit12, x.2.1.children = [] := by decide

/-- `(== (vector 1 2) (vector 1 2))` -/
example : ∃ (v w : Vm) (form op : Ref) (xs : List Ref) (r : Option Ref) (tr : List Event), v.Reached world library ∧
    NamedCall world v form v.globalEnv (txt "==") op xs ∧ v.HasObj op (.special .eq) ∧ (∀ x ∈ xs, ¬ v.IsErr x) ∧
    Evaluates world library v form v.globalEnv r w tr ∧ objAt w r = some (.bool true) := by
  obtain ⟨v, form, r, w, tr, hr, of, oe, ev, h⟩ := stage_exists (table := kit12) (forms := []) (fuel := 60)
    (last := .vec [.sym "==", .vec [.sym "vector", .int 1, .int 2], .vec [.sym "vector", .int 1, .int 2]])
    (P := fun v f r w tr => namedCheck v f "==" (.special .eq) && decide (objAt w r = some (.bool true))) kit12_plain (by decide +kernel)
  simp only [Bool.and_eq_true, decide_eq_true_eq] at h
  obtain ⟨op, xs, h1, h2, h3⟩ := named_of_check h.1 of oe
  exact ⟨v, w, form, op, xs, r, tr, hr, h1, h2, h3, ev, h.2⟩

/-- `(=== (vector 1 2) (vector 1 2))` -/
example : ∃ (v w : Vm) (form op : Ref) (xs : List Ref) (r : Option Ref) (tr : List Event), v.Reached world library ∧
    NamedCall world v form v.globalEnv (txt "===") op xs ∧ v.HasObj op (.special .eqq) ∧ (∀ x ∈ xs, ¬ v.IsErr x) ∧
    Evaluates world library v form v.globalEnv r w tr ∧ objAt w r = some (.bool false) := by
  obtain ⟨v, form, r, w, tr, hr, of, oe, ev, h⟩ := stage_exists (table := kit12) (forms := []) (fuel := 60)
    (last := .vec [.sym "===", .vec [.sym "vector", .int 1, .int 2], .vec [.sym "vector", .int 1, .int 2]])
    (P := fun v f r w tr => namedCheck v f "===" (.special .eqq) && decide (objAt w r = some (.bool false))) kit12_plain (by decide +kernel)
  simp only [Bool.and_eq_true, decide_eq_true_eq] at h
  obtain ⟨op, xs, h1, h2, h3⟩ := named_of_check h.1 of oe
  exact ⟨v, w, form, op, xs, r, tr, hr, h1, h2, h3, ev, h.2⟩

/-- `(!= 1 1 2)` -/
example : ∃ (v w : Vm) (form op : Ref) (xs : List Ref) (r : Option Ref) (tr : List Event), v.Reached world library ∧
    NamedCall world v form v.globalEnv (txt "!=") op xs ∧ v.HasObj op (.special .ne) ∧ (∀ x ∈ xs, ¬ v.IsErr x) ∧
    Evaluates world library v form v.globalEnv r w tr ∧ objAt w r = some (.bool true) := by
  obtain ⟨v, form, r, w, tr, hr, of, oe, ev, h⟩ := stage_exists (table := kit12) (forms := []) (fuel := 60)
    (last := .vec [.sym "!=", .int 1, .int 1, .int 2])
    (P := fun v f r w tr => namedCheck v f "!=" (.special .ne) && decide (objAt w r = some (.bool true))) kit12_plain (by decide +kernel)
  simp only [Bool.and_eq_true, decide_eq_true_eq] at h
  obtain ⟨op, xs, h1, h2, h3⟩ := named_of_check h.1 of oe
  exact ⟨v, w, form, op, xs, r, tr, hr, h1, h2, h3, ev, h.2⟩

/-- `(< 1 3 2)` -/
example : ∃ (v w : Vm) (form op : Ref) (xs : List Ref) (r : Option Ref) (tr : List Event), v.Reached world library ∧
    NamedCall world v form v.globalEnv (txt "<") op xs ∧ v.HasObj op (.special .lt) ∧ (∀ x ∈ xs, ¬ v.IsErr x) ∧
    Evaluates world library v form v.globalEnv r w tr ∧ objAt w r = some (.bool true) := by
  obtain ⟨v, form, r, w, tr, hr, of, oe, ev, h⟩ := stage_exists (table := kit12) (forms := []) (fuel := 60)
    (last := .vec [.sym "<", .int 1, .int 3, .int 2])
    (P := fun v f r w tr => namedCheck v f "<" (.special .lt) && decide (objAt w r = some (.bool true))) kit12_plain (by decide +kernel)
  simp only [Bool.and_eq_true, decide_eq_true_eq] at h
  obtain ⟨op, xs, h1, h2, h3⟩ := named_of_check h.1 of oe
  exact ⟨v, w, form, op, xs, r, tr, hr, h1, h2, h3, ev, h.2⟩

/-- `(< 1 1 (undefined))`: the last argument is not evaluated -/
example : ∃ (v w : Vm) (form op : Ref) (xs : List Ref) (r : Option Ref) (tr : List Event), v.Reached world library ∧
    NamedCall world v form v.globalEnv (txt "<") op xs ∧ v.HasObj op (.special .lt) ∧ (∀ x ∈ xs, ¬ v.IsErr x) ∧
    Evaluates world library v form v.globalEnv r w tr ∧ objAt w r = some (.bool false) ∧ tr.length = 3 := by
  obtain ⟨v, form, r, w, tr, hr, of, oe, ev, h⟩ := stage_exists (table := kit12) (forms := []) (fuel := 60)
    (last := .vec [.sym "<", .int 1, .int 1, .vec [.sym "undefined"]])
    (P := fun v f r w tr => namedCheck v f "<" (.special .lt) && decide (objAt w r = some (.bool false) ∧ tr.length = 3)) kit12_plain (by decide +kernel)
  simp only [Bool.and_eq_true, decide_eq_true_eq] at h
  obtain ⟨op, xs, h1, h2, h3⟩ := named_of_check h.1 of oe
  exact ⟨v, w, form, op, xs, r, tr, hr, h1, h2, h3, ev, h.2⟩

/-- `(>= [b] [ab])` -/
example : ∃ (v w : Vm) (form op : Ref) (xs : List Ref) (r : Option Ref) (tr : List Event), v.Reached world library ∧
    NamedCall world v form v.globalEnv (txt ">=") op xs ∧ v.HasObj op (.special .ge) ∧ (∀ x ∈ xs, ¬ v.IsErr x) ∧
    Evaluates world library v form v.globalEnv r w tr ∧ objAt w r = some (.bool true) := by
  obtain ⟨v, form, r, w, tr, hr, of, oe, ev, h⟩ := stage_exists (table := kit12) (forms := []) (fuel := 60)
    (last := .vec [.sym ">=", .str "b", .str "ab"])
    (P := fun v f r w tr => namedCheck v f ">=" (.special .ge) && decide (objAt w r = some (.bool true))) kit12_plain (by decide +kernel)
  simp only [Bool.and_eq_true, decide_eq_true_eq] at h
  obtain ⟨op, xs, h1, h2, h3⟩ := named_of_check h.1 of oe
  exact ⟨v, w, form, op, xs, r, tr, hr, h1, h2, h3, ev, h.2⟩

end Dern.Props
