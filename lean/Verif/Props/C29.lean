import Verif.Props.Calling
/-
C29: conditionals evaluate exactly one branch.

For every reachable state `v` and every call of `if` or `select`: which forms are evaluated, in which
order, which of their values is the result, and that nothing else happens (see `Calling.lean` for the
vocabulary).  Note that `if` calls a test that evaluates to a function.
-/
namespace Dern.Props
open Dern
open Dern.Prog (Library)
variable {W : World} {L : Library}

/-- every evaluation in a trace took place -/
theorem c29_events {v w : Vm} {form env : Ref} {r : Option Ref} {tr : List Event} (ev : Evaluates W L v form env r w tr) :
    ∀ e ∈ tr, ∃ tr', Evaluates W L e.pre e.form e.env e.result e.post tr' := ev.events

/-- Evaluating the test `c` of `if`, from the state `v`, makes the evaluations `tr` and gives `t` in the
state `u`.  If the test evaluates to a function, the function is called without arguments. -/
inductive IfTest (W : World) (v : Vm) (c env : Ref) : List Event → Ref → Vm → Prop
  | value {e t} : Evals W v c env e t → (∀ f, ¬ e.post.HasObj t (.fn f)) → IfTest W v c env [e] t e.post
  | call {e e' t t' f x} : Evals W v c env e t → e.post.HasObj t (.fn f) → Evals W e.post x env e' t' →
      e'.pre.HasVec x [t] → ¬ e.post.Old W x → IfTest W v c env [e, e'] t' e'.post

/-- What `if` does with the arguments `xs` in the state `v`: the result is `r`, the state afterwards is
`w`, the evaluations are `tr`. -/
inductive IfRun (W : World) (v : Vm) (xs : List Ref) (env r : Ref) (w : Vm) : List Event → Prop
  | count : xs.length ≠ 2 → xs.length ≠ 3 → Vm.Quiet W nobody v w → w.IsErr r → IfRun W v xs env r w []
  | yes {c a rest t u tr e} : xs = c :: a :: rest → rest.length ≤ 1 → IfTest W v c env tr t u → u.HasObj t (.bool true) →
      Evals W u a env e r → Ends e.post w → IfRun W v xs env r w (tr ++ [e])
  | no {c a b t u tr e} : xs = [c, a, b] → IfTest W v c env tr t u → u.HasObj t (.bool false) →
      Evals W u b env e r → Ends e.post w → IfRun W v xs env r w (tr ++ [e])
  | nothing {c a t u tr} : xs = [c, a] → IfTest W v c env tr t u → u.HasObj t (.bool false) →
      Vm.Quiet W nobody u w → ¬ u.Old W r → (u.HasObj (u.root .nil) .nil → w.HasObj r .nil) → IfRun W v xs env r w tr
  | failed {c rest t u tr} : xs = c :: rest → (rest.length = 1 ∨ rest.length = 2) → IfTest W v c env tr t u → u.IsErr t →
      r = t → Ends u w → IfRun W v xs env r w tr
  | kind {c rest t u tr} : xs = c :: rest → (rest.length = 1 ∨ rest.length = 2) → IfTest W v c env tr t u → ¬ u.IsErr t →
      (∀ b, ¬ u.HasObj t (.bool b)) → Vm.Quiet W nobody u w → w.IsErr r → IfRun W v xs env r w tr

theorem c29_test_aux {n : Nat} {h : Handler} (F : Fine W h) {args env c : Ref} {rest : List Ref} {v0 v : Vm}
    (k : Held W args (c :: rest) env v) (g : Vm.Step W (fun x => x = args) nobody v0 v) {Q : Ref → Vm → List Event → Prop}
    (hq : ∀ t u tr, Held W args (c :: rest) env u → IfTest W v0 c env tr t u →
      ∀ w, Held W args (c :: rest) env w → Vm.Step W (fun x => x = args) nobody u w → w.mem = u.mem → Ends u w → Q t w tr) :
    Wp W n h (Prog.ifTest args env) v Q := by
  unfold Prog.ifTest
  refine wp_bind (wp_evalReq F k (by simp) fun x t w hx kw gw hs hp => ?_)
  simp only [List.getElem?_cons_zero, Option.some.injEq] at hx
  subst hx
  refine wp_bind (wp_push ?_)
  refine wp_bind (wp_read fun d hd => ?_)
  have hd : w.mem t = some d := hd
  have k1 := kw.push hp.1
  have g1 : Vm.Step W (fun x => x = args) nobody w { w with stack := t :: w.stack } := kw.here.push hp.1
  split
  · rename_i f ho
    refine wp_bind (wp_alloc k1.sane fun y w2 a => ?_)
    have g2 := g1.alloc a (by intro x hx; cases hx)
    have fresh : ¬ w.Old W y := fun hh => a.fresh hh
    refine wp_bind (wp_push ?_)
    have g3 := g2.push a.old
    refine wp_bind (wp_append fun c' es hc' ho' => ?_)
    obtain rfl := same_cell (m := w2.mem) a.cell hc'
    simp only [Obj.vec.injEq] at ho'
    subst ho'
    have ny : y ≠ args := by rintro rfl; exact fresh kw.old
    have g4 := g3.modify (d := { obj := .vec [t], uid := w.nextUid }) (.inr fresh) a.cell rfl rfl
      ⟨by
        intro z hz
        simp only [List.mem_singleton] at hz
        subst hz
        exact hp.mono (show w.births ≤ w2.births by have := a.births; simp only at this; omega), Prog.pubOpt_none, Prog.pubOpt_none⟩
    have k4 := kw.step g4
    refine wp_bind (wps_eval (E := nobody) F k4.here ⟨a.old, ny⟩ k4.env fun t' w5 gd hs5 hp5 => ?_)
    refine wp_bind (wp_pop fun s hs => wp_bind (wp_pop fun s' hs' => wp_require fun r hr => ?_))
    subst hr
    have k5 := k4.good gd
    simp only [List.nil_append, List.append_nil, List.cons_append]
    refine hq r w5 _ k5 (.call (e := ⟨c, env, v, some t, w⟩) (e' := ⟨y, env, _, some r, w5⟩) (f := f) ⟨rfl, rfl, rfl, g.quiet⟩ ⟨d, hd, ho⟩ ⟨rfl, rfl, rfl, g4.quiet⟩
      ⟨_, Mem.set_self .., rfl⟩ fresh) _ ((k5.pop hs).pop hs') ?_ rfl (Ends.pop.trans .pop)
    exact (k5.here.pop hs).pop hs'
  · rename_i ho
    refine wp_bind (wp_pop fun s hs => wp_pure ?_)
    simp only [List.nil_append, List.append_nil]
    refine hq t w _ kw (.value (e := ⟨c, env, v, some t, w⟩) ⟨rfl, rfl, rfl, g.quiet⟩ ?_) _ (k1.pop hs) (g1.pop hs) rfl .pop
    rintro f ⟨d', hd', ho'⟩
    obtain rfl := same_cell hd hd'
    exact ho f ho'

theorem c29_if_aux {n : Nat} {h : Handler} (F : Fine W h) (C : Copies W h) {args env : Ref} {xs : List Ref} {v0 v : Vm}
    (k : Held W args xs env v) (g : Vm.Step W (fun x => x = args) nobody v0 v) :
    Wp W n h (Prog.spIf args env) v fun a u t => ∀ r w, a = some r → Ends u w → IfRun W v0 xs env r w t := by
  unfold Prog.spIf
  refine wp_bind (wp_verifyVec_vec k.vec fun _ => wp_bind (wp_verifyEnv fun _ => ?_))
  simp only [List.nil_append]
  split
  · rename_i hl
    refine wps_error g fun r w t gw hp hm _ => ?_
    rintro r' w' e he
    cases e
    exact .count hl.1 hl.2 (gw.quiet.trans g.sane0 he.quiet) (he.isErr ⟨_, _, _, hm, rfl⟩)
  · rename_i hl
    have hl : xs.length = 2 ∨ xs.length = 3 := by omega
    match xs, hl, k with
    | c :: rest, hl, k =>
      have hl : rest.length = 1 ∨ rest.length = 2 := by simp at hl; omega
      refine wp_bind (wp_push ?_)
      refine wp_bind (c29_test_aux F (k.push k.old) (g.push k.old) fun t u tr ku ht u' ku' gu' hm hends => ?_)
      refine wp_bind (wp_read fun d hd => ?_)
      have hd : u.mem t = some d := by rw [← hm]; exact hd
      simp only [List.nil_append, List.append_nil]
      split
      · rename_i b ho
        refine wp_bind (wp_verifyVec_vec ku'.vec fun _ => ?_)
        simp only [List.nil_append]
        split
        · rename_i hb
          obtain ⟨hb1, rfl⟩ := hb
          refine wp_bind (wp_rootCopy F C ku' fun r w gw fresh hs hcopy => wp_bind (wp_pop fun s hs => wp_pure ?_))
          rintro r' w' e he
          cases e
          obtain ⟨a, rfl⟩ : ∃ a, rest = [a] := by
            match rest, hb1 with
            | [a], _ => exact ⟨a, rfl⟩
          simp only [List.nil_append, List.append_nil]
          refine .nothing rfl ht ⟨d, hd, ho⟩ ((gu'.trans gw).quiet.trans ku.sane (Ends.pop.trans he).quiet)
            (fun hh => fresh (hh.mono gu'.quiet.births)) fun hn => ?_
          refine (Ends.pop.trans he).hasObj (hcopy .nil rfl ?_) (by simp)
          obtain ⟨c', hc', ho'⟩ := hn
          exact ⟨c', by rw [gu'.quiet.roots, hm]; exact hc', ho'⟩
        · rename_i hb
          have hi : (if b = true then 1 else 2) < (c :: rest).length := by
            simp only [List.length_cons] at hb ⊢
            split
            · omega
            · rename_i hb'
              have : rest.length + 1 ≠ 2 := fun e => hb ⟨e, by simpa using hb'⟩
              omega
          have := wp_evalArg (n := n) F ku' hi (Q := fun r u2 t2 => Wp W n h (do
              Prog.pop args
              let r ← Prog.require r
              pure (some r)) u2 fun a u t => ∀ r w, a = some r → Ends u w → IfRun W v0 (c :: rest) env r w (tr ++ (t2 ++ t))) (by
            intro x a w hx kw gw hs hp
            refine wp_bind (wp_pop fun s hs => wp_bind (wp_require fun r hr => wp_pure ?_))
            subst hr
            rintro r' w' e he
            cases e
            simp only [List.nil_append, List.append_nil]
            cases b with
            | true =>
              match rest, hl with
              | a :: rest, hl =>
                simp at hx
                subst hx
                exact .yes rfl (by simp only [List.length_cons] at hl; omega) ht ⟨d, hd, ho⟩ ⟨rfl, rfl, rfl, gu'.quiet⟩ (Ends.pop.trans he)
            | false =>
              match rest, hl, hb with
              | [a], _, hb => simp at hb
              | [a, b'], _, _ =>
                simp at hx
                subst hx
                exact .no rfl ht ⟨d, hd, ho⟩ ⟨rfl, rfl, rfl, gu'.quiet⟩ (Ends.pop.trans he))
          have := wp_bind (f := fun r => do
              Prog.pop args
              let r ← Prog.require r
              pure (some r)) (Q := fun a u t => ∀ r w, a = some r → Ends u w → IfRun W v0 (c :: rest) env r w (tr ++ t)) this
          rw [bind_assoc] at this
          exact this
      · rename_i m l ho
        refine wp_bind (wp_pop fun s hs => wp_pure ?_)
        rintro r' w' e he
        cases e
        simp only [List.nil_append, List.append_nil]
        refine .failed rfl hl ht ⟨m, l, d, hd, ho⟩ rfl ((hends.trans .pop).trans he)
      · rename_i nb ne
        refine wp_bind (wp_pop fun s hs => wps_error (E := nobody) ((ku'.pop hs).here) fun r w t gw hp hm' _ => ?_)
        rintro r' w' e he
        cases e
        simp only [List.nil_append, List.append_nil]
        refine .kind rfl hl ht ?_ ?_ ((gu'.quiet.trans ku.sane ((Ends.pop (s := s)).quiet.trans ku'.sane gw.quiet)).trans ku.sane he.quiet)
          (he.isErr ⟨_, _, _, hm', rfl⟩)
        · rintro ⟨m, l, d', hd', ho'⟩
          obtain rfl := same_cell hd hd'
          exact ne m l ho'
        · rintro b ⟨d', hd', ho'⟩
          obtain rfl := same_cell hd hd'
          exact nb b ho'

/-- `if`, called by name -/
theorem c29_if (hL : L.Safe) {v w : Vm} (rv : v.Reached W L) {form env op : Ref} {name : Text} {xs : List Ref}
    (nc : NamedCall W v form env name op xs) (hop : v.HasObj op (.special .if)) (hargs : ∀ x ∈ xs, ¬ v.IsErr x)
    {r : Option Ref} {tr : List Event} (ev : Evaluates W L v form env r w tr) : NamedFormCall W (IfRun W) v xs env op r w tr :=
  namedFormCall_aux hL (fun _ _ _ _ _ _ F C k g _ _ _ => c29_if_aux F C k g) rv nc hop hargs ev

/-- `if`, the operator being given by any form -/
theorem c29_if_operator (hL : L.Safe) {v w : Vm} (rv : v.Reached W L) {form env first : Ref} {rest : List Ref}
    (hq : v.quit = false) (hf : v.HasVec form (first :: rest)) (of : v.Old W form) (oe : v.Old W env)
    {r : Option Ref} {tr : List Event} (ev : Evaluates W L v form env r w tr) :
    FormCall W .if (IfRun W) v form first env r w tr :=
  formCall_aux hL (fun _ _ _ _ _ _ F C k g _ _ _ => c29_if_aux F C k g) rv hq hf of oe ev

/-- The selection from the clauses `c a …` in the state `v`: result `r`, state `w` afterwards. -/
inductive SelectFrom (W : World) (env r : Ref) (w : Vm) : Vm → List Ref → List Event → Prop
  | nothing {v} : Vm.Quiet W nobody v w → ¬ v.Old W r → w.HasObj r .nil → SelectFrom W env r w v [] []
  | default {v c a e} : v.HasObj c (.sym (txt "default")) → Evals W v a env e r → Ends e.post w →
      SelectFrom W env r w v [c, a] [e]
  | misplaced {v c a rest} : v.HasObj c (.sym (txt "default")) → rest ≠ [] → Vm.Quiet W nobody v w → w.IsErr r →
      SelectFrom W env r w v (c :: a :: rest) []
  | yes {v c a rest e t e'} : ¬ v.HasObj c (.sym (txt "default")) → Evals W v c env e t → e.post.HasObj t (.bool true) →
      Evals W e.post a env e' r → Ends e'.post w → SelectFrom W env r w v (c :: a :: rest) [e, e']
  | no {v c a rest e t tr} : ¬ v.HasObj c (.sym (txt "default")) → Evals W v c env e t → e.post.HasObj t (.bool false) →
      SelectFrom W env r w e.post rest tr → SelectFrom W env r w v (c :: a :: rest) (e :: tr)
  | failed {v c a rest e} : ¬ v.HasObj c (.sym (txt "default")) → Evals W v c env e r → e.post.IsErr r → Ends e.post w →
      SelectFrom W env r w v (c :: a :: rest) [e]
  | kind {v c a rest e t} : ¬ v.HasObj c (.sym (txt "default")) → Evals W v c env e t → ¬ e.post.IsErr t →
      (∀ b, ¬ e.post.HasObj t (.bool b)) → Vm.Quiet W nobody e.post w → w.IsErr r →
      SelectFrom W env r w v (c :: a :: rest) [e]

/-- What `select` does with the arguments `xs` in the state `v`: the result is `r`, the state afterwards is
`w`, the evaluations are `tr`. -/
def SelectRun (W : World) (v : Vm) (xs : List Ref) (env r : Ref) (w : Vm) (tr : List Event) : Prop :=
  (xs.length < 2 ∨ xs.length % 2 ≠ 0) ∧ tr = [] ∧ Vm.Quiet W nobody v w ∧ w.IsErr r ∨
    2 ≤ xs.length ∧ xs.length % 2 = 0 ∧ SelectFrom W env r w v xs tr

theorem c29_select_loop_aux {n : Nat} {h : Handler} (F : Fine W h) {args env : Ref} {xs : List Ref} :
    ∀ k i v0 v, i + 2 * k = xs.length → Held W args xs env v → Vm.Step W (fun x => x = args) nobody v0 v →
    (∀ x ∈ xs, v0.Old W x) →
    Wp W n h (Prog.selectLoop args env k i) v fun a u t => ∀ r w, a = some r → Ends u w → SelectFrom W env r w v0 (xs.drop i) t := by
  intro k
  induction k with
  | zero =>
    intro i v0 v hi k g hold
    unfold Prog.selectLoop
    refine wp_bind (wp_pop fun s hs => wp_bind (wp_alloc (k.pop hs).sane fun r w a => wp_pure ?_))
    rintro r' w' e he
    cases e
    rw [List.drop_eq_nil_of_le (by omega)]
    exact .nothing ((g.quiet.trans g.sane0 ((Ends.pop (s := s)).quiet.trans g.sane (a.quiet (k.pop hs).sane))).trans g.sane0 he.quiet)
      (fun hh => a.fresh (hh.mono g.quiet.births)) (he.hasObj ⟨_, a.cell, rfl⟩ (by simp))
  | succ m ih =>
    intro i v0 v hi k g hold
    unfold Prog.selectLoop
    have hi1 : i < xs.length := by omega
    have hi2 : i + 1 < xs.length := by omega
    have hd : xs.drop i = xs[i] :: xs[i + 1] :: xs.drop (i + 2) := by
      rw [List.drop_eq_getElem_cons hi1, List.drop_eq_getElem_cons hi2]
    rw [hd]
    have oc : v0.Old W xs[i] := hold _ (List.getElem_mem hi1)
    refine wp_bind (wp_elemAt_vec k.vec fun _ => ?_)
    rw [List.getElem?_eq_getElem hi1]
    refine wp_bind (wp_require fun c e => ?_)
    cases e
    have sym : ∀ Q : Bool → Prop, ((v0.HasObj xs[i] (.sym (txt "default")) → Q true)) →
        (¬ v0.HasObj xs[i] (.sym (txt "default")) → Q false) →
        Wp W n h (Prog.isSymbol xs[i] (txt "default")) v fun b w t => w = v ∧ t = [] ∧ Q b := by
      intro Q h1 h2
      unfold Prog.isSymbol
      refine wp_bind (wp_read fun c hc => ?_)
      have back : ∀ d, v0.HasObj xs[i] (.sym d) ↔ c.obj = .sym d := by
        intro d
        constructor
        · rintro ⟨c', hc', ho'⟩
          rcases g.quiet.cells _ c' id hc' with e | e | ⟨m', t, l, ho, e⟩
          · rw [hc] at e; cases e; exact ho'
          · rw [hc] at e; cases e
          · rw [ho'] at ho; cases ho
        · intro ho
          cases hc' : v0.mem xs[i] with
          | none => rw [g.quiet.gone _ oc hc'] at hc; cases hc
          | some c' =>
            refine ⟨c', hc', ?_⟩
            rcases g.quiet.cells _ c' id hc' with e | e | ⟨m', t, l, ho', e⟩
            · rw [hc] at e; cases e; exact ho
            · rw [hc] at e; cases e
            · rw [hc] at e; cases e; cases ho
      split
      · rename_i d ho
        refine wp_pure ⟨rfl, rfl, ?_⟩
        by_cases hd : d = txt "default"
        · rw [decide_eq_true hd]; exact h1 ((back _).mpr (hd ▸ ho))
        · rw [decide_eq_false hd]
          refine h2 fun hh => hd ?_
          have := (back _).mp hh
          rw [ho] at this; cases this; rfl
      · rename_i hno
        exact wp_pure ⟨rfl, rfl, h2 fun hh => hno _ ((back _).mp hh)⟩
    have branch : ∀ (v0' v' : Vm) (T : List Event), Held W args xs env v' → Vm.Quiet W nobody v0' v' →
        (∀ r w e, Evals W v0' xs[i + 1] env e r → Ends e.post w →
          SelectFrom W env r w v0 (xs[i] :: xs[i + 1] :: xs.drop (i + 2)) (T ++ [e])) →
        Wp W n h (do
          let r ← Prog.evalOpt (← Prog.elemAt args (i + 1)) env
          Prog.pop args
          pure r) v' fun a u t => ∀ r w, a = some r → Ends u w →
            SelectFrom W env r w v0 (xs[i] :: xs[i + 1] :: xs.drop (i + 2)) (T ++ t) := by
      intro v0' v' T k' q hT
      have := wp_evalArg (n := n) F k' hi2 (Q := fun r u2 t2 => Wp W n h (do
          Prog.pop args
          pure r) u2 fun a u t => ∀ r w, a = some r → Ends u w →
            SelectFrom W env r w v0 (xs[i] :: xs[i + 1] :: xs.drop (i + 2)) (T ++ (t2 ++ t))) (by
        intro x a w hx kw gw hs hp
        rw [List.getElem?_eq_getElem hi2] at hx
        cases hx
        refine wp_bind (wp_pop fun s hs => wp_pure ?_)
        rintro r w' rfl he
        simp only [List.nil_append, List.append_nil]
        exact hT r w' ⟨xs[i + 1], env, v', some r, w⟩ ⟨rfl, rfl, rfl, q⟩ (Ends.pop.trans he))
      have := wp_bind (f := fun r => do
          Prog.pop args
          pure r) (Q := fun a u t => ∀ r w, a = some r → Ends u w →
            SelectFrom W env r w v0 (xs[i] :: xs[i + 1] :: xs.drop (i + 2)) (T ++ t)) this
      rw [bind_assoc] at this
      exact this
    refine wp_bind (Wp.mono (sym (fun b => (b = true ↔ v0.HasObj xs[i] (.sym (txt "default")))) (fun h => by simp [h])
      (fun h => by simp [h])) ?_)
    rintro b w t ⟨rfl, rfl, hb⟩
    simp only [List.nil_append]
    split
    · rename_i hbt
      have hdef := hb.mp hbt
      split
      · rename_i hm
        refine wp_bind (wp_pop fun s hs => wps_error (g.pop hs) fun r w t gw hp hm' _ => ?_)
        rintro r' w' e he
        cases e
        refine .misplaced hdef ?_ (gw.quiet.trans g.sane0 he.quiet) (he.isErr ⟨_, _, _, hm', rfl⟩)
        intro e
        have := congrArg List.length e
        simp only [List.length_drop, List.length_nil] at this
        omega
      · rename_i hm
        have hm : m = 0 := by omega
        subst hm
        refine branch v0 _ [] k g.quiet fun r w e he hw => ?_
        have : xs.drop (i + 2) = [] := List.drop_eq_nil_of_le (by omega)
        rw [this]
        exact .default hdef he hw
    · rename_i hbt
      have hdef : ¬ v0.HasObj xs[i] (.sym (txt "default")) := fun h => hbt (hb.mpr h)
      refine wp_bind (wp_evalReq F k hi1 fun x t u hx ku gu hs hp => ?_)
      rw [List.getElem?_eq_getElem hi1] at hx
      cases hx
      refine wp_bind (wp_read fun d hd => ?_)
      simp only [List.nil_append]
      have ev : Evals W v0 xs[i] env ⟨xs[i], env, _, some t, u⟩ t := ⟨rfl, rfl, rfl, g.quiet⟩
      split
      · rename_i ho
        exact branch u u [⟨xs[i], env, _, some t, u⟩] ku (.refl u) fun r w e he hw => .yes hdef ev ⟨d, hd, ho⟩ he hw
      · rename_i ho
        refine Wp.mono (ih (i + 2) u u (by omega) ku ku.here fun x hx => (ku.pub x hx).1) ?_
        intro a u2 t2 h2 r w ha hw
        exact .no hdef ev ⟨d, hd, ho⟩ (h2 r w ha hw)
      · rename_i msg l ho
        refine wp_bind (wp_pop fun s hs => wp_pure ?_)
        rintro r' w' e he
        cases e
        exact .failed hdef ev ⟨msg, l, d, hd, ho⟩ (Ends.pop.trans he)
      · rename_i n1 n2 n3
        refine wp_bind (wp_pop fun s hs => wps_error (E := nobody) ((ku.here).pop hs) fun r w t gw hp hm' _ => ?_)
        rintro r' w' e he
        cases e
        refine .kind hdef ev ?_ ?_ (gw.quiet.trans ku.sane he.quiet) (he.isErr ⟨_, _, _, hm', rfl⟩)
        · rintro ⟨m, l, d', hd', ho'⟩
          obtain rfl := same_cell hd hd'
          exact n3 m l ho'
        · rintro b ⟨d', hd', ho'⟩
          obtain rfl := same_cell hd hd'
          cases b with
          | true => exact n1 ho'
          | false => exact n2 ho'

theorem c29_select_aux {n : Nat} {h : Handler} (F : Fine W h) {args env : Ref} {xs : List Ref} {v0 v : Vm}
    (k : Held W args xs env v) (g : Vm.Step W (fun x => x = args) nobody v0 v) (hold : ∀ x ∈ xs, v0.Old W x) :
    Wp W n h (Prog.spSelect args env) v fun a u t => ∀ r w, a = some r → Ends u w → SelectRun W v0 xs env r w t := by
  unfold Prog.spSelect
  refine wp_bind (wp_verifyVec_vec k.vec fun _ => wp_bind (wp_verifyEnv fun _ => ?_))
  simp only [List.nil_append]
  split
  · rename_i hl
    refine wps_error g fun r w t gw hp hm _ => ?_
    rintro r' w' e he
    cases e
    exact .inl ⟨hl, rfl, gw.quiet.trans g.sane0 he.quiet, he.isErr ⟨_, _, _, hm, rfl⟩⟩
  · rename_i hl
    refine wp_bind (wp_push ?_)
    refine Wp.mono (c29_select_loop_aux F _ 0 v0 _ (by omega) (k.push k.old) (g.push k.old) hold) ?_
    intro a u t h r w ha hw
    exact .inr ⟨by omega, by omega, h r w ha hw⟩

/-- `select`, called by name -/
theorem c29_select (hL : L.Safe) {v w : Vm} (rv : v.Reached W L) {form env op : Ref} {name : Text} {xs : List Ref}
    (nc : NamedCall W v form env name op xs) (hop : v.HasObj op (.special .select)) (hargs : ∀ x ∈ xs, ¬ v.IsErr x)
    {r : Option Ref} {tr : List Event} (ev : Evaluates W L v form env r w tr) : NamedFormCall W (SelectRun W) v xs env op r w tr :=
  namedFormCall_aux hL (fun _ _ _ _ _ _ F _ k g hold _ _ => c29_select_aux F k g hold) rv nc hop hargs ev

/-- `select`, the operator being given by any form -/
theorem c29_select_operator (hL : L.Safe) {v w : Vm} (rv : v.Reached W L) {form env first : Ref} {rest : List Ref}
    (hq : v.quit = false) (hf : v.HasVec form (first :: rest)) (of : v.Old W form) (oe : v.Old W env)
    {r : Option Ref} {tr : List Event} (ev : Evaluates W L v form env r w tr) :
    FormCall W .select (SelectRun W) v form first env r w tr :=
  formCall_aux hL (fun _ _ _ _ _ _ F _ k g hold _ _ => c29_select_aux F k g hold) rv hq hf of oe ev

/-- the hypotheses hold for the call `(if false 1 2)`, whose value is 2 -/
example : ∃ (v w : Vm) (form op : Ref) (xs : List Ref) (r : Option Ref) (tr : List Event), v.Reached world library ∧
    NamedCall world v form v.globalEnv (txt "if") op xs ∧ v.HasObj op (.special .if) ∧ (∀ x ∈ xs, ¬ v.IsErr x) ∧
    Evaluates world library v form v.globalEnv r w tr ∧ objAt w r = some (.int 2) := by
  obtain ⟨v, form, r, w, tr, hr, of, oe, ev, h⟩ := stage_exists (table := kit) (forms := []) (fuel := 40)
    (last := .vec [.sym "if", .sym "false", .int 1, .int 2])
    (P := fun v f r w _ => namedCheck v f "if" (.special .if) && decide (objAt w r = some (.int 2))) kit_plain (by decide +kernel)
  simp only [Bool.and_eq_true, decide_eq_true_eq] at h
  obtain ⟨op, xs, h1, h2, h3⟩ := named_of_check h.1 of oe
  exact ⟨v, w, form, op, xs, r, tr, hr, h1, h2, h3, ev, h.2⟩

/-- the hypotheses hold for the call `(select false 1 true 2 default 3)`, whose value is 2 -/
example : ∃ (v w : Vm) (form op : Ref) (xs : List Ref) (r : Option Ref) (tr : List Event), v.Reached world library ∧
    NamedCall world v form v.globalEnv (txt "select") op xs ∧ v.HasObj op (.special .select) ∧ (∀ x ∈ xs, ¬ v.IsErr x) ∧
    Evaluates world library v form v.globalEnv r w tr ∧ objAt w r = some (.int 2) := by
  obtain ⟨v, form, r, w, tr, hr, of, oe, ev, h⟩ := stage_exists (table := kit) (forms := []) (fuel := 40)
    (last := .vec [.sym "select", .sym "false", .int 1, .sym "true", .int 2, .sym "default", .int 3])
    (P := fun v f r w _ => namedCheck v f "select" (.special .select) && decide (objAt w r = some (.int 2))) kit_plain
    (by decide +kernel)
  simp only [Bool.and_eq_true, decide_eq_true_eq] at h
  obtain ⟨op, xs, h1, h2, h3⟩ := named_of_check h.1 of oe
  exact ⟨v, w, form, op, xs, r, tr, hr, h1, h2, h3, ev, h.2⟩

end Dern.Props
