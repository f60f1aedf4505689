import Verif.Props.C56
/-
C58: `quote` and `eval`.

For every reachable state and every call of `quote` or `eval` (see `Calling.lean` for the vocabulary): `(quote x)` is `x` itself, nothing is
evaluated; `(eval x)` and `(eval x environment)` evaluate `x`, and then its value, in the same environment;
`(eval f environment x y …)` calls the value of `f` in the given environment with the values of `x`, `y`, …, which are evaluated in the current
environment from left to right; the elements of those that are vectors are given as separate arguments.
-/
namespace Dern.Props
open Dern
open Dern.Prog (Library)
variable {W : World} {L : Library}

/-- What `quote` does with the arguments `xs`. -/
inductive QuoteRun (W : World) (v : Vm) : (xs : List Ref) → (env r : Ref) → (w : Vm) → List Event → Prop
  | quoted {x env w} : Vm.Quiet W nobody v w → QuoteRun W v [x] env x w []
  | bad {xs env r w} : xs.length ≠ 1 → ErrorAfter W nobody v r w → QuoteRun W v xs env r w []

/-- the value is an environment -/
def IsEnv (v : Vm) (x : Ref) : Prop := ∃ bs enc, v.HasObj x (.env bs enc)

/-- `x` is evaluated in the environment `env`, and then its value, too -/
inductive Twice (W : World) (v : Vm) (x env : Ref) (r : Ref) (w : Vm) : List Event → Prop
  | twice {e1 t e2} : Evals W v x env e1 t → Evals W e1.post t env e2 r → Vm.Quiet W nobody e2.post w → Twice W v x env r w [e1, e2]

/-- evaluating the arguments `xs` in the environment `env`; `as` are their values: the elements of vectors, and the other values.  (Evaluating a form has
no value after `exit`.)  Meanwhile the value `form` may be changed. -/
inductive Arguments (W : World) (form env : Ref) : (xs : List Ref) → (v : Vm) → (as : List Ref) → (w : Vm) → List Event → Prop
  | nil {v} : Arguments W form env [] v [] v []
  | absent {x xs v e as w tr} : e.form = x → e.env = env → e.result = none → Vm.Quiet W (fun y => y = form) v e.pre →
      Arguments W form env xs e.post as w tr → Arguments W form env (x :: xs) v as w (e :: tr)
  | one {x xs v e t as w tr} : e.form = x → e.env = env → e.result = some t → Vm.Quiet W (fun y => y = form) v e.pre → (∀ ts, ¬ e.post.HasVec t ts) →
      Arguments W form env xs e.post as w tr → Arguments W form env (x :: xs) v (t :: as) w (e :: tr)
  | many {x xs v e t ts as w tr} : e.form = x → e.env = env → e.result = some t → Vm.Quiet W (fun y => y = form) v e.pre → e.post.HasVec t ts →
      Arguments W form env xs e.post as w tr → Arguments W form env (x :: xs) v (ts ++ as) w (e :: tr)

/-- What `(eval f y x…)` with at least one `x` does. -/
inductive ApplyRun (W : World) (v : Vm) (env f y : Ref) (xs : List Ref) (r : Ref) (w : Vm) : List Event → Prop
  | noCallable {e1 g} : Evals W v f env e1 g → ¬ CanCall e1.post g → ErrorAfter W nobody e1.post r w → ApplyRun W v env f y xs r w [e1]
  | noEnv {e1 g e2 E} : Evals W v f env e1 g → CanCall e1.post g → Evals W e1.post y env e2 E → ¬ IsEnv e2.post E → ErrorAfter W nobody e2.post r w →
      ApplyRun W v env f y xs r w [e1, e2]
  | applied {e1 g e2 E form as u tr e3} : Evals W v f env e1 g → CanCall e1.post g → Evals W e1.post y env e2 E → IsEnv e2.post E →
      ¬ e2.post.Old W form → Arguments W form env xs e2.post as u tr → e3.form = form → e3.env = E → e3.result = some r →
      Vm.Quiet W (fun y => y = form) u e3.pre → e3.pre.HasVec form (g :: as) → Vm.Quiet W nobody e3.post w →
      ApplyRun W v env f y xs r w (e1 :: e2 :: tr ++ [e3])

/-- What `eval` does with the arguments `xs`. -/
inductive EvalRun (W : World) (v : Vm) : (xs : List Ref) → (env r : Ref) → (w : Vm) → List Event → Prop
  | few {env r w} : ErrorAfter W nobody v r w → EvalRun W v [] env r w []
  | here {x env r w tr} : Twice W v x env r w tr → EvalRun W v [x] env r w tr
  | inside {x y env r w tr} : IsEnv v y → Twice W v x y r w tr → EvalRun W v [x, y] env r w tr
  | error {x y env r w e} : ¬ IsEnv v y → Evals W v y env e r → e.post.IsErr r → Vm.Quiet W nobody e.post w → EvalRun W v [x, y] env r w [e]
  | noEnv {x y env r w e t} : ¬ IsEnv v y → Evals W v y env e t → ¬ e.post.IsErr t → ¬ IsEnv e.post t → ErrorAfter W nobody e.post r w →
      EvalRun W v [x, y] env r w [e]
  | there {x y env r w e t tr} : ¬ IsEnv v y → Evals W v y env e t → IsEnv e.post t → Twice W e.post x t r w tr → EvalRun W v [x, y] env r w (e :: tr)
  | apply {f y x xs env r w tr} : ApplyRun W v env f y (x :: xs) r w tr → EvalRun W v (f :: y :: x :: xs) env r w tr

/-! ### proofs -/

variable {n : Nat} {h : Handler} {env : Ref} {os : List (Ref × Cell)} {v w u : Vm}

theorem c58_quote_aux {args : Ref} {xs : List Ref} {v0 : Vm} (k : Held W args xs env v) (g : Vm.Step W (fun x => x = args) nobody v0 v) (top : args ∈ v.stack) :
    Wp W n h (Prog.spQuote args env) v fun a u t => ∀ r w, a = some r → Ends u w → QuoteRun W v0 xs env r w t := by
  unfold Prog.spQuote
  refine wp_bind (wp_verifyVec fun c es hc ho => wp_bind (wp_verifyEnv fun _ => ?_))
  obtain rfl : es = xs := by
    rcases k.vec with h | h
    · exact hasVec_one h ⟨c, hc, ho⟩
    · rw [hc] at h; cases h
  split
  · refine wp_pure ?_
    rintro _ w' ⟨⟩ e'
    exact .quoted (g.quiet.trans g.sane0 e'.quiet)
  · rename_i hno
    refine wp_errorStashed (Stashed.start k top hc) fun r w kw g' hst hp fr he => ?_
    rintro _ w' ⟨⟩ e'
    refine .bad (fun hl => ?_) ⟨(g.quiet.trans g.sane0 g'.quiet).trans g.sane0 e'.quiet, fun h => fr (h.mono g.quiet.births), e'.isErr he⟩
    obtain ⟨x, rfl⟩ := List.length_eq_one_iff.mp hl
    exact hno x rfl

theorem c58_twice_aux (F : Fine W h) {x E : Ref} {p : Vm} (k : Stashed W env os v) (q : Vm.Quiet W nobody p v) (hx : v.Pub W (stash os) x)
    (hE : v.Pub W (stash os) E) : Wp W n h (Prog.evalTwice x E) v fun a u tr => ∀ r w, a = some r → Ends u w → Twice W p x E r w tr := by
  unfold Prog.evalTwice
  refine wp_bind (wp_evalStashed F k hx hE fun a v1 k1 g1 kp1 st1 ha1 => wp_bind (wp_deref fun t e => ?_))
  subst e
  have ht := ha1 t rfl
  have k2 := k1.push ht.1
  refine wp_bind (wp_push (wp_bind (wp_evalStashed (v := { v1 with stack := t :: v1.stack }) F k2 ht (hE.mono g1.later.births) fun b v2 k3 g3 kp3 st3 hb => ?_)))
  refine wp_bind (wp_pop fun s e => wp_pure ?_)
  rintro r w rfl e'
  have e2 : Ends v2 w := (Ends.pop (s := s)).trans e'
  exact .twice (e1 := ⟨x, E, v, some t, v1⟩) ⟨rfl, rfl, rfl, q⟩ ⟨rfl, rfl, rfl, Ends.pop.quiet⟩ e2.quiet

theorem wp_appendAllExact {r : Ref} : ∀ (l : List Ref) {v : Vm} {c : Cell} {pre : List Ref} {Q : Unit → Vm → List Event → Prop}, v.mem r = some c → c.obj = .vec pre →
    Q () { v with mem := v.mem.set r { c with obj := .vec (pre ++ l) } } [] → Wp W n h (Prog.appendAll r l) v Q
  | [], v, c, pre, Q, hc, ho, hq => by
    have : v.mem.set r { c with obj := .vec (pre ++ []) } = v.mem := by
      funext x
      unfold Mem.set
      split
      · rename_i e; subst e; rw [hc, List.append_nil, ← ho]
      · rfl
    rw [this] at hq
    exact wp_pure hq
  | x :: l, v, c, pre, Q, hc, ho, hq => by
    show Wp W n h (Prog.append r x >>= fun _ => Prog.appendAll r l) v Q
    refine wp_bind (wp_append fun c' es hc' ho' => ?_)
    obtain rfl := same_cell hc hc'
    rw [ho] at ho'; cases ho'
    refine wp_appendAllExact l (v := { v with mem := v.mem.set r { c with obj := .vec (pre ++ [x]) } }) (Mem.set_self _ _ _) rfl ?_
    have : (v.mem.set r { c with obj := .vec (pre ++ [x]) }).set r { c with obj := .vec (pre ++ [x] ++ l) } = v.mem.set r { c with obj := .vec (pre ++ x :: l) } := by
      funext y
      unfold Mem.set
      split
      · simp
      · rfl
    show Q () { v with mem := (v.mem.set r { c with obj := .vec (pre ++ [x]) }).set r { c with obj := .vec (pre ++ [x] ++ l) } } []
    rw [this]
    exact hq

theorem c58_arguments_aux (F : Fine W h) {args form : Ref} {ca : Cell} {xs : List Ref} (hm : (args, ca) ∈ os) (hca : ca.obj = .vec xs) (ha : ∀ o ∈ os, o.1 ≠ form) :
    ∀ (m i : Nat) {p v : Vm} {c : Cell} {as0 : List Ref}, Stashed W env ((form, c) :: os) v → c.obj = .vec as0 → i + m = xs.length → p.Sane W →
    Vm.Quiet W (fun y => y = form) p v → (∀ x ∈ xs, v.Pub W (stash ((form, c) :: os)) x) → (∀ a ∈ as0, v.Pub W (stash ((form, c) :: os)) a) →
    Wp W n h (Prog.applyArgs args env form m i) v fun _ u tr => ∃ as z c', Arguments W form env (xs.drop i) p as z tr ∧ Vm.Quiet W (fun y => y = form) z u ∧
      Stashed W env ((form, c') :: os) u ∧ c'.obj = .vec (as0 ++ as) ∧ u.stack = v.stack ∧ v.births ≤ u.births ∧ c'.docstr = c.docstr ∧ c'.docvec = c.docvec ∧
      ∀ a ∈ as0 ++ as, u.Pub W (stash ((form, c') :: os)) a
  | 0, i, p, v, c, as0, k, hc, hi, sp, q, hx, h0 => by
    have : xs.drop i = [] := List.drop_eq_nil_of_le (by omega)
    rw [this]
    exact wp_pure ⟨[], p, c, .nil, q, k, by simpa using hc, rfl, Nat.le_refl _, rfl, rfl, by simpa using h0⟩
  | m + 1, i, p, v, c, as0, k, hc, hi, sp, q, hx, h0 => by
    show Wp W n h (Prog.elemAt args i >>= _) v _
    obtain ⟨x, hxi⟩ : ∃ x, xs[i]? = some x := ⟨_, List.getElem?_eq_getElem (by omega)⟩
    refine wp_bind (wp_argStashed k (.tail _ hm) hca ?_)
    rw [hxi]
    have hd : xs.drop i = x :: xs.drop (i + 1) := by
      obtain ⟨hlt, e⟩ := List.getElem?_eq_some_iff.mp hxi
      rw [← e]; exact List.drop_eq_getElem_cons hlt
    rw [hd]
    have hpx := hx x (List.mem_of_getElem? hxi)
    unfold Prog.evalOpt
    refine wp_bind (wp_evalStashed F k hpx k.env fun b v1 k1 g1 kp1 st1 hb1 => ?_)
    have up : ∀ y, v.Pub W (stash ((form, c) :: os)) y → v1.Pub W (stash ((form, c) :: os)) y := fun y hy => hy.mono g1.later.births
    cases b with
    | none =>
      refine Wp.mono (c58_arguments_aux F hm hca ha m (i + 1) (p := v1) k1 hc (by omega) k1.sane (.refl v1) (fun x hx' => up x (hx x hx')) fun a ha' => up a (h0 a ha')) ?_
      rintro _ u tr ⟨as, z, c', har, qz, ku, hc', hst, hb, hd1, hd2, hall⟩
      exact ⟨as, z, c', .absent (e := ⟨x, env, v, none, v1⟩) rfl rfl rfl q har, qz, ku, hc', hst.trans st1, Nat.le_trans g1.later.births hb, hd1, hd2, hall⟩
    | some t =>
      have ht := hb1 t rfl
      have tf : t ≠ form := fun e => ht.2 ((stash_cons _ _ _).mpr (.inl e))
      refine wp_bind (wp_read fun ct hct => ?_)
      have hcf : v1.mem form = some c := k1.made (form, c) (.head _)
      have hp := k1.closed.cells form c hcf
      -- the loop after the values `ts` have been appended
      have rest : ∀ ts, (∀ y ∈ ts, v1.Pub W (stash ((form, c) :: os)) y) →
          (∀ as z tr, Arguments W form env (xs.drop (i + 1)) v1 as z tr → Arguments W form env (x :: xs.drop (i + 1)) p (ts ++ as) z (⟨x, env, v, some t, v1⟩ :: tr)) →
          Wp W n h (Prog.applyArgs args env form m (i + 1)) { v1 with mem := v1.mem.set form { c with obj := .vec (as0 ++ ts) } } fun _ u tr =>
            ∃ as z c', Arguments W form env (x :: xs.drop (i + 1)) p as z (⟨x, env, v, some t, v1⟩ :: tr) ∧ Vm.Quiet W (fun y => y = form) z u ∧
              Stashed W env ((form, c') :: os) u ∧ c'.obj = .vec (as0 ++ as) ∧ u.stack = v.stack ∧ v.births ≤ u.births ∧ c'.docstr = c.docstr ∧ c'.docvec = c.docvec ∧
              ∀ a ∈ as0 ++ as, u.Pub W (stash ((form, c') :: os)) a := by
        intro ts hts hcons
        have pubs : ∀ y ∈ as0 ++ ts, v1.Pub W (stash ((form, c) :: os)) y := fun y hy =>
          (List.mem_append.mp hy).elim (fun hy => up y (h0 y hy)) (hts y)
        have k2 := k1.change (d := { c with obj := .vec (as0 ++ ts) }) ha rfl rfl ⟨fun y hy => (pubs y hy).1, hp.docstr, hp.docvec⟩
        have q2 : Vm.Quiet W (fun y => y = form) v1 { v1 with mem := v1.mem.set form { c with obj := .vec (as0 ++ ts) } } :=
          (Vm.Quiet.refl v1).write k1.sane (.inl rfl) hcf
        refine Wp.mono (c58_arguments_aux F hm hca ha m (i + 1) (p := v1) (v := { v1 with mem := v1.mem.set form { c with obj := .vec (as0 ++ ts) } })
          k2 rfl (by omega) k1.sane q2 (fun y hy => c56_pubCell_aux (hx y hy) g1.later.births) fun y hy => c56_pubCell_aux (pubs y hy) (Nat.le_refl _)) ?_
        rintro _ u tr ⟨as, z, c', har, qz, ku, hc', hst, hb, hd1, hd2, hall⟩
        exact ⟨ts ++ as, z, c', hcons _ _ _ har, qz, ku, by simpa using hc', hst.trans st1, Nat.le_trans g1.later.births hb, hd1, hd2, by simpa using hall⟩
      have hpt := (k1.closed.pub t ct hct ht.2).obj
      split
      · rename_i ts hts
        rw [hts] at hpt
        refine wp_bind (wp_appendAllExact ts hcf hc ?_)
        exact rest ts hpt fun as z tr har => .many rfl rfl rfl q ⟨ct, hct, hts⟩ har
      · rename_i hno
        refine wp_bind (wp_append fun c' es' hc' ho' => ?_)
        obtain rfl := same_cell hcf hc'
        rw [hc] at ho'; cases ho'
        refine rest [t] (by simpa using ht) fun as z tr har => .one rfl rfl rfl q ?_ har
        rintro ts ⟨c', hc'', ho'⟩
        obtain rfl := same_cell hct hc''
        exact hno ts ho'

theorem c58_isEnv_aux {x : Ref} {c : Cell} (hc : v.mem x = some c) : IsEnv v x ↔ ∃ bs enc, c.obj = .env bs enc := by
  constructor
  · rintro ⟨bs, enc, c', hc', ho⟩
    obtain rfl := same_cell hc hc'
    exact ⟨bs, enc, ho⟩
  · rintro ⟨bs, enc, ho⟩; exact ⟨bs, enc, c, hc, ho⟩

theorem c58_apply_aux (F : Fine W h) {args f y x : Ref} {xs : List Ref} {c : Cell} {p : Vm} (k : Stashed W env [(args, c)] v) (q : Vm.Quiet W nobody p v)
    (hc : c.obj = .vec (f :: y :: x :: xs)) (pub : ∀ z ∈ f :: y :: x :: xs, v.Pub W (stash [(args, c)]) z) :
    Wp W n h (Prog.evalApply args env) v fun a u tr => ∀ r w, a = some r → Ends u w → ApplyRun W p env f y (x :: xs) r w tr := by
  unfold Prog.evalApply
  refine wp_bind (wp_verifyVec fun c' es hc' ho => wp_bind (wp_verifyEnv fun _ => ?_))
  obtain rfl := same_cell (k.made (args, c) (.head _)) hc'
  rw [hc] at ho; cases ho
  refine wp_bind (wp_evalStashed F k (pub f (by simp)) k.env fun a v1 k1 g1 kp1 st1 ha1 => wp_bind (wp_require fun g e => ?_))
  subst e
  have hg := ha1 g rfl
  have ev1 : Evals W p f env ⟨f, env, v, some g, v1⟩ g := ⟨rfl, rfl, rfl, q⟩
  have k1' := k1.push hg.1
  refine wp_bind (wp_push (wp_bind (wp_read fun d hd => ?_)))
  have hd : v1.mem g = some d := hd
  split
  · rename_i hcall
    have can : CanCall v1 g := (c56_canCall_aux hd).mpr hcall
    refine wp_bind (wp_evalStashed (v := { v1 with stack := g :: v1.stack }) F k1' ((pub y (by simp)).mono g1.later.births) k1'.env
      fun a v2 k2 g2 kp2 st2 ha2 => wp_bind (wp_require fun E e => wp_bind (wp_push (wp_bind (wp_read fun dE hdE => ?_)))))
    subst e
    have hE := ha2 E rfl
    have hdE : v2.mem E = some dE := hdE
    have ev2 : Evals W v1 y env ⟨y, env, { v1 with stack := g :: v1.stack }, some E, v2⟩ E := ⟨rfl, rfl, rfl, Ends.pop.quiet⟩
    have k2' := k2.push hE.1
    have b2 : v1.births ≤ v2.births := g2.later.births
    split
    · rename_i bs enc hbs
      have isE : IsEnv v2 E := (c58_isEnv_aux hdE).mpr ⟨bs, enc, hbs⟩
      refine wp_bind (wp_alloc k2'.sane fun form w3 a3 => wp_bind (wp_push ?_))
      have k3 := k2'.hide a3 (by simp [PubObj])
      have fr : ¬ v2.Old W form := a3.fresh
      have b3 : v2.births ≤ w3.births := (a3.quiet (E := nobody) k2'.sane).births
      have q3 : Vm.Quiet W (fun z => z = form) v2 { w3 with stack := form :: w3.stack } :=
        (Vm.Quiet.trans k2.sane Ends.pop.quiet (a3.quiet k2'.sane)).trans k2.sane Ends.pop.quiet
      have up : ∀ z, v2.Pub W (stash [(args, c)]) z → ∀ c', Vm.Pub W (stash [(form, c'), (args, c)]) { w3 with stack := form :: w3.stack } z :=
        fun z hz c' => ⟨hz.1.mono b3, fun hh => ((stash_cons _ _ _).mp hh).elim (fun e => fr (e ▸ hz.1)) hz.2⟩
      have hcf : w3.mem form = some { obj := .vec [], uid := v2.nextUid } := a3.cell
      have hne : ∀ o ∈ [(args, c)], o.1 ≠ form := fun o ho e => fr (e ▸ k2.old ho)
      refine wp_bind (wp_append fun c' es' hc' ho' => ?_)
      obtain rfl := same_cell hcf hc'
      cases ho'
      have hg3 := up g (hg.mono b2)
      have k4 := k3.change (d := { obj := .vec [g], uid := v2.nextUid }) hne rfl rfl ⟨by simpa [PubObj] using (hg3 { obj := .vec [g], uid := v2.nextUid }).1, by simp [PubOpt], by simp [PubOpt]⟩
      have q4 : Vm.Quiet W (fun z => z = form) { w3 with stack := form :: w3.stack }
          { w3 with stack := form :: w3.stack, mem := w3.mem.set form { obj := .vec [g], uid := v2.nextUid } } :=
        (Vm.Quiet.refl _).write k3.sane (.inl rfl) hcf
      refine wp_bind (Wp.mono (c58_arguments_aux F (p := v2) (.head _) hc hne (xs.length + 1) 2
        (v := { w3 with stack := form :: w3.stack, mem := w3.mem.set form { obj := .vec [g], uid := v2.nextUid } }) k4 rfl (by simp; omega) k2.sane (q3.trans k2.sane q4)
        (fun z hz => up z (((pub z hz).mono g1.later.births).mono b2) _) (fun a ha => by rw [List.mem_singleton.mp ha]; exact hg3 _)) ?_)
      rintro _ u tr ⟨as, z, c', har, qz, ku, hc', hst, hb, hd1, hd2, hall⟩
      obtain ⟨kr, hf⟩ := ku.reveal hne ⟨by
        rw [hc']
        exact fun a ha => ⟨(hall a ha).1, fun hh => (hall a ha).2 ((stash_cons _ _ _).mpr (.inr hh))⟩, by simp [hd1, PubOpt], by simp [hd2, PubOpt]⟩
      refine wp_bind (wp_evalStashed F kr hf ⟨(hE.mono (Nat.le_trans b3 hb)).1, hE.2⟩ fun a v5 k5 g5 kp5 st5 ha5 => wp_bind (wp_require fun r e => ?_))
      subst e
      refine wp_bind (wp_pop fun s1 e1 => wp_bind (wp_pop fun s2 e2 => wp_bind (wp_pop fun s3 e3 => wp_pure ?_)))
      rintro _ w' ⟨⟩ e'
      have e5 : Ends v5 w' := (Ends.pop (s := s3)).trans e'
      suffices ApplyRun W p env f y (x :: xs) r w' (⟨f, env, v, some g, v1⟩ :: ⟨y, env, { v1 with stack := g :: v1.stack }, some E, v2⟩ :: tr ++ [⟨form, E, u, some r, v5⟩]) by
        simpa using this
      exact .applied ev1 can ev2 isE fr har rfl rfl rfl qz ⟨c', ku.made (form, c') (.head _), hc'⟩ e5.quiet
    · rename_i hno
      refine wp_bind (wp_pop fun s1 e1 => wp_bind (wp_pop fun s2 e2 => ?_))
      cases e1
      rw [show v2.stack = g :: v1.stack from st2] at e2; cases e2
      refine wps_error (((((k2.here (E := nobody)).push hE.1).pop rfl).pop st2)) fun r' w t gw hp hm fr' => ?_
      rintro _ w' ⟨⟩ e'
      refine .noEnv ev1 can ev2 (fun hE' => ?_) ⟨gw.quiet.trans k2.sane e'.quiet, fr', e'.isErr ⟨_, _, _, hm, rfl⟩⟩
      obtain ⟨bs, enc, ho⟩ := (c58_isEnv_aux hdE).mp hE'
      exact hno bs enc ho
  · rename_i hcall
    refine wp_bind (wp_pop fun s1 e1 => ?_)
    cases e1
    refine wps_error ((((k1.here (E := nobody)).push hg.1).pop rfl)) fun r' w t gw hp hm fr' => ?_
    rintro _ w' ⟨⟩ e'
    exact .noCallable ev1 (fun hh => hcall ((c56_canCall_aux hd).mp hh)) ⟨gw.quiet.trans k1.sane e'.quiet, fr', e'.isErr ⟨_, _, _, hm, rfl⟩⟩

theorem c58_form_aux (F : Fine W h) {args : Ref} {xs : List Ref} {c : Cell} {p : Vm} (k : Stashed W env [(args, c)] v) (q : Vm.Quiet W nobody p v) (sp : p.Sane W)
    (hc : c.obj = .vec xs) (hl : xs ≠ []) (hl' : xs.length ≤ 2) (pub : ∀ z ∈ xs, v.Pub W (stash [(args, c)]) z) (old : ∀ z ∈ xs, p.Old W z) :
    Wp W n h (Prog.evalForm args env) v fun a u tr => ∀ r w, a = some r → Ends u w → EvalRun W p xs env r w tr := by
  unfold Prog.evalForm
  refine wp_bind (wp_verifyVec fun c' es hc' ho => wp_bind (wp_verifyEnv fun _ => ?_))
  obtain rfl := same_cell (k.made (args, c) (.head _)) hc'
  rw [hc] at ho; cases ho
  have kp := k.push (k.old (.head _))
  have qp : Vm.Quiet W nobody p { v with stack := args :: v.stack } := q.trans sp Ends.pop.quiet
  split
  · rename_i x
    refine wp_bind (wp_push (wp_bind (Wp.mono (c58_twice_aux F kp qp (pub x (by simp)) kp.env) ?_)))
    intro a u tr hh
    refine wp_bind (wp_require fun r e => wp_bind (wp_pop fun s1 e1 => wp_pure ?_))
    subst e
    rintro _ w' ⟨⟩ e'
    have e5 : Ends u w' := (Ends.pop (s := s1)).trans e'
    simpa using EvalRun.here (hh r w' rfl e5)
  · rename_i x y
    refine wp_bind (wp_push (wp_bind (wp_read fun d hd => ?_)))
    have hd : v.mem y = some d := hd
    split
    · rename_i bs enc hbs
      have isE : IsEnv p y := ⟨bs, enc, q.hasObj (fun h => h.elim) (old y (by simp)) (by simp) ⟨d, hd, hbs⟩⟩
      refine wp_bind (Wp.mono (c58_twice_aux F kp qp (pub x (by simp)) (pub y (by simp))) ?_)
      intro a u tr hh
      refine wp_bind (wp_require fun r e => wp_bind (wp_pop fun s1 e1 => wp_pure ?_))
      subst e
      rintro _ w' ⟨⟩ e'
      have e5 : Ends u w' := (Ends.pop (s := s1)).trans e'
      simpa using EvalRun.inside isE (hh r w' rfl e5)
    · rename_i hno
      have noE : ¬ IsEnv p y := by
        rintro ⟨bs, enc, c', hc', ho'⟩
        rcases q.cells y c' (fun h => h.elim) hc' with e | e | ⟨m, t, l, e, _⟩
        · obtain rfl := same_cell hd e
          exact hno _ _ ho'
        · rw [hd] at e; cases e
        · rw [ho'] at e; cases e
      refine wp_bind (wp_evalStashed (v := { v with stack := args :: v.stack }) F kp (pub y (by simp)) kp.env fun a v1 k1 g1 kp1 st1 ha1 => wp_bind (wp_require fun t e => ?_))
      subst e
      have ht := ha1 t rfl
      have ev1 : Evals W p y env ⟨y, env, { v with stack := args :: v.stack }, some t, v1⟩ t := ⟨rfl, rfl, rfl, qp⟩
      refine wp_bind (wp_read fun d1 hd1 => ?_)
      split
      · rename_i m l hm
        refine wp_bind (wp_pop fun s1 e1 => wp_pure ?_)
        rintro _ w' ⟨⟩ e'
        have e5 : Ends v1 w' := (Ends.pop (s := s1)).trans e'
        exact .error noE ev1 ⟨m, l, d1, hd1, hm⟩ e5.quiet
      · rename_i bs enc hbs
        have isE : IsEnv v1 t := (c58_isEnv_aux hd1).mpr ⟨bs, enc, hbs⟩
        have k2 := k1.push ht.1
        refine wp_bind (wp_push (wp_bind (Wp.mono (c58_twice_aux F k2 (p := v1) Ends.pop.quiet ((pub x (by simp)).mono g1.later.births) ht) ?_)))
        intro a u tr hh
        refine wp_bind (wp_pop fun s0 e0 => wp_bind (wp_require fun r e => wp_bind (wp_pop fun s1 e1 => wp_pure ?_)))
        subst e
        rintro _ w' ⟨⟩ e'
        have e5 : Ends u w' := (Ends.pop (s := s1)).trans e'
        simpa using EvalRun.there noE ev1 isE (hh r w' rfl e5)
      · rename_i hno1 hno2
        refine wp_bind (wp_pop fun s1 e1 => ?_)
        have hst : v1.stack = args :: v.stack := st1
        rw [hst] at e1; cases e1
        refine wps_error ((k1.here (E := nobody)).pop hst) fun r' w t' gw hp hm fr' => ?_
        rintro _ w' ⟨⟩ e'
        refine .noEnv noE ev1 ?_ ?_ ⟨gw.quiet.trans k1.sane e'.quiet, fr', e'.isErr ⟨_, _, _, hm, rfl⟩⟩
        · rintro ⟨m, l, c', hc', ho'⟩
          obtain rfl := same_cell hd1 hc'
          exact hno1 m l ho'
        · intro hE
          obtain ⟨bs, enc, ho'⟩ := (c58_isEnv_aux hd1).mp hE
          exact hno2 bs enc ho'
  · rename_i h1 h2
    match xs, hl, hl' with
    | [x], _, _ => exact absurd rfl (h1 x)
    | [x, y], _, _ => exact absurd rfl (h2 x y)

theorem c58_eval_aux (F : Fine W h) {args : Ref} {xs : List Ref} {v0 : Vm} (k : Held W args xs env v) (g : Vm.Step W (fun x => x = args) nobody v0 v)
    (hold : ∀ x ∈ xs, v0.Old W x) (top : args ∈ v.stack) :
    Wp W n h (Prog.spEval args env) v fun a u t => ∀ r w, a = some r → Ends u w → EvalRun W v0 xs env r w t := by
  unfold Prog.spEval
  refine wp_bind (wp_verifyVec fun c es hc ho => wp_bind (wp_verifyEnv fun _ => ?_))
  obtain rfl : es = xs := by
    rcases k.vec with h | h
    · exact hasVec_one h ⟨c, hc, ho⟩
    · rw [hc] at h; cases h
  have ks := Stashed.start k top hc
  have pub : ∀ z ∈ es, v.Pub W (stash [(args, c)]) z := by rw [stash_one]; exact k.pub
  by_cases h1 : es.length < 1
  · rw [if_pos h1]
    obtain rfl : es = [] := List.length_eq_zero_iff.mp (by omega)
    refine wp_errorStashed ks fun r w kw g' hst hp fr he => ?_
    rintro _ w' ⟨⟩ e'
    exact .few ⟨(g.quiet.trans g.sane0 g'.quiet).trans g.sane0 e'.quiet, fun h => fr (h.mono g.quiet.births), e'.isErr he⟩
  rw [if_neg h1]
  by_cases h2 : es.length ≤ 2
  · rw [if_pos h2]
    exact c58_form_aux F ks g.quiet g.sane0 ho (by rintro rfl; simp at h1) h2 pub hold
  · rw [if_neg h2]
    obtain ⟨f, y, x, xs, rfl⟩ : ∃ f y x xs, es = f :: y :: x :: xs := by
      match es, h2 with
      | f :: y :: x :: xs, _ => exact ⟨f, y, x, xs, rfl⟩
      | [], h | [_], h | [_, _], h => simp at h
    exact Wp.mono (c58_apply_aux F ks g.quiet ho pub) fun a u tr hh r w ea e => .apply (hh r w ea e)

/-- `quote`, called by its name -/
theorem c58_quote (hL : L.Safe) {v w : Vm} (rv : v.Reached W L) {form env op : Ref} {name : Text} {xs : List Ref}
    (nc : NamedCall W v form env name op xs) (hop : v.HasObj op (.special .quote)) (hargs : ∀ x ∈ xs, ¬ v.IsErr x)
    {r : Option Ref} {tr : List Event} (ev : Evaluates W L v form env r w tr) :
    NamedFormCall W (QuoteRun W) v xs env op r w tr :=
  namedFormCall_aux' hL (fun _ _ _ _ _ _ _ _ k g _ _ _ top => c58_quote_aux k g top.2) rv nc hop hargs ev

/-- `quote`, the operator being given by any form -/
theorem c58_quote_operator (hL : L.Safe) {v w : Vm} (rv : v.Reached W L) {form env first : Ref} {rest : List Ref}
    (hq : v.quit = false) (hf : v.HasVec form (first :: rest)) (of : v.Old W form) (oe : v.Old W env)
    {r : Option Ref} {tr : List Event} (ev : Evaluates W L v form env r w tr) :
    FormCall W .quote (QuoteRun W) v form first env r w tr :=
  formCall_aux' hL (fun _ _ _ _ _ _ _ _ k g _ _ _ top => c58_quote_aux k g top.2) rv hq hf of oe ev

/-- `eval`, called by its name -/
theorem c58_eval (hL : L.Safe) {v w : Vm} (rv : v.Reached W L) {form env op : Ref} {name : Text} {xs : List Ref}
    (nc : NamedCall W v form env name op xs) (hop : v.HasObj op (.special .eval)) (hargs : ∀ x ∈ xs, ¬ v.IsErr x)
    {r : Option Ref} {tr : List Event} (ev : Evaluates W L v form env r w tr) :
    NamedFormCall W (EvalRun W) v xs env op r w tr :=
  namedFormCall_aux' hL (fun _ _ _ _ _ _ F _ k g hold _ _ top => c58_eval_aux F k g hold top.2) rv nc hop hargs ev

/-- `eval`, the operator being given by any form -/
theorem c58_eval_operator (hL : L.Safe) {v w : Vm} (rv : v.Reached W L) {form env first : Ref} {rest : List Ref}
    (hq : v.quit = false) (hf : v.HasVec form (first :: rest)) (of : v.Old W form) (oe : v.Old W env)
    {r : Option Ref} {tr : List Event} (ev : Evaluates W L v form env r w tr) :
    FormCall W .eval (EvalRun W) v form first env r w tr :=
  formCall_aux' hL (fun _ _ _ _ _ _ F _ k g hold _ _ top => c58_eval_aux F k g hold top.2) rv hq hf of oe ev

/-! ### Examples -/
def kit13 : List (String × Obj × Bool) := [("eval", .special .eval, false), ("quote", .special .quote, false), ("+", .builtin .plus, true),
  ("env-new", .builtin .envNew, true), ("env-global", .builtin .envGlobal, true), ("vector", .builtin .vector, true)]

theorem kit13_plain : ∀ x ∈ kit13, x.2.1.children = [] := by decide

/-- `(quote (+ 1 2))` -/
example : ∃ (v w : Vm) (form op : Ref) (xs : List Ref) (r : Option Ref) (tr : List Event), v.Reached world library ∧
    NamedCall world v form v.globalEnv (txt "quote") op xs ∧ v.HasObj op (.special .quote) ∧ (∀ x ∈ xs, ¬ v.IsErr x) ∧
    Evaluates world library v form v.globalEnv r w tr ∧ partsAt w r = [some (.sym (txt "+")), some (.int 1), some (.int 2)] := by
  obtain ⟨v, form, r, w, tr, hr, of, oe, ev, h⟩ := stage_exists (table := kit13) (forms := []) (fuel := 60)
    (last := .vec [.sym "quote", .vec [.sym "+", .int 1, .int 2]])
    (P := fun v f r w tr => namedCheck v f "quote" (.special .quote) && decide (partsAt w r = [some (.sym (txt "+")), some (.int 1), some (.int 2)])) kit13_plain (by decide +kernel)
  simp only [Bool.and_eq_true, decide_eq_true_eq] at h
  obtain ⟨op, xs, h1, h2, h3⟩ := named_of_check h.1 of oe
  exact ⟨v, w, form, op, xs, r, tr, hr, h1, h2, h3, ev, h.2⟩

/-- `(quote 1 2)` is an error -/
example : ∃ (v w : Vm) (form op : Ref) (xs : List Ref) (r : Option Ref) (tr : List Event), v.Reached world library ∧
    NamedCall world v form v.globalEnv (txt "quote") op xs ∧ v.HasObj op (.special .quote) ∧ (∀ x ∈ xs, ¬ v.IsErr x) ∧
    Evaluates world library v form v.globalEnv r w tr ∧ (match objAt w r with | some (.err _ _) => true | _ => false) = true := by
  obtain ⟨v, form, r, w, tr, hr, of, oe, ev, h⟩ := stage_exists (table := kit13) (forms := []) (fuel := 60)
    (last := .vec [.sym "quote", .int 1, .int 2])
    (P := fun v f r w tr => namedCheck v f "quote" (.special .quote) && decide ((match objAt w r with | some (.err _ _) => true | _ => false) = true)) kit13_plain (by decide +kernel)
  simp only [Bool.and_eq_true, decide_eq_true_eq] at h
  obtain ⟨op, xs, h1, h2, h3⟩ := named_of_check h.1 of oe
  exact ⟨v, w, form, op, xs, r, tr, hr, h1, h2, h3, ev, h.2⟩

/-- `(eval '(+ 1 2))` -/
example : ∃ (v w : Vm) (form op : Ref) (xs : List Ref) (r : Option Ref) (tr : List Event), v.Reached world library ∧
    NamedCall world v form v.globalEnv (txt "eval") op xs ∧ v.HasObj op (.special .eval) ∧ (∀ x ∈ xs, ¬ v.IsErr x) ∧
    Evaluates world library v form v.globalEnv r w tr ∧ objAt w r = some (.int 3) := by
  obtain ⟨v, form, r, w, tr, hr, of, oe, ev, h⟩ := stage_exists (table := kit13) (forms := []) (fuel := 60)
    (last := .vec [.sym "eval", .vec [.sym "quote", .vec [.sym "+", .int 1, .int 2]]])
    (P := fun v f r w tr => namedCheck v f "eval" (.special .eval) && decide (objAt w r = some (.int 3))) kit13_plain (by decide +kernel)
  simp only [Bool.and_eq_true, decide_eq_true_eq] at h
  obtain ⟨op, xs, h1, h2, h3⟩ := named_of_check h.1 of oe
  exact ⟨v, w, form, op, xs, r, tr, hr, h1, h2, h3, ev, h.2⟩

/-- `(eval '(+ 1 2) (env-global))` -/
example : ∃ (v w : Vm) (form op : Ref) (xs : List Ref) (r : Option Ref) (tr : List Event), v.Reached world library ∧
    NamedCall world v form v.globalEnv (txt "eval") op xs ∧ v.HasObj op (.special .eval) ∧ (∀ x ∈ xs, ¬ v.IsErr x) ∧
    Evaluates world library v form v.globalEnv r w tr ∧ objAt w r = some (.int 3) := by
  obtain ⟨v, form, r, w, tr, hr, of, oe, ev, h⟩ := stage_exists (table := kit13) (forms := []) (fuel := 60)
    (last := .vec [.sym "eval", .vec [.sym "quote", .vec [.sym "+", .int 1, .int 2]], .vec [.sym "env-global"]])
    (P := fun v f r w tr => namedCheck v f "eval" (.special .eval) && decide (objAt w r = some (.int 3))) kit13_plain (by decide +kernel)
  simp only [Bool.and_eq_true, decide_eq_true_eq] at h
  obtain ⟨op, xs, h1, h2, h3⟩ := named_of_check h.1 of oe
  exact ⟨v, w, form, op, xs, r, tr, hr, h1, h2, h3, ev, h.2⟩

/-- `(eval '(+ 1 2) '7)` is an error -/
example : ∃ (v w : Vm) (form op : Ref) (xs : List Ref) (r : Option Ref) (tr : List Event), v.Reached world library ∧
    NamedCall world v form v.globalEnv (txt "eval") op xs ∧ v.HasObj op (.special .eval) ∧ (∀ x ∈ xs, ¬ v.IsErr x) ∧
    Evaluates world library v form v.globalEnv r w tr ∧ (match objAt w r with | some (.err _ _) => true | _ => false) = true := by
  obtain ⟨v, form, r, w, tr, hr, of, oe, ev, h⟩ := stage_exists (table := kit13) (forms := []) (fuel := 60)
    (last := .vec [.sym "eval", .vec [.sym "quote", .vec [.sym "+", .int 1, .int 2]], .vec [.sym "quote", .int 7]])
    (P := fun v f r w tr => namedCheck v f "eval" (.special .eval) && decide ((match objAt w r with | some (.err _ _) => true | _ => false) = true)) kit13_plain (by decide +kernel)
  simp only [Bool.and_eq_true, decide_eq_true_eq] at h
  obtain ⟨op, xs, h1, h2, h3⟩ := named_of_check h.1 of oe
  exact ⟨v, w, form, op, xs, r, tr, hr, h1, h2, h3, ev, h.2⟩

/-- `(eval + (env-global) 1 (vector 2 3) 4)` -/
example : ∃ (v w : Vm) (form op : Ref) (xs : List Ref) (r : Option Ref) (tr : List Event), v.Reached world library ∧
    NamedCall world v form v.globalEnv (txt "eval") op xs ∧ v.HasObj op (.special .eval) ∧ (∀ x ∈ xs, ¬ v.IsErr x) ∧
    Evaluates world library v form v.globalEnv r w tr ∧ objAt w r = some (.int 10) := by
  obtain ⟨v, form, r, w, tr, hr, of, oe, ev, h⟩ := stage_exists (table := kit13) (forms := []) (fuel := 80)
    (last := .vec [.sym "eval", .sym "+", .vec [.sym "env-global"], .int 1, .vec [.sym "vector", .int 2, .int 3], .int 4])
    (P := fun v f r w tr => namedCheck v f "eval" (.special .eval) && decide (objAt w r = some (.int 10))) kit13_plain (by decide +kernel)
  simp only [Bool.and_eq_true, decide_eq_true_eq] at h
  obtain ⟨op, xs, h1, h2, h3⟩ := named_of_check h.1 of oe
  exact ⟨v, w, form, op, xs, r, tr, hr, h1, h2, h3, ev, h.2⟩

end Dern.Props
