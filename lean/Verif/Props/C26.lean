import Verif.Props.C27
/-
C26: lexical scoping.

`Binds m name env r` and `Unbound m name env` (in `Symbols.lean`) are the textbook definition of the lookup in
a chain of environments.  For every reachable state: a symbol evaluates to what it is bound to there, and
to an error if it is unbound; `fn` makes a function that remembers the environment it was evaluated in; the
body of a function is evaluated in a new environment enclosed by that one, whatever the environment of the
call is; making the bindings changes no existing environment.
-/
namespace Dern.Props
open Dern
open Dern.Prog (Library)
variable {W : World} {L : Library}

/-- A bound symbol evaluates to the value it is bound to in the innermost environment that binds it, and
this changes nothing. -/
theorem c26_bound (hL : L.Safe) {v w : Vm} (rv : v.Reached W L) {x env t : Ref} {name : Text} {r : Option Ref} {tr : List Event}
    (hq : v.quit = false) (hx : v.HasObj x (.sym name)) (ox : v.Old W x) (oe : v.Old W env) (hb : Binds v.mem name env t)
    (ev : Evaluates W L v x env r w tr) : r = some t ∧ w = v ∧ tr = [] := by
  obtain ⟨sv, cv⟩ := rv.good hL
  obtain ⟨h1, ⟨y, h2, h3, h4⟩ | ⟨y, _, h3, _⟩⟩ := ev.symbol sv cv hq hx ox oe
  · rw [h3.unique hb] at h2
    exact ⟨h2, h4, h1⟩
  · exact absurd h3 hb.not_unbound

/-- An unbound symbol evaluates to a new error, and nothing else happens. -/
theorem c26_unbound (hL : L.Safe) {v w : Vm} (rv : v.Reached W L) {x env : Ref} {name : Text} {r : Option Ref} {tr : List Event}
    (hq : v.quit = false) (hx : v.HasObj x (.sym name)) (ox : v.Old W x) (oe : v.Old W env) (hb : Unbound v.mem name env)
    (ev : Evaluates W L v x env r w tr) : tr = [] ∧ Vm.Quiet W nobody v w ∧ ∃ t, r = some t ∧ ¬ v.Old W t ∧ w.IsErr t := by
  obtain ⟨sv, cv⟩ := rv.good hL
  obtain ⟨h1, ⟨y, h2, h3, h4⟩ | ⟨y, h2, _, h4, h5, h6⟩⟩ := ev.symbol sv cv hq hx ox oe
  · exact absurd hb h3.not_unbound
  · exact ⟨h1, h6.quiet, y, h2, h5, h4⟩

/-- The body of a function is evaluated in a new environment `e` enclosed by the environment of the function;
up to the start of the body (`u1`) no existing value, in particular no existing environment, has been
changed; every form of the body is evaluated in `e`. -/
theorem c26_body {op : Ref} {ts : List Ref} {u w : Vm} {r : Option Ref} {tr : List Event} (h : FnApply W op ts u r w tr) (ht : tr ≠ []) :
    ∃ f e bs u1, u.IsFn op f ∧ ¬ u.Old W e ∧ u1.HasObj e (.env bs (some f.env)) ∧ Vm.Quiet W nobody u u1 ∧
      FnBody W op e r w 0 none u1 tr ∧ ∀ ev ∈ tr, ev.env = e := by
  obtain ⟨f, fs, names, h1, _, _, ⟨_, h4, _⟩ | ⟨e, u1, he, hq, hx, hb⟩⟩ := h
  · exact absurd h4 ht
  · have henv : ∀ {i last v tr}, FnBody W op e r w i last v tr → ∀ ev ∈ tr, ev.env = e := by
      intro i last v tr b
      induction b with
      | finish => simp
      | failed _ _ _ _ h => simp [h]
      | returned _ _ _ _ h => simp [h]
      | next _ _ _ _ h _ _ _ _ _ ih => simpa [h] using ih
    cases hx with
    | plain _ _ _ h => exact ⟨f, e, _, u1, h1, he, h, hq, hb, henv hb⟩
    | rest _ _ _ _ _ _ h => exact ⟨f, e, _, u1, h1, he, h, hq, hb, henv hb⟩

/-- at most one `.`, and at most one symbol after it -/
def DotsOk (names : List Text) : Prop :=
  txt "." ∉ names ∨ ∃ a b, names = a ++ txt "." :: b ∧ txt "." ∉ a ∧ txt "." ∉ b ∧ b.length ≤ 1

/-- the arguments of `fn`: a vector of symbols and at least one form -/
def FnShape (v : Vm) (xs : List Ref) (formals : Ref) (body : List Ref) : Prop :=
  ∃ fs names, xs = formals :: body ∧ body ≠ [] ∧ v.HasVec formals fs ∧ v.Names fs names ∧ DotsOk names

/-- What `fn` and `macro` do with the arguments `xs`: nothing is evaluated; the result is a new function or macro whose
environment is the one `fn` or `macro` is evaluated in, or an error if the arguments are not as they should be. -/
def CallableMade (wrap : FnData → Obj) (W : World) (v : Vm) (xs : List Ref) (env r : Ref) (w : Vm) (tr : List Event) : Prop :=
  tr = [] ∧ Vm.Quiet W nobody v w ∧ ¬ v.Old W r ∧
    ((∃ formals body b name doc, FnShape v xs formals body ∧ w.HasObj r (wrap ⟨name, doc, formals, b, env, false⟩) ∧ w.HasVec b body ∧ ¬ v.Old W b) ∨
    ((¬ ∃ formals body, FnShape v xs formals body) ∧ w.IsErr r))

/-- What `fn` does with the arguments `xs`. -/
def FnMade : World → Vm → List Ref → Ref → Ref → Vm → List Event → Prop := CallableMade .fn

theorem c26_dots_aux {names : List Text} :
    (names.count (txt ".") ≤ 1 ∧ names.length - (names.takeWhile (· ≠ txt ".")).length - names.count (txt ".") ≤ 1) ↔ DotsOk names := by
  generalize hd : txt "." = d
  unfold DotsOk
  rw [hd]
  constructor
  · rintro ⟨h1, h2⟩
    by_cases hm : d ∈ names
    · obtain ⟨a, b, rfl, ha⟩ := List.eq_append_cons_of_mem hm
      rw [List.count_append, List.count_cons_self, List.count_eq_zero_of_not_mem ha] at h1
      have hb : d ∉ b := fun hh => by
        have := List.count_pos_iff.mpr hh
        omega
      refine .inr ⟨a, b, rfl, ha, hb, ?_⟩
      rw [List.count_append, List.count_cons_self, List.count_eq_zero_of_not_mem ha, List.count_eq_zero_of_not_mem hb,
        List.takeWhile_append_of_pos (by intro x hx; simp; rintro rfl; exact ha hx)] at h2
      simp at h2
      omega
    · exact .inl hm
  · rintro (hm | ⟨a, b, rfl, ha, hb, hl⟩)
    · rw [takeWhile_all hm, List.count_eq_zero_of_not_mem hm]; omega
    · rw [List.count_append, List.count_cons_self, List.count_eq_zero_of_not_mem ha, List.count_eq_zero_of_not_mem hb,
        List.takeWhile_append_of_pos (by intro x hx; simp; rintro rfl; exact ha hx)]
      simp
      omega

theorem c26_names_unique_aux {v : Vm} {fs : List Ref} {a b : List Text} (ha : v.Names fs a) (hb : v.Names fs b) : a = b := by
  unfold Vm.Names at ha hb
  induction ha generalizing b with
  | nil => cases hb; rfl
  | cons x _ ih =>
    cases hb with
    | cons y hb =>
      have := x.unique y
      cases this
      rw [ih hb]

theorem c26_fnFormals_aux {n : Nat} {h : Handler} {X E : Ref → Prop} {v0 : Vm} : ∀ (fs : List Ref) (v : Vm) {Q : Option Ref × List Text → Vm → List Event → Prop},
    Vm.Step W X E v0 v → (∀ names, v.Names fs names → Q (none, names) v []) →
    (∀ r w ts, (∃ f ∈ fs, ∃ c, v.mem f = some c ∧ ∀ s, c.obj ≠ .sym s) → Vm.Step W X E v0 w → w.IsErr r → ¬ v0.Old W r → Q (some r, ts) w []) →
    Wp W n h (Prog.fnFormals fs) v Q := by
  intro fs
  induction fs with
  | nil => intro v Q g h1 _; exact wp_pure (h1 [] .nil)
  | cons f fs ih =>
    intro v Q g h1 h2
    unfold Prog.fnFormals
    refine wp_bind (wp_read fun c hc => ?_)
    split
    · rename_i s ho
      refine wp_bind (ih v g (fun names hn => wp_pure (h1 _ (.cons ⟨c, hc, ho⟩ hn))) fun r w ts hn gw he fr => wp_pure (h2 r w _ ?_ gw he fr))
      obtain ⟨y, hy, c', hc', ho'⟩ := hn
      exact ⟨y, List.mem_cons_of_mem _ hy, c', hc', ho'⟩
    · rename_i hno
      refine wp_bind (wps_error g fun r w t gw hp hm fr => wp_pure (h2 r w _ ?_ gw ⟨_, _, _, hm, rfl⟩ fun hh => fr (hh.mono g.quiet.births)))
      exact ⟨f, by simp, c, hc, fun s e => hno s e⟩

theorem c26_fnBody_aux {n : Nat} {h : Handler} {X E : Ref → Prop} {v0 : Vm} {b : Ref} : ∀ (l pre : List Ref) (v : Vm) (c : Cell) {Q : Option Ref → Vm → List Event → Prop},
    Vm.Step W X E v0 v → ¬ v0.Old W b → ¬ X b → v.mem b = some c → c.obj = .vec pre → (∀ x ∈ l, v.Pub W X x) → (∀ x ∈ l, x ≠ b) →
    (∀ x ∈ l, ¬ v.IsErr x) →
    (∀ w c', Vm.Step W X E v0 w → w.mem b = some c' → c'.obj = .vec (pre ++ l) → (∀ x, x ≠ b → w.mem x = v.mem x) →
      w.births = v.births → w.stack = v.stack → Q none w []) → Wp W n h (Prog.fnBody b l) v Q := by
  intro l
  induction l with
  | nil =>
    intro pre v c Q g _ _ hc ho _ _ _ hq
    exact wp_pure (hq v c g hc (by simpa using ho) (fun _ _ => rfl) rfl rfl)
  | cons x l ih =>
    intro pre v c Q g fresh hx hc ho hl hne herr hq
    unfold Prog.fnBody
    refine wp_bind (wp_read fun d hd => ?_)
    split
    · rename_i m k hm
      exact absurd ⟨m, k, d, hd, hm⟩ (herr x (by simp))
    refine wp_bind (wp_append fun c' es hc' ho' => ?_)
    obtain rfl := same_cell hc hc'
    rw [ho] at ho'
    cases ho'
    have pl := g.closed.pub _ _ hc hx
    have ol := pl.obj
    rw [ho] at ol
    have g' := g.modify (d := { c with obj := .vec (pre ++ [x]) }) (.inr fresh) hc rfl rfl
      ⟨fun y hy => by
        rcases List.mem_append.mp hy with hy | hy
        · exact ol y hy
        · simp only [List.mem_singleton] at hy; subst hy; exact hl _ (by simp), pl.docstr, pl.docvec⟩
    refine ih (pre ++ [x]) _ _ g' fresh hx (Mem.set_self ..) rfl (fun y hy => hl y (List.mem_cons_of_mem _ hy))
      (fun y hy => hne y (List.mem_cons_of_mem _ hy)) ?_ ?_
    · rintro y hy ⟨m, k, d', hd', hm'⟩
      refine herr y (List.mem_cons_of_mem _ hy) ⟨m, k, d', ?_, hm'⟩
      rw [← hd']
      exact (Mem.set_other _ _ (hne y (List.mem_cons_of_mem _ hy))).symm
    · intro w c' gw hw hw' hrest hb hs
      refine hq w c' gw hw (by simpa using hw') (fun y hy => ?_) hb hs
      rw [hrest y hy]; exact Mem.set_other _ _ hy

theorem c26_isErr_aux {v w : Vm} {E : Ref → Prop} (q : Vm.Quiet W E v w) {x : Ref} (hE : ¬ E x) (old : v.Old W x) (he : w.IsErr x) : v.IsErr x := by
  obtain ⟨m, l, c, hc, ho⟩ := he
  cases hv : v.mem x with
  | none => rw [q.gone x old hv] at hc; cases hc
  | some d =>
    rcases q.cells x d hE hv with e | e | ⟨m', t, l', ho', e⟩
    · rw [hc] at e; cases e; exact ⟨m, l, c, hv, ho⟩
    · rw [hc] at e; cases e
    · exact ⟨m', l', d, hv, ho'⟩

theorem c26_names_back_aux {v w : Vm} {E : Ref → Prop} (q : Vm.Quiet W E v w) {fs : List Ref} (hE : ∀ x, ¬ E x) (old : ∀ x ∈ fs, v.Old W x)
    {names : List Text} (h : w.Names fs names) : v.Names fs names := by
  unfold Vm.Names at h ⊢
  induction h with
  | nil => exact .nil
  | cons h _ ih => exact .cons (q.hasObj (hE _) (old _ (by simp)) (by simp) h) (ih fun x hx => old x (List.mem_cons_of_mem _ hx))

theorem c26_names_mem_aux {v : Vm} {fs : List Ref} {names : List Text} (h : v.Names fs names) {y : Ref} (hy : y ∈ fs) : ∃ s, v.HasObj y (.sym s) := by
  unfold Vm.Names at h
  induction h with
  | nil => cases hy
  | cons h _ ih =>
    rcases List.mem_cons.mp hy with rfl | hy
    · exact ⟨_, h⟩
    · exact ih hy

theorem c26_fn_aux {wrap : FnData → Obj} (hwrap : wrap = .fn ∨ wrap = .mac) {n : Nat} {h : Handler} {args env : Ref} {xs : List Ref} {v0 v : Vm} (k : Held W args xs env v)
    (g : Vm.Step W (fun x => x = args) nobody v0 v) (hold : ∀ x ∈ xs, v0.Old W x) (c0 : v0.Closed W nobody) (herr : ∀ x ∈ xs, ¬ v0.IsErr x) :
    Wp W n h (Prog.spFn wrap args env) v fun a u t => ∀ r w, a = some r → Ends u w → CallableMade wrap W v0 xs env r w t := by
  unfold Prog.spFn
  refine wp_bind (wp_verifyVec_vec k.vec fun _ => wp_bind (wp_verifyEnv fun _ => wp_bind (wp_push (wp_bind (wp_push ?_)))))
  simp only [List.nil_append]
  have g1 := (g.push k.old).push (r := env) k.env.1
  have k1 := (k.push k.old).push (r := env) k.env.1
  have fail : ∀ {u : Vm} {r : Ref} {w : Vm}, Vm.Step W (fun x => x = args) nobody v0 u → (¬ ∃ formals body, FnShape v0 xs formals body) → ¬ v0.Old W r →
      u.IsErr r → Ends u w → CallableMade wrap W v0 xs env r w [] := fun gu hs hr he hw =>
    ⟨rfl, gu.quiet.trans g.sane0 hw.quiet, hr, .inr ⟨hs, hw.isErr he⟩⟩
  by_cases hxs : ∃ formals b bs, xs = formals :: b :: bs
  · obtain ⟨formals, b, bs, rfl⟩ := hxs
    simp only
    refine wp_bind (wp_read fun c hc => ?_)
    have hc : v.mem formals = some c := hc
    split
    · rename_i fs ho
      have hfs : v0.HasVec formals fs := g.quiet.hasVec id (hold _ (by simp)) ⟨c, hc, ho⟩
      have ofs : ∀ x ∈ fs, v0.Old W x := by
        obtain ⟨c', hc', ho'⟩ := hfs
        have := (c0.cells _ _ hc').obj
        rw [ho'] at this
        exact this
      refine wp_bind (wp_alloc k1.sane fun body w a => wp_bind (wp_push ?_))
      simp only [List.nil_append]
      have g2 := (g1.alloc a (by intro x hx; cases hx)).push a.old
      have fresh : ¬ v0.Old W body := fun hh => a.fresh (hh.mono g1.quiet.births)
      have ba : body ≠ args := fun e => a.fresh (e ▸ k1.old)
      have up : ∀ x, v.Pub W (fun x => x = args) x → ({ w with stack := body :: w.stack } : Vm).Pub W (fun x => x = args) x :=
        fun x hx => hx.mono (by show v.births ≤ w.births; rw [a.births]; show v.births ≤ v.births + 1; omega)
      refine wp_bind (c26_fnBody_aux (b :: bs) [] _ _ g2 fresh ba a.cell rfl (fun x hx => up x (k.pub x (List.mem_cons_of_mem _ hx)))
        (fun x hx e => fresh (e ▸ hold x (List.mem_cons_of_mem _ hx)))
        (fun x hx he => herr x (List.mem_cons_of_mem _ hx) (c26_isErr_aux g2.quiet id (hold x (List.mem_cons_of_mem _ hx)) he)) ?_)
      intro w2 c2 g3 hb2 hb2' hrest hbirths hstack
      simp only [List.nil_append] at hb2' ⊢
      have shape : ∀ names, w2.Names fs names → ((∃ formals' body', FnShape v0 (formals :: b :: bs) formals' body') ↔ DotsOk names) := by
        intro names hn
        have hn := c26_names_back_aux g3.quiet (fun _ => id) ofs hn
        constructor
        · rintro ⟨f', b', fs', names', h1, _, h3, h4, h5⟩
          cases h1
          obtain ⟨c1, hc1, ho1⟩ := h3
          obtain ⟨c2, hc2, ho2⟩ := hfs
          rw [hc1] at hc2; cases hc2
          rw [ho1] at ho2; cases ho2
          rwa [c26_names_unique_aux hn h4]
        · intro hd
          exact ⟨formals, b :: bs, fs, names, rfl, by simp, hfs, hn, hd⟩
      unfold Prog.fnValidate
      refine wp_bind (wp_bind (c26_fnFormals_aux fs w2 g3 ?_ ?_))
      · intro names hn
        have hsh := shape names hn
        rw [← c26_dots_aux] at hsh
        simp only [List.nil_append]
        split
        · rename_i h1
          refine wps_error g3 fun r w t gw hp hm fr => wp_bind (wp_pop fun s hs => wp_bind (wp_pop fun s' hs' => wp_bind (wp_pop fun s'' hs'' => wp_pure ?_)))
          rintro r' w' e he
          cases e
          exact fail gw (fun hh => by have := hsh.mp hh; omega) (fun hh => fr (hh.mono g3.quiet.births)) ⟨_, _, _, hm, rfl⟩
            (((Ends.pop.trans Ends.pop).trans Ends.pop).trans he)
        · rename_i h1
          split
          · rename_i h2
            refine wps_error g3 fun r w t gw hp hm fr => wp_bind (wp_pop fun s hs => wp_bind (wp_pop fun s' hs' => wp_bind (wp_pop fun s'' hs'' => wp_pure ?_)))
            rintro r' w' e he
            cases e
            exact fail gw (fun hh => by have := hsh.mp hh; omega) (fun hh => fr (hh.mono g3.quiet.births)) ⟨_, _, _, hm, rfl⟩
              (((Ends.pop.trans Ends.pop).trans Ends.pop).trans he)
          · rename_i h2
            refine wp_pure ?_
            simp only [List.nil_append]
            refine wp_bind (wp_alloc g3.sane fun r w3 a3 => wp_bind (wp_push ?_))
            have keep3 : w3.mem body = some c2 := by
              rw [a3.kept body (.root (by rw [hstack]; simp)) fun e => a3.fresh (e ▸ g3.sane.old _ _ hb2)]
              exact hb2
            have g4 := g3.alloc a3 (by
              have : w2.Pub W (fun x => x = args) formals ∧ w2.Pub W (fun x => x = args) body ∧ w2.Pub W (fun x => x = args) env :=
                ⟨(up _ (k.pub _ (by simp))).mono (Nat.le_of_eq hbirths.symm),
                  ⟨g3.sane.old _ _ hb2, ba⟩, (up _ k.env).mono (Nat.le_of_eq hbirths.symm)⟩
              rcases hwrap with rfl | rfl <;> exact this)
            have g4 := g4.push a3.old
            have fr3 : ¬ v0.Old W r := fun hh => a3.fresh (hh.mono g3.quiet.births)
            refine wp_bind (wp_alloc g4.sane fun d w5 a5 => ?_)
            have keep5 : w5.mem body = some c2 := by
              rw [a5.kept body (.root (by show body ∈ r :: w3.stack; rw [a3.stack, hstack]; simp)) fun e => a5.fresh (e ▸ g4.sane.old _ _ keep3)]
              exact keep3
            have g5 := g4.alloc a5 trivial
            have rb : r ≠ body := fun e => a3.fresh (e ▸ g3.sane.old _ _ hb2)
            have ra : r ≠ args := fun e => a3.fresh (e ▸ g3.closed.known args rfl)
            have da : d ≠ args := fun e => a5.fresh (e ▸ g4.closed.known args rfl)
            have keepr : w5.mem r = some { obj := wrap ⟨[], [], formals, body, env, false⟩, uid := w2.nextUid } := by
              rw [a5.kept r (.root (by show r ∈ r :: w3.stack; simp)) fun e => a5.fresh (e ▸ a3.old)]
              exact a3.cell
            refine wp_bind (wp_setDoc fun cr hcr => ?_)
            obtain rfl := same_cell keepr hcr
            have pl := g5.closed.pub _ _ keepr ra
            have g6 := g5.modify (d := { obj := wrap ⟨[], [], formals, body, env, false⟩, uid := w2.nextUid, docstr := some d, docvec := none })
              (.inr fr3) keepr rfl rfl ⟨pl.obj, fun x hx => (by cases hx; exact ⟨a5.old, da⟩), Prog.pubOpt_none⟩
            refine wp_bind (wp_pop fun s hs => wp_bind (wp_pop fun s' hs' => wp_bind (wp_pop fun s'' hs'' => wp_bind (wp_pop fun s3 hs3 => wp_pure ?_))))
            rintro r' w' e he
            cases e
            have he := (((Ends.pop.trans Ends.pop).trans Ends.pop).trans Ends.pop).trans he
            refine ⟨rfl, g6.quiet.trans g.sane0 he.quiet, fr3, .inl ?_⟩
            obtain ⟨f', b', hsh'⟩ := hsh.mpr ⟨by omega, by omega⟩
            obtain ⟨fs', names', h1, h2, h3⟩ := hsh'
            cases h1
            refine ⟨formals, b :: bs, body, [], [], ⟨fs', names', rfl, h2, h3⟩, ?_, ?_, fresh⟩
            · exact he.hasObj (v := { w5 with mem := w5.mem.set r _ }) ⟨_, Mem.set_self .., rfl⟩ (by rcases hwrap with rfl | rfl <;> simp)
            · exact he.hasObj (v := { w5 with mem := w5.mem.set r _ }) ⟨c2, (Mem.set_other _ _ (Ne.symm rb)).trans keep5, hb2'⟩ (by simp)
      · intro r w3 ts hn g4 he fr
        refine wp_pure (wp_bind (wp_pop fun s hs => wp_bind (wp_pop fun s' hs' => wp_bind (wp_pop fun s'' hs'' => wp_pure ?_))))
        rintro r' w' e he'
        cases e
        refine fail g4 ?_ fr he (((Ends.pop.trans Ends.pop).trans Ends.pop).trans he')
        rintro ⟨f', b', fs', names', h1, _, h3, h4, h5⟩
        cases h1
        obtain ⟨c1, hc1, ho1⟩ := h3
        obtain ⟨c3, hc3, ho3⟩ := hfs
        rw [hc1] at hc3; cases hc3
        rw [ho1] at ho3; cases ho3
        obtain ⟨y, hy, cy, hcy, hny⟩ := hn
        obtain ⟨s, hs⟩ := c26_names_mem_aux h4 hy
        obtain ⟨c4, hc4, ho4⟩ := hs
        rcases g3.quiet.cells y c4 id hc4 with e | e | ⟨_, _, _, e, _⟩
        · rw [hcy] at e; cases e; exact hny _ ho4
        · rw [hcy] at e; cases e
        · rw [ho4] at e; cases e
    · rename_i hno
      refine wp_bind (wp_pop fun s hs => wp_bind (wp_pop fun s' hs' => ?_))
      refine wps_error ((g1.pop hs).pop hs') fun r w t gw hp hm fr => ?_
      rintro r' w' e he
      cases e
      refine fail gw ?_ (fun hh => fr (hh.mono g1.quiet.births)) ⟨_, _, _, hm, rfl⟩ he
      rintro ⟨f', b', fs', names', h1, _, ⟨c', hc', ho'⟩, _⟩
      cases h1
      rcases g.quiet.cells _ c' id hc' with e | e | ⟨_, _, _, e, _⟩
      · rw [hc] at e; cases e; exact hno _ ho'
      · rw [hc] at e; cases e
      · rw [ho'] at e; cases e
  · split
    · exact absurd ⟨_, _, _, rfl⟩ hxs
    refine wp_bind (wp_pop fun s hs => wp_bind (wp_pop fun s' hs' => ?_))
    refine wps_error ((g1.pop hs).pop hs') fun r w t gw hp hm fr => ?_
    rintro r' w' e he
    cases e
    refine fail gw ?_ (fun hh => fr (hh.mono g1.quiet.births)) ⟨_, _, _, hm, rfl⟩ he
    rintro ⟨f', b', fs', names', rfl, h2, _⟩
    cases b' with
    | nil => exact h2 rfl
    | cons b bs => exact hxs ⟨_, _, _, rfl⟩

/-- `fn`, called by name -/
theorem c26_fn (hL : L.Safe) {v w : Vm} (rv : v.Reached W L) {form env op : Ref} {name : Text} {xs : List Ref}
    (nc : NamedCall W v form env name op xs) (hop : v.HasObj op (.special .fn)) (hargs : ∀ x ∈ xs, ¬ v.IsErr x)
    {r : Option Ref} {tr : List Event} (ev : Evaluates W L v form env r w tr) : NamedFormCall W (FnMade W) v xs env op r w tr :=
  namedFormCall_aux hL (fun _ _ _ _ _ _ _ _ k g h1 h2 h3 => c26_fn_aux (.inl rfl) k g h1 h2 h3) rv nc hop hargs ev

/-- `fn`, the operator being given by any form -/
theorem c26_fn_operator (hL : L.Safe) {v w : Vm} (rv : v.Reached W L) {form env first : Ref} {rest : List Ref}
    (hq : v.quit = false) (hf : v.HasVec form (first :: rest)) (of : v.Old W form) (oe : v.Old W env)
    {r : Option Ref} {tr : List Event} (ev : Evaluates W L v form env r w tr) :
    FormCall W .fn (FnMade W) v form first env r w tr :=
  formCall_aux hL (fun _ _ _ _ _ _ _ _ k g h1 h2 h3 => c26_fn_aux (.inl rfl) k g h1 h2 h3) rv hq hf of oe ev

/-- the hypotheses hold for the call `(fn (x) x)` -/
example : ∃ (v w : Vm) (form op : Ref) (xs : List Ref) (r : Option Ref) (tr : List Event), v.Reached world library ∧
    NamedCall world v form v.globalEnv (txt "fn") op xs ∧ v.HasObj op (.special .fn) ∧ (∀ x ∈ xs, ¬ v.IsErr x) ∧
    Evaluates world library v form v.globalEnv r w tr ∧ (∃ f, objAt w r = some (.fn f)) := by
  obtain ⟨v, form, r, w, tr, hr, of, oe, ev, h⟩ := stage_exists (table := kit) (forms := []) (fuel := 40)
    (last := .vec [.sym "fn", .vec [.sym "x"], .sym "x"])
    (P := fun v f r w tr => namedCheck v f "fn" (.special .fn) && (match objAt w r with | some (.fn _) => true | _ => false))
    kit_plain (by decide +kernel)
  simp only [Bool.and_eq_true] at h
  obtain ⟨op, xs, h1, h2, h3⟩ := named_of_check h.1 of oe
  refine ⟨v, w, form, op, xs, r, tr, hr, h1, h2, h3, ev, ?_⟩
  have := h.2
  split at this
  · exact ⟨_, ‹_›⟩
  · cases this

/-- `(((fn (x) (fn (y) (+ x y))) 5) 2)` is 7: the inner function sees `x` -/
example : stageCheck kit []
    (.vec [.vec [.vec [.sym "fn", .vec [.sym "x"], .vec [.sym "fn", .vec [.sym "y"], .vec [.sym "+", .sym "x", .sym "y"]]], .int 5], .int 2]) 80
    (fun _ _ r w _ => decide (objAt w r = some (.int 7))) = true := by
  decide +kernel

/-- with the global `x` 1 and `(define f as (fn (y) x) …)`, `((fn (x) (f 0)) 2)` is 1: the `x` of the
caller is not seen -/
example : stageCheck kit
    [.vec [.sym "define", .sym "x", .sym "as", .int 1, .str "d"],
     .vec [.sym "define", .sym "f", .sym "as", .vec [.sym "fn", .vec [.sym "y"], .sym "x"], .str "d",
      .vec [.sym "quote", .vec [.sym "y", .str "d"]], .sym "howto-no"]]
    (.vec [.vec [.sym "fn", .vec [.sym "x"], .vec [.sym "f", .int 0]], .int 2]) 80
    (fun _ _ r w _ => decide (objAt w r = some (.int 1))) = true := by
  decide +kernel

end Dern.Props
