import Verif.Dern.Symbols
/-
Calls of builtin functions and of functions: evaluating the arguments, binding the formals, evaluating
the body.
-/
namespace Dern
open Prog (Library)
variable {W : World} {E : Ref → Prop} {n : Nat} {h : Handler} {v0 v w u : Vm} {L : Library} {args env : Ref} {xs : List Ref}

/-- a value that is there after quiet steps was there before -/
theorem Vm.Quiet.back (q : Vm.Quiet W E v w) {r : Ref} {c : Cell} (hE : ¬ E r) (old : v.Old W r) (hc : w.mem r = some c)
    (ne : ∀ m l, c.obj ≠ .err m l) : v.mem r = some c := by
  cases hv : v.mem r with
  | none => rw [q.gone r old hv] at hc; cases hc
  | some d =>
    rcases q.cells r d hE hv with e | e | ⟨m, t, l, ho, e⟩
    · rw [hc] at e; exact e.symm
    · rw [hc] at e; cases e
    · rw [hc] at e; cases e; exact absurd rfl (ne _ _)

theorem Vm.Quiet.hasVec (q : Vm.Quiet W E v w) {r : Ref} {es : List Ref} (hE : ¬ E r) (old : v.Old W r) (hv : w.HasVec r es) :
    v.HasVec r es := by
  obtain ⟨c, hc, ho⟩ := hv
  exact ⟨c, q.back hE old hc (by rw [ho]; simp), ho⟩

theorem Vm.Quiet.hasObj (q : Vm.Quiet W E v w) {r : Ref} {o : Obj} (hE : ¬ E r) (old : v.Old W r) (ne : ∀ m l, o ≠ .err m l)
    (hv : w.HasObj r o) : v.HasObj r o := by
  obtain ⟨c, hc, ho⟩ := hv
  exact ⟨c, q.back hE old hc (by rw [ho]; exact ne), ho⟩

/-- The arguments of the call `form` from the index `i` on have been evaluated to `ts`, the last state
being `w`: each time, the argument is the next element of the form at that moment.  Between the
evaluations nothing happens except that the values are collected in the vector `args`. -/
inductive ArgsFrom (W : World) (args form env : Ref) (w : Vm) : Nat → Vm → List Event → List Ref → Prop
  | done {i v es} : v.HasVec form es → es.length ≤ i → Vm.Quiet W (fun x => x = args) v w → ArgsFrom W args form env w i v [] []
  | next {i v es x e t tr ts} : v.HasVec form es → es[i]? = some x → e.form = x → e.env = env → e.result = some t →
      Vm.Quiet W (fun x => x = args) v e.pre → ¬ e.post.IsErr t → ArgsFrom W args form env w (i + 1) e.post tr ts →
      ArgsFrom W args form env w i v (e :: tr) (t :: ts)

/-- The same, but one of the arguments evaluates to the error `r`. -/
inductive ArgsFail (W : World) (args form env r : Ref) (w : Vm) : Nat → Vm → List Event → Prop
  | failed {i v es x e} : v.HasVec form es → es[i]? = some x → e.form = x → e.env = env → e.result = some r →
      Vm.Quiet W (fun x => x = args) v e.pre → e.post.IsErr r → Ends e.post w → ArgsFail W args form env r w i v [e]
  | next {i v es x e t tr} : v.HasVec form es → es[i]? = some x → e.form = x → e.env = env → e.result = some t →
      Vm.Quiet W (fun x => x = args) v e.pre → ¬ e.post.IsErr t → ArgsFail W args form env r w (i + 1) e.post tr →
      ArgsFail W args form env r w i v (e :: tr)

theorem ArgsFail.ends {form r : Ref} {i : Nat} {tr : List Event} {w' : Vm} (a : ArgsFail W args form env r w i v tr) (e : Ends w w') :
    ArgsFail W args form env r w' i v tr := by
  induction a with
  | failed h1 h2 h3 h4 h5 h6 h7 h8 => exact .failed h1 h2 h3 h4 h5 h6 h7 (h8.trans e)
  | next h1 h2 h3 h4 h5 h6 h7 _ ih => exact .next h1 h2 h3 h4 h5 h6 h7 ih

/-- adding a value to the arguments -/
theorem wp_heldAppend (k : Held W args xs env v) {r : Ref} (hr : v.Pub W (fun x => x = args) r) {Q : Unit → Vm → List Event → Prop}
    (hq : ∀ w, Held W args (xs ++ [r]) env w → Vm.Step W (fun x => x = args) (fun x => x = args) v w → w.stack = v.stack → Q () w []) :
    Wp W n h (Prog.append args r) v Q := by
  refine wp_append fun c es hc ho => ?_
  have hes : es = xs := by
    rcases k.vec with ⟨c', hc', ho'⟩ | e
    · obtain rfl := same_cell hc hc'
      rw [ho] at ho'; cases ho'; rfl
    · rw [e] at hc; cases hc
  subst hes
  have hold := k.closed.cells _ _ hc
  have g := (k.here (E := fun x => x = args)).change (d := { c with obj := .vec (es ++ [r]) }) (r := args) rfl (.inl rfl) hc rfl rfl
    ⟨by
      have := hold.obj
      rw [ho] at this
      intro x hx
      rcases List.mem_append.mp hx with hx | hx
      · exact this x hx
      · simp only [List.mem_singleton] at hx; subst hx; exact hr.1, hold.docstr, hold.docvec⟩
  refine hq _ ⟨g.sane, g.closed, .inl ⟨_, Mem.set_self .., rfl⟩, k.env, ?_⟩ g rfl
  intro x hx
  rcases List.mem_append.mp hx with hx | hx
  · exact k.pub x hx
  · simp only [List.mem_singleton] at hx; subst hx; exact hr

/-- evaluating the arguments -/
theorem argLoop_spec (hL : L.Safe) {form : Ref} {gen : Nat} : ∀ n i ts v0 v, Held W args ts env v →
    form ≠ args → v0.Old W form → Vm.Step W (fun x => x = args) (fun x => x = args) v0 v →
    ∀ a u t, handle W L n (.argLoop form gen args env i) v = .ok (a, u, t) →
    (a = none ∧ ∃ ts', ArgsFrom W args form env u i v0 t ts' ∧ Held W args (ts ++ ts') env u) ∨
      ∃ r, a = some r ∧ ArgsFail W args form env r u i v0 t := by
  intro n
  induction n with
  | zero => intro i ts v0 v _ _ _ _ a u t e; cases e
  | succ n ih =>
    intro i ts v0 v k hne of g a u t e
    have F : Fine W (handle W L n) := handler_fine hL n
    suffices H : Wp W n (handle W L n) (Prog.argTurn form gen args env i) v fun a u t =>
        (a = none ∧ ∃ ts', ArgsFrom W args form env u i v0 t ts' ∧ Held W args (ts ++ ts') env u) ∨
        ∃ r, a = some r ∧ ArgsFail W args form env r u i v0 t from H a u t (handle_succ (by simp) e)
    clear e a u t
    unfold Prog.argTurn Prog.payload
    refine wp_bind (wp_bind (wp_read fun c hc => ?_))
    simp only [List.nil_append]
    split
    case h_2 => exact wp_fail
    rename_i es ho
    split
    case isFalse => exact wp_fail
    refine wp_pure ?_
    simp only [List.nil_append]
    have hv0 : v0.HasVec form es := g.quiet.hasVec hne of ⟨c, hc, ho⟩
    cases hx : es[i]? with
    | none =>
      refine wp_pure (.inl ⟨rfl, [], .done hv0 (by simpa using hx) g.quiet, by simpa using k⟩)
    | some x =>
      simp only
      have px : v.Pub W (fun x => x = args) x := by
        have := (k.closed.pub _ _ hc hne).obj
        rw [ho] at this
        exact this x (List.mem_of_getElem? hx)
      refine wp_bind (wps_eval F g px k.env fun a w gw hs hp => wp_bind (wp_deref fun r hr => ?_))
      subst hr
      refine wp_bind (wp_read fun d hd => ?_)
      simp only [List.nil_append]
      split
      · rename_i m l ho'
        refine wp_bind (wp_annotate fun w2 h2 => wp_pure (.inr ⟨r, rfl, ?_⟩))
        exact .failed (e := ⟨x, env, v, some r, w⟩) hv0 hx rfl rfl rfl g.quiet ⟨m, l, d, hd, ho'⟩ h2
      · rename_i hno
        refine wp_bind (wp_heldAppend (k.good gw) (hp r rfl) fun w2 k2 g2 _ => wp_call fun a u t e => ?_)
        have nerr : ¬ w.IsErr r := by
          rintro ⟨m, l, c', hc', ho'⟩
          obtain rfl := same_cell hd hc'
          exact hno _ _ ho'
        simp only [List.nil_append, List.cons_append]
        rcases ih (i + 1) (ts ++ [r]) w w2 k2 hne ((of.mono g.quiet.births).mono gw.later.births) g2 a u t e with
          ⟨rfl, ts', h1, h2⟩ | ⟨r', rfl, h1⟩
        · exact .inl ⟨rfl, r :: ts', .next (e := ⟨x, env, v, some r, w⟩) hv0 hx rfl rfl rfl g.quiet nerr h1, by simpa using h2⟩
        · exact .inr ⟨r', rfl, .next (e := ⟨x, env, v, some r, w⟩) hv0 hx rfl rfl rfl g.quiet nerr h1⟩

/-- the builtin function in the value `op` has been called with the values `ts` -/
def CalledBuiltin (W : World) (L : Library) (op : Ref) (ts : List Ref) (env : Ref) (v : Vm) (r : Ref) (w : Vm) (tr : List Event) : Prop :=
  ∃ n args b u u1 b', Held W args ts env v ∧ args ∈ v.stack ∧ v.HasObj op (.builtin b) ∧
    run W n (handle W L n) (Prog.builtin L b args env) v = .ok (some r, u, tr) ∧ Ends u u1 ∧ u1.HasObj op (.builtin b') ∧
    Ends (if b' = .return then { u1 with functionReturn := some r } else u1) w

/-- a call of a builtin function whose operator has been evaluated to `op`, in the state `v` -/
def BuiltinCall (W : World) (L : Library) (form op env : Ref) (v : Vm) (r : Option Ref) (w : Vm) (tr : List Event) : Prop :=
  ∃ args v1, ¬ v.Old W args ∧ Vm.Quiet W (fun _ => False) v v1 ∧ v1.births = v.births + 1 ∧
    ((∃ x, r = some x ∧ ArgsFail W args form env x w 1 v1 tr) ∨
    ∃ tr1 tr2 ts u r', tr = tr1 ++ tr2 ∧ ArgsFrom W args form env u 1 v1 tr1 ts ∧ r = some r' ∧
      CalledBuiltin W L op ts env u r' w tr2)

theorem wp_builtinOf {op : Ref} {Q : Builtin → Vm → List Event → Prop} (hq : ∀ b, v.HasObj op (.builtin b) → Q b v []) :
    Wp W n h (Prog.builtinOf op) v Q := by
  unfold Prog.builtinOf
  refine wp_bind (wp_read fun c hc => ?_)
  split
  · exact wp_pure (hq _ ⟨c, hc, ‹_›⟩)
  · exact wp_fail

theorem Ends.builtin {op : Ref} {b b' : Builtin} (e : Ends v w) (h1 : v.HasObj op (.builtin b)) (h2 : w.HasObj op (.builtin b')) : b = b' := by
  have := (e.hasObj h1 (by simp)).unique h2
  cases this; rfl

theorem Vm.Closed.all {X : Ref → Prop} {v : Vm} (h : v.Closed W X) : v.Closed W (fun _ => False) := by
  have w : ∀ x, v.Old W x → v.Pub W (fun _ => False) x := fun _ hx => ⟨hx, id⟩
  exact ⟨h.cells, fun r c hc _ => (h.cells r c hc).mono w, h.stack, fun x hx => w x (h.ret x hx).1, fun which => w _ (h.roots which).1,
    fun _ h => h.elim⟩

theorem wp_callBuiltin (hL : L.Safe) (g : Vm.Step W (fun _ => False) (fun _ => False) v0 v) {form op : Ref} {gen : Nat}
    (of : v.Old W form) (oe : v.Old W env) (hb : v.births = v0.births) :
    Wp W n (handle W L n) (Prog.callBuiltin L form gen op env) v fun r w t => ∀ w', Ends w w' → BuiltinCall W L form op env v0 r w' t := by
  unfold Prog.callBuiltin
  refine wp_bind (wp_alloc g.sane fun args w a => ?_)
  have gw := g.hide a (by intro x hx; cases hx)
  refine wp_bind (wp_push ?_)
  have gw := gw.push a.old
  have up : ∀ x, v.Old W x → ({ w with stack := args :: w.stack } : Vm).Pub W (fun x => x = args) x := fun x hx =>
    ⟨hx.mono (by rw [a.births]; omega), fun e => a.fresh (e ▸ hx)⟩
  have fresh0 : ¬ v0.Old W args := fun hh => a.fresh (hh.mono g.quiet.births)
  have k : Held W args [] env { w with stack := args :: w.stack } :=
    ⟨gw.sane, gw.closed, .inl ⟨_, a.cell, rfl⟩, up _ oe, by simp⟩
  have hbirths : ({ w with stack := args :: w.stack } : Vm).births = v0.births + 1 := by
    show w.births = _
    rw [a.births, hb]
  refine wp_bind (wp_call fun a1 u t e => ?_)
  simp only [List.nil_append]
  have top : args ∈ u.stack := by
    have := (handler_fine hL n).spec (fun _ => False) (.argLoop form gen args env 1) { w with stack := args :: w.stack } (args :: w.stack) gw.sane
      gw.closed.all (by simp [Call.refs, Vm.Pub, (up _ of).1, (up _ oe).1, gw.closed.stack args (by simp)]) rfl
    have e1 := e
    unfold handle at e1
    rw [e1] at this
    have e2 : u.stack = args :: w.stack := this.2.1
    rw [e2]; simp
  rcases argLoop_spec hL n 1 [] _ _ k (fun e => a.fresh (e ▸ of)) (up _ of).1 k.here a1 u t e with ⟨rfl, ts, h1, h2⟩ | ⟨r, rfl, h1⟩
  · simp only [List.nil_append] at h2
    refine wp_bind (wp_builtinOf fun b hb => ?_)
    refine wp_bind ?_
    intro x u1 t1 hrun
    refine wp_bind (wp_require fun r hr => ?_)
    subst hr
    refine wp_bind (wp_annotateError fun u2 he => wp_bind (wp_builtinOf fun b' hb' => ?_))
    simp only [List.nil_append]
    split
    · rename_i hret
      refine wp_bind (wp_setReturn (wp_bind (wp_pop fun s hs => wp_pure ?_)))
      intro w' hw'
      refine ⟨args, _, fresh0, gw.quiet, hbirths, .inr ⟨t, t1, ts, u, r, by simp, h1, rfl, n, args, b, u1, u2, b', h2, top, hb, hrun, he, hb', ?_⟩⟩
      rw [if_pos hret]
      exact Ends.pop.trans hw'
    · rename_i hret
      refine wp_bind (wp_pop fun s hs => wp_pure ?_)
      intro w' hw'
      refine ⟨args, _, fresh0, gw.quiet, hbirths, .inr ⟨t, t1, ts, u, r, by simp, h1, rfl, n, args, b, u1, u2, b', h2, top, hb, hrun, he, hb', ?_⟩⟩
      rw [if_neg hret]
      exact Ends.pop.trans hw'
  · refine wp_bind (wp_pop fun s hs => wp_pure ?_)
    intro w' hw'
    refine ⟨args, _, fresh0, gw.quiet, hbirths, .inl ⟨r, rfl, ?_⟩⟩
    simp only [List.append_nil]
    exact h1.ends (Ends.pop.trans hw')

/-! ### binding the formals -/

/-- the environment with the bindings `bs` binds the names to the values: each name to the value at the same
position (the last one, if the name occurs several times), and nothing else -/
structure BoundTo (names : List Text) (vals : List Ref) (bs : List Binding) : Prop where
  each : ∀ (i : Nat) (name : Text), names[i]? = some name → (∀ j : Nat, i < j → names[j]? ≠ some name) →
    ∃ b, bs.find? (fun b => b.name = name) = some b ∧ vals[i]? = some b.val
  only : ∀ b ∈ bs, b.name ∈ names

theorem BoundTo.nil {vals : List Ref} : BoundTo [] vals [] := ⟨by simp, by simp⟩

theorem find_setBinding (bs : List Binding) (b : Binding) (name : Text) :
    (Prog.setBinding bs b).find? (fun x => x.name = name) = if b.name = name then some b else bs.find? (fun x => x.name = name) := by
  unfold Prog.setBinding
  rw [List.find?_append]
  by_cases hb : b.name = name
  · have : (bs.filter fun x => x.name ≠ b.name).find? (fun x => x.name = name) = none := by
      rw [List.find?_eq_none]
      intro x hx
      simp only [List.mem_filter, decide_eq_true_eq] at hx
      simp only [decide_eq_true_eq]
      rw [← hb]
      simpa using hx.2
    rw [this]
    simp [hb]
  · rw [if_neg hb]
    have : (bs.filter fun x => x.name ≠ b.name).find? (fun x => x.name = name) = bs.find? (fun x => x.name = name) := by
      rw [List.find?_filter]
      congr 1
      funext x
      by_cases hx : x.name = name
      · have : x.name ≠ b.name := fun e => hb (e ▸ hx)
        simp [hx, hx ▸ this]
      · simp [hx]
    rw [this]
    cases h : bs.find? (fun x => x.name = name) with
    | none => simp [hb]
    | some y => simp

theorem mem_setBinding {bs : List Binding} {b x : Binding} (h : x ∈ Prog.setBinding bs b) : x = b ∨ x ∈ bs := by
  unfold Prog.setBinding at h
  rcases List.mem_append.mp h with h | h
  · exact .inr (List.mem_filter.mp h).1
  · simp only [List.mem_singleton] at h; exact .inl h

theorem BoundTo.snoc {names : List Text} {vals : List Ref} {bs : List Binding} (b : BoundTo names vals bs)
    (hl : vals.length = names.length) (name : Text) (key val : Ref) :
    BoundTo (names ++ [name]) (vals ++ [val]) (Prog.setBinding bs ⟨name, key, val⟩) where
  each := by
    intro i nm hi hlast
    rw [find_setBinding]
    by_cases hn : name = nm
    · rw [if_pos hn]
      refine ⟨_, rfl, ?_⟩
      have : i = names.length := by
        rcases Nat.lt_trichotomy i names.length with h | h | h
        · exact absurd (by simp [hn]) (hlast names.length h)
        · exact h
        · rw [List.getElem?_eq_none (by simp; omega)] at hi; cases hi
      rw [this, ← hl]; simp
    · rw [if_neg hn]
      have hlt : i < names.length := by
        rcases Nat.lt_trichotomy i names.length with h | h | h
        · exact h
        · subst h; simp at hi; exact absurd hi hn
        · rw [List.getElem?_eq_none (by simp; omega)] at hi; cases hi
      rw [List.getElem?_append_left hlt] at hi
      obtain ⟨c, h1, h2⟩ := b.each i nm hi fun j hj e => hlast j hj (by
        have : j < names.length := by
          by_contra hh
          rw [List.getElem?_eq_none (by omega)] at e; cases e
        rw [List.getElem?_append_left this]; exact e)
      exact ⟨c, h1, by rw [List.getElem?_append_left (by omega)]; exact h2⟩
  only := fun x hx => by
    rcases mem_setBinding hx with rfl | hx
    · simp
    · simp [b.only x hx]

/-- the names of the formals -/
def Vm.Names (v : Vm) (fs : List Ref) (names : List Text) : Prop := List.Forall₂ (fun f s => v.HasObj f (.sym s)) fs names

theorem wp_formalNames : ∀ (fs : List Ref) {Q : List Text → Vm → List Event → Prop},
    (∀ names, v.Names fs names → Q names v []) → Wp W n h (Prog.formalNames fs) v Q := by
  intro fs
  induction fs with
  | nil => intro Q hq; exact wp_pure (hq [] .nil)
  | cons f fs ih =>
    intro Q hq
    unfold Prog.formalNames
    refine wp_bind (wp_read fun c hc => ?_)
    split
    · rename_i s ho
      exact wp_bind (ih fun names hn => wp_pure (hq _ (.cons ⟨c, hc, ho⟩ hn)))
    · exact wp_fail

/-- binding a name in an environment -/
theorem wp_envSet {e key val : Ref} {Q : Unit → Vm → List Event → Prop}
    (hq : ∀ c bs enc name, v.mem e = some c → c.obj = .env bs enc → v.HasObj key (.sym name) →
      Q () { v with mem := v.mem.set e { c with obj := .env (Prog.setBinding bs ⟨name, key, val⟩) enc } } []) :
    Wp W n h (Prog.envSet e key val) v Q := by
  unfold Prog.envSet
  refine wp_bind (wp_read fun c hc => ?_)
  split
  · rename_i name ho
    refine wp_bind (wp_read fun d hd => ?_)
    split
    · rename_i bs enc ho'
      refine wp_setObj fun d' hd' => ?_
      obtain rfl := same_cell hd hd'
      exact hq d bs enc name hd ho' ⟨c, hc, ho⟩
    · exact wp_fail
  · exact wp_fail

theorem forall₂_imp {α β : Type} {R S : α → β → Prop} (hRS : ∀ a b, R a b → S a b) {as : List α} {bs : List β}
    (h : List.Forall₂ R as bs) : List.Forall₂ S as bs := by
  induction h with
  | nil => exact .nil
  | cons h _ ih => exact .cons (hRS _ _ h) ih

/-- binding formals to values, in the environment `e`, which is new -/
theorem wp_bindFormals {X : Ref → Prop} {e : Ref} {enc : Option Ref} : ∀ (l : List (Ref × Ref)) (v : Vm) (names ns : List Text)
    (vals : List Ref) (bs : List Binding) (c : Cell) {Q : Unit → Vm → List Event → Prop}, Vm.Step W X E v0 v → ¬ v0.Old W e → ¬ X e →
    v.mem e = some c → c.obj = .env bs enc → BoundTo names vals bs → vals.length = names.length →
    List.Forall₂ (fun p s => v.HasObj p.1 (.sym s)) l ns → (∀ p ∈ l, v.Pub W X p.1 ∧ v.Pub W X p.2) →
    (∀ w bs c, Vm.Step W X E v0 w → w.mem e = some c → c.obj = .env bs enc → BoundTo (names ++ ns) (vals ++ l.map (·.2)) bs →
      (∀ x, x ≠ e → w.mem x = v.mem x) → w.births = v.births → w.stack = v.stack → Q () w []) →
    Wp W n h (Prog.bindFormals e l) v Q := by
  intro l
  induction l with
  | nil =>
    intro v names ns vals bs c Q g fresh hx hc ho hb hlen hl _ hq
    cases hl
    exact wp_pure (hq v bs c g hc ho (by simpa using hb) (fun _ _ => rfl) rfl rfl)
  | cons p l ih =>
    intro v names ns vals bs c Q g fresh hx hc ho hb hlen hl hpub hq
    obtain ⟨k, val⟩ := p
    cases hl with
    | @cons _ s _ ns h1 h2 =>
    unfold Prog.bindFormals
    refine wp_bind (wp_envSet fun c' bs' enc' name hc' ho' hk => ?_)
    obtain rfl := same_cell hc hc'
    rw [ho] at ho'
    cases ho'
    have := hk.unique h1
    cases this
    have pl := (g.closed.pub _ _ hc hx)
    have ol := pl.obj
    rw [ho] at ol
    have g' := g.modify (d := { c with obj := .env (Prog.setBinding bs ⟨s, k, val⟩) enc }) (.inr fresh) hc rfl rfl
      ⟨⟨fun b hb' => by
          rcases mem_setBinding hb' with rfl | hb'
          · exact hpub (k, val) (by simp)
          · exact ol.1 b hb', ol.2⟩, pl.docstr, pl.docvec⟩
    refine ih _ (names ++ [s]) ns (vals ++ [val]) _ _ g' fresh hx (Mem.set_self ..) rfl (hb.snoc hlen s k val) (by simp [hlen]) ?_ ?_ ?_
    · refine forall₂_imp (fun p s' ⟨d, hd, hd'⟩ => ?_) h2
      have : p.1 ≠ e := by rintro rfl; rw [hc] at hd; cases hd; rw [ho] at hd'; cases hd'
      exact ⟨d, (Mem.set_other _ _ this).trans hd, hd'⟩
    · exact fun p hp => hpub p (List.mem_cons_of_mem _ hp)
    · intro w bs c' gw hw hw' hb' hrest hbirths hstack
      refine hq w bs c' gw hw hw' (by simpa using hb') (fun x hx' => ?_) hbirths hstack
      rw [hrest x hx']; exact Mem.set_other _ _ hx'

/-- a function with the formals `names` accepts `k` arguments -/
def Accepts (names : List Text) (k : Nat) : Prop :=
  txt "..." ∉ names ∧ k = names.length ∨ ∃ ns m, names = ns ++ [m, txt "..."] ∧ txt "..." ∉ ns ++ [m] ∧ ns.length ≤ k

/-- In the state `w`, `e` is an environment enclosed by `enc` that binds the formals `names` to the arguments
`ts`.  With a formal `m ...` at the end, `m` is bound to a new vector of the remaining arguments. -/
inductive Extended (W : World) (v : Vm) (names : List Text) (ts : List Ref) (e enc : Ref) (w : Vm) : Prop
  | plain {bs} : txt "..." ∉ names → ts.length = names.length → BoundTo names ts bs → w.HasObj e (.env bs (some enc)) →
      Extended W v names ts e enc w
  | rest {ns m r bs} : names = ns ++ [m, txt "..."] → txt "..." ∉ ns ++ [m] → ns.length ≤ ts.length → ¬ v.Old W r →
      w.HasVec r (ts.drop ns.length) → BoundTo (ns ++ [m]) (ts.take ns.length ++ [r]) bs → w.HasObj e (.env bs (some enc)) →
      Extended W v names ts e enc w

theorem Extended.accepts {names : List Text} {ts : List Ref} {e enc : Ref} (x : Extended W v names ts e enc w) :
    Accepts names ts.length := by
  cases x with
  | plain h1 h2 => exact .inl ⟨h1, h2⟩
  | rest h1 h2 h3 => exact .inr ⟨_, _, h1, h2, h3⟩

theorem takeWhile_all {d : Text} {names : List Text} (h : d ∉ names) : names.takeWhile (· ≠ d) = names := by
  induction names with
  | nil => rfl
  | cons x l ih =>
    simp only [List.mem_cons, not_or] at h
    rw [List.takeWhile_cons_of_pos (by simpa using fun e => h.1 e.symm), ih h.2]

theorem takeWhile_dots {d m : Text} {ns : List Text} (h : d ∉ ns ++ [m]) : (ns ++ [m, d]).takeWhile (· ≠ d) = ns ++ [m] := by
  have e : ns ++ [m, d] = (ns ++ [m]) ++ [d] := by simp
  rw [e]
  have : ∀ l : List Text, d ∉ l → (l ++ [d]).takeWhile (· ≠ d) = l := by
    intro l
    induction l with
    | nil => simp
    | cons x l ih =>
      intro h
      simp only [List.mem_cons, not_or] at h
      rw [List.cons_append, List.takeWhile_cons_of_pos (by simpa using fun e => h.1 e.symm), ih h.2]
  exact this _ h

theorem not_mem_takeWhile (d : Text) : ∀ l : List Text, d ∉ l.takeWhile (· ≠ d) := by
  intro l
  induction l with
  | nil => simp
  | cons x l ih =>
    by_cases hx : x = d
    · simp [List.takeWhile_cons, hx]
    · simp only [List.takeWhile_cons, ne_eq, hx, not_false_eq_true, decide_true, if_true, List.mem_cons, not_or]
      exact ⟨fun e => hx e.symm, by simpa using ih⟩

theorem forall₂_len {α β : Type} {R : α → β → Prop} {l : List α} {m : List β} (h : List.Forall₂ R l m) : l.length = m.length := by
  induction h with
  | nil => rfl
  | cons _ _ ih => simp [ih]

theorem names_shape {d : Text} : ∀ {names : List Text}, names.count d = 1 →
    names.length - (names.takeWhile (· ≠ d)).length - 1 = 0 → (names.takeWhile (· ≠ d)).length ≠ 0 →
    ∃ ns m, names = ns ++ [m, d] ∧ d ∉ ns ++ [m] := by
  intro names h1 h2 h3
  have hs : names = names.takeWhile (· ≠ d) ++ names.dropWhile (· ≠ d) := (List.takeWhile_append_dropWhile).symm
  have hno : d ∉ names.takeWhile (· ≠ d) := by
    exact not_mem_takeWhile d names
  generalize names.takeWhile (· ≠ d) = p at hs h2 h3 hno
  have hne : names.dropWhile (· ≠ d) ≠ [] := by
    intro e
    rw [e, List.append_nil] at hs
    subst hs
    rw [List.count_eq_zero_of_not_mem hno] at h1
    cases h1
  have hhead : ∀ y q, names.dropWhile (· ≠ d) = y :: q → y = d := by
    intro y q e
    by_contra hy
    have hne' : names.dropWhile (fun x => decide (x ≠ d)) ≠ [] := by rw [e]; simp
    have h := List.head_dropWhile_not (fun x => decide (x ≠ d)) hne'
    have : ∀ (l : List Text) (hl : l ≠ []), l = y :: q → l.head hl = y := by rintro _ _ rfl; rfl
    rw [this _ hne' e] at h
    simp [hy] at h
  generalize names.dropWhile (· ≠ d) = q at hs hne hhead
  obtain ⟨y, q, rfl⟩ : ∃ y q', q = y :: q' := by
    cases q with
    | nil => exact absurd rfl hne
    | cons y q' => exact ⟨y, q', rfl⟩
  obtain rfl := hhead y q rfl
  subst hs
  have : q = [] := by
    simp only [List.length_append, List.length_cons] at h2
    exact List.length_eq_zero_iff.mp (by omega)
  subst this
  have hp : p ≠ [] := fun e => h3 (by rw [e]; rfl)
  refine ⟨p.dropLast, p.getLast hp, ?_, ?_⟩
  · conv => lhs; rw [← List.dropLast_concat_getLast hp]
    simp
  · rw [List.dropLast_concat_getLast]; exact hno

theorem accepts_count {names : List Text} {k : Nat} (a : Accepts names k) : names.count (txt "...") ≤ 1 := by
  rcases a with ⟨h, _⟩ | ⟨ns, m, rfl, h, _⟩
  · rw [List.count_eq_zero_of_not_mem h]; omega
  · have : ns ++ [m, txt "..."] = (ns ++ [m]) ++ [txt "..."] := by simp
    rw [this, List.count_append, List.count_eq_zero_of_not_mem h]
    simp

theorem accepts_after {names : List Text} {k : Nat} (a : Accepts names k) :
    names.length - (names.takeWhile (· ≠ txt "...")).length - names.count (txt "...") = 0 := by
  rcases a with ⟨h, _⟩ | ⟨ns, m, rfl, h, _⟩
  · rw [takeWhile_all h]; omega
  · rw [takeWhile_dots h]
    have : ns ++ [m, txt "..."] = (ns ++ [m]) ++ [txt "..."] := by simp
    rw [this, List.count_append, List.count_eq_zero_of_not_mem h]
    simp

theorem accepts_normal {names : List Text} {k : Nat} (a : Accepts names k) :
    (names.takeWhile (· ≠ txt "...")).length - names.count (txt "...") ≤ k := by
  rcases a with ⟨h, rfl⟩ | ⟨ns, m, rfl, h, hk⟩
  · rw [takeWhile_all h]; omega
  · rw [takeWhile_dots h]
    have : ns ++ [m, txt "..."] = (ns ++ [m]) ++ [txt "..."] := by simp
    rw [this, List.count_append, List.count_eq_zero_of_not_mem h]
    simpa using hk

/-- filling a new vector -/
theorem wp_appendAll {X : Ref → Prop} {r : Ref} : ∀ (l pre : List Ref) (v : Vm) (c : Cell) {Q : Unit → Vm → List Event → Prop},
    Vm.Step W X E v0 v → ¬ v0.Old W r → ¬ X r → v.mem r = some c → c.obj = .vec pre → (∀ x ∈ l, v.Pub W X x) →
    (∀ w c', Vm.Step W X E v0 w → w.mem r = some c' → c'.obj = .vec (pre ++ l) → (∀ x, x ≠ r → w.mem x = v.mem x) →
      w.births = v.births → w.stack = v.stack → Q () w []) → Wp W n h (Prog.appendAll r l) v Q := by
  intro l
  induction l with
  | nil =>
    intro pre v c Q g _ _ hc ho _ hq
    exact wp_pure (hq v c g hc (by simpa using ho) (fun _ _ => rfl) rfl rfl)
  | cons x l ih =>
    intro pre v c Q g fresh hx hc ho hl hq
    unfold Prog.appendAll
    refine wp_bind (wp_append fun c' es hc' ho' => ?_)
    obtain rfl := same_cell hc hc'
    rw [ho] at ho'
    cases ho'
    have pl := g.closed.pub _ _ hc hx
    have ol := pl.obj
    rw [ho] at ol
    have g' := g.modify (d := { c with obj := .vec (pre ++ [x]) }) (.inr fresh) hc rfl rfl
      ⟨fun y hy => by
        rcases List.mem_append.mp hy with hy | hy
        · exact ol y hy
        · simp only [List.mem_singleton] at hy; subst hy; exact hl _ (by simp), pl.docstr, pl.docvec⟩
    refine ih (pre ++ [x]) _ _ g' fresh hx (Mem.set_self ..) rfl (fun y hy => hl y (List.mem_cons_of_mem _ hy)) ?_
    intro w c' gw hw hw' hrest hb hs
    refine hq w c' gw hw (by simpa using hw') (fun y hy => ?_) hb hs
    rw [hrest y hy]; exact Mem.set_other _ _ hy

/-- octaspire_dern_environment_extend -/
theorem wp_extend {ts : List Ref} (k : Held W args ts env v) (g : Vm.Step W (fun x => x = args) E v0 v) {formals e enc : Ref} {c : Cell}
    (fresh : ¬ v0.Old W e) (hx : e ≠ args) (hc : v.mem e = some c) (ho : c.obj = .env [] (some enc))
    (hf : v.Pub W (fun x => x = args) formals) {Q : Option Ref → Vm → List Event → Prop}
    (hok : ∀ fs names w, v.HasVec formals fs → v.Names fs names → Vm.Step W (fun x => x = args) E v0 w →
      Extended W v names ts e enc w → w.stack = v.stack → Q none w [])
    (herr : ∀ fs names r w, v.HasVec formals fs → v.Names fs names → ¬ Accepts names ts.length →
      Vm.Step W (fun x => x = args) E v0 w → w.IsErr r → ¬ v.Old W r → Q (some r) w []) :
    Wp W n h (Prog.extend e formals args) v Q := by
  unfold Prog.extend
  refine wp_bind (wp_read fun cf hcf => wp_bind (wp_read fun ca hca => ?_))
  have hes : ca.obj = .vec ts := by
    rcases k.vec with ⟨c', hc', ho'⟩ | e'
    · obtain rfl := same_cell hca hc'
      exact ho'
    · rw [e'] at hca; cases hca
  rw [hes]
  cases hof : cf.obj with
  | vec fs =>
    simp only [List.nil_append]
    have hfs : v.HasVec formals fs := ⟨cf, hcf, hof⟩
    have pfs : ∀ x ∈ fs, v.Pub W (fun x => x = args) x := by
      have := (k.closed.pub _ _ hcf hf.2).obj
      rw [hof] at this
      exact this
    refine wp_bind (wp_formalNames fs fun names hn => ?_)
    have hlen : names.length = fs.length := (forall₂_len hn).symm
    simp only [List.nil_append]
    have hd : Prog.dots = txt "..." := rfl
    rw [hd]
    split
    · rename_i h1
      refine wps_error g fun r w t gw hp hm fr => ?_
      exact herr fs names r w hfs hn (fun a => by have := accepts_count a; omega) gw ⟨_, _, _, hm, rfl⟩ fr
    · rename_i h1
      split
      · rename_i h2
        refine wps_error g fun r w t gw hp hm fr => ?_
        exact herr fs names r w hfs hn (fun a => by have := accepts_after a; omega) gw ⟨_, _, _, hm, rfl⟩ fr
      · rename_i h2
        split
        · exact wp_fail
        · rename_i h3
          split
          · rename_i h4
            refine wps_error g fun r w t gw hp hm fr => ?_
            exact herr fs names r w hfs hn (fun a => by have := accepts_normal a; omega) gw ⟨_, _, _, hm, rfl⟩ fr
          · rename_i h4
            unfold Prog.bindArgs
            generalize hnormal : (names.takeWhile (· ≠ txt "...")).length - names.count (txt "...") = normal at h4 ⊢
            have hnl : normal ≤ names.length := by
              have := (List.takeWhile_prefix (fun x => decide (x ≠ txt "...")) (l := names)).length_le
              omega
            have hn2 : List.Forall₂ (fun (p : Ref × Ref) s => v.HasObj p.1 (.sym s)) ((fs.take normal).zip (ts.take normal)) (names.take normal) := by
              have := hn
              clear hnormal
              have hts : normal ≤ ts.length := by omega
              clear h4 hes k hok herr hn pfs hfs hof h1 h2 h3
              induction normal generalizing fs names ts with
              | zero => simp
              | succ j ih =>
                cases this with
                | nil => simp at hnl
                | cons ha hb =>
                  cases ts with
                  | nil => simp at hts
                  | cons t ts =>
                    simp only [List.take_succ_cons, List.zip_cons_cons]
                    refine .cons ha (ih _ _ (forall₂_len hb).symm ?_ hb ?_)
                    · simp at hnl; omega
                    · simp at hts; omega
            have hvals : ((fs.take normal).zip (ts.take normal)).map (·.2) = ts.take normal := by
              rw [List.map_snd_zip]; simp; omega
            refine wp_bind (wp_bindFormals (X := fun x => x = args) (E := E) (enc := some enc) ((fs.take normal).zip (ts.take normal)) v [] (names.take normal)
              [] [] c g fresh hx hc ho .nil rfl hn2 ?_ ?_)
            · intro p hp
              have := List.of_mem_zip (a := p.1) (b := p.2) hp
              exact ⟨pfs _ (List.mem_of_mem_take this.1), k.pub _ (List.mem_of_mem_take this.2)⟩
            · intro w bs c2 gw hw hw' hb hrest hbirths hstack
              rw [hvals] at hb
              simp only [List.nil_append] at hb ⊢
              have hcount : names.count (txt "...") = 0 ∨ names.count (txt "...") = 1 := by omega
              split
              · rename_i h5
                obtain ⟨h5, h6⟩ := h5
                have h6 : names.count (txt "...") = 0 := by
                  rcases hcount with h | h
                  · exact h
                  · simp [h] at h6
                have hno : txt "..." ∉ names := List.count_eq_zero.mp h6
                have hnorm : normal = names.length := by rw [← hnormal, takeWhile_all hno, h6]; omega
                have h7 : ts.length ≤ normal := by simpa using h5
                refine wp_pure (hok fs names w hfs hn gw (.plain hno (by omega) ?_ ⟨c2, hw, hw'⟩) hstack)
                rw [List.take_of_length_le (by omega), List.take_of_length_le (by omega)] at hb
                exact hb
              · rename_i h5
                split
                · rename_i h6
                  have h6 : names.count (txt "...") = 0 := by
                    rcases hcount with h | h
                    · exact h
                    · simp [h] at h6
                  have hno : txt "..." ∉ names := List.count_eq_zero.mp h6
                  have hnorm : normal = names.length := by rw [← hnormal, takeWhile_all hno, h6]; omega
                  refine wps_error gw fun r w t gw hp hm fr => ?_
                  refine herr fs names r w hfs hn ?_ gw ⟨_, _, _, hm, rfl⟩ fun hh => fr (hh.mono (Nat.le_of_eq hbirths.symm))
                  rintro (⟨_, hk⟩ | ⟨ns, m, rfl, _⟩)
                  · exact h5 ⟨by simp; omega, by simp [h6]⟩
                  · simp at hno
                · rename_i h6
                  have h6 : names.count (txt "...") = 1 := by
                    rcases hcount with h | h
                    · simp [h] at h6
                    · exact h
                  obtain ⟨ns, m, rfl, hno⟩ := names_shape h6 (by omega) fun h7 => h3 ⟨h6, h7⟩
                  have hnorm : normal = ns.length := by
                    rw [← hnormal, takeWhile_dots hno, h6]; simp
                  subst hnorm
                  have htake : (ns ++ [m, txt "..."]).take ns.length = ns := by simp
                  rw [htake] at hb
                  have hidx : fs.length - 2 = ns.length := by
                    have : fs.length = ns.length + 2 := by rw [← hlen]; simp
                    omega
                  rw [hidx]
                  have hf1 : ∃ f, fs[ns.length]? = some f ∧ v.HasObj f (.sym m) := by
                    have hlt : ns.length < fs.length := by rw [← hlen]; simp
                    refine ⟨fs[ns.length], by simp [hlt], ?_⟩
                    have : ∀ {l : List Ref} {ss : List Text}, List.Forall₂ (fun f s => v.HasObj f (.sym s)) l ss →
                        ∀ (i : Nat) f s, l[i]? = some f → ss[i]? = some s → v.HasObj f (.sym s) := by
                      intro l ss hh
                      induction hh with
                      | nil => intro i f s h; simp at h
                      | cons h1 _ ih =>
                        intro i f s hf hs
                        cases i with
                        | zero => simp at hf hs; subst hf hs; exact h1
                        | succ i => simp at hf hs; exact ih i f s hf hs
                    exact this hn ns.length _ m (by simp [hlt]) (by simp)
                  obtain ⟨f, hf1, hf2⟩ := hf1
                  rw [hf1]
                  simp only
                  refine wp_bind (wp_alloc gw.sane fun r w2 a => ?_)
                  have g2 := gw.alloc a (by intro x hx; cases hx)
                  have kr : ¬ v0.Old W r := fun hh => a.fresh (hh.mono gw.quiet.births)
                  have oa : w.Old W args := gw.closed.known args rfl
                  have ra : r ≠ args := by rintro rfl; exact a.fresh oa
                  have re : r ≠ e := by rintro rfl; exact a.fresh (gw.sane.old _ _ hw)
                  have up : ∀ x, v.Pub W (fun x => x = args) x → w2.Pub W (fun x => x = args) x := fun x hx =>
                    hx.mono (by rw [a.births, hbirths]; omega)
                  refine wp_bind (wp_appendAll _ [] w2 _ g2 kr ra a.cell rfl (fun x hx => up x (k.pub x (List.mem_of_mem_drop hx))) ?_)
                  intro w3 c3 g3 hr3 hr3' hrest3 hb3 hs3
                  refine wp_bind (wp_envSet fun c4 bs4 enc4 name hc4 ho4 hk4 => wp_pure ?_)
                  have pf := pfs f (List.mem_of_getElem? hf1)
                  have hname : name = m := by
                    obtain ⟨cf', hcf', hof'⟩ := hk4
                    have ne1 : f ≠ r := fun e => a.fresh (by rw [← e]; exact pf.1.mono (Nat.le_of_eq hbirths.symm))
                    have ne2 : f ≠ e := by
                      rintro rfl
                      obtain ⟨cx, hcx, hox⟩ := hf2
                      rw [hc] at hcx; cases hcx
                      rw [ho] at hox; cases hox
                    rw [hrest3 f ne1] at hcf'
                    rcases a.some hcf' with ⟨e', _⟩ | ⟨_, hcf'⟩
                    · exact absurd e' ne1
                    · rw [hrest f ne2] at hcf'
                      obtain ⟨cx, hcx, hox⟩ := hf2
                      rw [hcf'] at hcx; cases hcx
                      rw [hof'] at hox; cases hox; rfl
                  subst hname
                  have he3 := hc4
                  rw [hrest3 e (Ne.symm re)] at hc4
                  rcases a.some hc4 with ⟨e', _⟩ | ⟨_, hc4⟩
                  · exact absurd e'.symm re
                  rw [hw] at hc4
                  cases hc4
                  rw [hw'] at ho4
                  cases ho4
                  have pl := g3.closed.pub _ _ he3 hx
                  have ol := pl.obj
                  rw [hw'] at ol
                  have g4 := g3.modify (d := { c2 with obj := .env (Prog.setBinding bs ⟨name, f, r⟩) (some enc) }) (.inr fresh) he3 rfl rfl
                    ⟨⟨fun b hb' => by
                      rcases mem_setBinding hb' with rfl | hb'
                      · exact ⟨(up f pf).mono (Nat.le_of_eq hb3.symm), ⟨g3.sane.old _ _ hr3, ra⟩⟩
                      · exact ol.1 b hb', ol.2⟩, pl.docstr, pl.docvec⟩
                  refine hok fs _ _ hfs hn g4 (.rest rfl hno (by omega) (fun hh => a.fresh (hh.mono (Nat.le_of_eq hbirths.symm))) ?_
                    (hb.snoc (by simp; omega) name f r) ⟨_, Mem.set_self .., rfl⟩) ?_
                  · exact ⟨c3, (Mem.set_other _ _ re).trans hr3, by simpa using hr3'⟩
                  · show w3.stack = _
                    rw [hs3, a.stack, hstack]
  | _ => exact wp_fail

end Dern
