import Verif.Dern.Steps
/-
What an evaluation of a call that returns has done.
-/
namespace Dern
open Prog (Library)
variable {W : World} {X E : Ref → Prop} {n : Nat} {h : Handler} {v0 v w u : Vm} {L : Library}

/-- nothing noticeable happens between the evaluations of a trace, from the state `v` to the state `w` -/
def Linked (W : World) (E : Ref → Prop) : Vm → List Event → Vm → Prop
  | v, [], w => Vm.Quiet W E v w
  | v, e :: es, w => Vm.Quiet W E v e.pre ∧ Linked W E e.post es w

/-- the same with the invariants at the end -/
def Link (W : World) (X E : Ref → Prop) : Vm → List Event → Vm → Prop
  | v, [], w => Vm.Step W X E v w
  | v, e :: es, w => Vm.Quiet W E v e.pre ∧ Link W X E e.post es w

theorem Link.linked : ∀ {tr : List Event} {v : Vm}, Link W X E v tr w → Linked W E v tr w
  | [], _, g => g.quiet
  | _ :: _, _, g => ⟨g.1, Link.linked g.2⟩

theorem Link.sane : ∀ {tr : List Event} {v : Vm}, Link W X E v tr w → w.Sane W
  | [], _, g => Vm.Step.sane g
  | _ :: _, _, g => Link.sane g.2

theorem Link.closed : ∀ {tr : List Event} {v : Vm}, Link W X E v tr w → w.Closed W X
  | [], _, g => Vm.Step.closed g
  | _ :: _, _, g => Link.closed g.2

theorem Link.here {tr : List Event} (g : Link W X E v tr w) : Vm.Step W X E w w := .refl g.sane g.closed

theorem Vm.Step.trans {X' : Ref → Prop} (g : Vm.Step W X E v w) (g' : Vm.Step W X' E w u) : Vm.Step W X' E v u :=
  ⟨g.sane0, g'.sane, g'.closed, g.quiet.trans g.sane0 g'.quiet⟩

theorem Link.go {X' : Ref → Prop} : ∀ {tr : List Event} {v : Vm}, Link W X E v tr w → Vm.Step W X' E w u → Link W X' E v tr u
  | [], _, g, s => Vm.Step.trans g s
  | _ :: _, _, g, s => ⟨g.1, Link.go g.2 s⟩

theorem Link.event : ∀ {tr : List Event} {v : Vm} {x env : Ref} {a : Option Ref}, Link W X E v tr w → Vm.Good W X w u →
    Link W X E v (tr ++ [⟨x, env, w, a, u⟩]) u
  | [], _, _, _, _, g, s => ⟨Vm.Step.quiet g, s.step⟩
  | _ :: _, _, _, _, _, g, s => ⟨g.1, Link.event g.2 s⟩

theorem Linked.go : ∀ {tr : List Event} {v : Vm}, Link W X E v tr w → (∀ v0, Vm.Step W X E v0 w → Vm.Quiet W E v0 u) →
    Linked W E v tr u
  | [], _, g, s => s _ g
  | _ :: _, _, g, s => ⟨g.1, Linked.go g.2 s⟩

/-- collecting the unevaluated arguments of a special form -/
theorem wp_specialArgs {args : Ref} : ∀ (xs pre : List Ref) (v : Vm) {c0 : Cell},
    v.mem args = some c0 → c0.obj = .vec pre → Wp W n h (Prog.specialArgs args xs) v fun e w t => t = [] ∧
      ((e = none ∧ (∀ x ∈ xs, x ≠ args → ∃ c, v.mem x = some c ∧ ∀ m l, c.obj ≠ .err m l) ∧
        w = { v with mem := v.mem.set args { c0 with obj := .vec (pre ++ xs) } }) ∨
      ∃ x ys zs c m l, e = some x ∧ xs = ys ++ x :: zs ∧ x ≠ args ∧ v.mem x = some c ∧ c.obj = .err m l ∧
        w = { v with mem := v.mem.set args { c0 with obj := .vec (pre ++ ys) } }) := by
  intro xs
  induction xs with
  | nil =>
    intro pre v c0 h0 ho
    refine wp_pure ⟨rfl, .inl ⟨rfl, by simp, ?_⟩⟩
    have : v.mem = v.mem.set args { c0 with obj := .vec (pre ++ []) } := by
      funext x
      by_cases hx : x = args
      · subst hx; rw [Mem.set_self, h0, List.append_nil, ← ho]
      · rw [Mem.set_other _ _ hx]
    rw [← this]
  | cons x xs ih =>
    intro pre v c0 h0 ho
    unfold Prog.specialArgs
    refine wp_bind (wp_read fun c hc => ?_)
    split
    · rename_i m l hm
      have hx : x ≠ args := by rintro rfl; rw [h0] at hc; cases hc; rw [ho] at hm; cases hm
      refine wp_pure ⟨rfl, .inr ⟨x, [], xs, c, m, l, rfl, rfl, hx, hc, hm, ?_⟩⟩
      have : v.mem = v.mem.set args { c0 with obj := .vec (pre ++ []) } := by
        funext y
        by_cases hy : y = args
        · subst hy; rw [Mem.set_self, h0, List.append_nil, ← ho]
        · rw [Mem.set_other _ _ hy]
      rw [← this]
    · rename_i hm
      refine wp_bind (wp_append fun c' es hc' ho' => ?_)
      rw [h0] at hc'; cases hc'
      rw [ho] at ho'; cases ho'
      refine Wp.mono (ih (pre ++ [x]) _ (c0 := { c0 with obj := .vec (pre ++ [x]) }) (Mem.set_self ..) rfl) ?_
      rintro e w t ⟨rfl, hr⟩
      refine ⟨rfl, ?_⟩
      rcases hr with ⟨rfl, h1, rfl⟩ | ⟨y, ys, zs, d, m, l, rfl, rfl, hy, hd, hm', rfl⟩
      · refine .inl ⟨rfl, ?_, ?_⟩
        · intro y hy hne
          rcases List.mem_cons.mp hy with rfl | hy
          · exact ⟨c, hc, fun m l e => hm m l e⟩
          · obtain ⟨d, hd, hd'⟩ := h1 y hy hne
            exact ⟨d, by rw [← hd]; exact (Mem.set_other _ _ hne).symm, hd'⟩
        · have : ∀ (d e : Cell), (v.mem.set args d).set args e = v.mem.set args e := by
            intro d e; funext y; unfold Mem.set; split <;> rfl
          simp [this]
      · refine .inr ⟨y, x :: ys, zs, d, m, l, rfl, rfl, hy, by rw [← hd]; exact (Mem.set_other _ _ hy).symm, hm', ?_⟩
        have : ∀ (d e : Cell), (v.mem.set args d).set args e = v.mem.set args e := by
          intro d e; funext y; unfold Mem.set; split <;> rfl
        simp [this]

/-- nothing is collected or changed, except that errors may get longer messages -/
def Vm.Stays (v w : Vm) : Prop := ∀ r c, v.mem r = some c → w.mem r = some c ∨
  ∃ m t l, c.obj = .err m l ∧ w.mem r = some { c with obj := .err (m ++ t) l }

theorem Vm.Stays.same {v w : Vm} (h : w.mem = v.mem) : v.Stays w := fun r c hc => .inl (by rw [h]; exact hc)

theorem Vm.Stays.refl (v : Vm) : v.Stays v := .same rfl

theorem Vm.Stays.trans {v w u : Vm} (h1 : v.Stays w) (h2 : w.Stays u) : v.Stays u := by
  intro r c hc
  rcases h1 r c hc with e | ⟨m, t, l, ho, e⟩
  · exact h2 r c e
  · rcases h2 r _ e with e' | ⟨m', t', l', ho', e'⟩
    · exact .inr ⟨m, t, l, ho, e'⟩
    · simp only [Obj.err.injEq] at ho'
      obtain ⟨rfl, rfl⟩ := ho'
      exact .inr ⟨m, t ++ t', l, ho, by rw [e']; simp⟩

theorem Vm.Stays.annotate {v w : Vm} {r : Ref} {c : Cell} {m t : Text} {l : Nat} (hc : v.mem r = some c)
    (ho : c.obj = .err m l) (hw : w.mem = v.mem.set r { c with obj := .err (m ++ t) l }) : v.Stays w := by
  intro x d hd
  by_cases hx : x = r
  · subst hx
    rw [hc] at hd; cases hd
    exact .inr ⟨m, t, l, ho, by rw [hw]; exact Mem.set_self ..⟩
  · exact .inl (by rw [hw, Mem.set_other _ _ hx]; exact hd)

theorem Vm.Closed.open' (c : v.Closed W X) : v.Closed W (fun _ => False) where
  cells := c.cells
  pub := fun r d hd _ => (c.cells r d hd).mono fun _ h => ⟨h, id⟩
  stack := c.stack
  ret := c.ret.mono fun _ h => ⟨h.1, id⟩
  roots := fun which => ⟨(c.roots which).1, id⟩
  known := fun _ h => h.elim

theorem Vm.Step.open' (g : Vm.Step W X E v w) : Vm.Step W (fun _ => False) E v w := ⟨g.sane0, g.sane, g.closed.open', g.quiet⟩

/-- Nothing happens any more, except that errors may get longer messages. -/
structure Ends (v w : Vm) : Prop where
  births : w.births = v.births
  stays : v.Stays w
  gone : ∀ r, v.mem r = none → w.mem r = none
  ret : w.functionReturn = v.functionReturn
  quit : w.quit = v.quit
  exitCode : w.exitCode = v.exitCode
  out : w.out = v.out
  roots : ∀ which, w.root which = v.root which
  readably : w.readably = v.readably := by rfl

theorem Ends.refl (v : Vm) : Ends v v := ⟨rfl, .refl v, fun _ h => h, rfl, rfl, rfl, rfl, fun _ => rfl, rfl⟩

theorem Ends.trans {v w u : Vm} (h1 : Ends v w) (h2 : Ends w u) : Ends v u where
  births := h2.births.trans h1.births
  stays := h1.stays.trans h2.stays
  gone := fun r h => h2.gone r (h1.gone r h)
  ret := h2.ret.trans h1.ret
  quit := h2.quit.trans h1.quit
  exitCode := h2.exitCode.trans h1.exitCode
  out := h2.out.trans h1.out
  roots := fun x => (h2.roots x).trans (h1.roots x)
  readably := h2.readably.trans h1.readably

theorem Ends.quiet {v w : Vm} (e : Ends v w) : Vm.Quiet W E v w where
  births := Nat.le_of_eq e.births.symm
  cells := fun r c _ hc => (e.stays r c hc).elim .inl fun h => .inr (.inr h)
  gone := fun r _ h => e.gone r h
  ret := e.ret
  quit := e.quit
  exitCode := e.exitCode
  out := e.out
  roots := e.roots
  readably := e.readably

theorem Ends.pop {v : Vm} {s : List Ref} : Ends v { v with stack := s } :=
  ⟨rfl, .same rfl, fun _ h => h, rfl, rfl, rfl, rfl, fun x => by cases x <;> rfl, rfl⟩

theorem Ends.tick {v : Vm} : Ends v { v with ticks := v.ticks + 1 } :=
  ⟨rfl, .same rfl, fun _ h => h, rfl, rfl, rfl, rfl, fun x => by cases x <;> rfl, rfl⟩

theorem Ends.annotate {v : Vm} {r : Ref} {c : Cell} {m t : Text} {l : Nat} (hc : v.mem r = some c)
    (ho : c.obj = .err m l) : Ends v { v with mem := v.mem.set r { c with obj := .err (m ++ t) l } } where
  births := rfl
  stays := .annotate hc ho rfl
  gone := fun x hx => by
    have : x ≠ r := by rintro rfl; rw [hx] at hc; cases hc
    show v.mem.set r _ x = none
    rw [Mem.set_other _ _ this]; exact hx
  ret := rfl
  quit := rfl
  exitCode := rfl
  out := rfl
  roots := fun x => by cases x <;> rfl

theorem wp_annotate {r : Ref} {Q : Unit → Vm → List Event → Prop}
    (hq : ∀ w, Ends v w → Q () w []) : Wp W n h (Prog.annotate r) v Q := by
  unfold Prog.annotate
  refine wp_bind (wp_read fun c hc => ?_)
  split
  · rename_i m l ho
    refine wp_bind (wp_text fun t => wp_setObj fun c' hc' => ?_)
    have : v.mem r = some c' := hc'
    rw [hc] at this; cases this
    exact hq _ (Ends.tick.trans (.annotate hc' ho))
  · exact wp_fail

theorem wp_annotateError {r : Ref} {Q : Unit → Vm → List Event → Prop}
    (hq : ∀ w, Ends v w → Q () w []) : Wp W n h (Prog.annotateError r) v Q := by
  unfold Prog.annotateError
  refine wp_bind (wp_read fun c hc => ?_)
  split
  · exact wp_annotate hq
  · exact wp_pure (hq v (.refl v))

/-- a call of a special form -/
theorem wp_callSpecial (g : Vm.Step W (fun _ => False) E v0 v) {value : Ref} {gen : Nat} {s : Special} {env : Ref}
    (hv : v.Old W value) {Q : Option Ref → Vm → List Event → Prop}
    (hbad : ∀ es x ys zs c m l w, v.HasVec value es → es.tail = ys ++ x :: zs → v.mem x = some c → c.obj = .err m l →
      Vm.Quiet W E v0 w → Q (some x) w [])
    (hgood : ∀ es args v1, v.HasVec value es → (∀ x ∈ es.tail, ∃ c, v.mem x = some c ∧ ∀ m l, c.obj ≠ .err m l) →
      ¬ v.Old W args → Vm.Step W (fun x => x = args) E v0 v1 → v1.HasVec args es.tail →
      (∀ x, v.Old W x → v1.Pub W (fun x => x = args) x) → v1.stack = args :: v.stack →
      Wp W n h (Prog.special L s args env) v1 fun r u t =>
        ∀ r1 w, r = some r1 → Ends u w → Q (some r1) w t) :
    Wp W n h (Prog.callSpecial L value gen s env) v Q := by
  unfold Prog.callSpecial
  refine wp_bind (wp_alloc g.sane fun args w a => ?_)
  simp only [List.nil_append]
  have gw := g.hide a (by intro x hx; cases hx)
  refine wp_bind (wp_push ?_)
  simp only [List.nil_append]
  have gw := gw.push a.old
  have hne : ∀ x, v.Old W x → x ≠ args := fun x hx e => a.fresh (e ▸ hx)
  have back : ∀ x c, v.Old W x → w.mem x = some c → v.mem x = some c := by
    intro x c hx hc
    rcases a.some hc with ⟨e, _⟩ | ⟨_, hc⟩
    · exact absurd e (hne x hx)
    · exact hc
  unfold Prog.payload
  refine wp_bind (wp_bind (wp_read fun c hc => ?_))
  have hc := back value c hv hc
  simp only [List.nil_append]
  split
  case h_2 => exact wp_fail
  rename_i es ho
  split
  case isFalse => exact wp_fail
  refine wp_pure ?_
  simp only [List.nil_append]
  have hes : ∀ x ∈ es, v.Old W x := by
    have := (g.closed.cells value c hc).obj
    rw [ho] at this
    exact this
  have htl : ∀ x ∈ es.tail, v.Old W x := fun x hx => hes x (List.mem_of_mem_tail hx)
  refine wp_bind (Wp.mono (wp_specialArgs es.tail [] _ (c0 := { obj := .vec [], uid := v.nextUid }) a.cell rfl) ?_)
  rintro e w1 t ⟨rfl, hr⟩
  simp only [List.nil_append] at hr ⊢
  have old1 : ∀ x, v.Old W x → w.Old W x := fun x hx => hx.mono (by rw [a.births]; omega)
  rcases hr with ⟨rfl, h1, rfl⟩ | ⟨x, ys, zs, d, m, l, rfl, hsplit, hx, hd, hm, rfl⟩
  · simp only
    have gw1 := gw.change (d := { obj := .vec es.tail, uid := v.nextUid }) (r := args) rfl
      (.inr fun hh => a.fresh (hh.mono g.quiet.births)) a.cell rfl rfl
      ⟨fun x hx => old1 x (htl x hx), Prog.pubOpt_none, Prog.pubOpt_none⟩
    refine wp_bind (Wp.mono (hgood es args _ ⟨c, hc, ho⟩ ?_ a.fresh gw1 ⟨_, Mem.set_self .., rfl⟩ ?_ (by rw [← a.stack])) ?_)
    · intro x hx
      obtain ⟨d, hd, hd'⟩ := h1 x hx (hne x (htl x hx))
      exact ⟨d, back x d (htl x hx) hd, hd'⟩
    · exact fun x hx => ⟨old1 x hx, hne x hx⟩
    · intro r u t hq
      refine wp_bind (wp_deref fun r1 hr1 => ?_)
      simp only [List.nil_append]
      refine wp_bind (wp_annotateError fun w' hw' => ?_)
      simp only [List.nil_append]
      refine wp_bind (wp_pop fun s hs => wp_pure ?_)
      simp only [List.nil_append, List.append_nil]
      exact hq r1 _ hr1 (hw'.trans .pop)
  · simp only
    have hxm : x ∈ es.tail := by rw [hsplit]; simp
    refine wp_bind (wp_pop fun s hs => wp_pure ?_)
    simp only [List.nil_append]
    refine hbad es x ys zs d m l _ ⟨c, hc, ho⟩ hsplit (back x d (htl x hxm) hd) hm ?_
    have gw1 := gw.change (d := { obj := .vec ys, uid := v.nextUid }) (r := args) rfl
      (.inr fun hh => a.fresh (hh.mono g.quiet.births)) a.cell rfl rfl
      ⟨fun x hx => old1 x (htl x (by rw [hsplit]; simp [hx])), Prog.pubOpt_none, Prog.pubOpt_none⟩
    exact (gw1.pop hs).quiet/-- what follows the evaluation of the operator -/
def Prog.callRest (L : Library) (value env operator : Ref) (gen : Nat) (o : Obj) : Prog (Option Ref × Bool) :=
  match o with
  | .special s => do
    let r ← callSpecial L value gen s env
    pure (r, false)
  | .builtin _ => do
    let r ← callBuiltin L value gen operator env
    pure (r, false)
  | .fn _ => do
    let r ← callFn value gen operator env false false
    pure (r, false)
  | .mac _ => do
    let r ← callFn value gen operator env true true
    pure (r, true)
  | _ => do
    let r ← error "Cannot evaluate operator of type '%s' (%s)"
    pure (r, false)

/-- evaluating a form that is a call: the operator is evaluated first -/
theorem wp_evalImpl_call (F : Fine W h) (sv : v.Sane W) (cv : v.Closed W fun _ => False) (hq : v.quit = false)
    {form env first : Ref} {rest : List Ref} (hf : v.HasVec form (first :: rest)) (of : v.Old W form) (oe : v.Old W env)
    {Q : Option Ref × Bool → Vm → List Event → Prop}
    (hnone : ∀ pre post w, Vm.Step W (fun _ => False) (fun _ => False) v pre → pre = { v with stack := env :: form :: v.stack } →
      Vm.Good W (fun _ => False) pre post →
      Ends post w → Q (none, false) w [⟨first, env, pre, none, post⟩])
    (hsome : ∀ pre post op c u gen, Vm.Step W (fun _ => False) (fun _ => False) v pre → pre = { v with stack := env :: form :: v.stack } →
      Vm.Good W (fun _ => False) pre post → Vm.Step W (fun _ => False) (fun _ => False) post u → u.mem = post.mem → u.births = post.births → u.stack = op :: env :: form :: v.stack →
      post.mem op = some c → post.Old W op →
      Wp W n h (Prog.callRest L form env op gen c.obj) u fun x w t =>
        ∀ w', Ends w w' → Q x w' (⟨first, env, pre, some op, post⟩ :: t)) :
    Wp W n h (Prog.evalImpl L form env false) v Q := by
  unfold Prog.evalImpl
  refine wp_bind (wp_isQuit ?_)
  rw [hq]
  simp only [List.nil_append]
  refine wp_bind (wp_verifyEnv fun _ => ?_)
  refine wp_bind (wp_push (wp_bind (wp_push ?_)))
  simp only [List.nil_append]
  have g0 : Vm.Step W (fun _ => False) (fun _ => False) v v := .refl sv cv
  have g1 := (g0.push of).push (r := env) oe
  refine wp_bind (wp_read fun c hc => ?_)
  obtain ⟨c', hc', ho'⟩ := hf
  have : c = c' := by
    have hc : v.mem form = some c := hc
    rw [hc'] at hc; cases hc; rfl
  subst this
  rw [ho']
  simp only [List.nil_append]
  have of1 : v.Old W first := by
    have := (cv.cells form c hc').obj
    rw [ho'] at this
    exact this first (by simp)
  refine wp_bind (wps_eval F g1 ⟨of1, id⟩ ⟨oe, id⟩ fun a post gd hst ha => ?_)
  have gp : Vm.Step W (fun _ => False) (fun _ => False) post post := gd.step
  cases a with
  | none =>
    simp only
    refine wp_bind (wp_pop fun s hs => wp_bind (wp_pop fun s' hs' => wp_pure ?_))
    exact hnone _ post _ g1 rfl gd (Ends.pop.trans .pop)
  | some op =>
    simp only
    unfold Prog.evalCall
    have oo : post.Old W op := (ha op rfl).1
    refine wp_bind (wp_push ?_)
    refine wp_bind (wp_read fun d hd => ?_)
    simp only [List.nil_append]
    have hd : post.mem op = some d := hd
    have key := hsome _ post op d _ c.gen g1 rfl gd (gp.push oo) rfl rfl (by rw [hst]) hd oo
    have fin : Wp W n h (Prog.callRest L form env op c.gen d.obj >>= fun (x : Option Ref × Bool) => do
        Prog.pop op
        Prog.pop env
        Prog.pop form
        pure (x.1, x.2)) { post with stack := op :: post.stack }
        fun b u t' => Q b u (⟨first, env, { v with stack := env :: form :: v.stack }, some op, post⟩ :: t') := by
      refine wp_bind (Wp.mono key ?_)
      rintro ⟨r, fl⟩ w t hQ
      simp only
      refine wp_bind (wp_pop fun s hs => wp_bind (wp_pop fun s' hs' => wp_bind (wp_pop fun s'' hs'' => wp_pure ?_)))
      simp only [List.nil_append, List.append_nil]
      exact hQ _ ((Ends.pop.trans .pop).trans .pop)
    simp only [List.cons_append, List.nil_append]
    unfold Prog.callRest at fin
    cases hdo : d.obj <;> rw [hdo] at fin <;> simpa using fin

theorem wp_flag {p : Prog (Option Ref)} {b : Bool} {Q : Option Ref × Bool → Vm → List Event → Prop}
    (hp : Wp W n h p v fun r w t => Q (r, b) w t) :
    Wp W n h (do let r ← p; pure (r, b)) v Q :=
  wp_bind (Wp.mono hp fun r w t hr => wp_pure (by simpa using hr))

/-- the same for the evaluation as a whole, if the operator is no macro -/
theorem wp_evalTurn_call (F : Fine W h) (sv : v.Sane W) (cv : v.Closed W fun _ => False) (hq : v.quit = false)
    {form env first : Ref} {rest : List Ref} (hf : v.HasVec form (first :: rest)) (of : v.Old W form) (oe : v.Old W env)
    {Q : Option Ref → Vm → List Event → Prop}
    (hnone : ∀ pre post w, Vm.Step W (fun _ => False) (fun _ => False) v pre → pre = { v with stack := env :: form :: v.stack } →
      Vm.Good W (fun _ => False) pre post →
      Ends post w → Q none w [⟨first, env, pre, none, post⟩])
    (hmac : ∀ pre post op c f r w t, Vm.Step W (fun _ => False) (fun _ => False) v pre → pre = { v with stack := env :: form :: v.stack } →
      Vm.Good W (fun _ => False) pre post → post.mem op = some c → c.obj = .mac f →
      Q r w (⟨first, env, pre, some op, post⟩ :: t))
    (hspecial : ∀ pre post op c u gen s, Vm.Step W (fun _ => False) (fun _ => False) v pre → pre = { v with stack := env :: form :: v.stack } →
      Vm.Good W (fun _ => False) pre post → Vm.Step W (fun _ => False) (fun _ => False) post u → u.mem = post.mem → u.births = post.births → u.stack = op :: env :: form :: v.stack →
      post.mem op = some c → c.obj = .special s →
      Wp W n h (Prog.callSpecial L form gen s env) u fun x w t =>
        ∀ w', Ends w w' → Q x w' (⟨first, env, pre, some op, post⟩ :: t))
    (hbuiltin : ∀ pre post op c u gen b, Vm.Step W (fun _ => False) (fun _ => False) v pre → pre = { v with stack := env :: form :: v.stack } →
      Vm.Good W (fun _ => False) pre post → Vm.Step W (fun _ => False) (fun _ => False) post u → u.mem = post.mem → u.births = post.births → u.stack = op :: env :: form :: v.stack →
      post.mem op = some c → post.Old W op → c.obj = .builtin b →
      Wp W n h (Prog.callBuiltin L form gen op env) u fun x w t =>
        ∀ w', Ends w w' → Q x w' (⟨first, env, pre, some op, post⟩ :: t))
    (hfn : ∀ pre post op c u gen f, Vm.Step W (fun _ => False) (fun _ => False) v pre → pre = { v with stack := env :: form :: v.stack } →
      Vm.Good W (fun _ => False) pre post → Vm.Step W (fun _ => False) (fun _ => False) post u → u.mem = post.mem → u.births = post.births → u.stack = op :: env :: form :: v.stack →
      post.mem op = some c → post.Old W op → c.obj = .fn f →
      Wp W n h (Prog.callFn form gen op env false false) u fun x w t =>
        ∀ w', Ends w w' → Q x w' (⟨first, env, pre, some op, post⟩ :: t))
    (hother : ∀ pre post op c u, Vm.Step W (fun _ => False) (fun _ => False) v pre → pre = { v with stack := env :: form :: v.stack } →
      Vm.Good W (fun _ => False) pre post → Vm.Step W (fun _ => False) (fun _ => False) post u → u.mem = post.mem → u.births = post.births → u.stack = op :: env :: form :: v.stack →
      post.mem op = some c → post.Old W op → Prog.isCallable c.obj = false →
      Wp W n h (Prog.error "Cannot evaluate operator of type '%s' (%s)") u fun x w t =>
        ∀ w', Ends w w' → Q x w' (⟨first, env, pre, some op, post⟩ :: t)) :
    Wp W n h (Prog.evalTurn L form env false) v Q := by
  unfold Prog.evalTurn
  refine wp_bind (wp_evalImpl_call F sv cv hq hf of oe ?_ ?_)
  · intro pre post w h1 h2 h3 h4
    exact wp_pure (hnone pre post w h1 h2 h3 h4)
  · intro pre post op c u gen h1 h2 h3 h4 h5 h6 hst h7 h8
    have fin : ∀ p, (Wp W n h p u fun x w t => ∀ w', Ends w w' → Q x w' (⟨first, env, pre, some op, post⟩ :: t)) →
        Wp W n h (do let r ← p; pure (r, false)) u fun x w t => ∀ w', Ends w w' →
          Wp W n h (if x.2 = false then pure x.1 else do
            let r ← Prog.deref x.1
            match (← Prog.read r).obj with
            | .vec (first :: _) => do
              Prog.push r
              let (o, _) ← Prog.evalImpl L first env true
              let o ← Prog.require o
              Prog.pop r
              match (← Prog.read o).obj with
              | .mac _ => Prog.call (.again r env)
              | _ => pure (some r)
            | _ => pure (some r)) w' fun b u t' => Q b u (⟨first, env, pre, some op, post⟩ :: t ++ t') := by
      intro p hp
      refine wp_flag (Wp.mono hp fun r w t hr w' hw' => ?_)
      simp only [if_true]
      exact wp_pure (by simpa using hr w' hw')
    unfold Prog.callRest
    cases ho : c.obj with
    | special s => exact fin _ (hspecial pre post op c u gen s h1 h2 h3 h4 h5 h6 hst h7 ho)
    | builtin b => exact fin _ (hbuiltin pre post op c u gen b h1 h2 h3 h4 h5 h6 hst h7 h8 ho)
    | fn f => exact fin _ (hfn pre post op c u gen f h1 h2 h3 h4 h5 h6 hst h7 h8 ho)
    | mac f =>
      intro x w t _ w' _ r w'' t' _
      exact hmac pre post op c f r w'' _ h1 h2 h3 h7 ho
    | _ => exact fin _ (hother pre post op c u h1 h2 h3 h4 h5 h6 hst h7 h8 (by rw [ho]; rfl))

end Dern
