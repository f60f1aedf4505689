import Verif.Dern.Keep
/-
Values that nothing refers to do not survive a collection: if a value that is neither on the stack nor part of a known value is still there, then
nothing has been collected meanwhile.
-/
namespace Dern
open Dern.Spec (Reach)
variable {W : World} {X : Ref → Prop}

/-- no value in `X` is on the stack -/
def Loose (X : Ref → Prop) (v : Vm) : Prop := ∀ x ∈ v.stack, ¬ X x

/-- a value in `X` survives only if all values do -/
def Spares (X : Ref → Prop) (v w : Vm) : Prop := ∀ r, X r → (w.mem r).isSome → ∀ x, (v.mem x).isSome → (w.mem x).isSome

theorem Spares.refl (v : Vm) : Spares X v v := fun _ _ _ _ h => h

theorem Spares.trans {v u w : Vm} (cv : u.Closed W X) (l : Vm.Later W X u w) (h1 : Spares X v u) (h2 : Spares X u w) : Spares X v w := by
  intro r hX hr x hx
  refine h2 r hX hr x (h1 r hX ?_ x hx)
  cases e : u.mem r with
  | some _ => rfl
  | none => rw [l.gone r (cv.known r hX) e] at hr; cases hr

theorem Loose.notKept {v : Vm} (cv : v.Closed W X) (h : Loose X v) {r : Ref} (hr : v.Kept r) : ¬ X r := by
  refine Reach.closed (P := fun x => ¬ X x) h ?_ hr
  rintro x z hx ⟨c, hc, hz⟩
  have := cv.pub x c hc hx
  unfold Cell.edges at hz
  rcases List.mem_append.mp hz with hz | hz
  · exact (this.docstr z (by simpa using hz)).2
  · have h := this.obj
    cases ho : c.obj <;> rw [ho] at hz h <;> simp only [Obj.children, PubObj] at h hz <;> first
    | exact (h _ hz).2
    | (simp at hz; done)
    | (simp only [List.mem_flatMap] at hz; obtain ⟨e, he, hz⟩ := hz; have := h e he; simp at hz; rcases hz with rfl | rfl
       · exact this.1.2
       · exact this.2.2)
    | (simp at hz; rcases hz with rfl | rfl | rfl
       · exact h.1.2
       · exact h.2.1.2
       · exact h.2.2.2)
    | (rcases List.mem_append.mp hz with hz | hz
       · simp only [List.mem_flatMap] at hz; obtain ⟨e, he, hz⟩ := hz; have := h.1 e he; simp at hz; rcases hz with rfl | rfl
         · exact this.1.2
         · exact this.2.2
       · simp at hz; exact (h.2 _ hz).2)

theorem alloc_spares {v w : Vm} (sv : v.Sane W) (cv : v.Closed W X) (hl : Loose X v) {o : Obj} {r : Ref}
    (h : Dern.alloc W.malloc o v = .ok (r, w)) : Spares X v w := by
  have fin : ∀ u : Vm, u.births = v.births → (if u.nextUid = uintMax then M.fail .abort else do
        M.modify fun v => { v with
          mem := v.mem.set (W.malloc.pick u.births) { obj := o, uid := v.nextUid }
          all := v.all ++ [W.malloc.pick u.births]
          nextUid := v.nextUid + 1
          births := v.births + 1 }
        pure (W.malloc.pick u.births) : M Ref) u = .ok (r, w) → ∃ d, w.mem = u.mem.set (W.malloc.pick v.births) d := by
    intro u eb h
    rw [eb] at h
    split at h
    · cases h
    · simp only [M.modify, bind, StateT.bind, Except.bind, pure, StateT.pure, Except.pure] at h
      cases h
      exact ⟨_, rfl⟩
  unfold Dern.alloc at h
  simp only [bind, StateT.bind, M.get, Except.bind] at h
  split at h
  · simp only [StateT.bind, bind, Except.bind] at h
    cases hg : gc v with
    | error e => rw [hg] at h; cases h
    | ok x =>
      obtain ⟨⟨⟩, u⟩ := x
      rw [hg] at h
      obtain ⟨_, _, _, _, h5⟩ := gc_keeps sv hg
      obtain ⟨d, hd⟩ := fin { u with sinceGc := 0 } (by rw [h5]) h
      obtain ⟨_, _, _, h4, _, _⟩ := gc_wf (gc_live sv.nodup sv.dom sv.unmarked hg) hg
      intro y hy hs
      have hne : y ≠ W.malloc.pick v.births := fun e => not_old_next (e ▸ cv.known y hy)
      rw [hd] at hs; simp only [Mem.set, if_neg hne] at hs
      have := h4 y fun k => hl.notKept cv k hy
      rw [this] at hs
      cases hs
  · obtain ⟨d, hd⟩ := fin { v with sinceGc := v.sinceGc + 1 } rfl h
    intro y _ _ x hx
    rw [hd]
    by_cases e : x = W.malloc.pick v.births
    · subst e; simp [Mem.set]
    · simpa [Mem.set, e] using hx

/-- what a call spares -/
def CallSpares (W : World) (h : Handler) : Prop :=
  ∀ (X : Ref → Prop) (c : Call) (v : Vm) (t : List Ref) (a : Option Ref) (w : Vm) (tr : List Event), v.Sane W → v.Closed W X → Loose X v →
    (∀ x ∈ c.refs, v.Pub W X x) → c.Effect v.stack t → h c v = .ok (a, w, tr) → Spares X v w

theorem spares_set {v : Vm} {r : Ref} {d : Cell} : Spares X v { v with mem := v.mem.set r d } := by
  intro _ _ _ x hx
  by_cases e : x = r
  · subst e; simp [Mem.set]
  · simpa [Mem.set, e] using hx

/-- one operation -/
theorem step_spares {n : Nat} {h : Handler} (hs' : CallSpec W h) (hc : CallSpares W h) (o : Op) (k : o.Resp → Prog β)
    (v : Vm) (s : List Ref) (Q : β → List Ref → Prop) (sv : v.Sane W) (cv : v.Closed W X) (hl : Loose X v)
    (hs : v.stack = s) (hp : Prog.Ok (v.Pub W X) (.op o k) s Q) {a : o.Resp} {w : Vm} {tr : List Event}
    (e : step W n h o v = .ok (a, w, tr)) : Spares X v w ∧ Loose X w := by
  have write : ∀ (r : Ref) (f : Cell → Cell), quiet (M.write r f) v = .ok ((), w, tr) → Spares X v w ∧ Loose X w := by
    intro r f e
    unfold quiet at e
    cases e' : M.write r f v with
    | error _ => rw [e'] at e; cases e
    | ok x =>
      obtain ⟨⟨⟩, w'⟩ := x
      rw [e'] at e
      cases e
      obtain ⟨c, hc, rfl⟩ := write_spec e'
      exact ⟨spares_set, hl⟩
  have refl : Spares X v v ∧ Loose X v := ⟨.refl v, hl⟩
  cases o with
  | alloc o =>
    simp only [step, quiet] at e
    cases e' : Dern.alloc W.malloc o v with
    | error _ => rw [e'] at e; cases e
    | ok x =>
      obtain ⟨r, w'⟩ := x
      rw [e'] at e
      simp only [Except.ok.injEq, Prod.mk.injEq] at e
      obtain ⟨rfl, rfl, rfl⟩ := e
      exact ⟨alloc_spares sv cv hl e', by unfold Loose; rw [(alloc_spec sv e').stack]; exact hl⟩
  | setObj r o => exact write _ _ e
  | replace r o => exact write _ _ e
  | setDoc r d d' => exact write _ _ e
  | setHowto r b => exact write _ _ e
  | read r =>
    simp only [step, quiet, M.read] at e
    cases e' : v.mem.read r with
    | error _ => rw [e'] at e; cases e
    | ok c => rw [e'] at e; cases e; exact refl
  | push r =>
    cases e
    refine ⟨fun _ _ _ _ h => h, fun x hx => ?_⟩
    rcases List.mem_cons.mp hx with rfl | hx
    · exact hp.1.2
    · exact hl x hx
  | pop r =>
    obtain ⟨s', e', _⟩ := hp
    subst e'
    simp only [step, quiet, Dern.pop, hs, if_true] at e
    cases e
    exact ⟨fun _ _ _ _ h => h, fun x hx => hl x (by rw [hs]; exact .tail _ hx)⟩
  | compare p q =>
    simp only [step] at e
    cases e' : compareRef v.mem n p q with
    | error _ => rw [e'] at e; cases e
    | ok c => rw [e'] at e; cases e; exact refl
  | print p r =>
    simp only [step] at e
    cases e' : printRef v.mem W.fmt v.readably n p r with
    | error _ => rw [e'] at e; cases e
    | ok c => rw [e'] at e; cases e; exact refl
  | getReturn => cases e; exact refl
  | setReturn a => cases e; exact ⟨fun _ _ _ _ h => h, hl⟩
  | isQuit => cases e; exact refl
  | quit c => cases e; exact ⟨fun _ _ _ _ h => h, hl⟩
  | root which => cases e; exact refl
  | emit t' => cases e; exact ⟨fun _ _ _ _ h => h, hl⟩
  | text t' => cases e; exact ⟨fun _ _ _ _ h => h, hl⟩
  | arrange es => cases e; exact ⟨fun _ _ _ _ h => h, hl⟩
  | real => cases e; exact ⟨fun _ _ _ _ h => h, hl⟩
  | readably => cases e; exact refl
  | setReadably b => cases e; exact ⟨fun _ _ _ _ h => h, hl⟩
  | fail e' => cases e
  | call c =>
    simp only [step] at e
    obtain ⟨hr, s', he, _⟩ := hp
    refine ⟨hc X c v s' _ _ _ sv cv hl hr (by rw [hs]; exact he) e, fun x hx => ?_⟩
    have g := hs' X c v s' sv cv hr (by rw [hs]; exact he)
    rw [e] at g
    rw [g.2.1] at hx
    refine hl x ?_
    rw [hs]
    cases c <;> simp only [Call.Effect] at he <;> subst he <;> first | exact hx | exact .tail _ hx

theorem run_spares {n : Nat} {h : Handler} (hc : CallSpec W h) (hk : CallSpares W h) (p : Prog α) :
    ∀ (v : Vm) (s : List Ref) (Q : (Ref → Prop) → α → List Ref → Prop), v.Sane W → v.Closed W X → Loose X v →
    v.stack = s → (∀ P : Ref → Prop, (∀ x, v.Pub W X x → P x) → Prog.Ok P p s (Q P)) →
    ∀ {a w tr}, run W n h p v = .ok (a, w, tr) → Spares X v w := by
  induction p with
  | done a =>
    intro v s Q sv cv hl hs hp a w tr e
    cases e
    exact .refl _
  | op o k ih =>
    intro v s Q sv cv hl hs hp a w tr e
    have h1 := step_sound (n := n) hc o k v s [] Q sv cv (by simpa using hs) hp
    simp only [run] at e
    cases e1 : step W n h o v with
    | error _ => rw [e1] at e; cases e
    | ok x =>
      obtain ⟨b, u, tr1⟩ := x
      rw [e1] at e h1
      obtain ⟨g, s', hs', hp'⟩ := h1
      obtain ⟨k1, hl'⟩ := step_spares hc hk o k v s (Q _) sv cv hl hs (hp _ fun _ h => h) e1
      simp only at e
      cases e2 : run W n h (k b) u with
      | error _ => rw [e2] at e; cases e
      | ok y =>
        obtain ⟨c, z, tr2⟩ := y
        rw [e2] at e
        cases e
        have l := run_sound (X := X) (n := n) hc (k b) u s' [] Q g.sane g.closed hs' hp'
        rw [e2] at l
        exact k1.trans g.closed l.1.later (ih b u s' Q g.sane g.closed hl' (by simpa using hs') hp' e2)

/-- every call spares all values, if a value that nobody knows survives it -/
theorem handler_spares {L : Prog.Library} (hL : L.Safe) : ∀ n, CallSpares W (handler W (Prog.body L) n) := by
  intro n
  induction n with
  | zero => intro X c v t a w tr _ _ _ _ _ e; cases e
  | succ n ih =>
    intro X c v t a w tr sv cv hl hr he e
    simp only [handler] at e
    cases e1 : run W n (handler W (Prog.body L) n) (Prog.body L c) v with
    | error _ => rw [e1] at e; cases e
    | ok x =>
      obtain ⟨b, u, tr1⟩ := x
      rw [e1] at e
      cases e
      exact run_spares (X := X) (handler_sound hL n) ih (Prog.body L c) v v.stack (fun P a s' => s' = t ∧ PubOpt P a) sv cv hl rfl
        (fun P hP => Prog.ok_body hL c (fun x hx => hP x (hr x hx)) _ _ he) e1

end Dern
