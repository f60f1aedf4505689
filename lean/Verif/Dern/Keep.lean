import Verif.Dern.Sound
/-
Values on the stack survive: a program that is `Ok` leaves the part of the stack alone that was there before, so no collection meanwhile releases
a value on it, nor a value in a vector on it that nobody knows.
-/
namespace Dern
open Dern.Spec (Reach)
variable {W : World} {X : Ref → Prop}

/-- values that are protected by the stack `t`, the values in `X` being known to nobody -/
def Guarded (X : Ref → Prop) (m : Mem) (t : List Ref) (x : Ref) : Prop := Reach (fun y z => X y ∧ m.Edge y z) (· ∈ t) x

/-- protected values survive -/
def Vm.Keeps (X : Ref → Prop) (t : List Ref) (v w : Vm) : Prop :=
  ∀ x, Guarded X v.mem t x → (v.mem x).isSome → (w.mem x).isSome

theorem Guarded.kept {v : Vm} {s t : List Ref} (hs : v.stack = s ++ t) {x : Ref} (h : Guarded X v.mem t x) : v.Kept x := by
  induction h with
  | root hx => exact .root (by rw [hs]; exact List.mem_append_right _ hx)
  | step _ he ih => exact .step ih he.2

theorem Vm.Keeps.guarded {v w : Vm} {t : List Ref} (sv : v.Sane W) (k : Vm.Keeps X t v w) (l : Vm.Later W X v w) {x : Ref}
    (h : Guarded X v.mem t x) : Guarded X w.mem t x := by
  induction h with
  | root hx => exact .root hx
  | @step y z hy he ih =>
    obtain ⟨hX, c, hc, hz⟩ := he
    have := k y hy (by rw [hc]; rfl)
    rcases l.priv y hX (sv.old y c hc) with e | e
    · exact .step ih ⟨hX, c, by rw [e, hc], hz⟩
    · rw [e] at this; cases this

theorem Vm.Keeps.refl (v : Vm) (t : List Ref) : Vm.Keeps X t v v := fun _ _ h => h

theorem Vm.Keeps.trans {v w u : Vm} {t : List Ref} (sv : v.Sane W) (l : Vm.Later W X v w) (h1 : Vm.Keeps X t v w) (h2 : Vm.Keeps X t w u) :
    Vm.Keeps X t v u := fun x hx hv => h2 x (h1.guarded sv l hx) (h1 x hx hv)

/-- what a call keeps -/
def CallKeeps (W : World) (h : Handler) : Prop :=
  ∀ (X : Ref → Prop) (c : Call) (v : Vm) (t : List Ref) (a : Option Ref) (w : Vm) (tr : List Event), v.Sane W → v.Closed W X →
    (∀ x ∈ c.refs, v.Pub W X x) → c.Effect v.stack t → h c v = .ok (a, w, tr) → Vm.Keeps X t v w

theorem keeps_set {v : Vm} {t : List Ref} {r : Ref} {d : Cell} : Vm.Keeps X t v { v with mem := v.mem.set r d } := by
  intro x _ hx
  by_cases e : x = r
  · subst e; simp [Mem.set]
  · simpa [Mem.set, e] using hx

/-- one operation -/
theorem step_keeps {n : Nat} {h : Handler} (hc : CallKeeps W h) (o : Op) (k : o.Resp → Prog β)
    (v : Vm) (s t : List Ref) (Q : β → List Ref → Prop) (sv : v.Sane W) (cv : v.Closed W X)
    (hs : v.stack = s ++ t) (hp : Prog.Ok (v.Pub W X) (.op o k) s Q) {a : o.Resp} {w : Vm} {tr : List Event}
    (e : step W n h o v = .ok (a, w, tr)) : Vm.Keeps X t v w := by
  have write : ∀ (r : Ref) (f : Cell → Cell), quiet (M.write r f) v = .ok ((), w, tr) → Vm.Keeps X t v w := by
    intro r f e
    unfold quiet at e
    cases e' : M.write r f v with
    | error _ => rw [e'] at e; cases e
    | ok x =>
      obtain ⟨⟨⟩, w'⟩ := x
      rw [e'] at e
      cases e
      obtain ⟨c, hc, rfl⟩ := write_spec e'
      exact keeps_set
  cases o with
  | alloc o =>
    simp only [step, quiet] at e
    cases e' : Dern.alloc W.malloc o v with
    | error _ => rw [e'] at e; cases e
    | ok x =>
      obtain ⟨r, w'⟩ := x
      rw [e'] at e
      simp only [Except.ok.injEq, Prod.mk.injEq] at e
      obtain ⟨rfl, rfl, rfl⟩ := e
      have a := alloc_spec sv e'
      intro x hx hv
      by_cases h : x = W.malloc.pick v.births
      · rw [h, ← a.addr, a.cell]; rfl
      · rw [a.kept x (hx.kept hs) (a.addr ▸ h)]; exact hv
  | setObj r o => exact write _ _ e
  | replace r o => exact write _ _ e
  | setDoc r d d' => exact write _ _ e
  | setHowto r b => exact write _ _ e
  | read r =>
    simp only [step, quiet, M.read] at e
    cases e' : v.mem.read r with
    | error _ => rw [e'] at e; cases e
    | ok c => rw [e'] at e; cases e; exact .refl _ _
  | push r => cases e; exact fun _ _ h => h
  | pop r =>
    obtain ⟨s', e', _⟩ := hp
    subst e'
    simp only [step, quiet, Dern.pop, hs, List.cons_append, if_true] at e
    cases e
    exact fun _ _ h => h
  | compare p q =>
    simp only [step] at e
    cases e' : compareRef v.mem n p q with
    | error _ => rw [e'] at e; cases e
    | ok c => rw [e'] at e; cases e; exact .refl _ _
  | print p r =>
    simp only [step] at e
    cases e' : printRef v.mem W.fmt v.readably n p r with
    | error _ => rw [e'] at e; cases e
    | ok c => rw [e'] at e; cases e; exact .refl _ _
  | getReturn => cases e; exact .refl _ _
  | setReturn a => cases e; exact fun _ _ h => h
  | isQuit => cases e; exact .refl _ _
  | quit c => cases e; exact fun _ _ h => h
  | root which => cases e; exact .refl _ _
  | emit t' => cases e; exact fun _ _ h => h
  | text t' => cases e; exact fun _ _ h => h
  | arrange es => cases e; exact fun _ _ h => h
  | real => cases e; exact fun _ _ h => h
  | readably => cases e; exact .refl _ _
  | setReadably b => cases e; exact fun _ _ h => h
  | fail e' => cases e
  | call c =>
    simp only [step] at e
    obtain ⟨hr, s', he, _⟩ := hp
    have := hc X c v (s' ++ t) _ _ _ sv cv hr (by rw [hs]; exact he.append t) e
    exact fun x hx => this x (Reach.mono (fun y hy => .root (List.mem_append_right _ hy)) hx)

theorem run_keeps {n : Nat} {h : Handler} (hc : CallSpec W h) (hk : CallKeeps W h) (p : Prog α) :
    ∀ (v : Vm) (s t : List Ref) (Q : (Ref → Prop) → α → List Ref → Prop), v.Sane W → v.Closed W X →
    v.stack = s ++ t → (∀ P : Ref → Prop, (∀ x, v.Pub W X x → P x) → Prog.Ok P p s (Q P)) →
    ∀ {a w tr}, run W n h p v = .ok (a, w, tr) → Vm.Keeps X t v w := by
  induction p with
  | done a =>
    intro v s t Q sv cv hs hp a w tr e
    cases e
    exact .refl _ _
  | op o k ih =>
    intro v s t Q sv cv hs hp a w tr e
    have h1 := step_sound (n := n) hc o k v s t Q sv cv hs hp
    simp only [run] at e
    cases e1 : step W n h o v with
    | error _ => rw [e1] at e; cases e
    | ok x =>
      obtain ⟨b, u, tr1⟩ := x
      rw [e1] at e h1
      obtain ⟨g, s', hs', hp'⟩ := h1
      have k1 := step_keeps hk o k v s t (Q _) sv cv hs (hp _ fun _ h => h) e1
      simp only at e
      cases e2 : run W n h (k b) u with
      | error _ => rw [e2] at e; cases e
      | ok y =>
        obtain ⟨c, z, tr2⟩ := y
        rw [e2] at e
        cases e
        exact k1.trans sv g.later (ih b u s' t Q g.sane g.closed hs' hp' e2)

theorem Call.Effect.split {c : Call} {s t : List Ref} (h : c.Effect s t) : ∃ s', s = s' ++ t ∧ c.Effect s' [] := by
  cases c <;> simp only [Call.Effect] at h ⊢ <;> subst h <;> first | exact ⟨[], rfl, rfl⟩ | exact ⟨[_], rfl, rfl⟩

/-- protected values survive every call -/
theorem handler_keeps {L : Prog.Library} (hL : L.Safe) : ∀ n, CallKeeps W (handler W (Prog.body L) n) := by
  intro n
  induction n with
  | zero => intro X c v t a w tr _ _ _ _ e; cases e
  | succ n ih =>
    intro X c v t a w tr sv cv hr he e
    obtain ⟨s, hs, he'⟩ := he.split
    simp only [handler] at e
    cases e1 : run W n (handler W (Prog.body L) n) (Prog.body L c) v with
    | error _ => rw [e1] at e; cases e
    | ok x =>
      obtain ⟨b, u, tr1⟩ := x
      rw [e1] at e
      cases e
      exact run_keeps (X := X) (handler_sound hL n) ih (Prog.body L c) v s t (fun P a s' => s' = [] ∧ PubOpt P a) sv cv hs
        (fun P hP => Prog.ok_body hL c (fun x hx => hP x (hr x hx)) _ _ he') e1

end Dern
