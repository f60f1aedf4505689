import Verif.Dern.Inversion
import Verif.Dern.New
/-
The parts of an evaluation: calls of special forms.
-/
namespace Dern
open Prog (Library)
variable {W : World} {n : Nat} {h : Handler} {v w u : Vm} {L : Library}

/-- the payload of the value `r` is `o` -/
def Vm.HasObj (v : Vm) (r : Ref) (o : Obj) : Prop := ∃ c, v.mem r = some c ∧ c.obj = o

/-- the value `r` is an error -/
def Vm.IsErr (v : Vm) (r : Ref) : Prop := ∃ m l, v.HasObj r (.err m l)

theorem Vm.HasObj.unique {r : Ref} {o o' : Obj} (h : v.HasObj r o) (h' : v.HasObj r o') : o = o' := by
  obtain ⟨c, hc, rfl⟩ := h
  obtain ⟨c', hc', rfl⟩ := h'
  rw [hc] at hc'; cases hc'; rfl

theorem Ends.hasObj {r : Ref} {o : Obj} (e : Ends v w) (h : v.HasObj r o) (ho : ∀ m l, o ≠ .err m l) : w.HasObj r o := by
  obtain ⟨c, hc, rfl⟩ := h
  rcases e.stays r c hc with e | ⟨m, t, l, ho', e⟩
  · exact ⟨c, e, rfl⟩
  · exact absurd ho' (ho m l)

theorem Ends.isErr {r : Ref} (e : Ends v w) (h : v.IsErr r) : w.IsErr r := by
  obtain ⟨m, l, c, hc, ho⟩ := h
  rcases e.stays r c hc with e | ⟨m', t, l', ho', e⟩
  · exact ⟨m, l, c, e, ho⟩
  · exact ⟨_, _, _, e, rfl⟩

/-- the handlers of the evaluations -/
abbrev handle (W : World) (L : Library) (n : Nat) : Handler := handler W (Prog.body L) n

/-- the beginning of the evaluation of a call: the operator `first` has been evaluated in `e0` -/
structure Opens (W : World) (v : Vm) (first env : Ref) (e0 : Event) : Prop where
  form : e0.form = first
  env : e0.env = env
  same : e0.pre.mem = v.mem
  births : e0.pre.births = v.births
  step : Vm.Step W (fun _ => False) (fun _ => False) v e0.pre
  good : Vm.Good W (fun _ => False) e0.pre e0.post

/-- the special form `s` is called with the unevaluated arguments `xs`, from the state `v` to the
result `r` in the state `w` with the evaluations `tr` -/
def CalledSpecial (W : World) (L : Library) (s : Special) (xs : List Ref) (env : Ref) (v : Vm) (r : Ref) (w : Vm)
    (tr : List Event) : Prop :=
  ∃ n args v1 u, ¬ v.Old W args ∧ Vm.Step W (fun x => x = args) (fun _ => False) v v1 ∧ v1.HasVec args xs ∧
    (∀ x, v.Old W x → v1.Pub W (fun x => x = args) x) ∧ (env ∈ v1.stack ∧ args ∈ v1.stack) ∧
    run W n (handle W L n) (Prog.special L s args env) v1 = .ok (some r, u, tr) ∧ Ends u w

/-- what the evaluation of a call does, if the operator is a special form -/
def SpecialCall (W : World) (L : Library) (v : Vm) (form first env : Ref) (r : Option Ref) (w : Vm) (tr : List Event) : Prop :=
  ∃ e0 tr', tr = e0 :: tr' ∧ Opens W v first env e0 ∧ ∀ op s, e0.result = some op → e0.post.HasObj op (.special s) →
    ∃ es, e0.post.HasVec form es ∧
      ((∃ ys x zs, es.tail = ys ++ x :: zs ∧ e0.post.IsErr x ∧ r = some x ∧ tr' = [] ∧
        Vm.Quiet W (fun _ => False) e0.post w) ∨
      (∀ x ∈ es.tail, ¬ e0.post.IsErr x) ∧ ∃ r', r = some r' ∧ CalledSpecial W L s es.tail env e0.post r' w tr')

/-- a call of a special form -/
theorem Evaluates.special (hL : L.Safe) (sv : v.Sane W) (cv : v.Closed W fun _ => False) (hq : v.quit = false)
    {form env first : Ref} {rest : List Ref} (hf : v.HasVec form (first :: rest)) (of : v.Old W form) (oe : v.Old W env)
    {r : Option Ref} {tr : List Event} (ev : Evaluates W L v form env r w tr) : SpecialCall W L v form first env r w tr := by
  obtain ⟨n, e⟩ := ev
  have F : Fine W (handle W L n) := handler_fine hL n
  refine wp_evalTurn_call (n := n) (L := L) F sv cv hq hf of oe (Q := SpecialCall W L v form first env) ?_ ?_ ?_ ?_ ?_ ?_ _ _ _ e
  · intro pre post w h1 h2 h3 h4
    exact ⟨_, [], rfl, ⟨rfl, rfl, by rw [h2], by rw [h2], h1, h3⟩, fun op s hop => by cases hop⟩
  · intro pre post op c f r w t h1 h2 h3 h4 h5
    refine ⟨_, t, rfl, ⟨rfl, rfl, by rw [h2], by rw [h2], h1, h3⟩, fun op' s hop hs => ?_⟩
    cases hop
    cases hs.unique ⟨c, h4, h5⟩
  · intro pre post op c u gen s h1 h2 h3 h4 h5 h6 hst h7 h8
    have o2 : ∀ x, post.Old W x ↔ u.Old W x := fun x => by unfold Vm.Old; rw [h6]
    have of' : u.Old W form := (o2 form).mp ((of.mono h1.quiet.births).mono h3.later.births)
    have hv : ∀ es, u.HasVec form es → post.HasVec form es := fun es ⟨c, hc, ho⟩ => ⟨c, by rw [← h5]; exact hc, ho⟩
    refine wp_callSpecial (v0 := post) (E := fun _ => False) h4 of' ?_ ?_
    · intro es x ys zs c' m l w1 h9 h10 h11 h12 h13 w' hw'
      refine ⟨_, _, rfl, ⟨rfl, rfl, by rw [h2], by rw [h2], h1, h3⟩, fun op' s' hop hs => ⟨es, hv es h9, .inl ⟨ys, x, zs, h10, ?_, rfl, rfl, ?_⟩⟩⟩
      · exact ⟨m, l, c', by rw [← h5]; exact h11, h12⟩
      · exact h13.trans h4.sane0 hw'.quiet
    · intro es args v1 h9 h10 h11 h12 h13 h14 h15
      intro a u1 t hrun r1 w1 hr1 hw1 w' hw'
      subst hr1
      refine ⟨_, _, rfl, ⟨rfl, rfl, by rw [h2], by rw [h2], h1, h3⟩, fun op' s' hop hs => ⟨es, hv es h9, .inr ⟨?_, r1, rfl, ?_⟩⟩⟩
      · rintro x hx ⟨m, l, d, hd, hd'⟩
        obtain ⟨d', hd1, hd2⟩ := h10 x hx
        rw [h5, hd] at hd1; cases hd1
        exact hd2 m l hd'
      · cases hop
        cases hs.unique ⟨c, h7, h8⟩
        exact ⟨n, args, v1, u1, fun h => h11 ((o2 args).mp h), h12, h13, fun x hx => h14 x ((o2 x).mp hx), ⟨by rw [h15, hst]; simp, by rw [h15]; simp⟩, hrun, hw1.trans hw'⟩
  · intro pre post op c u gen b h1 h2 h3 h4 h5 h6 hst h7 h8 h9 r w t _ w' _
    refine ⟨_, t, rfl, ⟨rfl, rfl, by rw [h2], by rw [h2], h1, h3⟩, fun op' s hop hs => ?_⟩
    cases hop
    cases hs.unique ⟨c, h7, h9⟩
  · intro pre post op c u gen b h1 h2 h3 h4 h5 h6 hst h7 h8 h9 r w t _ w' _
    refine ⟨_, t, rfl, ⟨rfl, rfl, by rw [h2], by rw [h2], h1, h3⟩, fun op' s hop hs => ?_⟩
    cases hop
    cases hs.unique ⟨c, h7, h9⟩
  · intro pre post op c u h1 h2 h3 h4 h5 h6 hst h7 h8 h9 r w t _ w' _
    refine ⟨_, t, rfl, ⟨rfl, rfl, by rw [h2], by rw [h2], h1, h3⟩, fun op' s hop hs => ?_⟩
    cases hop
    rw [← hs.unique ⟨c, h7, rfl⟩] at h9
    cases h9

end Dern
