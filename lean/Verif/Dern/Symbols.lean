import Verif.Dern.Forms
/-
The value of a symbol.
-/
namespace Dern
open Prog (Library)
variable {W : World} {n : Nat} {h : Handler} {v w : Vm} {L : Library} {env r : Ref} {name : Text}

/-- The environment `env`, or the innermost of those enclosing it that binds the name, binds it to the
value `r`. -/
inductive Binds (m : Mem) (name : Text) : Ref → Ref → Prop
  | here {env c bs enc b} : m env = some c → c.obj = .env bs enc → bs.find? (fun b => b.name = name) = some b → Binds m name env b.val
  | outer {env c bs e r} : m env = some c → c.obj = .env bs (some e) → (∀ b ∈ bs, b.name ≠ name) → Binds m name e r → Binds m name env r

/-- neither the environment nor one of those enclosing it binds the name -/
inductive Unbound (m : Mem) (name : Text) : Ref → Prop
  | last {env c bs} : m env = some c → c.obj = .env bs none → (∀ b ∈ bs, b.name ≠ name) → Unbound m name env
  | outer {env c bs e} : m env = some c → c.obj = .env bs (some e) → (∀ b ∈ bs, b.name ≠ name) → Unbound m name e → Unbound m name env

theorem Binds.unique {m : Mem} {r r' : Ref} (h1 : Binds m name env r) (h2 : Binds m name env r') : r = r' := by
  induction h1 with
  | here h o f =>
    cases h2 with
    | here h' o' f' =>
      obtain rfl := same_cell h h'
      rw [o] at o'; cases o'
      rw [f] at f'; cases f'; rfl
    | outer h' o' nb _ =>
      obtain rfl := same_cell h h'
      rw [o] at o'; cases o'
      exact absurd (by simpa using List.find?_some f) (nb _ (List.mem_of_find?_eq_some f))
  | outer h o nb _ ih =>
    cases h2 with
    | here h' o' f =>
      obtain rfl := same_cell h h'
      rw [o] at o'; cases o'
      exact absurd (by simpa using List.find?_some f) (nb _ (List.mem_of_find?_eq_some f))
    | outer h' o' _ b =>
      obtain rfl := same_cell h h'
      rw [o] at o'; cases o'
      exact ih b

theorem Binds.not_unbound {m : Mem} (h1 : Binds m name env r) : ¬ Unbound m name env := by
  induction h1 with
  | here h o f =>
    intro h2
    cases h2 with
    | last h' o' nb =>
      obtain rfl := same_cell h h'
      rw [o] at o'; cases o'
      exact absurd (by simpa using List.find?_some f) (nb _ (List.mem_of_find?_eq_some f))
    | outer h' o' nb =>
      obtain rfl := same_cell h h'
      rw [o] at o'; cases o'
      exact absurd (by simpa using List.find?_some f) (nb _ (List.mem_of_find?_eq_some f))
  | outer h o nb _ ih =>
    intro h2
    cases h2 with
    | last h' o' _ => obtain rfl := same_cell h h'; rw [o] at o'; cases o'
    | outer h' o' _ u =>
      obtain rfl := same_cell h h'
      rw [o] at o'; cases o'
      exact ih u

/-- looking up a name -/
theorem lookup_spec : ∀ n env v a w t, handle W L n (.lookup env name) v = .ok (a, w, t) →
    w = v ∧ t = [] ∧ match a with | some r => Binds v.mem name env r | none => Unbound v.mem name env := by
  intro n
  induction n with
  | zero => intro env v a w t e; cases e
  | succ n ih =>
    intro env v a w t e
    simp only [handler, Prog.body] at e
    have key : Wp W n (handle W L n) (Prog.envGet env name) v fun a w t => w = v ∧ t = [] ∧
        match a with | some r => Binds v.mem name env r | none => Unbound v.mem name env := by
      unfold Prog.envGet
      refine wp_bind (wp_read fun c hc => ?_)
      split
      · rename_i bs enc ho
        split
        · rename_i b hb
          exact wp_pure ⟨rfl, rfl, .here hc ho hb⟩
        · rename_i hb
          have nb : ∀ b ∈ bs, b.name ≠ name := fun b hb' => by simpa using List.find?_eq_none.mp hb b hb'
          split
          · rename_i e'
            refine wp_call fun a w t e => ?_
            obtain ⟨rfl, rfl, hr⟩ := ih _ _ _ _ _ e
            refine ⟨rfl, rfl, ?_⟩
            cases a with
            | some r => exact .outer hc ho nb hr
            | none => exact .outer hc ho nb hr
          · exact wp_pure ⟨rfl, rfl, .last hc ho nb⟩
      · exact wp_fail
    cases hr : run W n (handler W (Prog.body L) n) (Prog.envGet env name) v with
    | error e' => rw [hr] at e; cases e
    | ok x =>
      obtain ⟨a', w', t'⟩ := x
      rw [hr] at e
      cases e
      exact key _ _ _ hr

/-- the value of a symbol -/
def SymbolValue (W : World) (v : Vm) (name : Text) (env : Ref) (r : Option Ref) (w : Vm) (tr : List Event) : Prop :=
  tr = [] ∧ ((∃ x, r = some x ∧ Binds v.mem name env x ∧ w = v) ∨
    ∃ x, r = some x ∧ Unbound v.mem name env ∧ w.IsErr x ∧ ¬ v.Old W x ∧ Vm.Step W (fun _ => False) (fun _ => False) v w)

theorem Evaluates.symbol (sv : v.Sane W) (cv : v.Closed W fun _ => False) (hq : v.quit = false)
    {x : Ref} (hx : v.HasObj x (.sym name)) (ox : v.Old W x) (oe : v.Old W env)
    {r : Option Ref} {tr : List Event} (ev : Evaluates W L v x env r w tr) : SymbolValue W v name env r w tr := by
  obtain ⟨n, e⟩ := ev
  have : Wp W n (handle W L n) (Prog.evalTurn L x env false) v (SymbolValue W v name env) := by
    unfold Prog.evalTurn Prog.evalImpl
    refine wp_bind (wp_bind (wp_isQuit ?_))
    rw [hq]
    simp only [List.nil_append]
    refine wp_bind (wp_verifyEnv fun _ => ?_)
    refine wp_bind (wp_push (wp_bind (wp_push ?_)))
    simp only [List.nil_append]
    refine wp_bind (wp_read fun c hc => ?_)
    obtain ⟨c', hc', ho'⟩ := hx
    obtain rfl := same_cell (m := v.mem) hc' hc
    rw [ho']
    simp only [List.nil_append]
    unfold Prog.evalSymbol Prog.leave
    refine wp_bind (wp_bind (wp_call fun a w t e => ?_))
    obtain ⟨rfl, rfl, hr⟩ := lookup_spec _ _ _ _ _ _ e
    have g0 : Vm.Step W (fun _ => False) (fun _ => False) v v := .refl sv cv
    have g1 := (g0.push ox).push (r := env) oe
    cases a with
    | some y =>
      refine wp_pure (wp_bind (wp_pop fun s hs => wp_bind (wp_pop fun s' hs' => wp_pure ?_)))
      simp only [List.nil_append, if_true]
      refine wp_pure ⟨rfl, .inl ⟨y, rfl, hr, ?_⟩⟩
      simp only [List.cons.injEq, true_and] at hs
      subst hs
      simp only [List.cons.injEq, true_and] at hs'
      subst hs'
      rfl
    | none =>
      refine wps_error g1 fun y w t g hp hy fresh => wp_bind (wp_pop fun s hs => wp_bind (wp_pop fun s' hs' => wp_pure ?_))
      simp only [List.nil_append, if_true]
      exact wp_pure ⟨rfl, .inr ⟨y, rfl, hr, ⟨_, _, _, hy, rfl⟩, fresh, (g.pop hs).pop hs'⟩⟩
  exact this _ _ _ e

/-- a call whose operator is the symbol `name`, bound to `op` -/
structure NamedCall (W : World) (v : Vm) (form env : Ref) (name : Text) (op : Ref) (rest : List Ref) : Prop where
  running : v.quit = false
  called : ∃ first, v.HasVec form (first :: rest) ∧ v.HasObj first (.sym name)
  binds : Binds v.mem name env op
  oldForm : v.Old W form
  oldEnv : v.Old W env

/-- the operator of such a call is evaluated first, without any effect -/
structure OpensAt (W : World) (v : Vm) (env op : Ref) (e0 : Event) : Prop where
  env : e0.env = env
  result : e0.result = some op
  post : e0.post = e0.pre
  same : e0.pre.mem = v.mem
  births : e0.pre.births = v.births
  step : Vm.Step W (fun _ => False) (fun _ => False) v e0.pre

theorem Opens.named (sv : v.Sane W) (cv : v.Closed W fun _ => False) {form first op : Ref} {e0 : Event} {tr : List Event}
    (hq : v.quit = false) (hfirst : v.HasObj first (.sym name)) (hb : Binds v.mem name env op) (of : v.Old W first)
    (oe : v.Old W env) (o : Opens W v first env e0) (ho : e0.pre.births = v.births)
    (ev : Evaluates W L e0.pre e0.form e0.env e0.result e0.post tr) : OpensAt W v env op e0 := by
  have hs : e0.pre.HasObj e0.form (.sym name) := by
    obtain ⟨c, hc, ho⟩ := hfirst
    exact ⟨c, by rw [o.form, o.same]; exact hc, ho⟩
  obtain ⟨_, h | h⟩ := ev.symbol o.step.sane o.step.closed (o.step.quiet.quit.trans hq) hs
    (by rw [o.form]; exact of.mono o.step.quiet.births) (by rw [o.env]; exact oe.mono o.step.quiet.births)
  · obtain ⟨x, hx, hbx, hw⟩ := h
    rw [o.env, o.same] at hbx
    rw [hbx.unique hb] at hx
    exact ⟨o.env, hx, hw, o.same, ho, o.step⟩
  · obtain ⟨x, hx, hbx, _⟩ := h
    rw [o.env, o.same] at hbx
    exact absurd hbx hb.not_unbound

/-- a call of a special form by name -/
theorem Evaluates.named_special (hL : L.Safe) (sv : v.Sane W) (cv : v.Closed W fun _ => False) {form op : Ref} {rest : List Ref}
    (nc : NamedCall W v form env name op rest) {s : Special} (hop : v.HasObj op (.special s)) (hargs : ∀ x ∈ rest, ¬ v.IsErr x)
    {r : Option Ref} {tr : List Event} (ev : Evaluates W L v form env r w tr) :
    ∃ e0 tr' r', tr = e0 :: tr' ∧ OpensAt W v env op e0 ∧ r = some r' ∧ CalledSpecial W L s rest env e0.post r' w tr' := by
  obtain ⟨first, hform, hfirst⟩ := nc.called
  have evs := ev.events
  obtain ⟨e0, tr', rfl, o, hs⟩ := ev.special hL sv cv nc.running hform nc.oldForm nc.oldEnv
  obtain ⟨c, hc, ho⟩ := hform
  have of : v.Old W first := by
    have := (cv.cells _ _ hc).obj
    rw [ho] at this
    exact this first (by simp)
  obtain ⟨tr0, ev0⟩ := evs e0 (by simp)
  have hn := Opens.named sv cv (op := op) (form := form) nc.running hfirst nc.binds of nc.oldEnv o o.births ev0
  have m : e0.post.mem = v.mem := by rw [hn.post, hn.same]
  obtain ⟨es, hes, h⟩ := hs op s hn.result (by obtain ⟨d, hd, hd'⟩ := hop; exact ⟨d, by rw [m]; exact hd, hd'⟩)
  obtain ⟨c', hc', ho'⟩ := hes
  rw [m, hc] at hc'
  cases hc'
  rw [ho] at ho'
  cases ho'
  rcases h with ⟨ys, x, zs, h1, ⟨m', l, d, hd, hd'⟩, _⟩ | ⟨_, r', hr, hcs⟩
  · simp only [List.tail_cons] at h1
    exact absurd ⟨m', l, d, by rw [← m]; exact hd, hd'⟩ (hargs x (by rw [h1]; simp))
  · exact ⟨e0, tr', r', rfl, hn, hr, hcs⟩

end Dern
