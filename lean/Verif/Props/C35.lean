import Verif.Props.Calling
import Verif.Props.Machine
import Verif.Dern.Apply
/-
C35: `define` binds a name, `=` changes a value.

For every reachable state and every call of `define`: which forms are evaluated (name, value, documentation string,
environment, documentation vector), and in which cases there is an error and nothing else happens.  Otherwise the
environment binds the name to the value (atoms are copied); every other name keeps its binding in that environment and,
for definitions in the current environment, every other visible name means what it meant before.
-/
namespace Dern.Props
open Dern
open Dern.Spec (Reach)
open Dern.Prog (Library)
variable {W : World} {L : Library}

/-! ### What is said -/

/-- the bindings `bs'` are `bs`, except that the name `N` has the value `val` -/
def Rebinds (bs bs' : List Binding) (N : Text) (val : Ref) : Prop :=
  (∃ b, bs'.find? (fun b => b.name = N) = some b ∧ b.val = val) ∧
    ∀ m, m ≠ N → bs'.find? (fun b => b.name = m) = bs.find? (fun b => b.name = m)

/-- from the state `p` on, nothing happens except that the error `r` is made -/
structure Refuses (W : World) (p : Vm) (r : Ref) (w : Vm) : Prop where
  quiet : Vm.Quiet W nobody p w
  made : ¬ p.Old W r
  error : w.IsErr r

/-- From the state `p` to the state `w` the environment `target` gets the binding of `N` to `val`, the values in `E` are
changed in addition, and the result is a new `true`.  If it is certain that the environment is in use: it does bind the
name, and all other names mean in it what they meant before. -/
structure BindsName (W : World) (E : Ref → Prop) (certain : Prop) (target : Ref) (N : Text) (val : Ref) (p : Vm) (r : Ref) (w : Vm) : Prop where
  change : ∃ bs bs' enc, p.HasObj target (.env bs enc) ∧ Rebinds bs bs' N val ∧ ∀ o, w.HasObj target o → o = .env bs' enc
  bound : certain → Binds w.mem N target val
  alive : certain → ∃ c, w.mem val = some c
  others : certain → ∀ m, m ≠ N → (∀ y, Binds p.mem m target y → Binds w.mem m target y) ∧ (Unbound p.mem m target → Unbound w.mem m target)
  made : ¬ p.Old W r
  result : w.HasObj r (.bool true)
  quiet : Vm.Quiet W (fun x => x = target ∨ E x) p w

/-- The environment `target` binds `N` to the value `t`: to a new copy of it if it is an atom, to itself otherwise.  The
documentation of the value is `d`. -/
structure BindsVariable (W : World) (certain : Prop) (target : Ref) (N : Text) (t d : Ref) (p : Vm) (r : Ref) (w : Vm) (val : Ref) : Prop where
  binds : BindsName W (fun x => x = val) certain target N val p r w
  copied : ∀ o, p.HasObj t o → o.isAtom = true → ¬ p.Old W val ∧ ∀ o', w.HasObj val o' → o' = o
  shared : ∀ o, p.HasObj t o → o.isAtom = false → val = t ∧ (t ≠ target → ∀ o', w.HasObj t o' → o' = o)
  doc : ∀ c, w.mem val = some c → c.docstr = some d

/-- the argument at the index `i` is the symbol `s` -/
def Says (v : Vm) (xs : List Ref) (i : Nat) (s : String) : Prop := ∃ x, xs[i]? = some x ∧ v.HasObj x (.sym (txt s))

/-- the environment to define in: the current one, or the value of the argument `x` -/
inductive TargetOf (W : World) (inEnv : Bool) (v : Vm) (x : Option Ref) (env : Ref) : Ref → Vm → List Event → Prop
  | here : inEnv = false → TargetOf W inEnv v x env env v []
  | given {y e t} : inEnv = true → x = some y → Evals W v y env e t → TargetOf W inEnv v x env t e.post [e]

/-- What `define` does after evaluating the value `t`, if it is a variable: `(define name as … doc)` and, with `inEnv`,
`(define name as … doc in environment)`. -/
inductive VariableRun (W : World) (inEnv : Bool) (xs : List Ref) (env name t : Ref) (v : Vm) (r : Ref) (w : Vm) : List Event → Prop
  | syntaxError : (¬ Says v xs 1 "as" ∨ inEnv = true ∧ ¬ Says v xs 4 "in") → Refuses W v r w → VariableRun W inEnv xs env name t v r w []
  | badDoc {x e d} : Says v xs 1 "as" → (inEnv = true → Says v xs 4 "in") → xs[3]? = some x → Evals W v x env e d →
      (∀ s, ¬ e.post.HasObj d (.str s)) → Refuses W e.post r w → VariableRun W inEnv xs env name t v r w [e]
  | badEnv {x e d s target p tr} : Says v xs 1 "as" → (inEnv = true → Says v xs 4 "in") → xs[3]? = some x → Evals W v x env e d →
      e.post.HasObj d (.str s) → TargetOf W inEnv e.post xs[5]? env target p tr → inEnv = true → (∀ bs enc, ¬ p.HasObj target (.env bs enc)) →
      Refuses W p r w → VariableRun W inEnv xs env name t v r w (e :: tr)
  | bound {x e d s target p tr N val} : Says v xs 1 "as" → (inEnv = true → Says v xs 4 "in") → xs[3]? = some x → Evals W v x env e d →
      e.post.HasObj d (.str s) → TargetOf W inEnv e.post xs[5]? env target p tr → p.HasObj name (.sym N) →
      (¬ p.IsErr t → BindsVariable W (inEnv = false) target N t d p r w val) → VariableRun W inEnv xs env name t v r w (e :: tr)

/-- the formal `N` is mentioned in the documentation vector: the first pair that starts with its name is followed by a
string, which is `varargs` for `...` -/
inductive Mentioned (v : Vm) (N : Text) : List Ref → Prop
  | here {x y rest s} : v.HasObj x (.sym N) → v.HasObj y (.str s) → (N = txt "..." → s = txt "varargs") → Mentioned v N (x :: y :: rest)
  | later {x y rest N'} : v.HasObj x (.sym N') → N' ≠ N → Mentioned v N rest → Mentioned v N (x :: y :: rest)

/-- `t` is a function or a macro -/
def Vm.HasFn (v : Vm) (t : Ref) (f : FnData) : Prop := v.HasObj t (.fn f) ∨ v.HasObj t (.mac f)

/-- The environment `target` binds `N` to the function `t` itself, whose name and documentation are set; the
documentation string gets longer. -/
structure BindsFunction (W : World) (certain : Prop) (target : Ref) (N : Text) (t d dv : Ref) (howto : Bool) (p : Vm) (r : Ref) (w : Vm) : Prop where
  binds : BindsName W (fun x => x = t ∨ x = d) certain target N t p r w
  function : ∃ f s more, p.HasObj d (.str s) ∧ (∀ o, w.HasObj d o → o = .str (s ++ more)) ∧
    (p.HasObj t (.fn f) ∧ (∀ o, w.HasObj t o → o = .fn { f with name := N, docstr := s ++ more, howto := howto }) ∨
      p.HasObj t (.mac f) ∧ ∀ o, w.HasObj t o → o = .mac { f with name := N, docstr := s ++ more, howto := howto })
  doc : ∀ c, w.mem t = some c → c.docstr = some d ∧ c.docvec = some dv ∧ c.howto = howto

/-- The last part of the definition of a function `t` with the documentation `d` and `dv`. -/
def FunctionEnds (W : World) (certain : Prop) (target name t d dv : Ref) (howto : Bool) (p : Vm) (r : Ref) (w : Vm) : Prop :=
  (∀ ds, ¬ p.HasVec dv ds) ∧ Refuses W p r w ∨
  ∃ ds f fs, p.HasVec dv ds ∧ Vm.HasFn p t f ∧ p.HasVec f.formals fs ∧
    ((∃ x ∈ fs, ∃ N, p.HasObj x (.sym N) ∧ ¬ Mentioned p N ds) ∧ Refuses W p r w ∨
     (∀ x ∈ fs, ∃ N, p.HasObj x (.sym N) ∧ Mentioned p N ds) ∧
      ∃ N, p.HasObj name (.sym N) ∧ BindsFunction W certain target N t d dv howto p r w)

/-- What `define` does after evaluating the value `t`, if it is a function: `(define name as … doc docvec howto-ok)` and,
with `inEnv`, `(define name as … doc docvec in environment howto-ok)`. -/
inductive FunctionRun (W : World) (inEnv : Bool) (xs : List Ref) (env name t : Ref) (v : Vm) (r : Ref) (w : Vm) : List Event → Prop
  | syntaxError : (¬ Says v xs 1 "as" ∨ inEnv = true ∧ ¬ Says v xs 5 "in" ∨
        ¬ Says v xs (if inEnv then 7 else 5) "howto-ok" ∧ ¬ Says v xs (if inEnv then 7 else 5) "howto-no") →
      Refuses W v r w → FunctionRun W inEnv xs env name t v r w []
  | badDoc {howto : Bool} {x e d} : Says v xs 1 "as" → (inEnv = true → Says v xs 5 "in") →
      Says v xs (if inEnv then 7 else 5) (if howto then "howto-ok" else "howto-no") → xs[3]? = some x → Evals W v x env e d →
      (∀ s, ¬ e.post.HasObj d (.str s)) → Refuses W e.post r w → FunctionRun W inEnv xs env name t v r w [e]
  | badEnv {howto : Bool} {x e d s target p tr} : Says v xs 1 "as" → (inEnv = true → Says v xs 5 "in") →
      Says v xs (if inEnv then 7 else 5) (if howto then "howto-ok" else "howto-no") → xs[3]? = some x → Evals W v x env e d →
      e.post.HasObj d (.str s) → TargetOf W inEnv e.post xs[6]? env target p tr → inEnv = true → (∀ bs enc, ¬ p.HasObj target (.env bs enc)) →
      Refuses W p r w → FunctionRun W inEnv xs env name t v r w (e :: tr)
  | documented {howto : Bool} {x y e e' d dv s target p tr} : Says v xs 1 "as" → (inEnv = true → Says v xs 5 "in") →
      Says v xs (if inEnv then 7 else 5) (if howto then "howto-ok" else "howto-no") → xs[3]? = some x → Evals W v x env e d →
      e.post.HasObj d (.str s) → TargetOf W inEnv e.post xs[6]? env target p tr → xs[4]? = some y → Evals W p y env e' dv →
      FunctionEnds W (inEnv = false) target name t d dv howto e'.post r w → FunctionRun W inEnv xs env name t v r w (e :: tr ++ [e'])

/-- the name to define: the argument itself, or its value if it is a vector -/
inductive NameOf (W : World) (v : Vm) (x env : Ref) : Ref → Vm → List Event → Prop
  | itself : (∀ es, ¬ v.HasVec x es) → NameOf W v x env x v []
  | evaluated {e n es} : v.HasVec x es → Evals W v x env e n → NameOf W v x env n e.post [e]

/-- What `define` does with the arguments `xs` in the state `v`. -/
inductive DefineRun (W : World) (v : Vm) (xs : List Ref) (env r : Ref) (w : Vm) : List Event → Prop
  | count : xs.length ≠ 4 → xs.length ≠ 6 → xs.length ≠ 8 → Refuses W v r w → DefineRun W v xs env r w []
  | nameError {x p tr} : xs[0]? = some x → NameOf W v x env r p tr → p.IsErr r → Vm.Quiet W nobody p w → DefineRun W v xs env r w tr
  | badName {x n p tr} : xs[0]? = some x → NameOf W v x env n p tr → ¬ p.IsErr n → (∀ s, ¬ p.HasObj n (.sym s)) → Refuses W p r w →
      DefineRun W v xs env r w tr
  | valueError {x n p tr s y e} : xs[0]? = some x → NameOf W v x env n p tr → p.HasObj n (.sym s) → xs[2]? = some y → Evals W p y env e r →
      e.post.IsErr r → Vm.Quiet W nobody e.post w → DefineRun W v xs env r w (tr ++ [e])
  | variable {x n p tr s y e t tr'} : xs[0]? = some x → NameOf W v x env n p tr → p.HasObj n (.sym s) → xs[2]? = some y → Evals W p y env e t →
      ¬ e.post.IsErr t → (xs.length = 4 ∨ xs.length = 6 ∧ ∀ f, ¬ Vm.HasFn e.post t f) →
      VariableRun W (decide (xs.length = 6)) xs env n t e.post r w tr' → DefineRun W v xs env r w (tr ++ e :: tr')
  | function {x n p tr s y e t tr'} : xs[0]? = some x → NameOf W v x env n p tr → p.HasObj n (.sym s) → xs[2]? = some y → Evals W p y env e t →
      ¬ e.post.IsErr t → (xs.length = 6 ∧ (∃ f, Vm.HasFn e.post t f) ∨ xs.length = 8) →
      FunctionRun W (decide (xs.length = 8)) xs env n t e.post r w tr' → DefineRun W v xs env r w (tr ++ e :: tr')

/-! ### Auxiliary facts -/

theorem c35_rebinds_aux {bs : List Binding} {N : Text} {key val : Ref} : Rebinds bs (Prog.setBinding bs ⟨N, key, val⟩) N val := by
  constructor
  · refine ⟨⟨N, key, val⟩, ?_, rfl⟩
    unfold Prog.setBinding
    rw [List.find?_append]
    have : (bs.filter fun x => x.name ≠ N).find? (fun b => b.name = N) = none := by
      rw [List.find?_eq_none]
      intro x hx
      have := (List.mem_filter.mp hx).2
      simpa using this
    simp only [this, Option.none_or]
    simp
  · intro m hm
    unfold Prog.setBinding
    rw [List.find?_append]
    have e1 : (bs.filter fun x => x.name ≠ N).find? (fun b => b.name = m) = bs.find? (fun b => b.name = m) := by
      induction bs with
      | nil => rfl
      | cons b bs ih =>
        by_cases hb : b.name = N
        · have hb' : b.name ≠ m := fun e => hm (e.symm.trans hb)
          rw [List.filter_cons_of_neg (by simpa using hb), List.find?_cons_of_neg (by simpa using hb'), ih]
        · rw [List.filter_cons_of_pos (by simpa using hb)]
          by_cases hb' : b.name = m
          · rw [List.find?_cons_of_pos (by simpa using hb'), List.find?_cons_of_pos (by simpa using hb')]
          · rw [List.find?_cons_of_neg (by simpa using hb'), List.find?_cons_of_neg (by simpa using hb'), ih]
    simp only [e1]
    have : ([⟨N, key, val⟩] : List Binding).find? (fun b => b.name = m) = none := by
      simp only [List.find?_cons, List.find?_nil]
      rw [show (decide (N = m)) = false from by simpa using fun e => hm e.symm]
    rw [this, Option.or_none]

theorem c35_find_none_aux {bs : List Binding} {N : Text} : bs.find? (fun b => b.name = N) = none ↔ ∀ b ∈ bs, b.name ≠ N := by
  simp

theorem c35_transfer_aux {m m' : Mem} {name : Text} {P : Ref → Prop} (h : ∀ x c bs enc, P x → m x = some c → c.obj = .env bs enc →
    ∃ c' bs', m' x = some c' ∧ c'.obj = .env bs' enc ∧ bs'.find? (fun b => b.name = name) = bs.find? (fun b => b.name = name) ∧
      ∀ e, enc = some e → P e) :
    (∀ x y, P x → Binds m name x y → Binds m' name x y) ∧ ∀ x, P x → Unbound m name x → Unbound m' name x := by
  constructor
  · intro x y hx hb
    induction hb with
    | here hc ho hf =>
      obtain ⟨c', bs', hc', ho', hf', _⟩ := h _ _ _ _ hx hc ho
      exact .here hc' ho' (hf'.trans hf)
    | outer hc ho hn _ ih =>
      obtain ⟨c', bs', hc', ho', hf', he⟩ := h _ _ _ _ hx hc ho
      exact .outer hc' ho' (c35_find_none_aux.mp (hf'.trans (c35_find_none_aux.mpr hn))) (ih (he _ rfl))
  · intro x hx hb
    induction hb with
    | last hc ho hn =>
      obtain ⟨c', bs', hc', ho', hf', _⟩ := h _ _ _ _ hx hc ho
      exact .last hc' ho' (c35_find_none_aux.mp (hf'.trans (c35_find_none_aux.mpr hn)))
    | outer hc ho hn _ ih =>
      obtain ⟨c', bs', hc', ho', hf', he⟩ := h _ _ _ _ hx hc ho
      exact .outer hc' ho' (c35_find_none_aux.mp (hf'.trans (c35_find_none_aux.mpr hn))) (ih (he _ rfl))

theorem c35_pub_aux {u : Vm} {c : Cell} {bs : List Binding} {enc : Option Ref} {N : Text} {first val : Ref} (pubt : PubCell (u.Pub W nobody) c)
    (ho : c.obj = .env bs enc) (hkey : u.Old W first) (hval : u.Old W val) :
    PubCell (u.Pub W nobody) { c with obj := .env (Prog.setBinding bs ⟨N, first, val⟩) enc } := by
  refine ⟨?_, pubt.docstr, pubt.docvec⟩
  have := pubt.obj
  rw [ho] at this
  refine ⟨fun b hb => ?_, this.2⟩
  rcases List.mem_append.mp hb with hb | hb
  · exact this.1 b (List.mem_filter.mp hb).1
  · simp only [List.mem_singleton] at hb
    subst hb
    exact ⟨⟨hkey, id⟩, ⟨hval, id⟩⟩

/-- the end of a definition: the binding, some changes of the stack, and the result -/
theorem c35_finish_aux {E : Ref → Prop} {certain : Prop} {target first val r : Ref} {N : Text} {p u w : Vm} {s : List Ref} {c : Cell}
    {bs : List Binding} {enc : Option Ref}
    (g : Vm.Step W nobody (fun x => x = target ∨ E x) p u) (hp : p.HasObj target (.env bs enc))
    (hc : u.mem target = some c) (ho : c.obj = .env bs enc) (hkey : u.Old W first) (hval : u.Old W val) (hl : ∃ c, u.mem val = some c)
    (chain : certain → p.Kept target ∧ ∀ x c, p.Kept x → p.mem x = some c → (∃ bs enc, c.obj = .env bs enc) → ∃ c', u.mem x = some c' ∧ c'.obj = c.obj)
    (cert : certain → target ∈ s) (hs : ∀ x ∈ s, x ∈ u.stack)
    (a : Allocated W { u with mem := u.mem.set target { c with obj := .env (Prog.setBinding bs ⟨N, first, val⟩) enc }, stack := s } (.bool true) r w) :
    Vm.Step W nobody (fun x => x = target ∨ E x) p w ∧ BindsName W E certain target N val p r w ∧
      (∀ x c, w.mem x = some c → x ≠ target → u.Old W x → u.mem x = some c) ∧
      (∀ c', w.mem target = some c' → c' = { c with obj := .env (Prog.setBinding bs ⟨N, first, val⟩) enc }) := by
  have pubt := g.closed.pub target c hc id
  have g1 : Vm.Step W nobody (fun x => x = target ∨ E x) p
      { u with mem := u.mem.set target { c with obj := .env (Prog.setBinding bs ⟨N, first, val⟩) enc } } := by
    exact g.modify (.inl (.inl rfl)) hc rfl rfl (c35_pub_aux pubt ho hkey hval)
  have g2 : Vm.Step W nobody (fun x => x = target ∨ E x) p
      { u with mem := u.mem.set target { c with obj := .env (Prog.setBinding bs ⟨N, first, val⟩) enc }, stack := s } :=
    g1.same rfl rfl rfl rfl (fun x => by cases x <;> rfl) (fun x hx => g.closed.stack x (hs x hx)) rfl rfl rfl rfl
  have g3 := g2.alloc a trivial
  have fresh : ¬ u.Old W r := a.fresh
  have old : ∀ x c, p.mem x = some c → u.Old W x := fun x c hx => (g.sane0.old x c hx).mono g.quiet.births
  have told : u.Old W target := g.sane.old _ _ hc
  have tr : target ≠ r := fun e => fresh (e ▸ told)
  have wt : ∀ c', w.mem target = some c' → c' = { c with obj := .env (Prog.setBinding bs ⟨N, first, val⟩) enc } := by
    intro c' h
    rcases a.some h with ⟨e, _⟩ | ⟨_, h⟩
    · exact absurd e tr
    · exact same_cell h (Mem.set_self ..)
  have reb : Rebinds bs (Prog.setBinding bs ⟨N, first, val⟩) N val := c35_rebinds_aux
  have keep : certain → w.mem target = some { c with obj := .env (Prog.setBinding bs ⟨N, first, val⟩) enc } := fun h => by
    rw [a.kept target (.root (cert h)) tr]; exact Mem.set_self ..
  refine ⟨g3, ⟨⟨bs, _, enc, hp, reb, ?_⟩, ?_, ?_, ?_, ?_, ⟨_, a.cell, rfl⟩, g3.quiet⟩, ?_, wt⟩
  · rintro o ⟨c', h, rfl⟩
    rw [wt c' h]
  · intro h
    obtain ⟨b, hb, rfl⟩ := reb.1
    exact .here (keep h) rfl hb
  · intro h
    obtain ⟨d, hd⟩ := hl
    have vr : val ≠ r := fun e => fresh (e ▸ hval)
    have hd' : ∃ d', (u.mem.set target { c with obj := .env (Prog.setBinding bs ⟨N, first, val⟩) enc }) val = some d' := by
      by_cases e : val = target
      · subst e; exact ⟨_, Mem.set_self ..⟩
      · exact ⟨d, by rw [Mem.set_other _ _ e]; exact hd⟩
    obtain ⟨d', hd'⟩ := hd'
    refine ⟨d', ?_⟩
    rw [a.kept val ?_ vr]
    · exact hd'
    · refine .step (.root (cert h)) ⟨_, Mem.set_self .., ?_⟩
      simp [Cell.edges, Obj.children, Prog.setBinding]
  · intro h m hm
    obtain ⟨kt, hch⟩ := chain h
    have := c35_transfer_aux (m := p.mem) (m' := w.mem) (name := m) (P := fun x => p.Kept x ∧
      Reach (Mem.Edge (u.mem.set target { c with obj := .env (Prog.setBinding bs ⟨N, first, val⟩) enc })) (· ∈ s) x) ?_
    · exact ⟨fun y => this.1 target y ⟨kt, .root (cert h)⟩, this.2 target ⟨kt, .root (cert h)⟩⟩
    · rintro x d bs1 enc1 ⟨k1, k2⟩ hd hod
      have xr : x ≠ r := fun e => fresh (e ▸ old x d hd)
      have e1 : w.mem x = (u.mem.set target { c with obj := .env (Prog.setBinding bs ⟨N, first, val⟩) enc }) x := a.kept x k2 xr
      have next : ∀ (d2 : Cell) bs2, (u.mem.set target { c with obj := .env (Prog.setBinding bs ⟨N, first, val⟩) enc }) x = some d2 →
          d2.obj = .env bs2 enc1 → ∀ e, enc1 = some e → p.Kept e ∧
          Reach (Mem.Edge (u.mem.set target { c with obj := .env (Prog.setBinding bs ⟨N, first, val⟩) enc })) (· ∈ s) e := by
        rintro d2 bs2 h2 ho2 e rfl
        exact ⟨k1.step ⟨d, hd, by simp [Cell.edges, hod, Obj.children]⟩, k2.step ⟨d2, h2, by simp [Cell.edges, ho2, Obj.children]⟩⟩
      by_cases ex : x = target
      · subst ex
        cases hp.unique ⟨d, hd, hod⟩
        refine ⟨_, _, e1.trans (Mem.set_self ..), rfl, reb.2 m hm, next _ _ (Mem.set_self ..) rfl⟩
      · obtain ⟨d', hd', hod'⟩ := hch x d k1 hd ⟨_, _, hod⟩
        have e2 : (u.mem.set target { c with obj := .env (Prog.setBinding bs ⟨N, first, val⟩) enc }) x = some d' := by
          rw [Mem.set_other _ _ ex]; exact hd'
        exact ⟨d', bs1, e1.trans e2, hod'.trans hod, rfl, next _ _ e2 (hod'.trans hod)⟩
  · exact fun hr => fresh (hr.mono g.quiet.births)
  · intro x d hd hx ox
    rcases a.some hd with ⟨rfl, _⟩ | ⟨_, h⟩
    · exact absurd ox fresh
    · have h : (u.mem.set target { c with obj := .env (Prog.setBinding bs ⟨N, first, val⟩) enc }) x = some d := h
      rwa [Mem.set_other _ _ hx] at h

theorem c35_isSymbolAt_aux {n : Nat} {h : Handler} {v : Vm} {args : Ref} {xs : List Ref} {i : Nat} {s : Text}
    (hv : v.HasVec args xs ∨ v.mem args = none) {Q : Bool → Vm → List Event → Prop}
    (hq : ∀ x b, xs[i]? = some x → (b = true ↔ v.HasObj x (.sym s)) → (∃ o, v.HasObj x o) → Q b v []) : Wp W n h (Prog.isSymbolAt args i s) v Q := by
  unfold Prog.isSymbolAt
  refine wp_bind (wp_elemAt_vec hv fun _ => ?_)
  split
  · rename_i x hx
    unfold Prog.isSymbol
    refine wp_bind (wp_read fun c hc => ?_)
    split
    · rename_i t ho
      refine wp_pure (hq x _ hx ?_ ⟨_, c, hc, rfl⟩)
      simp only [decide_eq_true_eq]
      exact ⟨fun e => ⟨c, hc, by rw [ho, e]⟩, fun h => by cases h.unique ⟨c, hc, ho⟩; rfl⟩
    · rename_i hno
      refine wp_pure (hq x _ hx ?_ ⟨_, c, hc, rfl⟩)
      refine ⟨fun e => (Bool.noConfusion e), fun ⟨c', hc', ho'⟩ => ?_⟩
      obtain rfl := same_cell hc hc'
      exact absurd ho' (hno s)
  · exact wp_fail

/-- copying an atom -/
theorem c35_copyAtom_aux {n : Nat} {h : Handler} {E : Ref → Prop} {p u : Vm} {x : Ref} (F : Fine W h) (C : Copies W h)
    (g : Vm.Step W nobody E p u) (hx : u.Old W x) {Q : Ref → Vm → List Event → Prop}
    (hq : ∀ val w o, u.HasObj x o → Vm.Step W nobody E p w → w.stack = u.stack → w.Old W val → w.HasObj val o →
      Vm.Pure W u w → (o.isAtom = true ∧ ¬ u.Old W val ∨ o.isAtom = false ∧ val = x ∧ w = u) → Q val w []) :
    Wp W n h (Prog.copyAtom x) u Q := by
  unfold Prog.copyAtom
  refine wp_bind (wp_read fun c hc => ?_)
  split
  · rename_i ha
    unfold Prog.copyOf
    refine wp_bind (wp_call fun a w t e => wp_deref fun r hr => ?_)
    subst hr
    obtain ⟨sw, rfl, q, fresh⟩ := F.copy _ _ _ _ _ g.sane e
    obtain ⟨_, r', hr', ok⟩ := C _ _ _ _ _ g.sane g.closed hx e
    cases hr'
    refine hq r w c.obj ⟨c, hc, rfl⟩ ⟨g.sane0, sw, ok.closed, g.quiet.trans g.sane0 (q.mono fun _ h => h.elim)⟩ ok.stack ok.old ?_ ok.pure
      (.inl ⟨ha, fresh r rfl⟩)
    cases ok.copied with
    | simple h1 h2 _ _ h5 => obtain rfl := same_cell hc h1; exact ⟨_, h2, h5⟩
    | seq h1 _ _ h4 => obtain rfl := same_cell hc h1; cases hd : c.obj <;> rw [hd] at ha h4 <;> first | (cases ha; done) | (cases h4; done)
    | hmap h1 _ _ h4 => obtain rfl := same_cell hc h1; rw [h4] at ha; cases ha
  · rename_i ha
    refine wp_pure (hq x u c.obj ⟨c, hc, rfl⟩ g rfl hx ⟨c, hc, rfl⟩ ⟨Nat.le_refl _, fun _ _ h => .inl h, fun _ _ h => h, fun _ _ => rfl⟩
      (.inr ⟨by simpa using ha, rfl, rfl⟩))

theorem BindsName.ends {E : Ref → Prop} {certain : Prop} {target val r : Ref} {N : Text} {p u w : Vm} (sp : p.Sane W)
    (b : BindsName W E certain target N val p r u) (e : Ends u w) : BindsName W E certain target N val p r w := by
  have tr : ∀ name, (∀ x y, True → Binds u.mem name x y → Binds w.mem name x y) ∧ ∀ x, True → Unbound u.mem name x → Unbound w.mem name x := fun name =>
    c35_transfer_aux fun x c bs enc _ hc ho => by
      obtain ⟨c', hc', ho'⟩ := e.hasObj ⟨c, hc, ho⟩ (by simp)
      exact ⟨c', bs, hc', ho', rfl, fun _ _ => trivial⟩
  refine ⟨?_, fun h => (tr N).1 _ _ trivial (b.bound h), ?_, fun h m hm => ?_, b.made, e.hasObj b.result (by simp), b.quiet.trans sp e.quiet⟩
  · obtain ⟨bs, bs', enc, h1, h2, h3⟩ := b.change
    refine ⟨bs, bs', enc, h1, h2, ?_⟩
    rintro o ⟨c, hc, rfl⟩
    cases hu : u.mem target with
    | none => rw [e.gone _ hu] at hc; cases hc
    | some d =>
      have hd := h3 _ ⟨d, hu, rfl⟩
      obtain ⟨c', hc', ho'⟩ := e.hasObj ⟨d, hu, hd⟩ (by simp)
      obtain rfl := same_cell hc hc'
      exact ho'
  · intro h
    obtain ⟨c, hc⟩ := b.alive h
    rcases e.stays _ _ hc with h | ⟨m, t, l, _, h⟩
    · exact ⟨_, h⟩
    · exact ⟨_, h⟩
  · obtain ⟨h1, h2⟩ := b.others h m hm
    exact ⟨fun y hy => (tr m).1 _ _ trivial (h1 y hy), fun hy => (tr m).2 _ trivial (h2 hy)⟩

theorem c35_objEnds_aux {u w : Vm} {x : Ref} {o : Obj} (e : Ends u w) (ne : ∀ m l, o ≠ .err m l) (h : ∀ o', u.HasObj x o' → o' = o) :
    ∀ o', w.HasObj x o' → o' = o := by
  rintro o' ⟨c, hc, rfl⟩
  cases hu : u.mem x with
  | none => rw [e.gone _ hu] at hc; cases hc
  | some d =>
    have hd := h _ ⟨d, hu, rfl⟩
    obtain ⟨c', hc', ho'⟩ := e.hasObj ⟨d, hu, hd⟩ ne
    obtain rfl := same_cell hc hc'
    exact ho'

theorem BindsVariable.ends {certain : Prop} {target val t d r : Ref} {N : Text} {p u w : Vm} (sp : p.Sane W) (ht : ¬ p.IsErr t)
    (b : BindsVariable W certain target N t d p r u val) (e : Ends u w) : BindsVariable W certain target N t d p r w val := by
  have ne : ∀ o, p.HasObj t o → ∀ m l, o ≠ .err m l := fun o ho m l e => ht ⟨m, l, e ▸ ho⟩
  refine ⟨b.binds.ends sp e, fun o ho ha => ⟨(b.copied o ho ha).1, c35_objEnds_aux e (ne o ho) (b.copied o ho ha).2⟩,
    fun o ho ha => ⟨(b.shared o ho ha).1, fun h => c35_objEnds_aux e (ne o ho) ((b.shared o ho ha).2 h)⟩, ?_⟩
  intro c hc
  cases hu : u.mem val with
  | none => rw [e.gone _ hu] at hc; cases hc
  | some d =>
    have hd := b.doc d hu
    rcases e.stays _ _ hu with h | ⟨m, t, l, _, h⟩ <;> · rw [hc] at h; cases h; exact hd

/-- the value of a definition is copied, documented and bound -/
theorem c35_bindVar_aux {n : Nat} {h : Handler} {inEnv : Bool} {first third args d target : Ref} {p : Vm} {s0 : List Ref}
    (F : Fine W h) (C : Copies W h) (sp : p.Sane W) (cp : p.Closed W nobody) (of : p.Old W first) (ot : p.Old W third) (od : p.Old W d)
    (oe : p.Old W target) (cert : inEnv = false → p.stack = d :: args :: s0 ∧ target ∈ s0) :
    Wp W n h (do
      let val ← Prog.copyAtom third
      Prog.push val
      Prog.setDocstr val d
      Prog.envSet target first val
      Prog.pop val
      Prog.popTarget inEnv target
      Prog.pop d
      Prog.pop args
      let r ← Prog.alloc (.bool true)
      pure (some r)) p fun a u t => t = [] ∧ ∀ r w, a = some r → Ends u w → ∃ N val, p.HasObj first (.sym N) ∧
        (¬ p.IsErr third → BindsVariable W (inEnv = false) target N third d p r w val) := by
  have g0 : Vm.Step W nobody nobody p p := .refl sp cp
  refine wp_bind (c35_copyAtom_aux F C g0 ot fun val u o ho g hst oval hval pu hcase => ?_)
  have gq : Vm.Step W nobody (fun x => x = target ∨ x = val) p u := ⟨g.sane0, g.sane, g.closed, g.quiet.mono fun _ h => h.elim⟩
  have g1 := gq.push oval
  refine wp_bind (wp_push (wp_bind ?_))
  unfold Prog.setDocstr
  refine wp_bind (wp_read fun c1 hc1 => wp_setDoc fun c1' hc1' => ?_)
  have hc1 : u.mem val = some c1 := hc1
  have hc1' : u.mem val = some c1' := hc1'
  obtain rfl := same_cell hc1 hc1'
  have oo : c1.obj = o := hval.unique ⟨c1, hc1, rfl⟩ |>.symm
  have pubv := g1.closed.pub val c1 hc1 id
  have g2 := g1.modify (d := { c1 with docstr := some d, docvec := c1.docvec }) (.inl (.inr rfl)) hc1 rfl rfl
    ⟨pubv.obj, fun x hx => by cases hx; exact ⟨od.mono g.quiet.births, id⟩, pubv.docvec⟩
  generalize hu2 : ({ u with mem := u.mem.set val { c1 with docstr := some d, docvec := c1.docvec }, stack := val :: u.stack } : Vm) = u2 at g2 ⊢
  have m2 : u2.mem = u.mem.set val { c1 with docstr := some d, docvec := c1.docvec } := by rw [← hu2]
  have st2 : u2.stack = val :: p.stack := by rw [← hu2, ← hst]
  have up : ∀ x, p.Old W x → u2.Old W x := fun x hx => hx.mono g2.quiet.births
  have uu : ∀ x, u.Old W x → u2.Old W x := fun x hx => hx.mono (Nat.le_of_eq (by rw [← hu2]))
  have back : ∀ x c, p.Old W x → u2.mem x = some c → ∃ c', p.mem x = some c' ∧ c'.obj = c.obj := by
    intro x c ox hx
    rw [m2] at hx
    by_cases e : x = val
    · subst e
      rw [Mem.set_self] at hx
      cases hx
      rcases hcase with ⟨_, h⟩ | ⟨_, rfl, rfl⟩
      · exact absurd ox h
      · exact ⟨c1, hc1, rfl⟩
    · rw [Mem.set_other _ _ e] at hx
      cases hp : p.mem x with
      | none => rw [pu.gone x ox hp] at hx; cases hx
      | some c' =>
        rcases pu.cells x c' hp with h | h <;> rw [h] at hx <;> cases hx
        exact ⟨_, rfl, rfl⟩
  have forth : ∀ x c, p.Kept x → p.mem x = some c → ∃ c', u2.mem x = some c' ∧ c'.obj = c.obj := by
    intro x c kx hx
    rw [m2]
    by_cases e : x = val
    · subst e
      rcases hcase with ⟨_, h⟩ | ⟨_, rfl, rfl⟩
      · exact absurd (sp.old _ _ hx) h
      · obtain rfl := same_cell hc1 hx
        exact ⟨_, Mem.set_self .., rfl⟩
    · rw [Mem.set_other _ _ e]
      exact ⟨c, by rw [pu.kept x kx]; exact hx, rfl⟩
  have v2 : u2.mem val = some { c1 with docstr := some d, docvec := c1.docvec } := by rw [m2]; exact Mem.set_self ..
  refine wp_bind ?_
  unfold Prog.envSet
  refine wp_bind (wp_read fun c2 hc2 => ?_)
  split
  · rename_i N hN
    refine wp_bind (wp_read fun c3 hc3 => ?_)
    split
    · rename_i bs enc ho3
      refine wp_setObj fun c3' hc3' => ?_
      obtain rfl := same_cell hc3 hc3'
      refine wp_bind (wp_pop fun s1 hs1 => ?_)
      have hs1 : val :: p.stack = val :: s1 := st2.symm.trans hs1
      simp only [List.cons.injEq, true_and] at hs1
      have fin : ∀ s, (∀ x ∈ s, x ∈ u2.stack) → (inEnv = false → s = s0) → Wp W n h (do
          let r ← Prog.alloc (.bool true)
          pure (some r)) { u2 with mem := u2.mem.set target { c3 with obj := .env (Prog.setBinding bs ⟨N, first, val⟩) enc }, stack := s }
          fun a u t => t = [] ∧ ∀ r w, a = some r → Ends u w → ∃ N val, p.HasObj first (.sym N) ∧
            (¬ p.IsErr third → BindsVariable W (inEnv = false) target N third d p r w val) := by
        intro s hs hcs
        have hp : p.HasObj target (.env bs enc) := by
          obtain ⟨c', h1, h2⟩ := back target c3 oe hc3
          exact ⟨c', h1, h2.trans ho3⟩
        refine wp_bind (wp_alloc ?_ fun r w a => wp_pure ⟨rfl, ?_⟩)
        · have pubt := g2.closed.pub target c3 hc3 id
          have := g2.modify (d := { c3 with obj := .env (Prog.setBinding bs ⟨N, first, val⟩) enc }) (.inl (.inl rfl)) hc3 rfl rfl
            (c35_pub_aux pubt ho3 (up _ of) (uu _ oval))
          exact (this.same (w := { u2 with mem := u2.mem.set target { c3 with obj := .env (Prog.setBinding bs ⟨N, first, val⟩) enc }, stack := s })
            rfl rfl rfl rfl (fun x => by cases x <;> rfl) (fun x hx => g2.closed.stack x (hs x hx)) rfl rfl rfl rfl).sane
        rintro r' w' e he
        cases e
        obtain ⟨c', h1, h2⟩ := back first c2 of hc2
        obtain ⟨g3, b, oth, tgt⟩ := c35_finish_aux (E := fun x => x = val) (certain := inEnv = false) g2 hp hc3 ho3 (up _ of) (uu _ oval) ⟨_, v2⟩
          (fun hi => ⟨.root (by rw [(cert hi).1]; simp [(cert hi).2]), fun x c kx hx _ => forth x c kx hx⟩)
          (fun hi => by rw [hcs hi]; exact (cert hi).2) hs a
        have inw : ∀ x ∈ [val], x ≠ target → ∀ c, w.mem x = some c → c = { c1 with docstr := some d, docvec := c1.docvec } := by
          intro x hx hne c hc
          simp only [List.mem_singleton] at hx
          subst hx
          exact same_cell (oth _ c hc hne (uu _ oval)) v2
        refine ⟨N, val, ⟨c', h1, h2.trans hN⟩, fun ht => BindsVariable.ends sp ht ⟨b, ?_, ?_, ?_⟩ he⟩
        · intro o1 ho1 ha
          cases ho1.unique ho
          rcases hcase with ⟨_, h⟩ | ⟨h, _⟩
          · refine ⟨h, ?_⟩
            rintro o' ⟨c, hc, rfl⟩
            rw [inw val (by simp) (fun e => h (e ▸ oe)) c hc]
            exact oo
          · rw [h] at ha; cases ha
        · intro o1 ho1 ha
          cases ho1.unique ho
          rcases hcase with ⟨h, _⟩ | ⟨_, h, _⟩
          · rw [h] at ha; cases ha
          · subst h
            refine ⟨rfl, ?_⟩
            rintro hne o' ⟨c, hc, rfl⟩
            rw [inw val (by simp) hne c hc]
            exact oo
        · intro c hc
          by_cases hne : val = target
          · subst hne
            rw [tgt c hc]
            obtain rfl := same_cell hc3 v2
            rfl
          · rw [inw val (by simp) hne c hc]
      have tail : ∀ s2, (∀ x ∈ s2, x ∈ u2.stack) → (inEnv = false → s2 = d :: args :: s0) → Wp W n h (do
          Prog.pop d
          Prog.pop args
          let r ← Prog.alloc (.bool true)
          pure (some r)) { u2 with mem := u2.mem.set target { c3 with obj := .env (Prog.setBinding bs ⟨N, first, val⟩) enc }, stack := s2 }
          fun a u t => t = [] ∧ ∀ r w, a = some r → Ends u w → ∃ N val, p.HasObj first (.sym N) ∧
            (¬ p.IsErr third → BindsVariable W (inEnv = false) target N third d p r w val) := by
        intro s2 h2 hcs
        refine wp_bind (wp_pop fun s3 hs3 => wp_bind (wp_pop fun s4 hs4 => ?_))
        have hs3 : s2 = d :: s3 := hs3
        have hs4 : s3 = args :: s4 := hs4
        subst hs4
        subst hs3
        refine Wp.mono (fin s4 (fun x hx => h2 x (by simp [hx])) fun hi => ?_) fun a u t h => by simpa using h
        have := hcs hi
        simpa using this
      unfold Prog.popTarget
      cases inEnv with
      | true =>
        refine wp_bind (wp_pop fun s2 hs2 => ?_)
        have hs2 : s1 = target :: s2 := hs2
        refine Wp.mono (tail s2 (fun x hx => by rw [st2, hs1, hs2]; simp [hx]) (by simp)) fun a u t h => by simpa using h
      | false =>
        refine wp_bind (wp_pure ?_)
        exact Wp.mono (tail s1 (fun x hx => by rw [st2, hs1]; simp [hx]) fun hi => by rw [← hs1]; exact (cert hi).1) fun a u t h => by simpa using h
    · exact wp_fail
  · exact wp_fail

/-! ### functions -/

theorem c35_mentioned_aux {n : Nat} {h : Handler} {v : Vm} {N : Text} : ∀ (ds : List Ref) {Q : Bool → Vm → List Event → Prop},
    (∀ b, (b = true ↔ Mentioned v N ds) → Q b v []) → Wp W n h (Prog.formalInDocvec N ds) v Q
  | [], Q, hq => by
    unfold Prog.formalInDocvec
    exact wp_pure (hq _ ⟨fun e => Bool.noConfusion e, fun m => by cases m⟩)
  | [x], Q, hq => by
    unfold Prog.formalInDocvec
    refine wp_bind (wp_read fun c hc => ?_)
    split
    · exact wp_pure (hq _ ⟨fun e => Bool.noConfusion e, fun m => by cases m⟩)
    · exact wp_fail
  | x :: y :: rest, Q, hq => by
    unfold Prog.formalInDocvec
    refine wp_bind (wp_read fun c hc => ?_)
    split
    · rename_i t ho
      split
      · rename_i e
        subst e
        refine wp_bind (wp_read fun c' hc' => ?_)
        split
        · rename_i ds ho'
          refine wp_pure (hq _ ?_)
          simp only [decide_eq_true_eq]
          constructor
          · intro hd
            refine .here ⟨c, hc, ho⟩ ⟨c', hc', ho'⟩ fun e => ?_
            rcases hd with hd | hd
            · exact absurd e hd
            · exact hd
          · intro m
            cases m with
            | here h1 h2 h3 =>
              cases h2.unique ⟨c', hc', ho'⟩
              by_cases e : t = Prog.dots
              · exact .inr (h3 e)
              · exact .inl e
            | later h1 h2 _ => cases h1.unique ⟨c, hc, ho⟩; exact absurd rfl h2
        · rename_i hno
          refine wp_pure (hq _ ⟨fun e => Bool.noConfusion e, fun m => ?_⟩)
          cases m with
          | here h1 h2 h3 =>
            obtain ⟨c2, hc2, ho2⟩ := h2
            obtain rfl := same_cell hc' hc2
            exact absurd ho2 (hno _)
          | later h1 h2 _ => cases h1.unique ⟨c, hc, ho⟩; exact absurd rfl h2
      · rename_i hne
        refine Wp.mono (c35_mentioned_aux rest (Q := fun b w t => w = v ∧ t = [] ∧ (b = true ↔ Mentioned v N rest)) fun b hb => ⟨rfl, rfl, hb⟩) ?_
        rintro b w t' ⟨rfl, rfl, hb⟩
        refine hq b (hb.trans ⟨fun m => .later ⟨c, hc, ho⟩ hne m, fun m => ?_⟩)
        cases m with
        | here h1 h2 h3 => cases h1.unique ⟨c, hc, ho⟩; exact absurd rfl hne
        | later h1 h2 h3 => exact h3
    · exact wp_fail

theorem c35_formals_aux {n : Nat} {h : Handler} {v : Vm} {ds : List Ref} : ∀ (fs : List Ref) {Q : Bool → Vm → List Event → Prop},
    ((∀ x ∈ fs, ∃ N, v.HasObj x (.sym N) ∧ Mentioned v N ds) → Q true v []) →
    ((∃ x ∈ fs, ∃ N, v.HasObj x (.sym N) ∧ ¬ Mentioned v N ds) → Q false v []) → Wp W n h (Prog.formalsInDocvec ds fs) v Q
  | [], Q, h1, h2 => by
    unfold Prog.formalsInDocvec
    exact wp_pure (h1 (by simp))
  | f :: fs, Q, h1, h2 => by
    unfold Prog.formalsInDocvec
    refine wp_bind (wp_read fun c hc => ?_)
    split
    · rename_i N ho
      refine wp_bind (c35_mentioned_aux ds fun b hb => wp_bind (c35_formals_aux fs (fun h => ?_) fun h => ?_))
      · refine wp_pure ?_
        cases b with
        | true =>
          refine h1 fun x hx => ?_
          rcases List.mem_cons.mp hx with rfl | hx
          · exact ⟨N, ⟨c, hc, ho⟩, hb.mp rfl⟩
          · exact h x hx
        | false => exact h2 ⟨f, by simp, N, ⟨c, hc, ho⟩, fun m => by cases hb.mpr m⟩
      · refine wp_pure ?_
        obtain ⟨x, hx, hN⟩ := h
        rw [Bool.and_false]
        exact h2 ⟨x, by simp [hx], hN⟩
    · exact wp_fail

theorem c35_pairs_aux {n : Nat} {h : Handler} {v : Vm} : ∀ (ds : List Ref) {Q : Unit → Vm → List Event → Prop},
    Q () v [] → Wp W n h (Prog.docvecPairs ds) v Q
  | [], Q, hq => by unfold Prog.docvecPairs; exact wp_pure hq
  | [_], Q, hq => by unfold Prog.docvecPairs; exact wp_fail
  | x :: y :: rest, Q, hq => by
    unfold Prog.docvecPairs
    refine wp_bind (wp_read fun c hc => wp_bind (wp_read fun c' hc' => ?_))
    split
    · exact c35_pairs_aux rest hq
    · exact wp_fail

theorem Refuses.ends {p u w : Vm} {r : Ref} (sp : p.Sane W) (h : Refuses W p r u) (e : Ends u w) : Refuses W p r w :=
  ⟨h.quiet.trans sp e.quiet, h.made, e.isErr h.error⟩

theorem BindsFunction.ends {certain howto : _} {target t d dv r : Ref} {N : Text} {p u w : Vm} (sp : p.Sane W)
    (b : BindsFunction W certain target N t d dv howto p r u) (e : Ends u w) : BindsFunction W certain target N t d dv howto p r w := by
  refine ⟨b.binds.ends sp e, ?_, ?_⟩
  · obtain ⟨f, s, more, h1, h2, h3⟩ := b.function
    refine ⟨f, s, more, h1, c35_objEnds_aux e (by simp) h2, h3.imp ?_ ?_⟩
    · exact fun ⟨h4, h5⟩ => ⟨h4, c35_objEnds_aux e (by simp) h5⟩
    · exact fun ⟨h4, h5⟩ => ⟨h4, c35_objEnds_aux e (by simp) h5⟩
  · intro c hc
    cases hu : u.mem t with
    | none => rw [e.gone _ hu] at hc; cases hc
    | some d =>
      have hd := b.doc d hu
      rcases e.stays _ _ hu with h | ⟨m, t, l, _, h⟩ <;> · rw [hc] at h; cases h; exact hd

/-- writing to values of the exempt set -/
theorem c35_write_aux {E : Ref → Prop} {p u : Vm} (g : Vm.Step W nobody E p u) {x : Ref} {c d : Cell} (hx : E x) (hc : u.mem x = some c)
    (hu : d.uid = c.uid) (hm : d.mark = c.mark) (hd : PubCell (u.Old W) d) : Vm.Step W nobody E p { u with mem := u.mem.set x d } :=
  g.modify (.inl hx) hc hu hm (hd.mono fun _ h => ⟨h, id⟩)

/-- popping the environment -/
theorem c35_popTarget_aux {n : Nat} {h : Handler} {inEnv : Bool} {e : Ref} {u : Vm} {Q : Unit → Vm → List Event → Prop}
    (hq : ∀ s, (inEnv = true ∧ u.stack = e :: s ∨ inEnv = false ∧ s = u.stack) → Q () { u with stack := s } []) : Wp W n h (Prog.popTarget inEnv e) u Q := by
  unfold Prog.popTarget
  cases inEnv with
  | true => exact wp_pop fun s hs => hq s (.inl ⟨rfl, hs⟩)
  | false => exact wp_pure (hq u.stack (.inr ⟨rfl, rfl⟩))

theorem c35_set_set_aux {m : Mem} {x : Ref} {c d : Cell} : (m.set x c).set x d = m.set x d := by
  funext y
  by_cases h : y = x
  · subst h; rw [Mem.set_self, Mem.set_self]
  · rw [Mem.set_other _ _ h, Mem.set_other _ _ h, Mem.set_other _ _ h]

/-- the name and the documentation of a function -/
theorem c35_setFunctionDoc_aux {n : Nat} {h : Handler} {E : Ref → Prop} {first third d dv : Ref} {howto : Bool} {p u : Vm} {ct cd : Cell} {doc : Text}
    (g : Vm.Step W nobody E p u) (hE : E third) (ntd : third ≠ d) (hct : u.mem third = some ct) (hcd : u.mem d = some cd) (hod : cd.obj = .str doc)
    (od : u.Old W d) (odv : u.Old W dv) {Q : Unit → Vm → List Event → Prop}
    (hq : ∀ N f o u', u.HasObj first (.sym N) →
      (ct.obj = .fn f ∧ o = .fn { f with name := N, docstr := doc, howto := howto } ∨ ct.obj = .mac f ∧ o = .mac { f with name := N, docstr := doc, howto := howto }) →
      Vm.Step W nobody E p u' → u'.mem = u.mem.set third { ct with obj := o, docstr := some d, docvec := some dv, howto := howto } →
      u'.stack = u.stack → Q () u' []) : Wp W n h (Prog.setFunctionDoc third first d dv howto) u Q := by
  have pubt := g.closed.cells third ct hct
  unfold Prog.setFunctionDoc
  refine wp_bind (wp_setDoc fun c1 hc1 => wp_bind (wp_setHowto fun c2 hc2 => ?_))
  obtain rfl := same_cell hct hc1
  have g2 := c35_write_aux g (x := third) (d := { ct with docstr := some d, docvec := some dv }) hE hct rfl rfl
    ⟨pubt.obj, fun x hx => by cases hx; exact od, fun x hx => by cases hx; exact odv⟩
  have hc2 : (u.mem.set third { ct with docstr := some d, docvec := some dv }) third = some c2 := hc2
  rw [Mem.set_self] at hc2
  cases hc2
  have g3 := c35_write_aux g2 (x := third) (d := { ct with docstr := some d, docvec := some dv, howto := howto }) hE (Mem.set_self ..) rfl rfl
    ⟨pubt.obj, fun x hx => by cases hx; exact od, fun x hx => by cases hx; exact odv⟩
  simp only [c35_set_set_aux] at g3 ⊢
  refine wp_bind (wp_read fun c4 hc4 => wp_bind (wp_read fun c5 hc5 => ?_))
  have hc5 : (u.mem.set third { ct with docstr := some d, docvec := some dv, howto := howto }) d = some c5 := hc5
  rw [Mem.set_other _ _ (Ne.symm ntd)] at hc5
  obtain rfl := same_cell hcd hc5
  split
  · rename_i N doc' hN hdoc
    rw [hod] at hdoc
    cases hdoc
    refine wp_bind (wp_read fun c6 hc6 => ?_)
    have hc6 : (u.mem.set third { ct with docstr := some d, docvec := some dv, howto := howto }) third = some c6 := hc6
    rw [Mem.set_self] at hc6
    cases hc6
    have hN' : (∃ f, ct.obj = .fn f ∨ ct.obj = .mac f) → u.HasObj first (.sym N) := by
      rintro ⟨f, hf⟩
      have hc4 : (u.mem.set third { ct with docstr := some d, docvec := some dv, howto := howto }) first = some c4 := hc4
      by_cases e : first = third
      · subst e; rw [Mem.set_self] at hc4; cases hc4; rcases hf with hf | hf <;> (have hN : ct.obj = _ := hN) <;> rw [hf] at hN <;> cases hN
      · rw [Mem.set_other _ _ e] at hc4; exact ⟨c4, hc4, hN⟩
    simp only
    split
    · rename_i f hf
      have hf : ct.obj = .fn f := hf
      refine wp_setObj fun c7 hc7 => ?_
      have hc7 : (u.mem.set third { ct with docstr := some d, docvec := some dv, howto := howto }) third = some c7 := hc7
      rw [Mem.set_self] at hc7
      cases hc7
      have po := pubt.obj
      rw [hf] at po
      refine hq N f _ _ (hN' ⟨f, .inl hf⟩) (.inl ⟨hf, rfl⟩) (c35_write_aux g3 (x := third) hE (Mem.set_self ..) rfl rfl
        ⟨?_, fun x hx => by cases hx; exact od, fun x hx => by cases hx; exact odv⟩) c35_set_set_aux rfl
      exact po
    · rename_i f hf
      have hf : ct.obj = .mac f := hf
      refine wp_setObj fun c7 hc7 => ?_
      have hc7 : (u.mem.set third { ct with docstr := some d, docvec := some dv, howto := howto }) third = some c7 := hc7
      rw [Mem.set_self] at hc7
      cases hc7
      have po := pubt.obj
      rw [hf] at po
      refine hq N f _ _ (hN' ⟨f, .inr hf⟩) (.inr ⟨hf, rfl⟩) (c35_write_aux g3 (x := third) hE (Mem.set_self ..) rfl rfl
        ⟨?_, fun x hx => by cases hx; exact od, fun x hx => by cases hx; exact odv⟩) c35_set_set_aux rfl
      exact po
    · exact wp_fail
  · exact wp_fail

theorem c35_tail_aux {n : Nat} {h : Handler} {inEnv howto : Bool} {first third args d dv target : Ref} {p u : Vm} {s0 : List Ref} {N : Text}
    {c3 cd : Cell} {f : FnData} {s more : Text}
    (sp : p.Sane W) (of : p.Old W first)
    (cert : inEnv = false → p.stack = dv :: d :: args :: s0 ∧ target ∈ s0)
    (g : Vm.Step W nobody (fun x => x = target ∨ x = third ∨ x = d) p u) (st : u.stack = third :: p.stack)
    (hN : p.HasObj first (.sym N)) (hd : p.HasObj d (.str s)) (hcd : u.mem d = some cd) (hod : cd.obj = .str (s ++ more))
    (hct : u.mem third = some c3) (hdoc : c3.docstr = some d ∧ c3.docvec = some dv ∧ c3.howto = howto)
    (hft : p.HasObj third (.fn f) ∧ c3.obj = .fn { f with name := N, docstr := s ++ more, howto := howto } ∨
      p.HasObj third (.mac f) ∧ c3.obj = .mac { f with name := N, docstr := s ++ more, howto := howto })
    (rest : ∀ x, x ≠ third → x ≠ d → u.mem x = p.mem x) :
    Wp W n h (do
      Prog.envSet target first third
      Prog.pop third
      Prog.pop dv
      Prog.popTarget inEnv target
      Prog.pop d
      Prog.pop args
      let r ← Prog.alloc (.bool true)
      pure (some r)) u fun a u t => t = [] ∧ ∀ r w, a = some r → Ends u w →
        BindsFunction W (inEnv = false) target N third d dv howto p r w := by
  have hft' : ∃ o, p.HasObj third o ∧ (∀ bs enc, c3.obj ≠ .env bs enc) ∧ (∀ t, c3.obj ≠ .sym t) ∧ (∀ bs enc, o ≠ .env bs enc) := by
    rcases hft with ⟨h1, h2⟩ | ⟨h1, h2⟩ <;> exact ⟨_, h1, by rw [h2]; simp, by rw [h2]; simp, by simp⟩
  obtain ⟨oo, hoo, ne1, ne2, ne3⟩ := hft'
  unfold Prog.envSet
  refine wp_bind (wp_bind (wp_read fun c2 hc2 => ?_))
  have hN2 : c2.obj = .sym N := by
    have e1 : first ≠ third := by
      rintro rfl
      rcases hft with ⟨h1, _⟩ | ⟨h1, _⟩ <;> cases hN.unique h1
    have e2 : first ≠ d := by rintro rfl; cases hN.unique hd
    rw [rest _ e1 e2] at hc2
    obtain ⟨c', hc', ho'⟩ := hN
    obtain rfl := same_cell hc2 hc'
    exact ho'
  rw [hN2]
  refine wp_bind (wp_read fun c hc => ?_)
  split
  · rename_i bs enc ho
    have e1 : target ≠ third := by rintro rfl; obtain rfl := same_cell hc hct; exact ne1 _ _ ho
    have e2 : target ≠ d := by rintro rfl; obtain rfl := same_cell hc hcd; rw [hod] at ho; cases ho
    have hp : p.HasObj target (.env bs enc) := ⟨c, by rw [← rest _ e1 e2]; exact hc, ho⟩
    refine wp_setObj fun c' hc' => ?_
    obtain rfl := same_cell hc hc'
    refine wp_bind (wp_pop fun s1 hs1 => wp_bind (wp_pop fun s2 hs2 => wp_bind (c35_popTarget_aux fun s3 hs3 => wp_bind (wp_pop fun s4 hs4 =>
      wp_bind (wp_pop fun s5 hs5 => ?_)))))
    have hs1 : u.stack = third :: s1 := hs1
    have hs2 : s1 = dv :: s2 := hs2
    have hs3 : inEnv = true ∧ s2 = target :: s3 ∨ inEnv = false ∧ s3 = s2 := hs3
    have hs4 : s3 = d :: s4 := hs4
    have hs5 : s4 = args :: s5 := hs5
    have sub : ∀ x ∈ s5, x ∈ u.stack := by
      intro x hx
      rw [hs1, hs2]
      rcases hs3 with ⟨_, e⟩ | ⟨_, e⟩
      · rw [e, hs4, hs5]; simp [hx]
      · rw [← e, hs4, hs5]; simp [hx]
    have ec : inEnv = false → s5 = s0 := by
      intro hi
      have h1 := (cert hi).1
      rw [st] at hs1
      simp only [List.cons.injEq, true_and] at hs1
      rw [h1] at hs1
      rcases hs3 with ⟨e, _⟩ | ⟨_, e⟩
      · rw [hi] at e; cases e
      · rw [hs2, ← e, hs4, hs5] at hs1
        simp at hs1
        exact hs1.symm
    refine wp_bind (wp_alloc ?_ fun r w a => wp_pure ⟨rfl, ?_⟩)
    · have pubt := g.closed.pub target c hc id
      have := g.modify (d := { c with obj := .env (Prog.setBinding bs ⟨N, first, third⟩) enc }) (.inl (.inl rfl)) hc rfl rfl
        (c35_pub_aux pubt ho (of.mono g.quiet.births) (g.sane.old _ _ hct))
      exact (this.same (w := { u with mem := u.mem.set target { c with obj := .env (Prog.setBinding bs ⟨N, first, third⟩) enc }, stack := s5 })
        rfl rfl rfl rfl (fun x => by cases x <;> rfl) (fun x hx => g.closed.stack x (sub x hx)) rfl rfl rfl rfl).sane
    rintro r' w' e he
    cases e
    obtain ⟨g3, b, oth, tgt⟩ := c35_finish_aux (E := fun x => x = third ∨ x = d) (certain := inEnv = false) g hp hc ho (of.mono g.quiet.births)
      (g.sane.old _ _ hct) ⟨_, hct⟩
      (fun hi => ⟨.root (by rw [(cert hi).1]; simp [(cert hi).2]), fun x cx kx hx ⟨bs', enc', hox⟩ => by
        refine ⟨cx, ?_, rfl⟩
        rw [rest]
        · exact hx
        · rintro rfl; exact ne3 bs' enc' (hoo.unique ⟨cx, hx, hox⟩)
        · rintro rfl; cases hd.unique ⟨cx, hx, hox⟩⟩)
      (fun hi => by rw [ec hi]; exact (cert hi).2) sub a
    have inw : ∀ cw, w.mem third = some cw → cw = c3 := fun cw hcw => same_cell (oth _ cw hcw (Ne.symm e1) (g.sane.old _ _ hct)) hct
    have ind : ∀ cw, w.mem d = some cw → cw = cd := fun cw hcw => same_cell (oth _ cw hcw (Ne.symm e2) (g.sane.old _ _ hcd)) hcd
    refine BindsFunction.ends sp ⟨b, ⟨f, s, more, hd, ?_, hft.imp (fun h => ⟨h.1, ?_⟩) fun h => ⟨h.1, ?_⟩⟩, ?_⟩ he
    · rintro o ⟨cw, hcw, rfl⟩; rw [ind cw hcw]; exact hod
    · rintro o ⟨cw, hcw, rfl⟩; rw [inw cw hcw]; exact h.2
    · rintro o ⟨cw, hcw, rfl⟩; rw [inw cw hcw]; exact h.2
    · intro cw hcw; rw [inw cw hcw]; exact hdoc
  · exact wp_fail

theorem c35_bindFun_aux {n : Nat} {h : Handler} {inEnv howto : Bool} {first third args d dv target : Ref} {p : Vm} {s0 : List Ref}
    (sp : p.Sane W) (cp : p.Closed W nobody) (of : p.Old W first) (ot : p.Old W third) (od : p.Old W d) (odv : p.Old W dv)
    (oe : p.Old W target) (cert : inEnv = false → p.stack = dv :: d :: args :: s0 ∧ target ∈ s0) :
    Wp W n h (Prog.defineFunBind inEnv first third args d dv target howto) p fun a u t => t = [] ∧ ∀ r w, a = some r → Ends u w →
      FunctionEnds W (inEnv = false) target first third d dv howto p r w := by
  have g0 : Vm.Step W nobody nobody p p := .refl sp cp
  unfold Prog.defineFunBind
  refine wp_bind (wp_read fun cv hcv => ?_)
  split
  · rename_i ds hds
    unfold Prog.fnOf
    refine wp_bind (wp_bind (wp_read fun ct hct => ?_))
    have key : ∀ f, Vm.HasFn p third f → Wp W n h (do
        let fs ← Prog.verifyVec f.formals
        if ← Prog.formalsInDocvec ds fs then do
          Prog.docvecPairs ds
          let t ← Prog.text "\nArguments are:…"
          match (← Prog.read d).obj with
          | .str s => do
            Prog.setObj d (.str (s ++ t))
            Prog.push third
            Prog.setFunctionDoc third first d dv howto
            Prog.envSet target first third
            Prog.pop third
            Prog.pop dv
            Prog.popTarget inEnv target
            Prog.pop d
            Prog.pop args
            let r ← Prog.alloc (.bool true)
            pure (some r)
          | _ => Prog.fail .ub
        else do
          Prog.pop dv
          Prog.popTarget inEnv target
          Prog.pop d
          Prog.pop args
          Prog.error "formal is not handled correctly in docvec") p fun a u t => t = [] ∧ ∀ r w, a = some r → Ends u w →
      FunctionEnds W (inEnv = false) target first third d dv howto p r w := by
      intro f hf
      refine wp_bind (wp_verifyVec fun cf fs hcf hof => ?_)
      refine wp_bind (c35_formals_aux fs (fun hm => ?_) fun hm => ?_)
      · simp only [if_true, List.nil_append]
        refine wp_bind (c35_pairs_aux ds (wp_bind (wp_text fun more => wp_bind (wp_read fun cd hcd => ?_))))
        split
        · rename_i s hod
          have hcd : p.mem d = some cd := hcd
          have hsd : p.HasObj d (.str s) := ⟨cd, hcd, hod⟩
          have ntd : third ≠ d := by
            rintro rfl
            rcases hf with hf | hf <;> cases hsd.unique hf
          have gE : Vm.Step W nobody (fun x => x = target ∨ x = third ∨ x = d) p { p with ticks := p.ticks + 1 } :=
            ((Vm.Step.refl sp cp).tick)
          refine wp_bind (wp_setObj fun cd' hcd' => ?_)
          have hcd' : p.mem d = some cd' := hcd'
          obtain rfl := same_cell hcd hcd'
          have pubd := cp.cells d cd hcd
          have g1 := c35_write_aux gE (x := d) (d := { cd with obj := .str (s ++ more) }) (.inr (.inr rfl)) hcd rfl rfl ⟨trivial, pubd.docstr, pubd.docvec⟩
          have g1 := g1.push (r := third) ot
          have ct' : (p.mem.set d { cd with obj := .str (s ++ more) }) third = some ct := by rw [Mem.set_other _ _ ntd]; exact hct
          have pubt := cp.cells third ct hct
          refine wp_bind (wp_push (wp_bind ?_))
          refine c35_setFunctionDoc_aux g1 (.inr (.inl rfl)) ntd ct' (Mem.set_self ..) rfl od odv fun N f' o u hN ho gu hm' hst => ?_
          have pf : p.HasObj first (.sym N) := by
            obtain ⟨c4, hc4, ho4⟩ := hN
            have hc4 : (p.mem.set d { cd with obj := .str (s ++ more) }) first = some c4 := hc4
            by_cases e : first = d
            · subst e; rw [Mem.set_self] at hc4; cases hc4; cases ho4
            · exact ⟨c4, by rw [Mem.set_other _ _ e] at hc4; exact hc4, ho4⟩
          have hm' : u.mem = (p.mem.set d { cd with obj := .str (s ++ more) }).set third { ct with obj := o, docstr := some d, docvec := some dv, howto := howto } := hm'
          have hft : Vm.HasFn p third f' := ho.imp (fun h => ⟨ct, hct, h.1⟩) fun h => ⟨ct, hct, h.1⟩
          have : f' = f := by
            rcases hf with hf | hf <;> rcases hft with h | h <;> cases hf.unique h <;> rfl
          subst this
          refine Wp.mono (c35_tail_aux (N := N) (f := f') (s := s) (more := more) sp of cert gu hst pf hsd
            (cd := { cd with obj := .str (s ++ more) }) (by rw [hm', Mem.set_other _ _ (Ne.symm ntd)]; exact Mem.set_self ..) rfl
            (by rw [hm']; exact Mem.set_self ..) ⟨rfl, rfl, rfl⟩
            (ho.imp (fun h => ⟨⟨ct, hct, h.1⟩, h.2⟩) fun h => ⟨⟨ct, hct, h.1⟩, h.2⟩)
            fun x h1 h2 => by rw [hm', Mem.set_other _ _ h1, Mem.set_other _ _ h2]) ?_
          rintro a u t ⟨rfl, h⟩
          exact ⟨rfl, fun r w ha he => .inr ⟨ds, f', fs, ⟨cv, hcv, hds⟩, hf, ⟨cf, hcf, hof⟩, .inr ⟨hm, N, pf, h r w ha he⟩⟩⟩
        · exact wp_fail
      · simp only [List.nil_append]
        refine wp_bind (wp_pop fun s1 hs1 => wp_bind (c35_popTarget_aux fun s2 hs2 => wp_bind (wp_pop fun s3 hs3 => wp_bind (wp_pop fun s4 hs4 => ?_))))
        have hs2 : inEnv = true ∧ s1 = target :: s2 ∨ inEnv = false ∧ s2 = s1 := hs2
        have hs3 : s2 = d :: s3 := hs3
        have hs4 : s3 = args :: s4 := hs4
        have gs : Vm.Step W nobody nobody p { p with stack := s4 } := by
          refine g0.same rfl rfl rfl rfl (fun x => by cases x <;> rfl) (fun x hx => cp.stack x ?_) rfl rfl rfl rfl
          have hx : x ∈ s4 := hx
          rw [hs1]
          rcases hs2 with ⟨_, e⟩ | ⟨_, e⟩
          · rw [e, hs3, hs4]; simp [hx]
          · rw [← e, hs3, hs4]; simp [hx]
        refine wps_error gs fun r w t gw _ hr fresh => ⟨rfl, ?_⟩
        rintro r' w' e he
        cases e
        exact .inr ⟨ds, f, fs, ⟨cv, hcv, hds⟩, hf, ⟨cf, hcf, hof⟩, .inl ⟨hm, Refuses.ends sp ⟨gw.quiet, fresh, _, _, _, hr, rfl⟩ he⟩⟩
    split
    · rename_i f hf
      exact wp_pure (Wp.mono (key f (.inl ⟨ct, hct, hf⟩)) fun a u t h => by simpa using h)
    · rename_i f hf
      exact wp_pure (Wp.mono (key f (.inr ⟨ct, hct, hf⟩)) fun a u t h => by simpa using h)
    · exact wp_fail
  · rename_i hno
    refine wp_bind (wps_error g0 fun r w t gw _ hr fresh => ?_)
    refine wp_bind (wp_pop fun s1 hs1 => wp_bind (c35_popTarget_aux fun s2 hs2 => wp_bind (wp_pop fun s3 hs3 => wp_bind (wp_pop fun s4 hs4 => wp_pure ⟨rfl, ?_⟩))))
    rintro r' w' e he
    cases e
    refine .inl ⟨?_, Refuses.ends sp ⟨gw.quiet, fresh, _, _, _, hr, rfl⟩ (Ends.pop.trans he)⟩
    rintro ds ⟨c, hc, ho⟩
    obtain rfl := same_cell hcv hc
    exact hno _ ho

/-! ### the special form -/

theorem c35_unpush_aux {E : Ref → Prop} {p w : Vm} {s : List Ref} (sp : p.Sane W) (q : Vm.Quiet W E { p with stack := s } w) : Vm.Quiet W E p w :=
  Vm.Quiet.trans (w := { p with stack := s }) sp (.same rfl rfl rfl rfl rfl rfl fun x => by cases x <;> rfl) q

theorem BindsName.unpush {E : Ref → Prop} {certain : Prop} {target val r : Ref} {N : Text} {p w : Vm} {s : List Ref} (sp : p.Sane W)
    (b : BindsName W E certain target N val { p with stack := s } r w) : BindsName W E certain target N val p r w :=
  ⟨b.change, b.bound, b.alive, b.others, b.made, b.result, c35_unpush_aux sp b.quiet⟩

theorem BindsVariable.unpush {certain : Prop} {target val t d r : Ref} {N : Text} {p w : Vm} {s : List Ref} (sp : p.Sane W)
    (b : BindsVariable W certain target N t d { p with stack := s } r w val) : BindsVariable W certain target N t d p r w val :=
  ⟨b.binds.unpush sp, b.copied, b.shared, b.doc⟩

theorem Refuses.unpush {p w : Vm} {r : Ref} {s : List Ref} (sp : p.Sane W) (b : Refuses W { p with stack := s } r w) : Refuses W p r w :=
  ⟨c35_unpush_aux sp b.quiet, b.made, b.error⟩

theorem Mentioned.unpush {p : Vm} {N : Text} {ds : List Ref} {s : List Ref} : Mentioned { p with stack := s } N ds ↔ Mentioned p N ds := by
  constructor <;> intro m
  · induction m with
    | here h1 h2 h3 => exact .here h1 h2 h3
    | later h1 h2 _ ih => exact .later h1 h2 ih
  · induction m with
    | here h1 h2 h3 => exact .here h1 h2 h3
    | later h1 h2 _ ih => exact .later h1 h2 ih

theorem c35_endsUnpush_aux {certain : Prop} {howto : Bool} {target name t d dv r : Ref} {p w : Vm} {s : List Ref} (sp : p.Sane W)
    (b : FunctionEnds W certain target name t d dv howto { p with stack := s } r w) : FunctionEnds W certain target name t d dv howto p r w := by
  rcases b with ⟨h1, h2⟩ | ⟨ds, f, fs, h1, h2, h3, h⟩
  · exact .inl ⟨h1, h2.unpush sp⟩
  · refine .inr ⟨ds, f, fs, h1, h2, h3, ?_⟩
    rcases h with ⟨⟨x, hx, N, hN, hm⟩, hr⟩ | ⟨hall, N, hN, b⟩
    · exact .inl ⟨⟨x, hx, N, hN, fun h => hm (Mentioned.unpush.mpr h)⟩, hr.unpush sp⟩
    · refine .inr ⟨fun x hx => ?_, N, hN, ⟨b.binds.unpush sp, b.function, b.doc⟩⟩
      obtain ⟨N, h4, h5⟩ := hall x hx
      exact ⟨N, h4, Mentioned.unpush.mp h5⟩

/-- an error, then some pops -/
theorem c35_errorPop_aux {n : Nat} {h : Handler} {args : Ref} {what : String} {X : Ref → Prop} {v : Vm} (sv : v.Sane W) (cv : v.Closed W X)
    {Q : Option Ref → Vm → List Event → Prop} (hq : ∀ r u, (∀ w, Ends u w → Refuses W v r w) → Q (some r) u []) : Wp W n h (Prog.errorPop args what) v Q := by
  unfold Prog.errorPop
  refine wp_bind (wps_error (Vm.Step.refl (E := nobody) sv cv) fun r w t gw _ hr fresh => wp_bind (wp_pop fun s hs => wp_pure (hq r _ ?_)))
  exact fun w' he => Refuses.ends sv ⟨gw.quiet, fresh, _, _, _, hr, rfl⟩ (Ends.pop.trans he)

/-- the environment to define in -/
theorem c35_target_aux {n : Nat} {h : Handler} {inEnv : Bool} {args env : Ref} {xs : List Ref} {i : Nat} {p : Vm} {s : List Ref} (F : Fine W h)
    (sp : p.Sane W) (k : Held W args xs env { p with stack := s }) (hi : inEnv = true → i < xs.length) {Q : Ref × Bool → Vm → List Event → Prop}
    (hq : ∀ target ok q tr s', TargetOf W inEnv p xs[i]? env target q tr → q.Sane W → q.Old W target → Held W args xs env { q with stack := s' } →
      p.births ≤ q.births → (ok = false → inEnv = true ∧ ∀ bs enc, ¬ q.HasObj target (.env bs enc)) → (inEnv = false → s' = s ∧ target = env) →
      Q (target, ok) { q with stack := s' } tr) : Wp W n h (Prog.defineTarget inEnv args env i) { p with stack := s } Q := by
  unfold Prog.defineTarget
  cases inEnv with
  | false =>
    exact wp_pure (hq env true p [] s (.here rfl) sp k.env.1 k (Nat.le_refl _) (by simp) (by simp))
  | true =>
    refine wp_bind (wp_evalElem F k (hi rfl) fun x a w hx kw g hs hp => wp_bind (wp_push (wp_bind (wp_read fun c hc => ?_))))
    have ev : TargetOf W true p xs[i]? env a w [⟨x, env, { p with stack := s }, some a, w⟩] :=
      .given (e := ⟨x, env, { p with stack := s }, some a, w⟩) rfl hx ⟨rfl, rfl, rfl, c35_unpush_aux sp (.refl _)⟩
    have hc : w.mem a = some c := hc
    split
    · exact wp_pure (hq a true w _ _ ev g.sane hp.1 (kw.push hp.1) g.later.births (by simp) (by simp))
    · rename_i hno
      refine wp_pure (hq a false w _ _ ev g.sane hp.1 (kw.push hp.1) g.later.births (fun _ => ⟨rfl, ?_⟩) (by simp))
      rintro bs enc ⟨c', hc', ho'⟩
      obtain rfl := same_cell hc hc'
      exact hno _ _ ho'

theorem c35_variable_aux {n : Nat} {h : Handler} {inEnv : Bool} {first third args env : Ref} {xs : List Ref} {v : Vm} {s : List Ref}
    (F : Fine W h) (C : Copies W h) (sv : v.Sane W) (k : Held W args xs env { v with stack := s }) (of : v.Old W first) (ot : v.Old W third)
    (he : env ∈ s) (hl : xs.length = if inEnv then 6 else 4) :
    Wp W n h (Prog.defineVar inEnv first third args env) { v with stack := s } fun a u t => ∀ r w, a = some r → Ends u w →
      VariableRun W inEnv xs env first third v r w t := by
  unfold Prog.defineVar
  refine wp_bind (wp_verifyVec_vec k.vec fun _ => wp_bind (wp_verifyEnv fun _ => ?_))
  rw [if_neg (by rw [hl]; simp)]
  refine wp_bind (wp_push ?_)
  have k1 := k.push k.old
  refine wp_bind (c35_isSymbolAt_aux k1.vec fun x as hx has _ => ?_)
  have hsay : as = true ↔ Says v xs 1 "as" := has.trans ⟨fun h => ⟨x, hx, h⟩, fun ⟨y, hy, h⟩ => by rw [hx] at hy; cases hy; exact h⟩
  have cont : ∀ isIn : Bool, (isIn = true ↔ (inEnv = true → Says v xs 4 "in")) → Wp W n h (do
      if as = false then Prog.errorPop args "Special 'define' expects symbol 'as' …"
      else if isIn = false then Prog.errorPop args "Special 'define' expects symbol 'in' …"
      else do
        let d ← Prog.evalElem args 3 env
        Prog.push d
        match (← Prog.read d).obj with
        | .str _ => do
          let (target, ok) ← Prog.defineTarget inEnv args env 5
          if ok = false then do
            let r ← Prog.error "Special 'define' expects environment …"
            Prog.popTarget inEnv target
            Prog.pop d
            Prog.pop args
            pure r
          else do
            let val ← Prog.copyAtom third
            Prog.push val
            Prog.setDocstr val d
            Prog.envSet target first val
            Prog.pop val
            Prog.popTarget inEnv target
            Prog.pop d
            Prog.pop args
            let r ← Prog.alloc (.bool true)
            pure (some r)
        | _ => do
          let r ← Prog.error "Special 'define' expects documentation string …"
          Prog.pop d
          Prog.pop args
          pure r) { v with stack := args :: s } fun a u t => ∀ r w, a = some r → Ends u w → VariableRun W inEnv xs env first third v r w t := by
    intro isIn hin
    split
    · rename_i e
      refine c35_errorPop_aux k1.sane k1.closed fun r u hr => ?_
      rintro r' w e' he
      cases e'
      exact .syntaxError (.inl fun hs => by rw [hsay.mpr hs] at e; cases e) ((hr w he).unpush sv)
    split
    · rename_i e
      refine c35_errorPop_aux k1.sane k1.closed fun r u hr => ?_
      rintro r' w e' he
      cases e'
      refine .syntaxError (.inr ?_) ((hr w he).unpush sv)
      by_cases hi : inEnv = true
      · exact ⟨hi, fun hs => by rw [hin.mpr fun _ => hs] at e; cases e⟩
      · rw [hin.mpr fun h => absurd h hi] at e; cases e
    rename_i e1 e2
    have s1 : Says v xs 1 "as" := hsay.mp (by simpa using e1)
    have s2 : inEnv = true → Says v xs 4 "in" := hin.mp (by simpa using e2)
    have h3 : 3 < xs.length := by rw [hl]; split <;> omega
    refine wp_bind (wp_evalElem F k1 h3 fun x d p hx kp g hst hd => wp_bind (wp_push (wp_bind (wp_read fun c hc => ?_))))
    have hc : p.mem d = some c := hc
    have ev : Evals W v x env ⟨x, env, { v with stack := args :: s }, some d, p⟩ d := ⟨rfl, rfl, rfl, c35_unpush_aux sv (.refl _)⟩
    have kd := kp.push hd.1
    have oldp : ∀ y, v.Old W y → p.Old W y := fun y hy => hy.mono g.later.births
    split
    · rename_i str hstr
      have hstr : p.HasObj d (.str str) := ⟨c, hc, hstr⟩
      refine wp_bind (c35_target_aux F kp.sane kd (fun hi => by rw [hl, hi]; simp) fun target ok q tr s' ht sq oq kq hb hok hcur => ?_)
      simp only
      have hd' : q.Old W d := hd.1.mono hb
      split
      · rename_i e
        obtain ⟨hi, hne⟩ := hok e
        refine wp_bind (wps_error (Vm.Step.refl (E := nobody) kq.sane kq.closed) fun r w t gw _ hr fresh => wp_bind (c35_popTarget_aux fun s1' _ =>
          wp_bind (wp_pop fun s2' _ => wp_bind (wp_pop fun s3' _ => wp_pure ?_))))
        rintro r' w' e' he'
        cases e'
        have : Refuses W q r w' := Refuses.ends sq (Refuses.unpush sq ⟨gw.quiet, fresh, _, _, _, hr, rfl⟩) (Ends.pop.trans he')
        simpa using VariableRun.badEnv s1 s2 hx ev hstr ht hi hne this
      · refine Wp.mono (c35_bindVar_aux (s0 := s) F C kq.sane kq.closed.open' ((oldp _ of).mono hb) ((oldp _ ot).mono hb) hd' oq fun hi => ?_) ?_
        · obtain ⟨rfl, rfl⟩ := hcur hi
          exact ⟨by rw [hst], he⟩
        · rintro a u t ⟨rfl, hr⟩ r w ha hw
          obtain ⟨N, val, h1, h2⟩ := hr r w ha hw
          simpa using VariableRun.bound s1 s2 hx ev hstr ht h1 fun hne => (h2 hne).unpush sq
    · rename_i hno
      refine wp_bind (wps_error (Vm.Step.refl (E := nobody) kd.sane kd.closed) fun r w t gw _ hr fresh =>
        wp_bind (wp_pop fun s2' _ => wp_bind (wp_pop fun s3' _ => wp_pure ?_)))
      rintro r' w' e' he'
      cases e'
      have : Refuses W p r w' := Refuses.ends kp.sane (Refuses.unpush kp.sane ⟨gw.quiet, fresh, _, _, _, hr, rfl⟩) (Ends.pop.trans he')
      refine .badDoc s1 s2 hx ev ?_ this
      rintro t ⟨c', hc', ho'⟩
      obtain rfl := same_cell hc hc'
      exact hno _ ho'
  cases inEnv with
  | true =>
    refine wp_bind (c35_isSymbolAt_aux k1.vec fun x4 b hx4 hb _ => ?_)
    refine Wp.mono (cont b (hb.trans ⟨fun h _ => ⟨x4, hx4, h⟩, fun h => ?_⟩)) fun a u t h => by simpa using h
    obtain ⟨y, hy, h⟩ := h rfl
    rw [hx4] at hy; cases hy; exact h
  | false =>
    refine wp_bind (wp_pure ?_)
    exact Wp.mono (cont true (by simp)) fun a u t h => by simpa using h

theorem c35_says_aux {v : Vm} {xs : List Ref} {i : Nat} {s : String} {x : Ref} (hx : xs[i]? = some x) : v.HasObj x (.sym (txt s)) ↔ Says v xs i s :=
  ⟨fun h => ⟨x, hx, h⟩, fun ⟨y, hy, h⟩ => by rw [hx] at hy; cases hy; exact h⟩

theorem c35_howto_aux {n : Nat} {h : Handler} {v : Vm} {s : List Ref} {args : Ref} {xs : List Ref} {i : Nat}
    (hv : ({ v with stack := s } : Vm).HasVec args xs ∨ ({ v with stack := s } : Vm).mem args = none) {Q : Option Bool → Vm → List Event → Prop}
    (h0 : ¬ Says v xs i "howto-ok" → ¬ Says v xs i "howto-no" → Q none { v with stack := s } [])
    (h1 : ∀ howto : Bool, Says v xs i (if howto then "howto-ok" else "howto-no") → Q (some howto) { v with stack := s } []) :
    Wp W n h (Prog.howtoSymbol args i) { v with stack := s } Q := by
  unfold Prog.howtoSymbol
  refine wp_bind (c35_isSymbolAt_aux hv fun x b hx hb _ => ?_)
  have hb : b = true ↔ Says v xs i "howto-ok" := hb.trans (c35_says_aux hx)
  cases b with
  | true => exact wp_pure (h1 true (hb.mp rfl))
  | false =>
    simp only [Bool.false_eq_true, if_false, List.nil_append]
    refine wp_bind (c35_isSymbolAt_aux hv fun x b hx hb' _ => ?_)
    have hb' : b = true ↔ Says v xs i "howto-no" := hb'.trans (c35_says_aux hx)
    cases b with
    | true => exact wp_pure (h1 false (hb'.mp rfl))
    | false => exact wp_pure (h0 (fun h => by cases hb.mpr h) fun h => by cases hb'.mpr h)

theorem c35_function_aux {n : Nat} {h : Handler} {inEnv : Bool} {first third args env : Ref} {xs : List Ref} {v : Vm} {s : List Ref}
    (F : Fine W h) (sv : v.Sane W) (k : Held W args xs env { v with stack := s }) (of : v.Old W first) (ot : v.Old W third)
    (he : env ∈ s) (hl : xs.length = if inEnv then 8 else 6) :
    Wp W n h (Prog.defineFun inEnv first third args env) { v with stack := s } fun a u t => ∀ r w, a = some r → Ends u w →
      FunctionRun W inEnv xs env first third v r w t := by
  unfold Prog.defineFun
  refine wp_bind (wp_verifyVec_vec k.vec fun _ => wp_bind (wp_verifyEnv fun _ => ?_))
  rw [if_neg (by rw [hl]; simp)]
  refine wp_bind (wp_push ?_)
  have k1 := k.push k.old
  refine wp_bind (c35_isSymbolAt_aux k1.vec fun x as hx has _ => ?_)
  have hsay : as = true ↔ Says v xs 1 "as" := has.trans (c35_says_aux hx)
  have cont : ∀ isIn : Bool, (isIn = true ↔ (inEnv = true → Says v xs 5 "in")) → Wp W n h (do
      if as = false then Prog.errorPop args "Special 'define' expects symbol 'as' …"
      else if isIn = false then Prog.errorPop args "Special 'define' expects symbol 'in' …"
      else
        match ← Prog.howtoSymbol args (if inEnv then 7 else 5) with
        | none => Prog.errorPop args "Special 'define' expects symbol 'howto-ok' or 'howto-no' …"
        | some howto => do
          let d ← Prog.evalElem args 3 env
          Prog.push d
          match (← Prog.read d).obj with
          | .str _ => do
            let (target, ok) ← Prog.defineTarget inEnv args env 6
            if ok = false then do
              let r ← Prog.error "Special 'define' expects environment …"
              Prog.popTarget inEnv target
              Prog.pop d
              Prog.pop args
              pure r
            else do
              let dv ← Prog.evalElem args 4 env
              Prog.push dv
              Prog.defineFunBind inEnv first third args d dv target howto
          | _ => do
            let r ← Prog.error "Special 'define' expects documentation string …"
            Prog.pop d
            Prog.pop args
            pure r) { v with stack := args :: s } fun a u t => ∀ r w, a = some r → Ends u w → FunctionRun W inEnv xs env first third v r w t := by
    intro isIn hin
    split
    · rename_i e
      refine c35_errorPop_aux k1.sane k1.closed fun r u hr => ?_
      rintro r' w e' he
      cases e'
      exact .syntaxError (.inl fun hs => by rw [hsay.mpr hs] at e; cases e) ((hr w he).unpush sv)
    split
    · rename_i e
      refine c35_errorPop_aux k1.sane k1.closed fun r u hr => ?_
      rintro r' w e' he
      cases e'
      refine .syntaxError (.inr (.inl ?_)) ((hr w he).unpush sv)
      by_cases hi : inEnv = true
      · exact ⟨hi, fun hs => by rw [hin.mpr fun _ => hs] at e; cases e⟩
      · rw [hin.mpr fun h => absurd h hi] at e; cases e
    rename_i e1 e2
    have s1 : Says v xs 1 "as" := hsay.mp (by simpa using e1)
    have s2 : inEnv = true → Says v xs 5 "in" := hin.mp (by simpa using e2)
    have h3 : 3 < xs.length := by rw [hl]; split <;> omega
    refine wp_bind (c35_howto_aux k1.vec (fun n1 n2 => ?_) fun howto s3 => ?_)
    · simp only [List.nil_append]
      refine c35_errorPop_aux k1.sane k1.closed fun r u hr => ?_
      rintro r' w e' he
      cases e'
      exact .syntaxError (.inr (.inr ⟨n1, n2⟩)) ((hr w he).unpush sv)
    simp only [List.nil_append]
    refine wp_bind (wp_evalElem F k1 h3 fun x d p hx kp g hst hd => wp_bind (wp_push (wp_bind (wp_read fun c hc => ?_))))
    have hc : p.mem d = some c := hc
    have ev : Evals W v x env ⟨x, env, { v with stack := args :: s }, some d, p⟩ d := ⟨rfl, rfl, rfl, c35_unpush_aux sv (.refl _)⟩
    have kd := kp.push hd.1
    have oldp : ∀ y, v.Old W y → p.Old W y := fun y hy => hy.mono g.later.births
    split
    · rename_i str hstr
      have hstr : p.HasObj d (.str str) := ⟨c, hc, hstr⟩
      refine wp_bind (c35_target_aux F kp.sane kd (fun hi => by rw [hl, hi]; simp) fun target ok q tr s' ht sq oq kq hb hok hcur => ?_)
      simp only
      split
      · rename_i e
        obtain ⟨hi, hne⟩ := hok e
        refine wp_bind (wps_error (Vm.Step.refl (E := nobody) kq.sane kq.closed) fun r w t gw _ hr fresh => wp_bind (c35_popTarget_aux fun s1' _ =>
          wp_bind (wp_pop fun s2' _ => wp_bind (wp_pop fun s3' _ => wp_pure ?_))))
        rintro r' w' e' he'
        cases e'
        have : Refuses W q r w' := Refuses.ends sq (Refuses.unpush sq ⟨gw.quiet, fresh, _, _, _, hr, rfl⟩) (Ends.pop.trans he')
        simpa using FunctionRun.badEnv s1 s2 s3 hx ev hstr ht hi hne this
      · refine wp_bind (wp_evalElem F kq (by rw [hl]; split <;> omega) fun y dv p2 hy kp2 g2 hst2 hdv => wp_bind (wp_push ?_))
        have up2 : ∀ y, q.Old W y → p2.Old W y := fun y hy => hy.mono g2.later.births
        have kdv := kp2.push hdv.1
        have ev2 : Evals W q y env ⟨y, env, { q with stack := s' }, some dv, p2⟩ dv := ⟨rfl, rfl, rfl, c35_unpush_aux sq (.refl _)⟩
        refine Wp.mono (c35_bindFun_aux (s0 := s) kdv.sane kdv.closed.open' (up2 _ ((oldp _ of).mono hb)) (up2 _ ((oldp _ ot).mono hb))
          (up2 _ (hd.1.mono hb)) hdv.1 (up2 _ oq) fun hi => ?_) ?_
        · obtain ⟨rfl, rfl⟩ := hcur hi
          exact ⟨by rw [hst2, hst], he⟩
        · rintro a u t ⟨rfl, hr⟩ r w ha hw
          simpa using FunctionRun.documented s1 s2 s3 hx ev hstr ht hy ev2 (c35_endsUnpush_aux kp2.sane (hr r w ha hw))
    · rename_i hno
      refine wp_bind (wps_error (Vm.Step.refl (E := nobody) kd.sane kd.closed) fun r w t gw _ hr fresh =>
        wp_bind (wp_pop fun s2' _ => wp_bind (wp_pop fun s3' _ => wp_pure ?_)))
      rintro r' w' e' he'
      cases e'
      have : Refuses W p r w' := Refuses.ends kp.sane (Refuses.unpush kp.sane ⟨gw.quiet, fresh, _, _, _, hr, rfl⟩) (Ends.pop.trans he')
      refine .badDoc s1 s2 s3 hx ev ?_ this
      rintro t ⟨c', hc', ho'⟩
      obtain rfl := same_cell hc hc'
      exact hno _ ho'
  cases inEnv with
  | true =>
    refine wp_bind (c35_isSymbolAt_aux k1.vec fun x4 b hx4 hb _ => ?_)
    refine Wp.mono (cont b (hb.trans ⟨fun h _ => ⟨x4, hx4, h⟩, fun h => ?_⟩)) fun a u t h => by simpa using h
    obtain ⟨y, hy, h⟩ := h rfl
    rw [hx4] at hy; cases hy; exact h
  | false =>
    refine wp_bind (wp_pure ?_)
    exact Wp.mono (cont true (by simp)) fun a u t h => by simpa using h

theorem c35_define_aux (hL : L.Safe) {n : Nat} {args env : Ref} {xs : List Ref} {v v1 : Vm} (k : Held W args xs env v1)
    (g : Vm.Step W (fun x => x = args) nobody v v1) (hold : ∀ x ∈ xs, v.Old W x) (hargs : ∀ x ∈ xs, ¬ v.IsErr x) (he : env ∈ v1.stack) :
    Wp W n (handle W L n) (Prog.spDefine args env) v1 fun a u t => ∀ r w, a = some r → Ends u w → DefineRun W v xs env r w t := by
  have F : Fine W (handle W L n) := handler_fine hL n
  have C : Copies W (handle W L n) := handler_copies n
  unfold Prog.spDefine
  refine wp_bind (wp_verifyVec_vec k.vec fun _ => wp_bind (wp_verifyEnv fun _ => ?_))
  simp only [List.nil_append]
  split
  · rename_i hc
    refine wps_error g fun r w t gw _ hr fresh => ?_
    rintro r' w' e he
    cases e
    exact .count hc.1 hc.2.1 hc.2.2 (Refuses.ends g.sane0 ⟨gw.quiet, fun h => fresh (h.mono g.quiet.births), _, _, _, hr, rfl⟩ he)
  rename_i hcnt
  have hlen : xs.length = 4 ∨ xs.length = 6 ∨ xs.length = 8 := by omega
  -- after the name
  have cont : ∀ (first : Ref) (evaluated : Bool) (x : Ref) (p p1 : Vm) (tr : List Event), xs[0]? = some x → NameOf W v x env first p tr →
      Vm.Step W (fun x => x = args) nobody p p1 → Held W args xs env p1 → env ∈ p1.stack → p.Old W first → (evaluated = false → ¬ p.IsErr first) →
      Wp W n (handle W L n) (do
        match (← Prog.read first).obj with
        | .sym _ => do
          Prog.push first
          let third ← Prog.evalElem args 2 env
          match (← Prog.read third).obj with
          | .err _ _ => do
            Prog.pop first
            pure (some third)
          | o => do
            Prog.push third
            let r ←
              if xs.length = 4 then Prog.defineVar false first third args env
              else if xs.length = 6 then
                if Prog.isFunction o then Prog.defineFun false first third args env
                else Prog.defineVar true first third args env
              else Prog.defineFun true first third args env
            Prog.pop third
            Prog.pop first
            pure r
        | .err _ _ =>
          if evaluated then pure (some first) else Prog.error "The first argument of special 'define' …"
        | _ => Prog.error "The first argument of special 'define' …") p1 fun a u t => ∀ r w, a = some r → Ends u w → DefineRun W v xs env r w (tr ++ t) := by
    intro first evaluated x p p1 tr hx hname gp kp hep of herr
    refine wp_bind (wp_read fun c hc => ?_)
    have back : ∀ o, (∀ m l, o ≠ .err m l) → p1.HasObj first o → p.HasObj first o := fun o ne h => gp.quiet.hasObj id of ne h
    have fwd : ∀ o, (∀ m l, o ≠ .err m l) → p.HasObj first o → p1.HasObj first o := by
      rintro o ne ⟨c', hc', ho'⟩
      rcases gp.quiet.cells first c' id hc' with e | e | ⟨m, t, l, h, _⟩
      · exact ⟨c', e, ho'⟩
      · rw [hc] at e; cases e
      · rw [ho'] at h; exact absurd h (ne _ _)
    have isErr : p1.IsErr first → p.IsErr first := by
      rintro ⟨m, l, c', hc', ho'⟩
      cases hp : p.mem first with
      | none => rw [gp.quiet.gone _ of hp] at hc'; cases hc'
      | some d =>
        rcases gp.quiet.cells first d id hp with e | e | ⟨m', t, l', h, _⟩
        · obtain rfl := same_cell hc' e; exact ⟨_, _, _, hp, ho'⟩
        · rw [hc'] at e; cases e
        · exact ⟨_, _, _, hp, h⟩
    have bad : (∀ s, c.obj ≠ .sym s) → (∀ m l, c.obj ≠ .err m l) → Wp W n (handle W L n) (Prog.error "The first argument of special 'define' …") p1
        fun a u t => ∀ r w, a = some r → Ends u w → DefineRun W v xs env r w (tr ++ t) := by
      intro n1 n2
      refine wps_error gp fun r w t gw _ hr fresh => ?_
      rintro r' w' e he
      cases e
      rw [List.append_nil]
      refine .badName hx hname ?_ ?_ (Refuses.ends gp.sane0 ⟨gw.quiet, fun h => fresh (h.mono gp.quiet.births), _, _, _, hr, rfl⟩ he)
      · rintro ⟨m, l, c', hc', ho'⟩
        rcases gp.quiet.cells first c' id hc' with e | e | ⟨m', t', l', h, e⟩
        · obtain rfl := same_cell hc e; exact n2 _ _ ho'
        · rw [hc] at e; cases e
        · obtain rfl := same_cell hc e; exact n2 _ _ rfl
      · intro s hs
        obtain ⟨c', hc', ho'⟩ := fwd _ (by simp) hs
        obtain rfl := same_cell hc hc'
        exact n1 _ ho'
    split
    · rename_i sname hsym
      have hsym : p.HasObj first (.sym sname) := back _ (by simp) ⟨c, hc, hsym⟩
      have of1 : p1.Old W first := of.mono gp.quiet.births
      have kf := kp.push of1
      refine wp_bind (wp_push (wp_bind (wp_evalElem F kf (by omega) fun y t e hy ke ge hst ht => wp_bind (wp_read fun ct hct => ?_))))
      have ev : Evals W p y env ⟨y, env, { p1 with stack := first :: p1.stack }, some t, e⟩ t :=
        ⟨rfl, rfl, rfl, gp.quiet.trans gp.sane0 (.same rfl rfl rfl rfl rfl rfl fun x => by cases x <;> rfl)⟩
      have go : ∀ o, ct.obj = o → (∀ m l, o ≠ .err m l) → Wp W n (handle W L n) (do
            Prog.push t
            let r ←
              if xs.length = 4 then Prog.defineVar false first t args env
              else if xs.length = 6 then
                if Prog.isFunction o then Prog.defineFun false first t args env
                else Prog.defineVar true first t args env
              else Prog.defineFun true first t args env
            Prog.pop t
            Prog.pop first
            pure r) e fun a u t' => ∀ r w, a = some r → Ends u w →
              DefineRun W v xs env r w (tr ++ ⟨y, env, { p1 with stack := first :: p1.stack }, some t, e⟩ :: t') := by
        intro o ho ne
        have kt := ke.push ht.1
        have hnerr : ¬ e.IsErr t := by
          rintro ⟨m, l, h⟩
          exact ne m l (h.unique ⟨ct, hct, ho⟩).symm
        have oe1 : e.Old W first := of1.mono ge.later.births
        have hin : env ∈ t :: e.stack := by rw [hst]; simp [hep]
        refine wp_bind (wp_push ?_)
        have fin : ∀ (P : Prog (Option Ref)) (Run : Ref → Vm → List Event → Prop), Wp W n (handle W L n) P { e with stack := t :: e.stack }
              (fun a u t' => ∀ r w, a = some r → Ends u w → Run r w t') →
            (∀ r w t', Run r w t' → DefineRun W v xs env r w (tr ++ ⟨y, env, { p1 with stack := first :: p1.stack }, some t, e⟩ :: t')) →
            Wp W n (handle W L n) P { e with stack := t :: e.stack } fun a u t' => Wp W n (handle W L n) (do
              Prog.pop t
              Prog.pop first
              pure a) u fun a' u' t'' => ∀ r w, a' = some r → Ends u' w →
                DefineRun W v xs env r w (tr ++ ⟨y, env, { p1 with stack := first :: p1.stack }, some t, e⟩ :: ([] ++ (t' ++ t''))) := by
          intro P Run hP hR
          refine Wp.mono hP fun a u t' h => wp_bind (wp_pop fun _ _ => wp_bind (wp_pop fun _ _ => wp_pure ?_))
          intro r w ha hw
          simpa using hR r w t' (h r w ha ((Ends.pop.trans Ends.pop).trans hw))
        split
        · rename_i h4
          refine wp_bind (fin _ _ (c35_variable_aux F C ke.sane kt oe1 ht.1 hin (by rw [h4]; rfl)) fun r w t' h => ?_)
          exact .variable hx hname hsym hy ev hnerr (.inl h4) (by simpa [h4] using h)
        · split
          · rename_i h4 h6
            split
            · rename_i hf
              refine wp_bind (fin _ _ (c35_function_aux F ke.sane kt oe1 ht.1 hin (by rw [h6]; rfl)) fun r w t' h => ?_)
              refine .function hx hname hsym hy ev hnerr (.inl ⟨h6, ?_⟩) (by simpa [h6] using h)
              cases o with
              | fn f => exact ⟨f, .inl ⟨ct, hct, ho⟩⟩
              | mac f => exact ⟨f, .inr ⟨ct, hct, ho⟩⟩
              | _ => cases hf
            · rename_i hf
              refine wp_bind (fin _ _ (c35_variable_aux F C ke.sane kt oe1 ht.1 hin (by rw [h6]; rfl)) fun r w t' h => ?_)
              refine .variable hx hname hsym hy ev hnerr (.inr ⟨h6, ?_⟩) (by simpa [h6] using h)
              rintro f (h | h)
              · have := h.unique ⟨ct, hct, ho⟩; subst this; exact hf rfl
              · have := h.unique ⟨ct, hct, ho⟩; subst this; exact hf rfl
          · rename_i h4 h6
            have h8 : xs.length = 8 := by omega
            refine wp_bind (fin _ _ (c35_function_aux F ke.sane kt oe1 ht.1 hin (by rw [h8]; rfl)) fun r w t' h => ?_)
            exact .function hx hname hsym hy ev hnerr (.inr h8) (by simpa [h8] using h)
      split
      · rename_i m l ho
        refine wp_bind (wp_pop fun s hs => wp_pure ?_)
        rintro r w e' he'
        cases e'
        exact .valueError hx hname hsym hy ev ⟨_, _, _, hct, ho⟩ (Ends.pop.trans he').quiet
      · rename_i hne
        exact Wp.mono (go _ rfl fun m l h => hne m l h) fun a u t' h => by simpa using h
    · rename_i m l ho
      cases evaluated with
      | true =>
        refine wp_pure ?_
        rintro r w e he
        cases e
        simpa using DefineRun.nameError hx hname (isErr ⟨_, _, _, hc, ho⟩) (gp.quiet.trans gp.sane0 he.quiet)
      | false => exact absurd (isErr ⟨_, _, _, hc, ho⟩) (herr rfl)
    · rename_i n1 n2
      exact bad n1 n2
  unfold Prog.defineName
  have h0 : 0 < xs.length := by omega
  refine wp_bind (wp_bind (wp_elemAt_vec k.vec fun _ => ?_))
  rw [List.getElem?_eq_getElem h0]
  simp only
  have hmem : xs[0] ∈ xs := List.getElem_mem h0
  have hx : xs[0]? = some xs[0] := List.getElem?_eq_getElem h0
  refine wp_bind (wp_read fun c hc => ?_)
  split
  · rename_i es ho
    refine wp_bind (wps_eval F k.here (E := nobody) (k.pub _ hmem) k.env fun a p1 g1 hst hp => wp_bind (wp_deref fun t ht => wp_pure ?_))
    subst ht
    have hname : NameOf W v xs[0] env t p1 [⟨xs[0], env, v1, some t, p1⟩] :=
      .evaluated (e := ⟨xs[0], env, v1, some t, p1⟩) (g.quiet.hasVec id (hold _ hmem) ⟨c, hc, ho⟩) ⟨rfl, rfl, rfl, g.quiet⟩
    have k2 := k.good g1
    refine Wp.mono (cont t true xs[0] p1 p1 _ hx hname k2.here k2 (by rw [hst]; exact he) (hp _ rfl).1 (by simp)) fun a u t' h => by simpa using h
  · rename_i hno
    refine wp_pure ?_
    have hname : NameOf W v xs[0] env xs[0] v [] := .itself fun es ⟨c', hc', ho'⟩ => by
      rcases g.quiet.cells xs[0] c' id hc' with e | e | ⟨m, t, l, h, _⟩
      · obtain rfl := same_cell hc e; exact hno _ ho'
      · rw [hc] at e; cases e
      · rw [ho'] at h; cases h
    refine Wp.mono (cont xs[0] false xs[0] v v1 [] hx hname g k he (hold _ hmem) fun _ => hargs _ hmem) fun a u t' h => by simpa using h

/-- `define`, called by name -/
theorem c35_define (hL : L.Safe) {v w : Vm} (rv : v.Reached W L) {form env op : Ref} {name : Text} {xs : List Ref}
    (nc : NamedCall W v form env name op xs) (hop : v.HasObj op (.special .define)) (hargs : ∀ x ∈ xs, ¬ v.IsErr x)
    {r : Option Ref} {tr : List Event} (ev : Evaluates W L v form env r w tr) :
    NamedFormCall W (DefineRun W) v xs env op r w tr :=
  namedFormCall_aux' hL (fun _ _ _ _ _ _ _ _ k g h1 _ h3 he => c35_define_aux hL k g h1 h3 he.1) rv nc hop hargs ev

/-- After a definition in the current environment, the name evaluates to the value in that environment, without any
effect. -/
theorem c35_name_evaluates (hL : L.Safe) {E : Ref → Prop} {target val r : Ref} {N : Text} {p w : Vm} (h : BindsName W E True target N val p r w)
    (rw' : w.Reached W L) (hq : w.quit = false) {sym : Ref} (hs : w.HasObj sym (.sym N))
    {o : Option Ref} {w' : Vm} {tr : List Event} (ev : Evaluates W L w sym target o w' tr) : o = some val ∧ w' = w ∧ tr = [] := by
  obtain ⟨sw, cw⟩ := rw'.good hL
  have os : w.Old W sym := by obtain ⟨c, hc, _⟩ := hs; exact sw.old _ _ hc
  have ot : w.Old W target := by cases h.bound trivial <;> exact sw.old _ _ ‹_›
  obtain ⟨ht, ⟨x, rfl, hb, rfl⟩ | ⟨x, rfl, hu, _⟩⟩ := ev.symbol sw cw hq hs os ot
  · exact ⟨by rw [(h.bound trivial).unique hb], rfl, ht⟩
  · exact absurd hu (h.bound trivial).not_unbound

/-- the hypotheses hold for the call `(define i as 7 "d")`; the value is true and the environment binds `i` to 7 -/
example : ∃ (v w : Vm) (form op : Ref) (xs : List Ref) (r : Option Ref) (tr : List Event) (y : Ref), v.Reached world library ∧
    NamedCall world v form v.globalEnv (txt "define") op xs ∧ v.HasObj op (.special .define) ∧ (∀ x ∈ xs, ¬ v.IsErr x) ∧
    Evaluates world library v form v.globalEnv r w tr ∧ objAt w r = some (.bool true) ∧
    Binds w.mem (txt "i") v.globalEnv y ∧ objAt w (some y) = some (.int 7) ∧ tr.length = 3 := by
  obtain ⟨v, form, r, w, tr, hr, of, oe, ev, h⟩ := stage_exists (table := kit) (forms := []) (fuel := 40)
    (last := .vec [.sym "define", .sym "i", .sym "as", .int 7, .str "d"])
    (P := fun v f r w tr => namedCheck v f "define" (.special .define) && (decide (objAt w r = some (.bool true)) && (tr.length == 3 &&
      (match objAt w (some v.globalEnv) with
       | some (.env bs _) => (match bs.find? (fun b => b.name = txt "i") with
         | some b => decide (objAt w (some b.val) = some (.int 7))
         | none => false)
       | _ => false)))) kit_plain (by decide +kernel)
  simp only [Bool.and_eq_true, decide_eq_true_eq, beq_iff_eq] at h
  obtain ⟨op, xs, h1, h2, h3⟩ := named_of_check h.1 of oe
  obtain ⟨h4, h5, h6⟩ := h.2
  split at h6
  · rename_i bs enc e
    split at h6
    · rename_i b hb
      obtain ⟨c, hc, ho⟩ : w.HasObj v.globalEnv (.env bs enc) := objAt_hasObj.mp e
      exact ⟨v, w, form, op, xs, r, tr, b.val, hr, h1, h2, h3, ev, h4, .here hc ho hb, by simpa using h6, h5⟩
    · cases h6
  · cases h6

/-- the hypotheses hold for the definition of a function, `(define f as (fn (x) x) "d" (quote (x "d")) howto-no)` -/
example : ∃ (v w : Vm) (form op : Ref) (xs : List Ref) (r : Option Ref) (tr : List Event), v.Reached world library ∧
    NamedCall world v form v.globalEnv (txt "define") op xs ∧ v.HasObj op (.special .define) ∧ (∀ x ∈ xs, ¬ v.IsErr x) ∧
    Evaluates world library v form v.globalEnv r w tr ∧ objAt w r = some (.bool true) ∧ tr.length = 4 := by
  obtain ⟨v, form, r, w, tr, hr, of, oe, ev, h⟩ := stage_exists (table := kit) (forms := []) (fuel := 60)
    (last := .vec [.sym "define", .sym "f", .sym "as", .vec [.sym "fn", .vec [.sym "x"], .sym "x"], .str "d",
      .vec [.sym "quote", .vec [.sym "x", .str "d"]], .sym "howto-no"])
    (P := fun v f r w tr => namedCheck v f "define" (.special .define) && (decide (objAt w r = some (.bool true)) && tr.length == 4))
    kit_plain (by decide +kernel)
  simp only [Bool.and_eq_true, decide_eq_true_eq, beq_iff_eq] at h
  obtain ⟨op, xs, h1, h2, h3⟩ := named_of_check h.1 of oe
  exact ⟨v, w, form, op, xs, r, tr, hr, h1, h2, h3, ev, h.2.1, h.2.2⟩

end Dern.Props
