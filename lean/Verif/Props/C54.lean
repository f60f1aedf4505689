import Verif.Props.Secret
import Verif.Core.TextLemmas
/-
C54: `template` is quasi-quotation.

For every reachable state and every call of `template`: which forms are evaluated, in which order and environment, and what the
result consists of (see `Calling.lean` for the vocabulary).

`(template x…)`: the items are put into the result as they are, without being evaluated, except that

* after the symbol `,` comes a form whose value is put into the result,
* after the symbol `,@` comes a form; if its value is a vector, the elements of the vector are put into the result,
* a symbol `,name` stands for the value of `name`,
* a vector stands for a new vector, which is made from its elements in the same way.

One item alone is the result itself; otherwise the result is a new vector.  The new vectors are not known to the
program until `template` returns, so that no evaluation meanwhile can change them, and collections do not release them.
-/
namespace Dern.Props
open Dern
open Dern.Prog (Library)
variable {W : World} {L : Library}

/-- where items come from: the arguments of `template`, or a vector in the program -/
inductive Source
  | args (xs : List Ref)
  | inside (r : Ref)

/-- the items in the state `v` -/
def Source.Now (v : Vm) : Source → List Ref → Prop
  | .args xs, es => es = xs
  | .inside r, es => v.HasVec r es

/-- the character `,` -/
def comma : Nat := ','.toNat

mutual
/-- What the item with the index `i` of `src` stands for in the state `v`: the values `ps`; `j` is the index of the next item, `u` the state
in the end, `tr` the evaluations, and `ms` are the new vectors with their elements. -/
inductive Item (W : World) (env : Ref) : (src : Source) → (i : Nat) → (v : Vm) → (ps : List Ref) → (ms : List (Ref × List Ref)) →
    (j : Nat) → (u : Vm) → (tr : List Event) → Prop
  | plain {src i v es x} : src.Now v es → es[i]? = some x → (∀ s, ¬ v.HasObj x (.sym (comma :: s))) → (∀ ys, ¬ v.HasVec x ys) →
      Item W env src i v [x] [] (i + 1) v []
  | value {src i v es x y e t} : src.Now v es → es[i]? = some x → v.HasObj x (.sym (txt ",")) → es[i + 1]? = some y →
      Evals W v y env e t → Item W env src i v [t] [] (i + 2) e.post [e]
  | spliced {src i v es x y e t ts} : src.Now v es → es[i]? = some x → v.HasObj x (.sym (txt ",@")) → es[i + 1]? = some y →
      Evals W v y env e t → e.post.HasVec t ts → Item W env src i v ts [] (i + 2) e.post [e]
  | single {src i v es x y e t} : src.Now v es → es[i]? = some x → v.HasObj x (.sym (txt ",@")) → es[i + 1]? = some y →
      Evals W v y env e t → (∀ ts, ¬ e.post.HasVec t ts) → Item W env src i v [t] [] (i + 2) e.post [e]
  | named {src i v es x s name y e t} : src.Now v es → es[i]? = some x → v.HasObj x (.sym (comma :: s)) → s ≠ [] → s ≠ txt "@" →
      ((∀ c ∈ s, Spec.Utf8.IsScalar c ∧ c ≠ 0) → name = s) → Evals W v y env e t → ¬ v.Old W y → e.pre.HasObj y (.sym name) →
      Item W env src i v [t] [] (i + 1) e.post [e]
  | missing {src i v es x r u} : src.Now v es → es[i]? = some x → (v.HasObj x (.sym (txt ",")) ∨ v.HasObj x (.sym (txt ",@"))) →
      i + 1 = es.length → Vm.Quiet W nobody v u → ¬ v.Old W r → u.IsErr r → Item W env src i v [r] [] (i + 1) u []
  | vector {src i v es x ys r v1 ps ms u tr} : src.Now v es → es[i]? = some x → v.HasVec x ys → Vm.Quiet W nobody v v1 → ¬ v.Old W r →
      Items W env (some r) (.inside x) ys.length 0 v1 ps ms u tr → Item W env src i v [r] ((r, ps) :: ms) (i + 1) u tr

/-- The items from the index `i` on, of `n` items; between them nothing happens but that the vector `cur` is filled. -/
inductive Items (W : World) (env : Ref) : (cur : Option Ref) → (src : Source) → (n : Nat) → (i : Nat) → (v : Vm) → (ps : List Ref) →
    (ms : List (Ref × List Ref)) → (u : Vm) → (tr : List Event) → Prop
  | last {cur src n i v ps ms j z u tr} : Item W env src i v ps ms j z tr → n ≤ j → Vm.Quiet W (fun x => some x = cur) z u →
      Items W env cur src n i v ps ms u tr
  | more {cur src n i v ps ms j z v1 tr ps' ms' u tr'} : Item W env src i v ps ms j z tr → j < n → Vm.Quiet W (fun x => some x = cur) z v1 →
      Items W env cur src n j v1 ps' ms' u tr' → Items W env cur src n i v (ps ++ ps') (ms' ++ ms) u (tr ++ tr')
end

/-- the new vectors are new and have the elements given in the end -/
def NewVectors (W : World) (ms : List (Ref × List Ref)) (v w : Vm) : Prop := ∀ m ∈ ms, ¬ v.Old W m.1 ∧ w.HasVec m.1 m.2

/-- What `template` does with the arguments `xs`. -/
inductive TemplateRun (W : World) (v : Vm) (xs : List Ref) (env r : Ref) (w : Vm) (tr : List Event) : Prop
  | one {u v1 ms} : xs.length = 1 → Vm.Quiet W nobody v v1 → Items W env none (.args xs) 1 0 v1 [r] ms u tr → Vm.Quiet W nobody u w →
      NewVectors W ms v w → TemplateRun W v xs env r w tr
  | several {u v1 ps ms} : 1 < xs.length → Vm.Quiet W nobody v v1 → Items W env (some r) (.args xs) xs.length 0 v1 ps ms u tr →
      Vm.Quiet W nobody u w → NewVectors W ((r, ps) :: ms) v w → TemplateRun W v xs env r w tr

/-! ### proofs -/

variable {n : Nat} {h : Handler} {env : Ref} {ms : List (Ref × List Ref)} {cur : Option Ref} {acc st : List Ref} {v w u : Vm}

/-- what is put into the result -/
def Put (cur : Option Ref) (ps : List Ref) (res : Option Ref) : Prop :=
  (cur = none → ∃ x, ps = [x] ∧ res = some x) ∧ (∀ r, cur = some r → res = some r)

/-- the state after a value has been put into the result -/
structure PutDone (W : World) (env : Ref) (ms : List (Ref × List Ref)) (cur : Option Ref) (acc st : List Ref) (v : Vm) (ps : List Ref)
    (res : Option Ref) (w : Vm) (tr : List Event) : Prop where
  silent : tr = []
  quiet : Vm.Quiet W (fun x => some x = cur) v w
  births : w.births = v.births
  stack : w.stack = v.stack
  put : Put cur ps res
  secret : Secret W env ms cur w
  secure : ∀ r, cur = some r → Secure W env ms cur (acc ++ ps) st w

theorem c54_into_aux {x : Ref} (k : Secure W env ms cur acc st v) (hx : v.Old W x) :
    Wp W n h (Prog.intoResult cur x) v fun res w tr => PutDone W env ms cur acc st v [x] res w tr := by
  unfold Prog.intoResult
  split
  · exact wp_pure ⟨rfl, .refl v, rfl, rfl, ⟨fun _ => ⟨x, rfl, rfl⟩, by simp⟩, k.toSecret, by simp⟩
  · rename_i r
    exact wp_bind (wp_appendSecure k hx fun w kw q hb hst => wp_pure ⟨rfl, q, hb, hst, ⟨by simp, by simp⟩, kw.toSecret, fun _ _ => kw⟩)

theorem c54_pop_aux {v0 : Vm} {ps : List Ref} {res : Option Ref} {tr : List Event} {x : Ref} {s : List Ref} (sv : v.Sane W)
    (k0 : ∃ s', v.stack = s' ++ st) (p : PutDone W env ms cur acc st { v with stack := x :: v.stack } ps res w tr) (hs : w.stack = x :: s) :
    PutDone W env ms cur acc st v ps res { w with stack := s } tr := by
  have e : s = v.stack := by
    have := p.stack
    rw [hs] at this; cases this; rfl
  refine ⟨p.silent, ?_, p.births, e, p.put, p.secret.pop hs, fun r hr => (p.secure r hr).pop hs (by rw [e]; exact k0)⟩
  exact ((Ends.pop (v := v)).quiet.trans sv p.quiet).trans sv Ends.pop.quiet

theorem c54_protect_aux {x : Ref} (k : Secure W env ms cur acc st v) (hx : v.Old W x) :
    Wp W n h (Prog.protectInto cur x) v fun res w tr => PutDone W env ms cur acc st v [x] res w tr := by
  unfold Prog.protectInto
  refine wp_bind (wp_push (wp_bind (Wp.mono (c54_into_aux (v := { v with stack := x :: v.stack }) (k.push hx) hx) ?_)))
  intro res w tr p
  obtain rfl := p.silent
  exact wp_bind (wp_pop fun s hs => wp_pure (c54_pop_aux (v0 := v) k.sane k.stack p hs))

theorem c54_appendAll_aux {r : Ref} {xs : List Ref} : ∀ {acc : List Ref} {v : Vm}, Secure W env ms (some r) acc st v →
    (∀ x ∈ xs, v.Old W x) → Wp W n h (Prog.appendAll r xs) v fun _ w tr => tr = [] ∧ Secure W env ms (some r) (acc ++ xs) st w ∧
      Vm.Quiet W (fun x => some x = some r) v w ∧ w.births = v.births ∧ w.stack = v.stack := by
  induction xs with
  | nil => intro acc v k _; exact wp_pure ⟨rfl, by simpa using k, .refl v, rfl, rfl⟩
  | cons x xs ih =>
    intro acc v k hx
    show Wp W n h (Prog.append r x >>= fun _ => Prog.appendAll r xs) v _
    refine wp_bind (wp_appendSecure k (hx x (.head _)) fun w kw q hb hst => ?_)
    refine Wp.mono (ih kw fun y hy => (hx y (.tail _ hy)).mono q.births) ?_
    rintro _ u tr ⟨rfl, ku, q', hb', hst'⟩
    exact ⟨rfl, by simpa using ku, q.trans k.sane q', hb'.trans hb, hst'.trans hst⟩

/-- the rest of what is known after an item -/
structure ItemDone (W : World) (env : Ref) (ms : List (Ref × List Ref)) (cur : Option Ref) (acc : List Ref) (src : Source) (i : Nat) (v : Vm)
    (res : Option Ref) (j : Nat) (u : Vm) (tr : List Event) (ps : List Ref) (ms1 : List (Ref × List Ref)) (z : Vm) : Prop where
  item : Item W env src i v ps ms1 j z tr
  quiet : Vm.Quiet W (fun x => some x = cur) z u
  births : v.births ≤ u.births
  stack : u.stack = v.stack
  fresh : ∀ m ∈ ms1, ¬ v.Old W m.1
  put : Put cur ps res
  secret : Secret W env (ms1 ++ ms) cur u
  secure : ∀ r, cur = some r → Secure W env (ms1 ++ ms) cur (acc ++ ps) v.stack u

/-- an item that makes no vectors -/
theorem PutDone.item {src : Source} {i j : Nat} {res : Option Ref} {z : Vm} {tr : List Event} {ps : List Ref} (p : PutDone W env ms cur acc v.stack z ps res u [])
    (it : Item W env src i v ps [] j z tr) (hb : v.births ≤ z.births) (hst : z.stack = v.stack) :
    ItemDone W env ms cur acc src i v res j u tr ps [] z :=
  ⟨it, p.quiet, by rw [p.births]; exact hb, p.stack.trans hst, by simp, p.put, p.secret, p.secure⟩

/-- what the recursive step does -/
def InnerSpec (W : World) (h : Handler) : Prop :=
  ∀ (env x inner : Ref) (ms : List (Ref × List Ref)) (v : Vm) (a : Option Ref) (w : Vm) (t : List Event), Secure W env ms (some inner) [] v.stack v →
    v.Pub W (hid ms (some inner)) x → h (.aux .template [x, inner, env]) v = .ok (a, w, t) →
    ∃ ys ps ms1, v.HasVec x ys ∧ Items W env (some inner) (.inside x) ys.length 0 v ps ms1 w t ∧ Secure W env (ms1 ++ ms) (some inner) ps v.stack w ∧
      v.births ≤ w.births ∧ w.stack = v.stack ∧ (∀ m ∈ ms1, ¬ v.Old W m.1)

theorem c54_now_aux {d : Cell} {x : Ref} {s : Text} (hd : v.mem x = some d) (ho : d.obj = .sym s) {o : Obj} (h : v.HasObj x o) : o = .sym s :=
  h.unique ⟨d, hd, ho⟩

theorem c54_one_aux (F : Fine W h) (R : InnerSpec W h) {sref : Ref} {src : Source} {i : Nat} (k : Secure W env ms cur acc v.stack v)
    (hsrc : ∀ es, v.HasVec sref es → src.Now v es ∧ ∀ x ∈ es, v.Pub W (hid ms cur) x)
    (hone : cur = none → ∀ es, src.Now v es → es.length ≤ 1) :
    Wp W n h (Prog.templateOne sref env i cur) v fun a u tr => i < a.2 ∧ ∃ ps ms1 z, ItemDone W env ms cur acc src i v a.1 a.2 u tr ps ms1 z := by
  unfold Prog.templateOne
  refine wp_bind (wp_verifyVec fun c es hc ho => wp_bind (wp_require fun x hx => wp_bind (wp_read fun d hd => ?_)))
  obtain ⟨hnow, hpub⟩ := hsrc es ⟨c, hc, ho⟩
  have hpx := hpub x (List.mem_of_getElem? hx)
  split
  · rename_i s hs
    have hxs : v.HasObj x (.sym s) := ⟨d, hd, hs⟩
    split
    · rename_i h1
      split
      · rename_i h2
        refine wp_bind (wp_errorSecure k fun r w t kw g hst hp fr he => wp_bind (wp_deref fun r' e => ?_))
        cases e
        refine wp_bind (Wp.mono (c54_protect_aux kw hp.1) fun res u tr p => ?_)
        obtain rfl := p.silent
        refine wp_pure ⟨Nat.lt_succ_self i, [r], [], w, p.item (.missing hnow hx ?_ h2 g.quiet fr ⟨_, _, he⟩) g.quiet.births hst⟩
        rcases h1 with rfl | rfl
        · exact .inl hxs
        · exact .inr hxs
      · rename_i h2
        unfold Prog.evalReq
        simp only [bind_assoc]
        refine wp_bind (wp_elemAt fun c' es' hc' ho' => ?_)
        obtain rfl := same_cell hc hc'
        rw [ho] at ho'
        cases ho'
        cases hy : es[i + 1]? with
        | none =>
          have := List.getElem?_eq_none_iff.mp hy
          have := (List.getElem?_eq_some_iff.mp hx).1
          omega
        | some y =>
        unfold Prog.evalOpt
        refine wp_bind (wp_evalSecure F k (hpub y (List.mem_of_getElem? hy)) k.env fun a w kw hbw hst ha =>
          wp_bind (wp_require fun t e => ?_))
        subst e
        have ht := ha t rfl
        have ev : Evals W v y env ⟨y, env, v, some t, w⟩ t := ⟨rfl, rfl, rfl, .refl v⟩
        split
        · rename_i e
          subst e
          refine wp_bind (Wp.mono (c54_protect_aux kw ht.1) fun res u tr p => ?_)
          obtain rfl := p.silent
          exact wp_pure ⟨Nat.lt_add_of_pos_right (by decide), [t], [], w, p.item (.value hnow hx hxs hy ev) hbw hst⟩
        · rename_i e
          have e' : s = txt ",@" := h1.resolve_left e
          subst e'
          have hcur : ∃ r, cur = some r := by
            cases hcur : cur with
            | some r => exact ⟨r, rfl⟩
            | none =>
              have := hone hcur es hnow
              have := (List.getElem?_eq_some_iff.mp hy).1
              omega
          obtain ⟨r, rfl⟩ := hcur
          unfold Prog.spliceInto
          simp only [bind_assoc]
          refine wp_bind (wp_push (wp_bind (wp_read fun dt hdt => ?_)))
          have hdt : w.mem t = some dt := hdt
          have kp := kw.push ht.1
          split
          · rename_i ts r' hts hr'
            cases hr'
            have hold : ∀ y ∈ ts, w.Old W y := by
              have := (kw.closed.cells t dt hdt).obj
              rw [hts] at this
              exact this
            simp only [bind_assoc]
            refine wp_bind (Wp.mono (c54_appendAll_aux (v := { w with stack := t :: w.stack }) kp hold) ?_)
            rintro _ u tr ⟨rfl, ku, q, hb, hst'⟩
            have p : PutDone W env ms (some r) acc v.stack { w with stack := t :: w.stack } ts (some r) u [] :=
              ⟨rfl, q, hb, hst', ⟨by simp, by simp⟩, ku.toSecret, fun _ _ => ku⟩
            refine wp_bind (wp_pure (wp_bind (wp_pop fun st hst'' => wp_pure ⟨Nat.lt_add_of_pos_right (by decide), ts, [], w, ?_⟩)))
            exact (c54_pop_aux (v0 := v) kw.sane kw.stack p hst'').item (.spliced hnow hx hxs hy ev ⟨dt, hdt, hts⟩) hbw hst
          · rename_i hno
            simp only [bind_assoc]
            refine wp_bind (Wp.mono (c54_into_aux (v := { w with stack := t :: w.stack }) kp ht.1) fun res u tr p => ?_)
            obtain rfl := p.silent
            refine wp_bind (wp_pop fun st hst'' => wp_pure ⟨Nat.lt_add_of_pos_right (by decide), [t], [], w, ?_⟩)
            refine (c54_pop_aux (v0 := v) kw.sane kw.stack p hst'').item (.single hnow hx hxs hy ev ?_) hbw hst
            rintro ts ⟨dt', hdt', ho'⟩
            obtain rfl := same_cell hdt hdt'
            exact hno ts r ho' rfl
    · rename_i h1
      split
      · rename_i h2
        obtain ⟨s', rfl⟩ : ∃ s', s = comma :: s' := by
          cases s with
          | nil => cases h2
          | cons c s' => cases h2; exact ⟨s', rfl⟩
        unfold Prog.afterComma
        split
        · exact wp_bind wp_fail
        rename_i t1 ht1
        split
        · exact wp_bind wp_fail
        rename_i t2 ht2
        have hname : (∀ c ∈ s', Spec.Utf8.IsScalar c ∧ c ≠ 0) → t2 = s' := by
          intro hc
          have hp : ∀ c ∈ comma :: s', PrintCh c := by
            intro c hc'
            rcases List.mem_cons.mp hc' with rfl | hc'
            · decide
            · exact hc c hc'
          rw [recode_eq _ hp] at ht1
          cases ht1
          rw [List.tail_cons, recode_eq _ hc] at ht2
          cases ht2
          rfl
        refine wp_bind (wp_alloc k.sane fun y w a => wp_bind (wp_push ?_))
        have kw := k.alloc a trivial
        have g := (k.here (E := nobody)).alloc a trivial
        have hpy := a.pub k.closed
        have kp := kw.push hpy.1
        refine wp_bind (wp_evalSecure F kp hpy kp.env fun b w1 k1 hb1 hst hb => wp_bind (wp_require fun t e => ?_))
        subst e
        have ht := hb t rfl
        have ev : Evals W v y env ⟨y, env, { w with stack := y :: w.stack }, some t, w1⟩ t :=
          ⟨rfl, rfl, rfl, g.quiet.trans k.sane Ends.pop.quiet⟩
        refine wp_bind (Wp.mono (c54_protect_aux k1 ht.1) fun res u tr p => ?_)
        obtain rfl := p.silent
        refine wp_bind (wp_pop fun st hs' => wp_pure ⟨Nat.lt_succ_self i, [t], [], w1, ?_⟩)
        have hs1 : st = v.stack := by
          have := p.stack.trans hst
          rw [hs'] at this
          cases this
          exact a.stack
        refine ⟨.named hnow hx hxs ?_ ?_ hname ev a.fresh ⟨_, a.cell, rfl⟩, p.quiet.trans k1.sane Ends.pop.quiet, ?_, hs1, by simp, p.put,
          p.secret.pop hs', fun r hr => (p.secure r hr).pop hs' ⟨[], hs1⟩⟩
        · rintro rfl; exact h1 (.inl rfl)
        · rintro rfl; exact h1 (.inr rfl)
        · show v.births ≤ u.births
          rw [p.births]; exact Nat.le_trans g.quiet.births hb1
      · rename_i h2
        refine wp_bind (Wp.mono (c54_into_aux k hpx.1) fun res u tr p => ?_)
        obtain rfl := p.silent
        refine wp_pure ⟨Nat.lt_succ_self i, [x], [], v, p.item (.plain hnow hx ?_ ?_) (Nat.le_refl _) rfl⟩
        · intro s' h'
          cases c54_now_aux hd hs h'
          exact h2 rfl
        · rintro ys ⟨d', hd', ho'⟩
          obtain rfl := same_cell hd hd'
          rw [hs] at ho'; cases ho'
  · rename_i ys hys
    refine wp_bind (wp_alloc k.sane fun inner w a => wp_bind (wp_push ?_))
    have kp := k.start rfl a
    have hst0 : inner :: v.stack = inner :: w.stack := by rw [a.stack]
    have hb : v.births ≤ w.births := by rw [a.births]; omega
    have hpx' : Vm.Pub W (hid (underway cur acc ++ ms) (some inner)) { w with stack := inner :: w.stack } x := by
      refine ⟨hpx.1.mono hb, fun hh => ?_⟩
      rcases (hid_underway inner x).mp hh with rfl | hh
      · exact a.fresh hpx.1
      · exact hpx.2 hh
    refine wp_bind (wp_call fun b u t e => ?_)
    obtain ⟨ys', ps, ms1, hv, hi, kf, hb', hst', hf⟩ := R _ _ _ _ _ _ _ _ (hst0 ▸ kp) hpx' e
    have kf : Secure W env (ms1 ++ (underway cur acc ++ ms)) (some inner) ps (inner :: v.stack) u := by rw [hst0]; exact kf
    have hst' : u.stack = inner :: v.stack := by rw [hst0]; exact hst'
    have hv0 : v.HasVec x ys' := by
      obtain ⟨d', hd', ho'⟩ := hv
      rcases a.some hd' with ⟨rfl, _⟩ | ⟨_, hd'⟩
      · exact absurd hpx.1 a.fresh
      · exact ⟨d', hd', ho'⟩
    have apart : ∀ m ∈ ms1 ++ ms, some m.1 ≠ cur := by
      intro m hm e
      rcases List.mem_append.mp hm with hm | hm
      · exact hf m hm ((k.closed.known _ (.inl e)).mono hb)
      · exact k.apart m hm e
    obtain ⟨kz, az⟩ := kf.finish apart
    have oin : u.Old W inner := a.old.mono hb'
    have hit : Item W env src i v [inner] ((inner, ps) :: ms1) (i + 1) u t :=
      .vector hnow hx hv0 ((a.quiet k.sane).trans k.sane Ends.pop.quiet) a.fresh hi
    have fresh : ∀ m ∈ (inner, ps) :: ms1, ¬ v.Old W m.1 := by
      intro m hm
      rcases List.mem_cons.mp hm with rfl | hm
      · exact a.fresh
      · exact fun ho => hf m hm (ho.mono hb)
    clear hst0
    unfold Prog.intoResult
    split
    · refine wp_bind (wp_pure (wp_bind (wp_pop fun s hs => wp_pure ⟨Nat.lt_succ_self i, [inner], (inner, ps) :: ms1, u, ?_⟩)))
      simp only [List.nil_append, List.append_nil]
      have e1 : s = v.stack := by rw [hs] at hst'; cases hst'; rfl
      exact ⟨hit, Ends.pop.quiet, Nat.le_trans hb hb', e1, fresh, ⟨fun _ => ⟨inner, rfl, rfl⟩, by simp⟩, kz.pop hs, by simp⟩
    · rename_i r _
      simp only [bind_assoc]
      refine wp_bind (wp_appendSecret kz (az r rfl) oin fun z kz' g hbz hvz hstz he hri => wp_bind (wp_pure (wp_bind (wp_pop fun s hs =>
        wp_pure ⟨Nat.lt_succ_self i, [inner], (inner, ps) :: ms1, u, ?_⟩))))
      simp only [List.nil_append, List.append_nil]
      have e1 : s = v.stack := by rw [hstz, hst'] at hs; cases hs; rfl
      have X := hid_finish (cur := some r) (acc := acc) (ms := ms) (ps := ps) (r := inner) (ms' := ms1)
      refine ⟨hit, g.quiet.trans kf.sane Ends.pop.quiet, ?_, e1, fresh, ⟨by simp, by simp⟩, kz'.pop hs, ?_⟩
      · show v.births ≤ z.births
        rw [hbz]; exact Nat.le_trans hb hb'
      · intro r' e'
        cases e'
        refine ⟨kz'.pop hs, fun r' e' => by cases e'; exact hvz, ⟨[], e1⟩, k.based, fun y hy => ?_⟩
        refine guarded_inner (.inl rfl) (k.based r rfl) hri (guarded_edges he ?_)
        have := kf.guarded y (by rw [X]; exact hy)
        rw [X] at this
        exact this
  · rename_i h1 h2
    refine wp_bind (Wp.mono (c54_into_aux k hpx.1) fun res u tr p => ?_)
    obtain rfl := p.silent
    refine wp_pure ⟨Nat.lt_succ_self i, [x], [], v, p.item (.plain hnow hx ?_ ?_) (Nat.le_refl _) rfl⟩
    · rintro s' ⟨d', hd', ho'⟩
      obtain rfl := same_cell hd hd'
      exact h1 _ ho'
    · rintro ys ⟨d', hd', ho'⟩
      obtain rfl := same_cell hd hd'
      exact h2 _ ho'

theorem c54_empty_aux {n j : Nat} {v : Vm} {ps : List Ref} {u : Vm} {tr : List Event} (hi : Items W env cur (.args []) n j v ps ms u tr) : False := by
  have no : ∀ {ps ms j' u tr}, ¬ Item W env (.args []) j v ps ms j' u tr := by
    intro ps ms j' u tr it
    have bad : ∀ {es : List Ref} {x : Ref}, Source.Now v (.args []) es → es[j]? = some x → False := by
      rintro es x rfl hx; simp at hx
    cases it <;> (exact bad (by assumption) (by assumption))
  cases hi with
  | last it => exact no it
  | more it => exact no it

/-- the loop -/
theorem c54_loop_aux (F : Fine W h) (R : InnerSpec W h) {sref : Ref} {src : Source} {m : Nat} : ∀ (f : Nat) {i : Nat} {acc : List Ref} {ms} {v : Vm},
    Secure W env ms cur acc v.stack v →
    (∀ ms1 u, Secret W env (ms1 ++ ms) cur u → v.births ≤ u.births → (∀ m ∈ ms1, ¬ v.Old W m.1) → ∀ es, u.HasVec sref es →
      src.Now u es ∧ ∀ x ∈ es, u.Pub W (hid (ms1 ++ ms) cur) x) →
    (cur = none → m ≤ 1 ∧ ∀ u es, src.Now u es → es.length ≤ 1) →
    Wp W n h (Prog.templateLoop sref env m f i cur) v fun res u tr => ∃ ps ms1, Items W env cur src m i v ps ms1 u tr ∧
      Secret W env (ms1 ++ ms) cur u ∧ v.births ≤ u.births ∧ u.stack = v.stack ∧ (∀ m ∈ ms1, ¬ v.Old W m.1) ∧ Put cur ps res ∧
      ∀ r, cur = some r → Secure W env (ms1 ++ ms) cur (acc ++ ps) v.stack u := by
  intro f
  induction f with
  | zero => intros; exact wp_fail
  | succ f ih =>
    intro i acc ms v k hsrc hone
    show Wp W n h (Prog.templateOne sref env i cur >>= fun a => if m ≤ a.2 then pure a.1 else Prog.templateLoop sref env m f a.2 a.1) v _
    refine wp_bind (Wp.mono (c54_one_aux F R k (hsrc [] v k.toSecret (Nat.le_refl _) (by simp)) fun e => (hone e).2 v) ?_)
    rintro ⟨res, j⟩ u tr ⟨hij, ps, ms1, z, d⟩
    dsimp only at hij d ⊢
    split
    · rename_i hj
      refine wp_pure ⟨ps, ms1, ?_, d.secret, d.births, d.stack, d.fresh, d.put, d.secure⟩
      simpa using Items.last d.item hj d.quiet
    · rename_i hj
      obtain ⟨r, rfl⟩ : ∃ r, cur = some r := by
        cases hcur : cur with
        | some r => exact ⟨r, rfl⟩
        | none =>
          have := (hone hcur).1
          omega
      obtain rfl := d.put.2 r rfl
      have kd := d.secure r rfl
      rw [← d.stack] at kd
      refine Wp.mono (ih kd ?_ (by simp)) ?_
      · intro ms2 u2 k2 hb hf es hes
        have := hsrc (ms2 ++ ms1) u2 (k2.congr fun m => by simp) (Nat.le_trans d.births hb) ?_ es hes
        · rwa [List.append_assoc] at this
        · intro m hm
          rcases List.mem_append.mp hm with hm | hm
          · exact fun ho => hf m hm (ho.mono d.births)
          · exact d.fresh m hm
      · rintro res' u' tr' ⟨ps', ms2, hi, ks, hb, hst, hf, p, kk⟩
        refine ⟨ps ++ ps', ms2 ++ ms1, .more d.item (by omega) d.quiet hi, ?_, Nat.le_trans d.births hb, hst.trans d.stack, ?_, ⟨by simp, p.2⟩, ?_⟩
        · rwa [List.append_assoc]
        · intro m hm
          rcases List.mem_append.mp hm with hm | hm
          · exact fun ho => hf m hm (ho.mono d.births)
          · exact d.fresh m hm
        · intro r' e
          have := kk r' e
          rwa [List.append_assoc, d.stack, ← List.append_assoc ms2] at this

/-- the recursive step -/
theorem c54_inner_aux (hL : L.Safe) : ∀ n, InnerSpec W (handle W L n) := by
  intro n
  induction n with
  | zero => intro env x inner ms v a w t k hx e; cases e
  | succ n ih =>
    intro env x inner ms v a w t k hx e
    have e := handle_succ (by simp) e
    have key : Wp W n (handle W L n) (Prog.templateInner x inner env) v fun res u tr => ∃ ys ps ms1, v.HasVec x ys ∧
        Items W env (some inner) (.inside x) ys.length 0 v ps ms1 u tr ∧ Secure W env (ms1 ++ ms) (some inner) ps v.stack u ∧
        v.births ≤ u.births ∧ u.stack = v.stack ∧ (∀ m ∈ ms1, ¬ v.Old W m.1) := by
      unfold Prog.templateInner
      refine wp_bind (wp_verifyVec fun c ys hc ho => Wp.mono (c54_loop_aux (src := .inside x) (handler_fine hL n) ih _ k ?_ (by simp)) ?_)
      · intro ms1 u ku hb hf es hes
        refine ⟨hes, ?_⟩
        have hpx : ¬ hid (ms1 ++ ms) (some inner) x := by
          rintro (e | ⟨m, hm, rfl⟩)
          · exact hx.2 (.inl e)
          · rcases List.mem_append.mp hm with hm | hm
            · exact hf m hm hx.1
            · exact hx.2 (.inr ⟨m, hm, rfl⟩)
        obtain ⟨c', hc', ho'⟩ := hes
        have := (ku.closed.pub x c' hc' hpx).obj
        rw [ho'] at this
        exact this
      · rintro res u tr ⟨ps, ms1, hi, ks, hb, hst, hf, p, kk⟩
        exact ⟨ys, ps, ms1, ⟨c, hc, ho⟩, hi, kk inner rfl, hb, hst, hf⟩
    exact key _ _ _ e

theorem hasVec_one {r : Ref} {xs es : List Ref} (h : v.HasVec r xs) (h' : v.HasVec r es) : es = xs := by
  obtain ⟨c, hc, ho⟩ := h
  obtain ⟨c', hc', ho'⟩ := h'
  obtain rfl := same_cell hc hc'
  rw [ho] at ho'; cases ho'; rfl

theorem hid_args {args x : Ref} {xs : List Ref} : hid [(args, xs)] none x ↔ x = args := by
  simp only [hid, List.mem_singleton, exists_eq_left, reduceCtorEq, false_or]
  exact eq_comm

theorem secure_start {args : Ref} {xs : List Ref} (k : Held W args xs env v) (hv : v.HasVec args xs) :
    Secure W env [(args, xs)] none [] (args :: v.stack) { v with stack := args :: v.stack } := by
  have kp := k.push k.old
  have e : hid [(args, xs)] none = fun x => x = args := funext fun x => propext hid_args
  refine ⟨⟨kp.sane, e ▸ kp.closed, e ▸ kp.env, fun m hm => by rw [List.mem_singleton.mp hm]; exact hv, by simp⟩, by simp, ⟨[], rfl⟩, by simp,
    fun x hx => ?_⟩
  rw [hid_args.mp hx]
  exact .root (.head _)

theorem c54_source_aux {args : Ref} {xs : List Ref} {ms1 : List (Ref × List Ref)} (k : Held W args xs env v) (hcur : ∀ r, cur = some r → ¬ v.Old W r)
    (kw : Secret W env (ms1 ++ [(args, xs)]) cur w) (hb : v.births ≤ w.births) (hf : ∀ m ∈ ms1, ¬ v.Old W m.1) {es : List Ref}
    (he : w.HasVec args es) : Source.Now w (.args xs) es ∧ ∀ x ∈ es, w.Pub W (hid (ms1 ++ [(args, xs)]) cur) x := by
  obtain rfl : es = xs := hasVec_one (kw.made (args, xs) (by simp)) he
  refine ⟨rfl, fun x hx => ⟨(k.pub x hx).1.mono hb, ?_⟩⟩
  rintro (e | ⟨m, hm, rfl⟩)
  · exact hcur x e.symm (k.pub x hx).1
  · rcases List.mem_append.mp hm with hm | hm
    · exact hf m hm (k.pub _ hx).1
    · rw [List.mem_singleton.mp hm] at hx
      exact (k.pub _ hx).2 rfl

theorem c54_template_aux {n : Nat} {h : Handler} (F : Fine W h) (R : InnerSpec W h) {args env : Ref} {xs : List Ref} {v0 v : Vm}
    (k : Held W args xs env v) (g : Vm.Step W (fun x => x = args) nobody v0 v) :
    Wp W n h (Prog.spTemplate args env) v fun a u t => ∀ r w, a = some r → Ends u w → TemplateRun W v0 xs env r w t := by
  unfold Prog.spTemplate
  refine wp_bind (wp_verifyVec fun c es hc ho => wp_bind (wp_verifyEnv fun _ => wp_bind (wp_push ?_)))
  obtain rfl : es = xs := by
    rcases k.vec with h | h
    · exact hasVec_one h ⟨c, hc, ho⟩
    · rw [hc] at h; cases h
  have kp : Held W args es env { v with stack := args :: v.stack } := k.push k.old
  have gp : Vm.Step W (fun x => x = args) nobody v0 { v with stack := args :: v.stack } := g.push k.old
  have up : ∀ x, v0.Old W x → v.Old W x := fun x hx => hx.mono g.quiet.births
  have ks := secure_start k ⟨c, hc, ho⟩
  split
  · rename_i hlen
    refine wp_bind (wp_alloc kp.sane fun r w a => wp_bind (wp_push ?_))
    have ks := ks.start rfl a
    have ks : Secure W env [(args, es)] (some r) [] (r :: w.stack) { w with stack := r :: w.stack } := by
      have e : r :: w.stack = r :: args :: v.stack := by rw [a.stack]
      rw [e] at ks ⊢; exact ks
    have hb : v.births ≤ w.births := by
      have : v.births ≤ v.births + 1 := Nat.le_succ _
      rw [a.births]; exact this
    have qw : Vm.Quiet W nobody v0 { w with stack := r :: w.stack } :=
      (gp.quiet.trans g.sane0 (a.quiet kp.sane)).trans g.sane0 Ends.pop.quiet
    refine wp_bind (Wp.mono (c54_loop_aux (src := .args es) F R _ ks ?_ (by simp)) ?_)
    · intro ms1 u ku hbu hf es' he
      refine c54_source_aux k ?_ ku (Nat.le_trans hb hbu) (fun m hm ho => hf m hm (ho.mono hb)) he
      rintro r' e; cases e; exact a.fresh
    · rintro res u tr ⟨ps, ms1, hi, ku, hbu, hst, hf, p, kk⟩
      obtain rfl := p.2 r rfl
      refine wp_bind (wp_pop fun st hst => wp_bind (wp_pop fun st' hst' => wp_pure ?_))
      intro r' w' e he
      cases e
      have e' : Ends u w' := (Ends.pop (s := st')).trans he
      simp only [List.nil_append, List.append_nil]
      refine .several hlen qw hi e'.quiet ?_
      intro m hm
      rcases List.mem_cons.mp hm with rfl | hm
      · exact ⟨fun ho => a.fresh (up _ ho), ends_hasVec e' ((kk r rfl).filled r rfl)⟩
      · exact ⟨fun ho => hf m hm ((up _ ho).mono hb), ends_hasVec e' (ku.made m (List.mem_append_left _ hm))⟩
  · rename_i hlen
    refine wp_bind (Wp.mono (c54_loop_aux (cur := none) (src := .args es) F R _ ks ?_ ?_) ?_)
    · intro ms1 u ku hbu hf es' he
      exact c54_source_aux k (by simp) ku hbu hf he
    · exact fun _ => ⟨by omega, fun u es' e => by cases e; omega⟩
    · rintro res u tr ⟨ps, ms1, hi, ku, hbu, hst, hf, p, kk⟩
      obtain ⟨x, rfl, rfl⟩ := p.1 rfl
      refine wp_bind (wp_pop fun st hst => wp_pure ?_)
      intro r' w' e he
      cases e
      have e' : Ends u w' := (Ends.pop (s := st)).trans he
      have h1 : es.length = 1 := by
        have : es.length ≠ 0 := by
          intro h0
          obtain rfl := List.length_eq_zero_iff.mp h0
          exact c54_empty_aux hi
        omega
      simp only [List.nil_append, List.append_nil]
      rw [h1] at hi
      refine .one h1 gp.quiet hi e'.quiet ?_
      exact fun m hm => ⟨fun ho => hf m hm (up _ ho), ends_hasVec e' (ku.made m (List.mem_append_left _ hm))⟩

/-- `template`, called by its name -/
theorem c54_template (hL : L.Safe) {v w : Vm} (rv : v.Reached W L) {form env op : Ref} {name : Text} {xs : List Ref}
    (nc : NamedCall W v form env name op xs) (hop : v.HasObj op (.special .template)) (hargs : ∀ x ∈ xs, ¬ v.IsErr x)
    {r : Option Ref} {tr : List Event} (ev : Evaluates W L v form env r w tr) :
    NamedFormCall W (TemplateRun W) v xs env op r w tr :=
  namedFormCall_aux hL (fun n _ _ _ _ _ F _ k g _ _ _ => c54_template_aux F (c54_inner_aux hL n) k g) rv nc hop hargs ev

/-- `template`, the operator being given by any form -/
theorem c54_template_operator (hL : L.Safe) {v w : Vm} (rv : v.Reached W L) {form env first : Ref} {rest : List Ref}
    (hq : v.quit = false) (hf : v.HasVec form (first :: rest)) (of : v.Old W form) (oe : v.Old W env)
    {r : Option Ref} {tr : List Event} (ev : Evaluates W L v form env r w tr) :
    FormCall W .template (TemplateRun W) v form first env r w tr :=
  formCall_aux hL (fun n _ _ _ _ _ F _ k g _ _ _ => c54_template_aux F (c54_inner_aux hL n) k g) rv hq hf of oe ev

/-! ### Examples -/
def kit10 : List (String × Obj × Bool) := [("template", .special .template, false), ("quote", .special .quote, true), ("+", .builtin .plus, true)]

theorem kit10_plain : ∀ x ∈ kit10, x.2.1.children = [] := by decide

/-- the objects of the elements of a vector -/
def partsAt (w : Vm) (r : Option Ref) : List (Option Obj) :=
  match objAt w r with
  | some (.vec es) => es.map fun x => objAt w (some x)
  | _ => []

/-- `(template 1 , (+ 2 3) ,@ (quote (6 7)))` -/
example : ∃ (v w : Vm) (form op : Ref) (xs : List Ref) (r : Option Ref) (tr : List Event), v.Reached world library ∧
    NamedCall world v form v.globalEnv (txt "template") op xs ∧ v.HasObj op (.special .template) ∧ (∀ x ∈ xs, ¬ v.IsErr x) ∧
    Evaluates world library v form v.globalEnv r w tr ∧ partsAt w r = [some (.int 1), some (.int 5), some (.int 6), some (.int 7)] := by
  obtain ⟨v, form, r, w, tr, hr, of, oe, ev, h⟩ := stage_exists (table := kit10) (forms := []) (fuel := 60)
    (last := .vec [.sym "template", .int 1, .sym ",", .vec [.sym "+", .int 2, .int 3], .sym ",@", .vec [.sym "quote", .vec [.int 6, .int 7]]])
    (P := fun v f r w tr => namedCheck v f "template" (.special .template) && decide (partsAt w r = [some (.int 1), some (.int 5), some (.int 6), some (.int 7)])) kit10_plain (by decide +kernel)
  simp only [Bool.and_eq_true, decide_eq_true_eq] at h
  obtain ⟨op, xs, h1, h2, h3⟩ := named_of_check h.1 of oe
  exact ⟨v, w, form, op, xs, r, tr, hr, h1, h2, h3, ev, h.2⟩

/-- `(template ((a ,+) b))` -/
example : ∃ (v w : Vm) (form op : Ref) (xs : List Ref) (r : Option Ref) (tr : List Event), v.Reached world library ∧
    NamedCall world v form v.globalEnv (txt "template") op xs ∧ v.HasObj op (.special .template) ∧ (∀ x ∈ xs, ¬ v.IsErr x) ∧
    Evaluates world library v form v.globalEnv r w tr ∧ (match objAt w r with | some (.vec (x :: _)) => partsAt w (some x) | _ => []) = [some (.sym (txt "a")), some (.builtin .plus)] ∧ (partsAt w r).tail = [some (.sym (txt "b"))] := by
  obtain ⟨v, form, r, w, tr, hr, of, oe, ev, h⟩ := stage_exists (table := kit10) (forms := []) (fuel := 60)
    (last := .vec [.sym "template", .vec [.vec [.sym "a", .sym ",+"], .sym "b"]])
    (P := fun v f r w tr => namedCheck v f "template" (.special .template) && decide ((match objAt w r with | some (.vec (x :: _)) => partsAt w (some x) | _ => []) = [some (.sym (txt "a")), some (.builtin .plus)] ∧ (partsAt w r).tail = [some (.sym (txt "b"))])) kit10_plain (by decide +kernel)
  simp only [Bool.and_eq_true, decide_eq_true_eq] at h
  obtain ⟨op, xs, h1, h2, h3⟩ := named_of_check h.1 of oe
  exact ⟨v, w, form, op, xs, r, tr, hr, h1, h2, h3, ev, h.2⟩

/-- `(template (+ 1 2) ,)`: the vector is not evaluated -/
example : ∃ (v w : Vm) (form op : Ref) (xs : List Ref) (r : Option Ref) (tr : List Event), v.Reached world library ∧
    NamedCall world v form v.globalEnv (txt "template") op xs ∧ v.HasObj op (.special .template) ∧ (∀ x ∈ xs, ¬ v.IsErr x) ∧
    Evaluates world library v form v.globalEnv r w tr ∧ (partsAt w r).length = 2 ∧ (match objAt w r with | some (.vec (x :: _)) => partsAt w (some x) | _ => []) = [some (.sym (txt "+")), some (.int 1), some (.int 2)] := by
  obtain ⟨v, form, r, w, tr, hr, of, oe, ev, h⟩ := stage_exists (table := kit10) (forms := []) (fuel := 60)
    (last := .vec [.sym "template", .vec [.sym "+", .int 1, .int 2], .sym ","])
    (P := fun v f r w tr => namedCheck v f "template" (.special .template) && decide ((partsAt w r).length = 2 ∧ (match objAt w r with | some (.vec (x :: _)) => partsAt w (some x) | _ => []) = [some (.sym (txt "+")), some (.int 1), some (.int 2)])) kit10_plain (by decide +kernel)
  simp only [Bool.and_eq_true, decide_eq_true_eq] at h
  obtain ⟨op, xs, h1, h2, h3⟩ := named_of_check h.1 of oe
  exact ⟨v, w, form, op, xs, r, tr, hr, h1, h2, h3, ev, h.2⟩

end Dern.Props
