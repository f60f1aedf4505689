import Verif.Props.InPlace
import Verif.Props.C47
/-
C48: sequences change in place.

`pop-back` and `pop-front` take away one element or character, `+=` appends to vectors, lists and queues, `-==` removes
elements of vectors: the value itself changes and is the result, and no other value changes.  A queue with a maximal length
forgets its oldest elements.
-/
namespace Dern.Props
open Dern
open Dern.Spec (Reach)
open Dern.Prog (Library)
variable {W : World} {L : Library}

/-! ### Specification -/

/-- one element less, at the end (`back`) or at the front; there is nothing to take from an empty sequence -/
inductive OneLess {α : Type} : Bool → List α → List α → Prop
  | none {back} : OneLess back [] []
  | back {xs x} : OneLess true (xs ++ [x]) xs
  | front {xs x} : OneLess false (x :: xs) xs

/-- What `pop-back` or `pop-front` makes of a value.  A queue gives its oldest element, to `pop-back` only; a version loses
an identifier of its build metadata, or if there is none, of its pre-release part. -/
inductive Popped : Bool → Obj → Obj → Prop
  | vec {back es es'} : OneLess back es es' → Popped back (.vec es) (.vec es')
  | list {back es es'} : OneLess back es es' → Popped back (.list es) (.list es')
  | queue {m es es'} : OneLess false es es' → Popped true (.queue m es) (.queue m es')
  | str {back s s'} : OneLess back s s' → Popped back (.str s) (.str s')
  | sym {back s s'} : OneLess back s s' → Popped back (.sym s) (.sym s')
  | build {back} {v : Spec.Version} {b} : v.build ≠ [] → OneLess back v.build b → Popped back (.semver v) (.semver { v with build := b })
  | pre {back} {v : Spec.Version} {p} : v.build = [] → OneLess back v.pre p → Popped back (.semver v) (.semver { v with pre := p })

/-- what `pop-back` and `pop-front` do with the values `ts` -/
inductive PopRun (W : World) (back : Bool) (ts : List Ref) (v : Vm) (r : Ref) (w : Vm) (tr : List Event) : Prop
  | count : ts.length ≠ 1 → GivesError W v r w tr → PopRun W back ts v r w tr
  | error {x} : ts = [x] → v.IsErr x → Returns W x v r w tr → PopRun W back ts v r w tr
  | pop {o o'} : ts = [r] → v.HasObj r o → Popped back o o' → Becomes W o' v r w tr → PopRun W back ts v r w tr
  | others {x o} : ts = [x] → v.HasObj x o → ¬ v.IsErr x → (∀ o', ¬ Popped back o o') → GivesError W v r w tr → PopRun W back ts v r w tr

/-- the first value is a vector -/
def VecFirst (ts : List Ref) (v : Vm) : Prop := ∃ x xs es, ts = x :: xs ∧ v.HasVec x es

/-- what `+=` does with a vector and more values: these are appended, themselves and in order -/
inductive AppendRun (W : World) (ts : List Ref) (v : Vm) (r : Ref) (w : Vm) (tr : List Event) : Prop
  | append {xs es} : ts = r :: xs → v.HasVec r es → Becomes W (.vec (es ++ xs)) v r w tr → AppendRun W ts v r w tr

/-- what `-==` does with a vector and more values: all occurrences of these values themselves are removed, the others
stay in order -/
inductive RemoveRun (W : World) (ts : List Ref) (v : Vm) (r : Ref) (w : Vm) (tr : List Event) : Prop
  | remove {xs es} : ts = r :: xs → v.HasVec r es → Becomes W (.vec (es.filter fun e => e ∉ xs)) v r w tr → RemoveRun W ts v r w tr

/-- what is in a list or queue: an old element, or one for a value that has been pushed -/
inductive Entry
  | old (e : Ref)
  | new (e : Ref)

/-- what a list or queue `x` holds for an entry: a new copy of an atom that has been pushed, anything else itself -/
def Entry.In (W : World) (x : Ref) (v w : Vm) : Entry → Ref → Prop
  | .old e, c => c = e
  | .new e, c => Taken W x v w e c

/-- `l'` is what stays of `l` if there is place for `max`: the last ones -/
inductive Newest {α : Type} : Option Nat → List α → List α → Prop
  | all {l} : Newest none l l
  | fits {n l} : l.length ≤ n → Newest (some n) l l
  | last {n l l'} : l'.length = n → Newest (some n) (l ++ l') l'

/-- lists, and queues with or without a maximal length -/
inductive Pile
  | list
  | queue (max : Option Nat)

/-- the list or queue with the elements given -/
def Pile.of : Pile → List Ref → Obj
  | .list, es => .list es
  | .queue max, es => .queue max es

/-- how many elements there can be -/
def Pile.room : Pile → Option Nat
  | .list => none
  | .queue max => max

/-- The values `xs` have been pushed to `x`, which had the elements `es`; no other value changes, and
what the elements consist of stays in memory. -/
structure PushedTo (W : World) (p : Pile) (x : Ref) (es xs : List Ref) (v w : Vm) : Prop where
  quiet : Vm.Quiet W (fun z => z = x) v w
  elems : ∃ entries es', Newest p.room (es.map .old ++ xs.map .new) entries ∧ w.HasObj x (p.of es') ∧ List.Forall₂ (Entry.In W x v w) entries es' ∧
    ∀ z o, Reach (fun a b => a ≠ x ∧ v.mem.Edge a b) (fun z => z ∈ xs ∨ .old z ∈ entries) z → z ≠ x → (∀ m l, o ≠ .err m l) →
      v.HasObj z o → w.HasObj z o

/-- what `+=` does with a list or queue and more values -/
inductive PushRun (W : World) (ts : List Ref) (v : Vm) (r : Ref) (w : Vm) (tr : List Event) : Prop
  | none {o} : ts = [r] → v.HasObj r o → Becomes W o v r w tr → PushRun W ts v r w tr
  | push {p xs es} : ts = r :: xs → xs ≠ [] → v.HasObj r (Pile.of p es) → tr = [] → PushedTo W p r es xs v w → PushRun W ts v r w tr

/-- the first value is a list or queue -/
def PileFirst (ts : List Ref) (v : Vm) : Prop := ∃ x xs p es, ts = x :: xs ∧ v.HasObj x (Pile.of p es)

/-- What `list` and `queue` do: the result is a new list or queue of the values. -/
inductive NewPile (W : World) (p : Pile) (xs : List Ref) (v : Vm) (r : Ref) (w : Vm) (tr : List Event) : Prop
  | new : tr = [] → ¬ v.Old W r → Vm.Quiet W nobody v w → PushedTo W p r [] xs v w → NewPile W p xs v r w tr

/-- what `queue-with-max-length` does -/
inductive QueueMaxRun (W : World) (ts : List Ref) (v : Vm) (r : Ref) (w : Vm) (tr : List Event) : Prop
  | new {x xs} {n : Nat} : ts = x :: xs → v.HasObj x (.int n) → NewPile W (.queue (some n)) xs v r w tr → QueueMaxRun W ts v r w tr
  | wrong : (∀ x xs (n : Nat), ts = x :: xs → ¬ v.HasObj x (.int n)) → GivesError W v r w tr → QueueMaxRun W ts v r w tr

/-! ### Proofs -/

theorem c48_oneLess_aux {α : Type} (back : Bool) (es : List α) : OneLess back es (if back then es.dropLast else es.tail) := by
  cases back
  · cases es with
    | nil => exact .none
    | cons => exact .front
  · rcases List.eq_nil_or_concat es with rfl | ⟨xs, x, rfl⟩
    · exact .none
    · simpa using OneLess.back

theorem c48_less_aux {back : Bool} {o o' : Obj} {b : Bool} (h : Prog.Obj.less back o = some (o', b)) : Popped back o o' := by
  cases o <;> simp only [Prog.Obj.less, reduceCtorEq] at h
  all_goals (try (cases h; first | exact .vec (c48_oneLess_aux _ _) | exact .list (c48_oneLess_aux _ _) | exact .str (c48_oneLess_aux _ _) | exact .sym (c48_oneLess_aux _ _)))
  · cases back
    · simp at h
    · simp only [if_true] at h
      cases h
      exact .queue (by simpa using c48_oneLess_aux false _)
  · rename_i v
    by_cases hb : v.build = [] <;> cases back <;> simp [hb] at h <;> obtain ⟨rfl, _⟩ := h
    · simpa [hb] using Popped.pre (v := v) hb (by simpa using c48_oneLess_aux false v.pre)
    · simpa [hb] using Popped.pre (v := v) hb (by simpa using c48_oneLess_aux true v.pre)
    · exact .build hb (by simpa using c48_oneLess_aux false v.build)
    · exact .build hb (by simpa using c48_oneLess_aux true v.build)

theorem c48_none_aux {back : Bool} {o : Obj} (h : Prog.Obj.less back o = none) (o' : Obj) : ¬ Popped back o o' := by
  intro hp
  cases hp <;> simp [Prog.Obj.less] at h
  all_goals (repeat' split at h) <;> cases h

theorem OneLess.sub {α : Type} {back : Bool} {l l' : List α} (h : OneLess back l l') : ∀ x ∈ l', x ∈ l := by
  cases h with
  | none => simp
  | back => intro x hx; simp [hx]
  | front => intro x hx; simp [hx]

theorem Popped.pub {back : Bool} {o o' : Obj} (h : Popped back o o') {P : Ref → Prop} (hp : PubObj P o) : PubObj P o' := by
  cases h with
  | vec h => exact fun x hx => hp x (h.sub x hx)
  | list h => exact fun x hx => hp x (h.sub x hx)
  | queue h => exact fun x hx => hp x (h.sub x hx)
  | _ => trivial

theorem Popped.plain {back : Bool} {o o' : Obj} (h : Popped back o o') : (∀ m l, o' ≠ .err m l) ∧ ∀ b, o' ≠ .builtin b := by
  cases h <;> simp

theorem c48_popRun_aux {n : Nat} {h : Handler} {back : Bool} {args env : Ref} {ts : List Ref} {v : Vm} (k : Held W args ts env v) :
    Wp W n h (Prog.biPop back args env) v fun a u tr => KeepsBuiltins v u ∧ ∀ r w, a = some r → Ends u w → PopRun W back ts v r w tr := by
  unfold Prog.biPop
  refine c34_first_aux k ?_
  split
  · rename_i x
    refine wp_bind (wp_read fun c hc => ?_)
    simp only [List.nil_append]
    split
    · rename_i m l ho
      exact giveMono_aux (giveSelf_aux k.sane) (Q := fun v r w tr => PopRun W back [x] v r w tr) fun r w tr g => .error rfl ⟨m, l, c, hc, ho⟩ g
    · rename_i hne
      split
      · rename_i o' b hl
        refine wp_bind (wp_setObj fun c' hc' => wp_pure ?_)
        cases same_cell hc hc'
        have hp := c48_less_aux hl
        have f := (Changing.start k.sane k.closed.all ⟨c, hc, rfl⟩).set hc (hp.pub (k.closed.cells x c hc).obj)
        refine ⟨f.keeps hp.plain.2, ?_⟩
        rintro r w ⟨⟩ e
        exact .pop rfl ⟨c, hc, rfl⟩ hp (f.finish hp.plain.1 e)
      · rename_i hl
        refine giveMono_aux (c34_error_aux k _) (Q := fun v r w tr => PopRun W back [x] v r w tr) fun r w tr g =>
          .others rfl ⟨c, hc, rfl⟩ ?_ (c48_none_aux hl) g
        rintro ⟨m, l, c', hc', ho⟩
        cases same_cell hc hc'
        exact hne m l ho
  · rename_i hne
    refine giveMono_aux (c34_error_aux k _) (Q := fun v r w tr => PopRun W back ts v r w tr) fun r w tr g => .count ?_ g
    intro hl
    match ts, hl with
    | [x], _ => exact hne x rfl

theorem c48_append_aux {n : Nat} {h : Handler} {v : Vm} {x : Ref} : ∀ (xs es : List Ref) (u : Vm), Changing W x v u (.vec es) → (∀ z ∈ xs, v.Old W z) → (∀ z ∈ es, v.Old W z) →
    Wp W n h (Prog.each (fun y => Prog.append x y) xs) u fun _ w t => t = [] ∧ Changing W x v w (.vec (es ++ xs)) := by
  intro xs
  induction xs with
  | nil => intro es u f _ _; exact wp_pure ⟨rfl, by simpa using f⟩
  | cons y ys ih =>
    intro es u f hxs hes
    unfold Prog.each
    refine wp_bind (wp_append fun c es' hc ho => ?_)
    obtain ⟨c', hc', ho'⟩ := f.cell
    cases same_cell hc hc'
    rw [ho] at ho'; cases ho'
    have hes' : ∀ z ∈ es ++ [y], v.Old W z := by
      intro z hz
      rcases List.mem_append.mp hz with hz | hz
      · exact hes z hz
      · simp at hz; subst hz; exact hxs _ (by simp)
    refine Wp.mono (ih (es ++ [y]) _ (f.set hc (o' := .vec (es ++ [y])) hes') (fun z hz => hxs z (by simp [hz])) hes') ?_
    rintro _ w t ⟨rfl, f'⟩
    exact ⟨rfl, by simpa using f'⟩

theorem c48_appendRun_aux {n : Nat} {h : Handler} {args env : Ref} {ts : List Ref} {v : Vm} (k : Held W args ts env v) (hp : VecFirst ts v) :
    Wp W n h (Prog.biPlusEq L args env) v fun a u tr => KeepsBuiltins v u ∧ ∀ r w, a = some r → Ends u w → AppendRun W ts v r w tr := by
  obtain ⟨x, xs, es, rfl, c0, hc0, ho0⟩ := hp
  unfold Prog.biPlusEq
  refine c34_first_aux k ?_
  refine wp_bind (wp_read fun c hc => ?_)
  obtain rfl := same_cell hc0 hc
  simp only [ho0, List.nil_append]
  have pub := (k.closed.cells x _ hc).obj
  rw [ho0] at pub
  refine wp_bind (Wp.mono (c48_append_aux xs es v (.start k.sane k.closed.all ⟨_, hc, ho0⟩) (fun z hz => (k.pub z (by simp [hz])).1) pub) ?_)
  rintro _ u t ⟨rfl, f⟩
  refine wp_pure ⟨f.keeps (by simp), ?_⟩
  rintro r w ⟨⟩ e
  exact .append rfl ⟨_, hc, ho0⟩ (by simpa using f.finish (by simp) e)

theorem c48_removeLoop_aux {n : Nat} {h : Handler} {v : Vm} {x y : Ref} (sv : v.Sane W) (cv : v.Closed W nobody) :
    ∀ (xs kept : List Ref) (u : Vm), Changing W x v u (.vec (kept ++ xs)) → (∀ z ∈ kept ++ xs, v.Old W z) →
    Wp W n h (Prog.removeLoop (fun z => Prog.sameUid y z) x kept xs) u fun _ w t => t = [] ∧ Changing W x v w (.vec (kept ++ xs.filter (· ≠ y))) := by
  intro xs
  induction xs with
  | nil => intro kept u f _; exact wp_pure ⟨rfl, by simpa using f⟩
  | cons z zs ih =>
    intro kept u f hold
    unfold Prog.removeLoop Prog.sameUid
    simp only [bind_assoc]
    refine wp_bind (wp_read fun cy hcy => wp_bind (wp_read fun cz hcz => ?_))
    simp only [pure_bind]
    have iff : (cy.uid == cz.uid) = true ↔ z = y := by
      rw [beq_iff_eq]
      constructor
      · intro e; exact (f.step.sane.uidInj y cy z cz hcy hcz e).symm
      · rintro rfl; cases same_cell hcy hcz; rfl
    split
    · rename_i he
      have hzy := iff.mp he
      subst hzy
      refine wp_bind (wp_setObj fun c hc => ?_)
      refine Wp.mono (ih kept _ (f.set hc (o' := .vec (kept ++ zs)) fun q hq => hold q (by simp at hq ⊢; tauto)) fun q hq => hold q (by simp at hq ⊢; tauto)) ?_
      rintro _ w t ⟨rfl, f'⟩
      exact ⟨rfl, by simpa using f'⟩
    · rename_i he
      have hzy : z ≠ y := fun e => he (iff.mpr e)
      refine Wp.mono (ih (kept ++ [z]) _ (by simpa using f) (by simpa using hold)) ?_
      rintro _ w t ⟨rfl, f'⟩
      exact ⟨rfl, by simpa [hzy] using f'⟩

theorem c48_remove_aux {n : Nat} {h : Handler} {v : Vm} {x : Ref} (sv : v.Sane W) (cv : v.Closed W nobody) : ∀ (ys es : List Ref) (u : Vm), Changing W x v u (.vec es) →
    (∀ z ∈ es, v.Old W z) →
    Wp W n h (Prog.each (fun y => Prog.removeElements (fun z => Prog.sameUid y z) x) ys) u fun _ w t => t = [] ∧ Changing W x v w (.vec (es.filter fun e => e ∉ ys)) := by
  intro ys
  induction ys with
  | nil => intro es u f _; exact wp_pure ⟨rfl, by simpa using f⟩
  | cons y ys ih =>
    intro es u f hes
    unfold Prog.each Prog.removeElements
    refine wp_bind (wp_bind (wp_read fun c hc => ?_))
    obtain ⟨c', hc', ho'⟩ := f.cell
    cases same_cell hc hc'
    simp only [ho']
    refine Wp.mono (c48_removeLoop_aux sv cv es [] u (by simpa using f) (by simpa using hes)) ?_
    rintro _ u1 t ⟨rfl, f1⟩
    refine Wp.mono (ih _ u1 f1 fun z hz => hes z (by simp at hz; exact hz.1)) ?_
    rintro _ w t ⟨rfl, f'⟩
    refine ⟨rfl, ?_⟩
    rw [List.nil_append, List.filter_filter] at f'
    have e : (es.filter fun a => decide (a ∉ ys) && decide (a ≠ y)) = es.filter fun e => decide (e ∉ y :: ys) := by
      congr 1; funext a; simp [Bool.and_comm]
    rw [← e]; exact f'

theorem c48_removeRun_aux {n : Nat} {h : Handler} {args env : Ref} {ts : List Ref} {v : Vm} (k : Held W args ts env v) (hp : VecFirst ts v) :
    Wp W n h (Prog.biMinusEqEq args env) v fun a u tr => KeepsBuiltins v u ∧ ∀ r w, a = some r → Ends u w → RemoveRun W ts v r w tr := by
  obtain ⟨x, xs, es, rfl, c0, hc0, ho0⟩ := hp
  unfold Prog.biMinusEqEq
  refine c34_first_aux k ?_
  refine wp_bind (wp_read fun c hc => ?_)
  obtain rfl := same_cell hc0 hc
  simp only [ho0, List.nil_append]
  have pub := (k.closed.cells x _ hc).obj
  rw [ho0] at pub
  refine wp_bind (Wp.mono (c48_remove_aux k.sane k.closed.all xs es v (.start k.sane k.closed.all ⟨_, hc, ho0⟩) pub) ?_)
  rintro _ u t ⟨rfl, f⟩
  refine wp_pure ⟨f.keeps (by simp), ?_⟩
  rintro r w ⟨⟩ e
  exact .remove rfl ⟨_, hc, ho0⟩ (by simpa using f.finish (by simp) e)

/-! ### pushing -/

/-- how many go -/
def gone (max : Option Nat) (len : Nat) : Nat :=
  match max with
  | none => 0
  | some n => len - n

theorem gone_none (len : Nat) : gone none len = 0 := rfl
theorem gone_some (n len : Nat) : gone (some n) len = len - n := rfl

theorem c48_trimmed_aux (max : Option Nat) (es : List Ref) : Prog.trimmed max es = es.drop (gone max es.length) := by
  cases max <;> simp [Prog.trimmed, gone]

theorem c48_children_aux (p : Pile) (es : List Ref) : (p.of es).children = es := by
  cases p <;> simp [Pile.of, Obj.children]

theorem c48_drop_aux {α β : Type} {R : α → β → Prop} {as : List α} {bs : List β} (h : List.Forall₂ R as bs) (d : Nat) :
    List.Forall₂ R (as.drop d) (bs.drop d) := by
  induction h generalizing d with
  | nil => simp
  | cons h1 h2 ih =>
    cases d with
    | zero => exact .cons h1 h2
    | succ d => exact ih d

theorem c48_mem_aux {α β : Type} {R : α → β → Prop} {as : List α} {bs : List β} (h : List.Forall₂ R as bs) {a : α} (ha : a ∈ as) :
    ∃ b ∈ bs, R a b := by
  induction h with
  | nil => cases ha
  | @cons a' b' _ _ h1 h2 ih =>
    rcases List.mem_cons.mp ha with rfl | ha
    · exact ⟨b', by simp, h1⟩
    · obtain ⟨b, hb, h⟩ := ih ha
      exact ⟨b, by simp [hb], h⟩

theorem c48_len_aux {α β : Type} {R : α → β → Prop} {as : List α} {bs : List β} (h : List.Forall₂ R as bs) : as.length = bs.length := by
  induction h with
  | nil => rfl
  | cons _ _ ih => simp [ih]

theorem c48_entry_aux {x : Ref} {v u w : Vm} {en : Entry} {c : Ref} (h : Entry.In W x v u en c) (k : w.mem c = u.mem c) : Entry.In W x v w en c := by
  cases en with
  | old => exact h
  | new => exact Taken.keep h k

theorem taken_write_aux {x e e' : Ref} {v u : Vm} {d : Cell} (h : Taken W x v u e e') (hx : ∃ o, u.HasObj x o ∧ o.isAtom = false) :
    Taken W x v { u with mem := u.mem.set x d } e e' := by
  refine ⟨?_, fun o hne ho ha => ⟨(h.copied o hne ho ha).1, fun hn => ?_⟩, h.shared⟩
  · by_cases he : e' = x
    · subst he; exact ⟨d, Mem.set_self ..⟩
    · obtain ⟨c, hc⟩ := h.alive
      exact ⟨c, by rw [← hc]; exact Mem.set_other _ _ he⟩
  · obtain ⟨c, hc, hco⟩ := (h.copied o hne ho ha).2 hn
    have he : e' ≠ x := by
      rintro rfl
      obtain ⟨o', ho', hna⟩ := hx
      cases ho'.unique ⟨c, hc, hco⟩
      rw [ha] at hna; cases hna
    exact ⟨c, by rw [← hc]; exact Mem.set_other _ _ he, hco⟩

/-- the entries that stay, at the end -/
def lasting (p : Pile) (es xs : List Ref) : List Entry :=
  (es.map Entry.old ++ xs.map Entry.new).drop (gone p.room (es.length + xs.length))

/-- `done` have been pushed so far -/
theorem c48_push_aux {n : Nat} {h : Handler} (F : Fine W h) (C : Copies W h) {p : Pile}
    {v : Vm} {args x : Ref} {ts es all : List Ref} (ht : ∀ z ∈ all, z ∈ ts) (hv : v.Old W x ∨ x ∉ ts) (old : ∀ z ∈ ts, v.Old W z) :
    ∀ (xs done cur : List Ref) (d : Nat) (u : Vm), done ++ xs = all →
    Pushing W v args ts x (fun z => .old z ∈ lasting p es all) u (p.of cur) →
    List.Forall₂ (Entry.In W x v u) ((es.map Entry.old ++ done.map Entry.new).drop d) cur →
    (done = [] ∧ d = 0 ∨ d = gone p.room (es.length + done.length)) →
    Wp W n h (Prog.each (fun y => Prog.pushElement x y) xs) u fun _ w t => t = [] ∧ w.stack = u.stack ∧ ∃ cur',
      Pushing W v args ts x (fun z => .old z ∈ lasting p es all) w (p.of cur') ∧
      (all ≠ [] → List.Forall₂ (Entry.In W x v w) (lasting p es all) cur') ∧ (xs = [] → cur' = cur) := by
  intro xs
  induction xs with
  | nil =>
    intro done cur d u hall f hf hd
    simp only [List.append_nil] at hall
    subst hall
    refine wp_pure ⟨rfl, rfl, cur, f, fun hne => ?_, fun _ => rfl⟩
    rcases hd with ⟨hd, _⟩ | rfl
    · exact absurd hd hne
    · exact hf
  | cons y ys ih =>
    intro done cur d u hall f hf hd
    have hy : y ∈ ts := ht y (by rw [← hall]; simp)
    unfold Prog.each Prog.pushElement
    refine wp_bind (wp_bind (f.take F C (by cases p <;> rfl) (old y hy) (fun hne => f.src y (.root (.inl hy)) hne) fun y' u1 f1 hst ho tk keep => ?_))
    refine wp_bind (wp_read fun c hc => ?_)
    obtain ⟨c', hc', ho'⟩ := f1.cell
    cases same_cell hc hc'
    have key : List.Forall₂ (Entry.In W x v u1) ((es.map Entry.old ++ done.map Entry.new).drop d ++ [.new y]) (cur ++ [y']) :=
      forall₂_snoc (c35_rel_aux hf fun a b hb hh => c48_entry_aux hh (keep b (f.keptChild (by rw [c48_children_aux]; exact hb)))) tk
    have hlen := c48_len_aux hf
    simp only [List.length_drop, List.length_append, List.length_map] at hlen
    -- what is left after the step
    have dle : d ≤ es.length + done.length := by
      rcases hd with ⟨_, rfl⟩ | rfl
      · omega
      · cases p.room <;> simp only [gone_none, gone_some] <;> omega
    have hd' : d + gone p.room (cur ++ [y']).length = gone p.room (es.length + (done ++ [y]).length) := by
      simp only [List.length_append, List.length_singleton]
      rw [← hlen]
      rcases hd with ⟨_, rfl⟩ | rfl
      · simp [Nat.add_assoc]
      · cases p.room <;> simp only [gone_none, gone_some] <;> omega
    have key2 := c48_drop_aux key (gone p.room (cur ++ [y']).length)
    have shape : ((es.map Entry.old ++ done.map Entry.new).drop d ++ [.new y]) = (es.map Entry.old ++ (done ++ [y]).map Entry.new).drop d := by
      rw [List.map_append, ← List.append_assoc, List.drop_append_of_le_length (l₁ := es.map Entry.old ++ done.map Entry.new) (by simpa using dle)]
      rfl
    rw [shape, List.drop_drop, hd'] at key2
    have mon : gone p.room (es.length + (done ++ [y]).length) ≤ gone p.room (es.length + all.length) := by
      rw [← hall]
      cases p.room <;> simp only [gone_none, gone_some, List.length_append, List.length_cons, List.length_nil] <;> omega
    have hsub : ∀ z, .old z ∈ lasting p es all → z ∈ (p.of ((cur ++ [y']).drop (gone p.room (cur ++ [y']).length))).children := by
      intro z hz
      rw [c48_children_aux]
      have h1 : Entry.old z ∈ (es.map Entry.old ++ all.map Entry.new).drop (gone p.room (es.length + (done ++ [y]).length)) :=
        List.drop_subset_drop_left _ mon hz
      have e : all = (done ++ [y]) ++ ys := by rw [← hall]; simp
      rw [e, List.map_append, ← List.append_assoc, List.drop_append] at h1
      rcases List.mem_append.mp h1 with h1 | h1
      · obtain ⟨b, hb, hh⟩ := c48_mem_aux key2 h1
        cases hh; exact hb
      · have := List.mem_of_mem_drop h1
        simp at this
    have pubcur : ∀ z ∈ cur ++ [y'], u1.Old W z := by
      intro z hz
      rcases List.mem_append.mp hz with hz | hz
      · have := (f1.step.closed.cells x c hc).obj
        rw [ho'] at this
        exact this.children (by rw [c48_children_aux]; exact hz)
      · simp at hz; subst hz; exact ho
    have f2 := f1.set hc (o' := p.of ((cur ++ [y']).drop (gone p.room (cur ++ [y']).length))) (by
      have : ∀ z ∈ (cur ++ [y']).drop (gone p.room (cur ++ [y']).length), u1.Old W z := fun z hz => pubcur z (List.mem_of_mem_drop hz)
      cases p <;> simpa [Pile.of, PubObj] using this) hsub
    have key3 : List.Forall₂ (Entry.In W x v { u1 with mem := u1.mem.set x { c with obj := p.of ((cur ++ [y']).drop (gone p.room (cur ++ [y']).length)) } })
        ((es.map Entry.old ++ (done ++ [y]).map Entry.new).drop (gone p.room (es.length + (done ++ [y]).length)))
        ((cur ++ [y']).drop (gone p.room (cur ++ [y']).length)) := by
      refine forall₂_imp key2 ?_
      intro en b hen hh
      cases en with
      | old => exact hh
      | new e =>
        exact taken_write_aux hh ⟨_, ⟨c, hc, ho'⟩, by cases p <;> rfl⟩
    have fin := Wp.mono (ih (done ++ [y]) _ _ _ (by rw [← hall]; simp) f2 key3 (.inr rfl)) (Q' := fun _ w t => t = [] ∧ w.stack = u.stack ∧ ∃ cur',
        Pushing W v args ts x (fun z => .old z ∈ lasting p es all) w (p.of cur') ∧
        (all ≠ [] → List.Forall₂ (Entry.In W x v w) (lasting p es all) cur') ∧ (y :: ys = [] → cur' = cur)) (by
      rintro _ w t ⟨rfl, hst', cur', h1, h2, _⟩
      exact ⟨rfl, by rw [hst']; exact hst, cur', h1, h2, by simp⟩)
    unfold Prog.pushElement at fin
    cases p
    · simp only [ho', Pile.of, List.nil_append]
      refine wp_setObj fun c2 hc2 => ?_
      cases same_cell hc hc2
      simpa [Pile.of, Pile.room, gone] using fin
    · simp only [ho', Pile.of, List.nil_append]
      refine wp_setObj fun c2 hc2 => ?_
      cases same_cell hc hc2
      rw [c48_trimmed_aux]
      simpa [Pile.of, Pile.room] using fin

theorem c48_newest_aux {α : Type} (max : Option Nat) (l : List α) : Newest max l (l.drop (gone max l.length)) := by
  cases max with
  | none => simpa [gone] using Newest.all
  | some n =>
    rw [gone_some]
    by_cases hl : l.length ≤ n
    · rw [Nat.sub_eq_zero_of_le hl]; exact .fits hl
    · have := Newest.last (n := n) (l := l.take (l.length - n)) (l' := l.drop (l.length - n)) (by simp; omega)
      rwa [List.take_append_drop] at this

theorem c48_pushed_aux {p : Pile} {v u w : Vm} {args x : Ref} {ts es xs cur : List Ref}
    (ht : ∀ z ∈ xs, z ∈ ts) (f : Pushing W v args ts x (fun z => .old z ∈ lasting p es xs) u (p.of cur))
    (hf : List.Forall₂ (Entry.In W x v u) (lasting p es xs) cur) (e : Ends u w) : PushedTo W p x es xs v w where
  quiet := f.step.quiet.trans f.step.sane0 e.quiet
  elems := by
    refine ⟨lasting p es xs, cur, ?_, e.hasObj f.cell (by cases p <;> simp [Pile.of]), ?_, ?_⟩
    · have := c48_newest_aux p.room (es.map Entry.old ++ xs.map Entry.new)
      simpa [lasting] using this
    · refine forall₂_imp hf ?_
      intro en b _ h
      cases en with
      | old => exact h
      | new => exact Taken.ends h e
    · rintro z o hz hne ho ⟨c, hc, hco⟩
      refine e.hasObj ⟨c, ?_, hco⟩ ho
      rw [f.src z ?_ hne]; exact hc
      refine Reach.mono (fun z h => ?_) hz
      rcases h with h | h
      · exact .root (.inl (ht z h))
      · exact .root (.inr h)

theorem Pushing.start {v : Vm} {args x env : Ref} {ts : List Ref} {S : Ref → Prop} {o : Obj} (k : Held W args ts env v) (hv : v.HasVec args ts) (top : args ∈ v.stack)
    (hx : x ∈ ts) (ho : v.HasObj x o) (hs : ∀ z, S z → z ∈ o.children) : Pushing W v args ts x S v o :=
  ⟨.refl k.sane k.closed.all, hv, top, fun e => (k.pub x hx).2 e.symm, .inl hx, ho, hs, fun _ _ _ => rfl⟩

/-- the vector of arguments is there, once it has been read -/
theorem first_aux {n : Nat} {h : Handler} {args env : Ref} {ts : List Ref} {v : Vm} (k : Held W args ts env v)
    {f : List Ref → Prog (Option Ref)} {Q : Option Ref → Vm → List Event → Prop} (hq : v.HasVec args ts → Wp W n h (f ts) v Q) :
    Wp W n h (do let es ← Prog.verifyVec args; Prog.verifyEnv env; f es) v Q := by
  refine wp_bind (wp_verifyVec fun c es hc ho => wp_bind (wp_verifyEnv fun _ => ?_))
  rcases k.vec with ⟨c', hc', ho'⟩ | hn
  · obtain rfl := same_cell hc hc'
    rw [ho] at ho'; cases ho'
    simpa using hq ⟨c, hc, ho⟩
  · rw [hn] at hc; cases hc

theorem c48_pushRun_aux {n : Nat} {h : Handler} (F : Fine W h) (C : Copies W h) {args env : Ref} {ts : List Ref} {v : Vm} (k : Held W args ts env v) (top : args ∈ v.stack)
    (hp : PileFirst ts v) :
    Wp W n h (Prog.biPlusEq L args env) v fun a u tr => KeepsBuiltins v u ∧ ∀ r w, a = some r → Ends u w → PushRun W ts v r w tr := by
  obtain ⟨x, xs, p, es, rfl, c0, hc0, ho⟩ := hp
  unfold Prog.biPlusEq
  refine first_aux k fun hv => ?_
  refine wp_bind (wp_read fun c hc => ?_)
  obtain rfl := same_cell hc0 hc
  simp only [List.nil_append]
  have main : Wp W n h (do Prog.each (fun y => Prog.pushElement x y) xs; pure (some x)) v fun a u tr =>
      KeepsBuiltins v u ∧ ∀ r w, a = some r → Ends u w → PushRun W (x :: xs) v r w tr := by
    by_cases hx : xs = []
    · subst hx
      have f : Changing W x v v (p.of es) := .start k.sane k.closed.all ⟨_, hc, ho⟩
      refine wp_bind (wp_pure (wp_pure ⟨f.keeps (by cases p <;> simp [Pile.of]), ?_⟩))
      rintro r w ⟨⟩ e
      exact .none rfl f.cell (f.finish (by cases p <;> simp [Pile.of]) e)
    have f0 : Pushing W v args (x :: xs) x (fun z => .old z ∈ lasting p es xs) v (p.of es) :=
      .start k hv top (by simp) ⟨_, hc, ho⟩ fun z hz => by
        rw [c48_children_aux]
        have := List.mem_of_mem_drop hz
        simpa using this
    refine wp_bind (Wp.mono (c48_push_aux F C (all := xs) (fun z hz => by simp [hz]) (.inl (k.pub x (by simp)).1) (fun z hz => (k.pub z hz).1)
      xs [] es 0 v rfl f0 (by
        simp only [List.map_nil, List.append_nil, List.drop_zero]
        clear f0 hv hc ho
        induction es with
        | nil => exact .nil
        | cons e es ih => exact .cons rfl ih) (.inl ⟨rfl, rfl⟩)) ?_)
    rintro _ u t ⟨rfl, hst, cur, f, hf, hcur⟩
    refine wp_pure ⟨f.keeps (by cases p <;> simp [Pile.of]), ?_⟩
    rintro r w ⟨⟩ e
    exact .push rfl hx ⟨_, hc, ho⟩ rfl (c48_pushed_aux (fun z hz => by simp [hz]) f (hf hx) e)
  rw [ho]
  cases p
  · exact main
  · exact main

theorem c48_fill_aux {n : Nat} {h : Handler} (F : Fine W h) (C : Copies W h) {args env : Ref} {ts xs : List Ref} {v : Vm} (k : Held W args ts env v) (hv : v.HasVec args ts)
    (top : args ∈ v.stack) (p : Pile) (hx : ∀ z ∈ xs, z ∈ ts) :
    Wp W n h (Prog.fillNew (p.of []) xs) v fun a u tr => KeepsBuiltins v u ∧ ∀ r w, a = some r → Ends u w → NewPile W p xs v r w tr := by
  unfold Prog.fillNew
  refine wp_bind (wp_alloc k.sane fun r u a => wp_bind (wp_push ?_))
  have fresh := a.fresh
  have gw : Vm.Step W nobody nobody v u := (Vm.Step.refl k.sane k.closed.all).alloc a (by cases p <;> simp [Pile.of, PubObj])
  have hne : args ≠ r := by
    rintro rfl
    obtain ⟨c, hc, _⟩ := hv
    exact fresh (k.sane.old _ _ hc)
  have f0 : Pushing W v args ts r (fun z => .old z ∈ lasting p [] xs) { u with stack := r :: u.stack } (p.of []) := by
    have kept : ∀ z, v.Kept z → z ≠ r → u.mem z = v.mem z := a.kept
    have keptArg : ∀ z ∈ ts, v.Kept z := by
      intro z hz
      obtain ⟨c, hc, ho⟩ := hv
      exact .step (.root top) ⟨c, hc, by simpa [Cell.edges, ho, Obj.children] using .inr hz⟩
    have keptSrc : ∀ z, Reach (fun a b => a ≠ r ∧ v.mem.Edge a b) (fun z => z ∈ ts ∨ .old z ∈ lasting p [] xs) z → v.Kept z := by
      intro z hz
      induction hz with
      | root h =>
        rcases h with h | h
        · exact keptArg _ h
        · have := List.mem_of_mem_drop h
          simp at this
      | @step a b _ he ih => exact ih.step he.2
    refine ⟨⟨gw.sane0, (gw.push a.old).sane, (gw.push a.old).closed, (gw.push a.old).quiet.mono fun _ h => h.elim⟩, ?_, ?_, hne, .inr (by simp), ⟨_, a.cell, rfl⟩, ?_, ?_⟩
    · obtain ⟨c, hc, ho⟩ := hv
      exact ⟨c, by rw [← hc]; exact kept args (.root top) hne, ho⟩
    · show args ∈ r :: u.stack
      rw [a.stack]; exact List.mem_cons_of_mem _ top
    · intro z hz
      have := List.mem_of_mem_drop hz
      simp at this
    · intro z hz hne
      exact kept z (keptSrc z hz) hne
  refine wp_bind (Wp.mono (c48_push_aux F C (all := xs) hx (.inr fun h => fresh (k.pub r h).1) (fun z hz => (k.pub z hz).1)
      xs [] [] 0 _ rfl f0 .nil (.inl ⟨rfl, rfl⟩)) ?_)
  rintro _ u1 t ⟨rfl, hst, cur, f, hf, hcur⟩
  refine wp_bind (wp_pop fun s hs => wp_pure ?_)
  refine ⟨?_, ?_⟩
  · intro op b b' h1 ⟨c, hc, ho⟩
    exact f.keeps (by cases p <;> simp [Pile.of]) op b b' h1 ⟨c, hc, ho⟩
  · rintro _ w ⟨⟩ e
    have e' := Ends.pop.trans e
    have hf' : List.Forall₂ (Entry.In W r v u1) (lasting p [] xs) cur := by
      by_cases hxs : xs = []
      · subst hxs
        rw [hcur rfl]
        simpa [lasting] using List.Forall₂.nil
      · exact hf hxs
    have p := c48_pushed_aux hx f hf' e'
    refine .new rfl fresh ?_ p
    have q := p.quiet
    refine ⟨q.births, fun z c _ hc => ?_, q.gone, q.ret, q.quit, q.exitCode, q.out, q.roots, q.readably⟩
    exact q.cells z c (fun e => fresh (e ▸ k.sane.old z c hc)) hc

theorem c48_listRun_aux {n : Nat} {h : Handler} (F : Fine W h) (C : Copies W h) {args env : Ref} {ts : List Ref} {v : Vm} (k : Held W args ts env v) (top : args ∈ v.stack) :
    Wp W n h (Prog.biList args env) v fun a u tr => KeepsBuiltins v u ∧ ∀ r w, a = some r → Ends u w → NewPile W .list ts v r w tr := by
  unfold Prog.biList
  exact first_aux k fun hv => c48_fill_aux F C k hv top .list fun _ h => h

theorem c48_queueRun_aux {n : Nat} {h : Handler} (F : Fine W h) (C : Copies W h) {args env : Ref} {ts : List Ref} {v : Vm} (k : Held W args ts env v) (top : args ∈ v.stack) :
    Wp W n h (Prog.biQueue args env) v fun a u tr => KeepsBuiltins v u ∧ ∀ r w, a = some r → Ends u w → NewPile W (.queue none) ts v r w tr := by
  unfold Prog.biQueue
  exact first_aux k fun hv => c48_fill_aux F C k hv top (.queue none) fun _ h => h

theorem c48_queueMaxRun_aux {n : Nat} {h : Handler} (F : Fine W h) (C : Copies W h) {args env : Ref} {ts : List Ref} {v : Vm} (k : Held W args ts env v) (top : args ∈ v.stack) :
    Wp W n h (Prog.biQueueMax args env) v fun a u tr => KeepsBuiltins v u ∧ ∀ r w, a = some r → Ends u w → QueueMaxRun W ts v r w tr := by
  unfold Prog.biQueueMax
  refine first_aux k fun hv => ?_
  split
  · exact giveMono_aux (c34_error_aux k _) (Q := fun v r w tr => QueueMaxRun W [] v r w tr) fun r w tr g => .wrong (by simp) g
  · rename_i x xs
    refine wp_bind (wp_read fun c hc => ?_)
    simp only [List.nil_append]
    split
    · rename_i i ho
      split
      · rename_i hi
        refine giveMono_aux (c34_error_aux k _) (Q := fun v r w tr => QueueMaxRun W (x :: xs) v r w tr) fun r w tr g => .wrong ?_ g
        rintro y ys m ⟨⟩ ⟨c', hc', ho'⟩
        cases same_cell hc hc'
        rw [ho] at ho'
        simp only [Obj.int.injEq] at ho'
        omega
      · rename_i hi
        refine giveMono_aux (c48_fill_aux F C k hv top (.queue (some i.toNat)) fun z hz => by simp [hz]) (Q := fun v r w tr => QueueMaxRun W (x :: xs) v r w tr)
          fun r w tr g => .new rfl ⟨c, hc, ?_⟩ g
        rw [ho]; congr 1; omega
    · rename_i hno
      refine giveMono_aux (c34_error_aux k _) (Q := fun v r w tr => QueueMaxRun W (x :: xs) v r w tr) fun r w tr g => .wrong ?_ g
      rintro y ys m ⟨⟩ ⟨c', hc', ho'⟩
      cases same_cell hc hc'
      exact hno _ ho'

/-! ### The theorems -/

/-- `pop-back` -/
theorem c48_pop_back (hL : L.Safe) {v w : Vm} (rv : v.Reached W L) {form env op : Ref} {name : Text} {xs : List Ref}
    (nc : NamedCall W v form env name op xs) (hop : v.HasObj op (.builtin .popBack)) {r : Option Ref} {tr : List Event}
    (ev : Evaluates W L v form env r w tr) :
    NamedOpCall W (ArgumentsFirst W form env (Runs .popBack op (PopRun W true))) v env op r w tr :=
  namedBuiltin_aux hL (by simp) (fun _ _ _ _ _ _ _ k => c48_popRun_aux k) rv nc hop ev

/-- `pop-front` -/
theorem c48_pop_front (hL : L.Safe) {v w : Vm} (rv : v.Reached W L) {form env op : Ref} {name : Text} {xs : List Ref}
    (nc : NamedCall W v form env name op xs) (hop : v.HasObj op (.builtin .popFront)) {r : Option Ref} {tr : List Event}
    (ev : Evaluates W L v form env r w tr) :
    NamedOpCall W (ArgumentsFirst W form env (Runs .popFront op (PopRun W false))) v env op r w tr :=
  namedBuiltin_aux hL (by simp) (fun _ _ _ _ _ _ _ k => c48_popRun_aux k) rv nc hop ev

/-- `+=` on a vector -/
theorem c48_append (hL : L.Safe) {v w : Vm} (rv : v.Reached W L) {form env op : Ref} {name : Text} {xs : List Ref}
    (nc : NamedCall W v form env name op xs) (hop : v.HasObj op (.builtin .plusEq)) {r : Option Ref} {tr : List Event}
    (ev : Evaluates W L v form env r w tr) :
    NamedOpCall W (ArgumentsFirst W form env (Runs .plusEq op fun ts u r w tr => VecFirst ts u → AppendRun W ts u r w tr)) v env op r w tr :=
  namedBuiltinPre_aux hL (by simp) (fun _ _ _ _ _ _ _ k hp => c48_appendRun_aux k hp) rv nc hop ev

/-- `-==` on a vector -/
theorem c48_remove (hL : L.Safe) {v w : Vm} (rv : v.Reached W L) {form env op : Ref} {name : Text} {xs : List Ref}
    (nc : NamedCall W v form env name op xs) (hop : v.HasObj op (.builtin .minusEqEq)) {r : Option Ref} {tr : List Event}
    (ev : Evaluates W L v form env r w tr) :
    NamedOpCall W (ArgumentsFirst W form env (Runs .minusEqEq op fun ts u r w tr => VecFirst ts u → RemoveRun W ts u r w tr)) v env op r w tr :=
  namedBuiltinPre_aux hL (by simp) (fun _ _ _ _ _ _ _ k hp => c48_removeRun_aux k hp) rv nc hop ev

/-- `+=` on a list or queue -/
theorem c48_push (hL : L.Safe) {v w : Vm} (rv : v.Reached W L) {form env op : Ref} {name : Text} {xs : List Ref}
    (nc : NamedCall W v form env name op xs) (hop : v.HasObj op (.builtin .plusEq)) {r : Option Ref} {tr : List Event}
    (ev : Evaluates W L v form env r w tr) :
    NamedOpCall W (ArgumentsFirst W form env (Runs .plusEq op fun ts u r w tr => PileFirst ts u → PushRun W ts u r w tr)) v env op r w tr :=
  namedBuiltinTop_aux hL (by simp) (fun _ _ _ _ _ F C k top hp => c48_pushRun_aux F C k top hp) rv nc hop ev

/-- `list` -/
theorem c48_list (hL : L.Safe) {v w : Vm} (rv : v.Reached W L) {form env op : Ref} {name : Text} {xs : List Ref}
    (nc : NamedCall W v form env name op xs) (hop : v.HasObj op (.builtin .list)) {r : Option Ref} {tr : List Event}
    (ev : Evaluates W L v form env r w tr) :
    NamedOpCall W (ArgumentsFirst W form env (Runs .list op (NewPile W .list))) v env op r w tr :=
  namedBuiltinStack_aux hL (by simp) (fun _ _ _ _ _ F C k top => c48_listRun_aux F C k top) rv nc hop ev

/-- `queue` -/
theorem c48_queue (hL : L.Safe) {v w : Vm} (rv : v.Reached W L) {form env op : Ref} {name : Text} {xs : List Ref}
    (nc : NamedCall W v form env name op xs) (hop : v.HasObj op (.builtin .queue)) {r : Option Ref} {tr : List Event}
    (ev : Evaluates W L v form env r w tr) :
    NamedOpCall W (ArgumentsFirst W form env (Runs .queue op (NewPile W (.queue none)))) v env op r w tr :=
  namedBuiltinStack_aux hL (by simp) (fun _ _ _ _ _ F C k top => c48_queueRun_aux F C k top) rv nc hop ev

/-- `queue-with-max-length` -/
theorem c48_queue_max (hL : L.Safe) {v w : Vm} (rv : v.Reached W L) {form env op : Ref} {name : Text} {xs : List Ref}
    (nc : NamedCall W v form env name op xs) (hop : v.HasObj op (.builtin .queueMax)) {r : Option Ref} {tr : List Event}
    (ev : Evaluates W L v form env r w tr) :
    NamedOpCall W (ArgumentsFirst W form env (Runs .queueMax op (QueueMaxRun W))) v env op r w tr :=
  namedBuiltinStack_aux hL (by simp) (fun _ _ _ _ _ F C k top => c48_queueMaxRun_aux F C k top) rv nc hop ev

/-- names for the examples -/
def kit5 : List (String × Obj × Bool) :=
  kit4 ++ [("pop-back", .builtin .popBack, true), ("pop-front", .builtin .popFront, true), ("+=", .builtin .plusEq, true), ("-==", .builtin .minusEqEq, true), ("list", .builtin .list, true), ("queue", .builtin .queue, true), ("queue-with-max-length", .builtin .queueMax, true)]

theorem kit5_plain : ∀ x ∈ kit5, x.2.1.children = [] := by decide

/-- the elements of the container at `r` -/
def elemsAt (w : Vm) (r : Option Ref) : Option (List (Option Obj)) :=
  match objAt w r with
  | some o => o.elems.map fun es => es.map fun x => objAt w (some x)
  | none => none

/-- `(pop-back (vector 1 2 3))` -/
example : ∃ (v w : Vm) (form op : Ref) (xs : List Ref) (r : Option Ref) (tr : List Event), v.Reached world library ∧
    NamedCall world v form v.globalEnv (txt "pop-back") op xs ∧ v.HasObj op (.builtin .popBack) ∧
    Evaluates world library v form v.globalEnv r w tr ∧ elemsAt w r = some [some (.int 1), some (.int 2)] := by
  obtain ⟨v, form, r, w, tr, hr, of, oe, ev, h⟩ := stage_exists (table := kit5) (forms := []) (fuel := 60)
    (last := .vec [.sym "pop-back", .vec [.sym "vector", .int 1, .int 2, .int 3]])
    (P := fun v f r w tr => namedCheck v f "pop-back" (.builtin .popBack) && decide (elemsAt w r = some [some (.int 1), some (.int 2)])) kit5_plain (by decide +kernel)
  simp only [Bool.and_eq_true, decide_eq_true_eq] at h
  obtain ⟨op, xs, h1, h2, h3⟩ := named_of_check h.1 of oe
  exact ⟨v, w, form, op, xs, r, tr, hr, h1, h2, ev, h.2⟩

/-- `(pop-front (vector 1 2 3))` -/
example : ∃ (v w : Vm) (form op : Ref) (xs : List Ref) (r : Option Ref) (tr : List Event), v.Reached world library ∧
    NamedCall world v form v.globalEnv (txt "pop-front") op xs ∧ v.HasObj op (.builtin .popFront) ∧
    Evaluates world library v form v.globalEnv r w tr ∧ elemsAt w r = some [some (.int 2), some (.int 3)] := by
  obtain ⟨v, form, r, w, tr, hr, of, oe, ev, h⟩ := stage_exists (table := kit5) (forms := []) (fuel := 60)
    (last := .vec [.sym "pop-front", .vec [.sym "vector", .int 1, .int 2, .int 3]])
    (P := fun v f r w tr => namedCheck v f "pop-front" (.builtin .popFront) && decide (elemsAt w r = some [some (.int 2), some (.int 3)])) kit5_plain (by decide +kernel)
  simp only [Bool.and_eq_true, decide_eq_true_eq] at h
  obtain ⟨op, xs, h1, h2, h3⟩ := named_of_check h.1 of oe
  exact ⟨v, w, form, op, xs, r, tr, hr, h1, h2, ev, h.2⟩

/-- `(+= (vector 1 2 3) 4 5)` -/
example : ∃ (v w : Vm) (form op : Ref) (xs : List Ref) (r : Option Ref) (tr : List Event), v.Reached world library ∧
    NamedCall world v form v.globalEnv (txt "+=") op xs ∧ v.HasObj op (.builtin .plusEq) ∧
    Evaluates world library v form v.globalEnv r w tr ∧ elemsAt w r = some [some (.int 1), some (.int 2), some (.int 3), some (.int 4), some (.int 5)] := by
  obtain ⟨v, form, r, w, tr, hr, of, oe, ev, h⟩ := stage_exists (table := kit5) (forms := []) (fuel := 60)
    (last := .vec [.sym "+=", .vec [.sym "vector", .int 1, .int 2, .int 3], .int 4, .int 5])
    (P := fun v f r w tr => namedCheck v f "+=" (.builtin .plusEq) && decide (elemsAt w r = some [some (.int 1), some (.int 2), some (.int 3), some (.int 4), some (.int 5)])) kit5_plain (by decide +kernel)
  simp only [Bool.and_eq_true, decide_eq_true_eq] at h
  obtain ⟨op, xs, h1, h2, h3⟩ := named_of_check h.1 of oe
  exact ⟨v, w, form, op, xs, r, tr, hr, h1, h2, ev, h.2⟩

/-- `(+= (queue-with-max-length 3 1 2) 3 4)` -/
example : ∃ (v w : Vm) (form op : Ref) (xs : List Ref) (r : Option Ref) (tr : List Event), v.Reached world library ∧
    NamedCall world v form v.globalEnv (txt "+=") op xs ∧ v.HasObj op (.builtin .plusEq) ∧
    Evaluates world library v form v.globalEnv r w tr ∧ elemsAt w r = some [some (.int 2), some (.int 3), some (.int 4)] := by
  obtain ⟨v, form, r, w, tr, hr, of, oe, ev, h⟩ := stage_exists (table := kit5) (forms := []) (fuel := 60)
    (last := .vec [.sym "+=", .vec [.sym "queue-with-max-length", .int 3, .int 1, .int 2], .int 3, .int 4])
    (P := fun v f r w tr => namedCheck v f "+=" (.builtin .plusEq) && decide (elemsAt w r = some [some (.int 2), some (.int 3), some (.int 4)])) kit5_plain (by decide +kernel)
  simp only [Bool.and_eq_true, decide_eq_true_eq] at h
  obtain ⟨op, xs, h1, h2, h3⟩ := named_of_check h.1 of oe
  exact ⟨v, w, form, op, xs, r, tr, hr, h1, h2, ev, h.2⟩

/-- `(list 1 2)` -/
example : ∃ (v w : Vm) (form op : Ref) (xs : List Ref) (r : Option Ref) (tr : List Event), v.Reached world library ∧
    NamedCall world v form v.globalEnv (txt "list") op xs ∧ v.HasObj op (.builtin .list) ∧
    Evaluates world library v form v.globalEnv r w tr ∧ elemsAt w r = some [some (.int 1), some (.int 2)] := by
  obtain ⟨v, form, r, w, tr, hr, of, oe, ev, h⟩ := stage_exists (table := kit5) (forms := []) (fuel := 60)
    (last := .vec [.sym "list", .int 1, .int 2])
    (P := fun v f r w tr => namedCheck v f "list" (.builtin .list) && decide (elemsAt w r = some [some (.int 1), some (.int 2)])) kit5_plain (by decide +kernel)
  simp only [Bool.and_eq_true, decide_eq_true_eq] at h
  obtain ⟨op, xs, h1, h2, h3⟩ := named_of_check h.1 of oe
  exact ⟨v, w, form, op, xs, r, tr, hr, h1, h2, ev, h.2⟩

/-- `(queue 1 2)` -/
example : ∃ (v w : Vm) (form op : Ref) (xs : List Ref) (r : Option Ref) (tr : List Event), v.Reached world library ∧
    NamedCall world v form v.globalEnv (txt "queue") op xs ∧ v.HasObj op (.builtin .queue) ∧
    Evaluates world library v form v.globalEnv r w tr ∧ elemsAt w r = some [some (.int 1), some (.int 2)] := by
  obtain ⟨v, form, r, w, tr, hr, of, oe, ev, h⟩ := stage_exists (table := kit5) (forms := []) (fuel := 60)
    (last := .vec [.sym "queue", .int 1, .int 2])
    (P := fun v f r w tr => namedCheck v f "queue" (.builtin .queue) && decide (elemsAt w r = some [some (.int 1), some (.int 2)])) kit5_plain (by decide +kernel)
  simp only [Bool.and_eq_true, decide_eq_true_eq] at h
  obtain ⟨op, xs, h1, h2, h3⟩ := named_of_check h.1 of oe
  exact ⟨v, w, form, op, xs, r, tr, hr, h1, h2, ev, h.2⟩

/-- `(queue-with-max-length 1 1 2)` -/
example : ∃ (v w : Vm) (form op : Ref) (xs : List Ref) (r : Option Ref) (tr : List Event), v.Reached world library ∧
    NamedCall world v form v.globalEnv (txt "queue-with-max-length") op xs ∧ v.HasObj op (.builtin .queueMax) ∧
    Evaluates world library v form v.globalEnv r w tr ∧ elemsAt w r = some [some (.int 2)] := by
  obtain ⟨v, form, r, w, tr, hr, of, oe, ev, h⟩ := stage_exists (table := kit5) (forms := []) (fuel := 60)
    (last := .vec [.sym "queue-with-max-length", .int 1, .int 1, .int 2])
    (P := fun v f r w tr => namedCheck v f "queue-with-max-length" (.builtin .queueMax) && decide (elemsAt w r = some [some (.int 2)])) kit5_plain (by decide +kernel)
  simp only [Bool.and_eq_true, decide_eq_true_eq] at h
  obtain ⟨op, xs, h1, h2, h3⟩ := named_of_check h.1 of oe
  exact ⟨v, w, form, op, xs, r, tr, hr, h1, h2, ev, h.2⟩

/-- `(-== (vector a 2 a) a)`, the value of `a` being a vector -/
example : ∃ (v w : Vm) (form op : Ref) (xs : List Ref) (r : Option Ref) (tr : List Event), v.Reached world library ∧
    NamedCall world v form v.globalEnv (txt "-==") op xs ∧ v.HasObj op (.builtin .minusEqEq) ∧
    Evaluates world library v form v.globalEnv r w tr ∧ elemsAt w r = some [some (.int 2)] := by
  obtain ⟨v, form, r, w, tr, hr, of, oe, ev, h⟩ := stage_exists (table := kit5) (forms := [.vec [.sym "define", .sym "a", .sym "as", .vec [.sym "vector", .int 7], .str "d"]]) (fuel := 60)
    (last := .vec [.sym "-==", .vec [.sym "vector", .sym "a", .int 2, .sym "a"], .sym "a"])
    (P := fun v f r w tr => namedCheck v f "-==" (.builtin .minusEqEq) && decide (elemsAt w r = some [some (.int 2)])) kit5_plain (by decide +kernel)
  simp only [Bool.and_eq_true, decide_eq_true_eq] at h
  obtain ⟨op, xs, h1, h2, h3⟩ := named_of_check h.1 of oe
  exact ⟨v, w, form, op, xs, r, tr, hr, h1, h2, ev, h.2⟩

end Dern.Props
