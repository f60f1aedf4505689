import Verif.Props.C60
import Verif.Props.C56
import Verif.Props.C49
/-
C62: `copy`, and `+` on vectors.

`(copy x)` of a vector, string or integer is new; a vector consists of copies of the elements.  `(copy x f)` has only those elements or characters for which
the form `(f element index)` evaluates to true.  `(+ v x …)` is a copy of the vector `v` with copies of the other values appended.
-/
namespace Dern.Props
open Dern
open Dern.Spec (Reach)
open Dern.Prog (Library)
variable {W : World} {L : Library}

/-! ### Specification -/

/-- `r` is a new vector with copies of the values `es`, all parts of which are new; otherwise nothing has changed (afterwards, only messages of errors
may be extended) -/
def GivesCopies (W : World) (es : List Ref) (v : Vm) (r : Ref) (w : Vm) (tr : List Event) : Prop :=
  tr = [] ∧ ¬ v.Old W r ∧ ∃ u ys, Vm.Quiet W nobody v u ∧ List.Forall₂ (Copied (fun z => ¬ v.Old W z) v.mem u.mem) es ys ∧ Ends u w ∧ w.HasVec r ys

/-- the form `(f x i)` -/
def AskForm (v : Vm) (form f x : Ref) (i : Nat) : Prop :=
  ∃ ix j, v.HasVec form [f, x, ix] ∧ v.HasObj ix (.int j) ∧ (i < 2 ^ 31 → j = i)

/-- The predicate `f` is asked about the value `x`, in the state `v`, by the evaluation `e`; its answer is `a`.  Of the values there are, only those
in `E` were changed before. -/
structure Asked (W : World) (E : Ref → Prop) (env f x : Ref) (i : Nat) (v : Vm) (e : Event) (a : Ref) : Prop where
  before : Vm.Quiet W E v e.pre
  form : AskForm e.pre e.form f x i
  fresh : ¬ v.Old W e.form
  env : e.env = env
  result : e.result = some a

/-- The loop over the vector `coll`, from the index `i` on: `ys` are copies of the elements for which the predicate `f` was true; `r` is the vector they are put into.
The vector is looked at again in each turn. -/
inductive Picked (W : World) (env f coll r : Ref) : (i : Nat) → (v : Vm) → (ys : List Ref) → (w : Vm) → List Event → Prop
  | done {i v es} : v.HasVec coll es → es.length ≤ i → Picked W env f coll r i v [] v []
  | changed {i v n} : (∀ es, ¬ v.HasVec coll es) → HasLength v coll n → n ≤ i → Picked W env f coll r i v [] v []
  | yes {i v es x e a u y ys w tr} : v.HasVec coll es → es[i]? = some x → Asked W (fun z => z = r) env f x i v e a → e.post.HasObj a (.bool true) →
      Vm.Quiet W (fun z => z = r) e.post u → Copied (fun z => ¬ e.post.Old W z) e.post.mem u.mem x y →
      Picked W env f coll r (i + 1) u ys w tr → Picked W env f coll r i v (y :: ys) w (e :: tr)
  | no {i v es x e a ys w tr} : v.HasVec coll es → es[i]? = some x → Asked W (fun z => z = r) env f x i v e a → e.post.HasObj a (.bool false) →
      Picked W env f coll r (i + 1) e.post ys w tr → Picked W env f coll r i v ys w (e :: tr)

/-- The loop ends in the state `w`, because an answer is not a boolean. -/
inductive PickFails (W : World) (env f coll r : Ref) : (i : Nat) → (v : Vm) → (w : Vm) → List Event → Prop
  | bad {i v es x e a} : v.HasVec coll es → es[i]? = some x → Asked W (fun z => z = r) env f x i v e a → (∀ b, ¬ e.post.HasObj a (.bool b)) →
      PickFails W env f coll r i v e.post [e]
  | yes {i v es x e a u y w tr} : v.HasVec coll es → es[i]? = some x → Asked W (fun z => z = r) env f x i v e a → e.post.HasObj a (.bool true) →
      Vm.Quiet W (fun z => z = r) e.post u → Copied (fun z => ¬ e.post.Old W z) e.post.mem u.mem x y →
      PickFails W env f coll r (i + 1) u w tr → PickFails W env f coll r i v w (e :: tr)
  | no {i v es x e a w tr} : v.HasVec coll es → es[i]? = some x → Asked W (fun z => z = r) env f x i v e a → e.post.HasObj a (.bool false) →
      PickFails W env f coll r (i + 1) e.post w tr → PickFails W env f coll r i v w (e :: tr)

/-- The loop over the string `coll`, from the index `i` on: `cs` are the characters for which the predicate was true, `err` tells that an answer was not a boolean.
The string is looked at again in each turn, and before a character is taken. -/
inductive PickedChars (W : World) (env f coll : Ref) : (i : Nat) → (v : Vm) → (cs : Text) → (err : Bool) → (w : Vm) → List Event → Prop
  | done {i v s} : v.HasObj coll (.str s) → s.length ≤ i → PickedChars W env f coll i v [] false v []
  | changed {i v n} : (∀ s, ¬ v.HasObj coll (.str s)) → HasLength v coll n → n ≤ i → PickedChars W env f coll i v [] false v []
  | yes {i v} {s : Text} {c x e a} {s' : Text} {c' cs err w tr} : v.HasObj coll (.str s) → s[i]? = some c → ¬ v.Old W x → e.pre.HasObj x (.chr [c]) →
      Asked W nobody env f x i v e a → e.post.HasObj a (.bool true) → e.post.HasObj coll (.str s') → s'[i]? = some c' →
      PickedChars W env f coll (i + 1) e.post cs err w tr → PickedChars W env f coll i v (c' :: cs) err w (e :: tr)
  | no {i v} {s : Text} {c x e a cs err w tr} : v.HasObj coll (.str s) → s[i]? = some c → ¬ v.Old W x → e.pre.HasObj x (.chr [c]) →
      Asked W nobody env f x i v e a → e.post.HasObj a (.bool false) →
      PickedChars W env f coll (i + 1) e.post cs err w tr → PickedChars W env f coll i v cs err w (e :: tr)
  | bad {i v} {s : Text} {c x e a} : v.HasObj coll (.str s) → s[i]? = some c → ¬ v.Old W x → e.pre.HasObj x (.chr [c]) →
      Asked W nobody env f x i v e a → (∀ b, ¬ e.post.HasObj a (.bool b)) → PickedChars W env f coll i v [] true e.post [e]

/-- values that can be copied by `copy` -/
def Copyable (o : Obj) : Prop := (∃ es, o = .vec es) ∨ (∃ s, o = .str s) ∨ ∃ n, o = .int n

/-- what `copy` does (copying C data is outside of the model) -/
inductive CopyRun (W : World) (env : Ref) (ts : List Ref) (v : Vm) (r : Ref) (w : Vm) (tr : List Event) : Prop
  | count : ts.length ≠ 1 → ts.length ≠ 2 → GivesError W v r w tr → CopyRun W env ts v r w tr
  | vector {x es} : ts = [x] → v.HasVec x es → GivesCopies W es v r w tr → CopyRun W env ts v r w tr
  | string {x s} : ts = [x] → v.HasObj x (.str s) → Gives W (.str s) v r w tr → CopyRun W env ts v r w tr
  | integer {x n} : ts = [x] → v.HasObj x (.int n) → Gives W (.int n) v r w tr → CopyRun W env ts v r w tr
  | other {x o} : ts = [x] → v.HasObj x o → ¬ Copyable o → GivesError W v r w tr → CopyRun W env ts v r w tr
  | noFunction {x f} : ts = [x, f] → (∀ d, ¬ v.HasObj f (.fn d)) → GivesError W v r w tr → CopyRun W env ts v r w tr
  | unfit {x f d o} : ts = [x, f] → v.HasObj f (.fn d) → v.HasObj x o → (∀ es, o ≠ .vec es) → (∀ s, o ≠ .str s) → GivesError W v r w tr →
      CopyRun W env ts v r w tr
  | picked {x f d es ys v' u} : ts = [x, f] → v.HasObj f (.fn d) → v.HasVec x es → Vm.Quiet W nobody v v' → ¬ v.Old W r → v'.HasVec x es →
      Picked W env f x r 0 v' ys u tr → Vm.Quiet W (fun z => z = r) u w → w.HasVec r ys → CopyRun W env ts v r w tr
  | pickFails {x f d es r' v' u} : ts = [x, f] → v.HasObj f (.fn d) → v.HasVec x es → Vm.Quiet W nobody v v' → ¬ v.Old W r' → v'.HasVec x es →
      PickFails W env f x r' 0 v' u tr → ErrorAfter W (fun z => z = r') u r w → CopyRun W env ts v r w tr
  | pickedChars {x f d s cs u} : ts = [x, f] → v.HasObj f (.fn d) → v.HasObj x (.str s) → PickedChars W env f x 0 v cs false u tr →
      Vm.Quiet W nobody u w → ¬ u.Old W r → w.HasObj r (.str cs) → CopyRun W env ts v r w tr
  | charsFail {x f d s cs u} : ts = [x, f] → v.HasObj f (.fn d) → v.HasObj x (.str s) → PickedChars W env f x 0 v cs true u tr →
      ErrorAfter W nobody u r w → CopyRun W env ts v r w tr

/-- Like `Runs`, for a function that evaluates forms: they might turn the function itself into `return`, and then the result is returned by the function
in which it is called. -/
def RunsThrough (b : Builtin) (op : Ref) (Run : List Ref → Vm → Ref → Vm → List Event → Prop) (ts : List Ref) (u : Vm) (r : Option Ref) (w : Vm)
    (tr : List Event) : Prop :=
  u.HasObj op (.builtin b) → ∃ r' w', r = some r' ∧ Run ts u r' w' tr ∧
    (w = w' ∨ w.HasObj op (.builtin .return) ∧ w = { w' with functionReturn := some r' })

/-- `(+ v x …)`, `v` being a vector -/
inductive PlusVecRun (W : World) (ts : List Ref) (v : Vm) (r : Ref) (w : Vm) (tr : List Event) : Prop
  | vector {x es xs} : ts = x :: xs → v.HasVec x es → GivesCopies W (es ++ xs) v r w tr → PlusVecRun W ts v r w tr

/-! ### Proofs -/

section
variable {n : Nat} {h : Handler} {args env : Ref} {ts : List Ref} {v : Vm}

/-! #### copies in a new vector -/

/-- a copy of an old value -/
theorem Pushing.copy (F : Fine W h) (C : Copies W h) {r : Ref} {u : Vm} {o : Obj} (f : Pushing W v args ts r (fun _ => False) u o) (fresh : ¬ v.Old W r) {e : Ref}
    (he : v.Old W e) (hs : ∀ z, Reach v.mem.Edge (· = e) z → u.mem z = v.mem z) {Q : Ref → Vm → List Event → Prop}
    (hq : ∀ e' w, Pushing W v args ts r (fun _ => False) w o → w.stack = u.stack → w.Old W e' → ¬ u.Old W e' → Copied (fun z => ¬ v.Old W z ∧ z ≠ r) v.mem w.mem e e' →
      (∀ z, u.Kept z → w.mem z = u.mem z) → Q e' w []) : Wp W n h (Prog.copyOf e) u Q := by
  unfold Prog.copyOf
  refine wp_bind (wp_call fun a w t ee => wp_deref fun d hd => ?_)
  subst hd
  obtain ⟨sw, rfl, q, fr⟩ := F.copy _ _ _ _ _ f.step.sane ee
  obtain ⟨_, r', hr', ok⟩ := C _ _ _ _ _ f.step.sane f.step.closed.open' (he.mono f.step.quiet.births) ee
  cases hr'
  refine hq d w (f.same ⟨f.step.sane0, sw, ok.closed, f.step.quiet.trans f.step.sane0 (q.mono fun _ h => h.elim)⟩ ok.stack ok.pure.kept) ok.stack ok.old (fr d rfl) ?_ ok.pure.kept
  obtain ⟨cr, hcr, _⟩ := f.cell
  refine (ok.copied.source (P := Reach v.mem.Edge (· = e)) (fun y c hy hc => by rw [← hs y hy]; exact hc) ?_ (.root rfl)).mono
    fun z hz => ⟨fun h => hz (h.mono f.step.quiet.births), fun e => hz (e ▸ f.step.sane.old _ _ hcr)⟩
  exact fun y c z hy hc hz => hy.step ⟨c, hc, List.mem_append_right _ hz⟩

theorem c62_reachOld_aux {X : Ref → Prop} (cv : v.Closed W X) (old : ∀ z ∈ ts, v.Old W z) {z : Ref} (hz : Reach v.mem.Edge (· ∈ ts) z) : v.Old W z := by
  induction hz with
  | root h => exact old _ h
  | @step a b _ he ih =>
    obtain ⟨c, hc, hb⟩ := he
    have p := cv.cells a c hc
    unfold Cell.edges at hb
    rcases List.mem_append.mp hb with hb | hb
    · exact p.docstr b (by simpa using hb)
    · exact p.obj.children hb

theorem c62_loop_aux (F : Fine W h) (C : Copies W h) {X : Ref → Prop} (cv : v.Closed W X) {r : Ref} (fresh : ¬ v.Old W r) (old : ∀ z ∈ ts, v.Old W z) :
    ∀ (xs done cur : List Ref) (u : Vm), (∀ z ∈ xs, Reach v.mem.Edge (· ∈ ts) z) → Pushing W v args ts r (fun _ => False) u (.vec cur) →
    List.Forall₂ (Copied (fun z => ¬ v.Old W z ∧ z ≠ r) v.mem u.mem) done cur →
    Wp W n h (Prog.appendCopies r xs) u fun _ w t => t = [] ∧ w.stack = u.stack ∧ ∃ cur',
      Pushing W v args ts r (fun _ => False) w (.vec cur') ∧ List.Forall₂ (Copied (fun z => ¬ v.Old W z ∧ z ≠ r) v.mem w.mem) (done ++ xs) cur' := by
  intro xs
  induction xs with
  | nil =>
    intro done cur u _ f hf
    exact wp_pure ⟨rfl, rfl, cur, f, by simpa using hf⟩
  | cons y ys ih =>
    intro done cur u hts f hf
    have hy := hts y (by simp)
    unfold Prog.appendCopies
    have same : ∀ z, Reach v.mem.Edge (· = y) z → u.mem z = v.mem z := by
      intro z hz
      have hz' : Reach v.mem.Edge (· ∈ ts) z := hz.mono (by rintro _ rfl; exact hy)
      exact f.src z (c60_reach_aux fresh f.step.sane0 hz') (fun e => fresh (e ▸ c62_reachOld_aux cv old hz'))
    refine wp_bind (f.copy F C fresh (c62_reachOld_aux cv old hy) same fun y' u1 f1 hst ho hno cp keep => ?_)
    refine wp_bind (f1.append ho fun c hc f2 => ?_)
    have key : List.Forall₂ (Copied (fun z => ¬ v.Old W z ∧ z ≠ r) v.mem u1.mem) (done ++ [y]) (cur ++ [y']) :=
      forall₂_snoc (c35_rel_aux hf fun a b hb hh => hh.target fun z _ hr => keep z
        (hr.mono (by rintro _ rfl; exact f.keptChild (by simpa [Obj.children] using hb)))) cp
    have key2 : List.Forall₂ (Copied (fun z => ¬ v.Old W z ∧ z ≠ r) v.mem (u1.mem.set r { c with obj := .vec (cur ++ [y']) })) (done ++ [y]) (cur ++ [y']) :=
      forall₂_imp key fun a b _ hh => hh.target fun z hz _ => Mem.set_other _ _ hz.2
    refine Wp.mono (ih (done ++ [y]) _ _ (fun z hz => hts z (by simp [hz])) f2 key2) ?_
    rintro _ w t ⟨rfl, hst', cur', h1, h2⟩
    exact ⟨rfl, by rw [hst']; exact hst, cur', h1, by simpa using h2⟩

theorem c62_all_aux (F : Fine W h) (C : Copies W h) (k : Held W args ts env v) (hv : v.HasVec args ts) (top : args ∈ v.stack) {es : List Ref}
    (hes : ∀ z ∈ es, Reach v.mem.Edge (· ∈ ts) z) :
    Wp W n h (Prog.copyVecAll es) v fun a u tr => KeepsBuiltins v u ∧ ∀ r w, a = some r → Ends u w → GivesCopies W es v r w tr := by
  unfold Prog.copyVecAll
  refine wp_bind (wp_alloc k.sane fun r u a => wp_bind (wp_push ?_))
  refine wp_bind (Wp.mono (c62_loop_aux F C k.closed a.fresh (fun z hz => (k.pub z hz).1) es [] [] _ hes (Pushing.fresh k hv top a) .nil) ?_)
  rintro _ u1 t ⟨rfl, hst, cur, f, hf⟩
  have q := c60_quiet_aux k.sane a.fresh f.step.quiet
  refine wp_bind (wp_pop fun s hs => wp_pure ⟨keeps_mem q rfl, ?_⟩)
  rintro _ w ⟨⟩ e
  have e' : Ends u1 w := (Ends.pop (s := s)).trans e
  exact ⟨rfl, a.fresh, u1, cur, q, forall₂_imp hf fun _ _ _ h => h.mono fun _ hz => hz.1, e', e'.hasObj f.cell (by simp)⟩

/-! #### a copy with more copies -/

theorem c62_acc_aux {Fr : Ref → Prop} {m m' : Mem} {x r : Ref} (hc : Copied Fr m m' x r) : Acc (fun b a => m'.Part a b) r := by
  induction hc with
  | @simple x r c c' h1 h2 h3 h4 h5 =>
    refine .intro _ fun b hb => ?_
    obtain ⟨d, hd, hb⟩ := hb
    cases same_cell h2 hd
    rw [h5] at hb
    revert h4 hb
    cases c.obj <;> simp [Obj.simple, Obj.children]
  | @seq x r c c' ps h1 h2 h3 h4 h5 _ ih =>
    refine .intro _ fun b hb => ?_
    obtain ⟨d, hd, hb⟩ := hb
    cases same_cell h2 hd
    rw [h5, refill_children h4] at hb
    obtain ⟨p, hp, rfl⟩ := List.mem_map.mp hb
    exact ih p hp
  | @hmap x r c c' k k' es' qs h1 h2 h3 h4 h5 h6 _ _ ih1 ih2 =>
    refine .intro _ fun b hb => ?_
    obtain ⟨d, hd, hb⟩ := hb
    cases same_cell h2 hd
    rw [h5] at hb
    simp only [Obj.children, List.mem_flatMap] at hb
    obtain ⟨p, hp, hb⟩ := hb
    obtain ⟨q, hq, rfl⟩ := List.mem_map.mp (h6.mem_iff.mp hp)
    simp at hb
    rcases hb with rfl | rfl
    · exact ih1 q hq
    · exact ih2 q hq

theorem c62_head_aux {E : Ref → Ref → Prop} {z y : Ref} (h : Reach E (· = z) y) : z = y ∨ ∃ z', E z z' ∧ Reach E (· = z') y := by
  induction h with
  | root h => exact .inl h.symm
  | @step a b _ he ih =>
    rcases ih with rfl | ⟨z', h1, h2⟩
    · exact .inr ⟨b, he, .root rfl⟩
    · exact .inr ⟨z', h1, h2.step he⟩

theorem c62_cycle_aux {E : Ref → Ref → Prop} {r : Ref} (ha : Acc (fun b a => E a b) r) : ∀ z, E r z → ¬ Reach E (· = z) r := by
  induction ha with
  | intro r _ ih =>
    intro z hz hr
    rcases c62_head_aux hr with rfl | ⟨z', h1, h2⟩
    · exact ih z hz z hz (.root rfl)
    · exact ih z hz z' h1 (h2.step hz)

theorem c62_and_aux {Fr G : Ref → Prop} {m m' : Mem} {x r : Ref} (hc : Copied Fr m m' x r) : (∀ z, Reach m'.Part (· = r) z → G z) →
    Copied (fun z => Fr z ∧ G z) m m' x r := by
  induction hc with
  | simple h1 h2 h3 h4 h5 => exact fun hg => .simple h1 h2 ⟨h3, hg _ (.root rfl)⟩ h4 h5
  | @seq x r c c' ps h1 h2 h3 h4 h5 _ ih =>
    refine fun hg => .seq h1 h2 ⟨h3, hg _ (.root rfl)⟩ h4 h5 fun p hp => ih p hp fun z hz => hg z (hz.mono ?_)
    rintro _ rfl
    exact .step (.root rfl) ⟨c', h2, by rw [h5, refill_children h4]; exact List.mem_map_of_mem hp⟩
  | @hmap x r c c' k k' es' qs h1 h2 h3 h4 h5 h6 _ _ ih1 ih2 =>
    have edge : ∀ q ∈ qs, m'.Part r q.2.1 ∧ m'.Part r q.2.2 := by
      intro q hq
      have : q.2 ∈ es' := h6.mem_iff.mpr (List.mem_map_of_mem hq)
      constructor <;> refine ⟨c', h2, ?_⟩ <;> rw [h5] <;> simp only [Obj.children, List.mem_flatMap] <;> exact ⟨q.2, this, by simp⟩
    refine fun hg => .hmap h1 h2 ⟨h3, hg _ (.root rfl)⟩ h4 h5 h6 (fun q hq => ih1 q hq fun z hz => hg z (hz.mono ?_)) fun q hq => ih2 q hq fun z hz => hg z (hz.mono ?_)
    · rintro _ rfl; exact .step (.root rfl) (edge q hq).1
    · rintro _ rfl; exact .step (.root rfl) (edge q hq).2

/-- the copy of a vector -/
theorem c62_elements_aux {Fr : Ref → Prop} {m m' : Mem} {x r : Ref} {c : Cell} {es : List Ref} (hc : Copied Fr m m' x r) (hx : m x = some c) (ho : c.obj = .vec es) :
    ∃ c' cur, m' r = some c' ∧ c'.obj = .vec cur ∧ List.Forall₂ (Copied (fun z => Fr z ∧ z ≠ r) m m') es cur := by
  have acc := c62_acc_aux hc
  cases hc with
  | simple h1 h2 _ h4 h5 => cases same_cell hx h1; rw [ho] at h4; cases h4
  | hmap h1 _ _ h4 => cases same_cell hx h1; rw [ho] at h4; cases h4
  | @seq _ _ c1 c' ps h1 h2 h3 h4 h5 h6 =>
    cases same_cell hx h1
    rw [ho] at h4 h5
    refine ⟨c', _, h2, h5, ?_⟩
    simp only [Obj.elems, Option.some.injEq] at h4
    rw [h4]
    have : ∀ qs : List (Ref × Ref), (∀ p ∈ qs, p ∈ ps) → List.Forall₂ (Copied (fun z => Fr z ∧ z ≠ r) m m') (qs.map (·.1)) (qs.map (·.2)) := by
      intro qs
      induction qs with
      | nil => exact fun _ => .nil
      | cons q qs ih =>
        intro hq
        refine .cons (c62_and_aux (h6 q (hq q (by simp))) ?_) (ih fun p hp => hq p (by simp [hp]))
        rintro _ hz rfl
        exact c62_cycle_aux acc q.2 ⟨c', h2, by rw [h5]; exact List.mem_map_of_mem (hq q (by simp))⟩ hz
    exact this ps fun _ h => h

theorem c62_plusRun_aux (F : Fine W h) (C : Copies W h) (k : Held W args ts env v) (top : args ∈ v.stack) (hp : ∃ x xs es, ts = x :: xs ∧ v.HasVec x es) :
    Wp W n h (Prog.biPlus args env) v fun a u tr => KeepsBuiltins v u ∧ ∀ r w, a = some r → Ends u w → PlusVecRun W ts v r w tr := by
  obtain ⟨x, xs, es, rfl, hes⟩ := hp
  unfold Prog.biPlus
  refine first_aux k fun hv => ?_
  refine wp_bind (wp_read fun c hc => ?_)
  obtain ⟨c', hc', ho⟩ := hes
  cases same_cell hc hc'
  simp only [ho]
  unfold Prog.plusVector Prog.copyOf
  refine wp_bind (wp_bind (wp_call fun a u t ee => wp_deref fun r hd => ?_))
  subst hd
  have ox := (k.pub x (by simp)).1
  obtain ⟨su, rfl, q, fr⟩ := F.copy _ _ _ _ _ k.sane ee
  obtain ⟨_, r', hr', ok⟩ := C _ _ _ _ _ k.sane k.closed.open' ox ee
  cases hr'
  have fresh : ¬ v.Old W r := fr r rfl
  obtain ⟨cr, cur, hcr, hcro, hcur⟩ := c62_elements_aux ok.copied hc ho
  obtain ⟨ca, hca, hcao⟩ := hv
  have hne : args ≠ r := by rintro rfl; exact fresh (k.sane.old _ _ hca)
  have keptArg : ∀ z ∈ x :: xs, v.Kept z := fun z hz => .step (.root top) ⟨ca, hca, by simpa [Cell.edges, hcao, Obj.children] using .inr (by simpa using hz)⟩
  have keptSrc : ∀ z, Reach (fun a b => a ≠ r ∧ v.mem.Edge a b) (fun z => z ∈ x :: xs ∨ False) z → v.Kept z := by
    intro z hz
    induction hz with
    | root h => exact keptArg _ (h.elim id False.elim)
    | @step a b _ he ih => exact ih.step he.2
  have g : Vm.Step W nobody nobody v u := ⟨k.sane, su, ok.closed, q⟩
  have f : Pushing W v args (x :: xs) r (fun _ => False) { u with stack := r :: u.stack } (.vec cur) :=
    ⟨⟨k.sane, (g.push ok.old).sane, (g.push ok.old).closed, (g.push ok.old).quiet.mono fun _ h => h.elim⟩, ⟨ca, by rw [← hca]; exact ok.pure.kept args (.root top), hcao⟩,
      by show args ∈ r :: u.stack; rw [ok.stack]; exact .tail _ top, hne, .inr (by simp), ⟨cr, hcr, hcro⟩, fun _ h => h.elim, fun z hz _ => ok.pure.kept z (keptSrc z hz)⟩
  refine wp_bind (wp_push (wp_bind (Wp.mono (c62_loop_aux F C k.closed fresh (fun z hz => (k.pub z hz).1) xs es cur _ (fun z hz => .root (by simp [hz])) f hcur) ?_)))
  rintro _ u1 t ⟨rfl, hst, cur', f', hf⟩
  have q := c60_quiet_aux k.sane fresh f'.step.quiet
  refine wp_bind (wp_pop fun s hs => wp_pure ⟨keeps_mem q rfl, ?_⟩)
  rintro _ w ⟨⟩ e
  have e' : Ends u1 w := (Ends.pop (s := s)).trans e
  exact .vector rfl ⟨c, hc, ho⟩ ⟨rfl, fresh, u1, cur', q, forall₂_imp hf fun _ _ _ h => h.mono fun _ hz => hz.1, e', e'.hasObj f'.cell (by simp)⟩

/-! #### with a predicate -/

/-- asking the predicate -/
theorem wp_ask (F : Fine W h) {os : List (Ref × Cell)} {f x : Ref} {i : Nat} (k : Stashed W env os v) (hf : v.Pub W (stash os) f) (hx : v.Pub W (stash os) x)
    {Q : Ref → Vm → List Event → Prop}
    (hq : ∀ e a, Asked W nobody env f x i v e a → (∀ z c, z ∈ v.stack → v.mem z = some c → e.pre.mem z = some c) → Stashed W env os { e.post with stack := v.stack } →
      e.post.Sane W → v.births ≤ e.post.births → e.post.Pub W (stash os) a → Q a { e.post with stack := v.stack } [e]) :
    Wp W n h (Prog.askPredicate f x env i) v Q := by
  unfold Prog.askPredicate
  refine wp_bind (wp_alloc k.sane fun form w1 a1 => wp_bind (wp_push ?_))
  have k1 := (k.alloc a1 (by simp [PubObj])).push a1.old
  have g1 := ((k.here (E := nobody)).alloc a1 (by simp [PubObj])).push a1.old
  have b1 : v.births ≤ w1.births := g1.quiet.births
  have p1 : Vm.Pub W (stash os) { w1 with stack := form :: w1.stack } form := a1.pub k.closed
  refine wp_bind (wp_appendOpen k1 g1 a1.cell rfl p1 (hf.mono b1) a1.fresh fun w2 k2 g2 hf2 same2 hb2 s2 => ?_)
  have up2 : ∀ y, w1.Pub W (stash os) y → w2.Pub W (stash os) y := fun y hy => hy.mono (Nat.le_of_eq hb2.symm)
  refine wp_bind (wp_appendOpen k2 g2 hf2 rfl (up2 _ p1) (up2 _ (hx.mono b1)) a1.fresh fun w3 k3 g3 hf3 same3 hb3 s3 => ?_)
  have up3 : ∀ y, w1.Pub W (stash os) y → w3.Pub W (stash os) y := fun y hy => (up2 y hy).mono (Nat.le_of_eq hb3.symm)
  have st3 : w3.stack = form :: v.stack := by rw [s3, s2, a1.stack]
  refine wp_bind (wp_alloc k3.sane fun ix w4 a4 => ?_)
  have k4 := k3.alloc a4 trivial
  have g4 := g3.alloc a4 trivial
  have b4 : w3.births ≤ w4.births := (a4.quiet (E := nobody) k3.sane).births
  have hf4 := alloc_kept k3.sane a4 (by rw [st3]; simp) hf3
  have nix : ix ≠ form := fun e => a4.fresh (e ▸ k3.sane.old _ _ hf3)
  refine wp_bind (wp_appendOpen k4 g4 hf4 rfl ((up3 _ p1).mono b4) (a4.pub k3.closed) a1.fresh fun w5 k5 g5 hf5 same5 hb5 s5 => ?_)
  have st5 : w5.stack = form :: v.stack := by rw [s5, a4.stack, st3]
  have b5 : w4.births ≤ w5.births := Nat.le_of_eq hb5.symm
  have keep : ∀ z c, z ∈ v.stack → v.mem z = some c → w5.mem z = some c := by
    intro z c hz hc
    have nz : z ≠ form := fun e => a1.fresh (e ▸ k.sane.old _ _ hc)
    have h1 := alloc_kept k.sane a1 hz hc
    have h3 : w3.mem z = some c := ((same3 z nz).trans (same2 z nz)).trans h1
    exact (same5 z nz).trans (alloc_kept k3.sane a4 (by rw [st3]; exact .tail _ hz) h3)
  refine wp_bind (wp_evalStashed F k5 (((up3 _ p1).mono b4).mono b5) k5.env fun a w6 k6 g6 kp6 st6 ha6 => ?_)
  refine wp_bind (wp_pop fun s hs => wp_require fun r e => ?_)
  subst e
  have hs6 : w6.stack = form :: v.stack := st6.trans st5
  rw [hs6] at hs; cases hs
  refine hq ⟨form, env, w5, some r, w6⟩ r ⟨g5.quiet, ⟨ix, _, ⟨_, hf5, rfl⟩, ⟨_, (same5 ix nix).trans a4.cell, rfl⟩, fun hi => ?_⟩, a1.fresh, rfl, rfl⟩
    keep (k6.pop hs6 k.base) k6.sane (Nat.le_trans g5.quiet.births g6.later.births) (ha6 r rfl)
  exact Int.bmod_eq_of_le_mul_two (by omega) (by omega)

/-- copying, while values are hidden -/
theorem wp_copyStashed (F : Fine W h) (C : Copies W h) {os : List (Ref × Cell)} {x : Ref} (k : Stashed W env os v) (hx : v.Pub W (stash os) x)
    {Q : Option Ref → Vm → List Event → Prop}
    (hq : ∀ r w, Stashed W env os w → Vm.Step W (stash os) nobody v w → w.stack = v.stack → w.Pub W (stash os) r → ¬ v.Old W r →
      Copied (fun z => ¬ v.Old W z) v.mem w.mem x r → Q (some r) w []) : Wp W n h (Prog.call (.copy x)) v Q := by
  refine wp_call fun a w t e => ?_
  obtain ⟨sw, rfl, q, fresh⟩ := F.copy _ _ _ _ _ k.sane e
  have := F.spec (stash os) (.copy x) v v.stack k.sane k.closed (by simpa [Call.refs] using hx) rfl
  rw [e] at this
  obtain ⟨_, r', rfl, ok⟩ := C _ _ _ _ _ k.sane k.closed.open' hx.1 e
  have g : Vm.Step W (stash os) nobody v w := ⟨k.sane, sw, this.1.closed, q⟩
  exact hq r' w (k.aside g g.quiet.births (fun o ho => ok.pure.kept _ (.root (k.base o ho))) (fun o ho => by rw [ok.stack]; exact k.base o ho))
    g ok.stack (this.2.2 r' rfl) (fresh r' rfl) ok.copied

theorem c62_length_aux {x : Ref} {c : Cell} {m : Nat} (hc : v.mem x = some c) (hl : Prog.objLength c.obj = some m) : HasLength v x m := by
  have key : ∀ o, c.obj = o → v.HasObj x o := fun o ho => ⟨c, hc, ho⟩
  cases ho : c.obj <;> rw [ho] at hl <;> simp only [Prog.objLength, Option.some.injEq, reduceCtorEq] at hl <;> subst hl
  all_goals first
    | exact .nil (key _ ho) | exact .str (key _ ho) | exact .sym (key _ ho) | exact .err (key _ ho) | exact .vec (key _ ho)
    | exact .queue (key _ ho) | exact .list (key _ ho) | exact .hmap (key _ ho) | exact .env (key _ ho) | exact .semver (key _ ho)
    | exact .special (key _ ho) | exact .builtin (key _ ho) | exact .atom (key _ ho) (by simp)

theorem c62_asked_aux {E : Ref → Prop} {f x a : Ref} {i : Nat} {e : Event} {st : List Ref} (k : Asked W nobody env f x i v e a) :
    Asked W E env f x i { v with stack := st } e a :=
  ⟨⟨k.before.births, fun r c _ hc => k.before.cells r c (fun h => h) hc, k.before.gone, k.before.ret, k.before.quit, k.before.exitCode, k.before.out, k.before.roots, k.before.readably⟩,
    k.form, k.fresh, k.env, k.result⟩

theorem c62_sane_aux (k : v.Sane W) {st : List Ref} : Vm.Sane W { v with stack := st } := { k with }

theorem c62_vec_aux (hL : L.Safe) {coll f r : Ref} {os : List (Ref × Cell)} (ha : ∀ o ∈ os, o.1 ≠ r) : ∀ n i v st c acc, Stashed W env ((r, c) :: os) v → c.obj = .vec acc →
    v.Pub W (stash ((r, c) :: os)) coll → v.Pub W (stash ((r, c) :: os)) f →
    ∀ a u t, handle W L n (.aux (.copyVec i) [coll, f, r, env]) v = .ok (a, u, t) →
    u.stack = v.stack ∧ u.Sane W ∧ u.Closed W (stash ((r, c) :: os)) ∧ ∃ st', (a = none ∧ ∃ ys, Picked W env f coll r i { v with stack := st } ys { u with stack := st' } t ∧ u.HasVec r (acc ++ ys)) ∨
      (∃ x, a = some x) ∧ PickFails W env f coll r i { v with stack := st } { u with stack := st' } t := by
  intro n
  induction n with
  | zero => intro i v st c acc _ _ _ _ a u t e; cases e
  | succ n ih =>
    intro i v st c acc k hacc hcoll hf a u t e
    have F : Fine W (handle W L n) := handler_fine hL n
    have C : Copies W (handle W L n) := handler_copies n
    suffices H : Wp W n (handle W L n) (Prog.copyVecTurn coll f r env i) v fun a u t =>
        u.stack = v.stack ∧ u.Sane W ∧ u.Closed W (stash ((r, c) :: os)) ∧ ∃ st', (a = none ∧ ∃ ys, Picked W env f coll r i { v with stack := st } ys { u with stack := st' } t ∧ u.HasVec r (acc ++ ys)) ∨
        (∃ x, a = some x) ∧ PickFails W env f coll r i { v with stack := st } { u with stack := st' } t from H a u t (handle_succ (by simp) e)
    clear e a u t
    have hr := k.made _ (.head _)
    unfold Prog.copyVecTurn
    refine wp_bind (wp_read fun d hd => ?_)
    split
    · rename_i es ho
      have hv : Vm.HasVec { v with stack := st } coll es := ⟨d, hd, ho⟩
      split
      · rename_i hx
        exact wp_pure ⟨rfl, k.sane, k.closed, st, .inl ⟨rfl, [], .done hv (by simpa using hx), ⟨c, hr, by simpa using hacc⟩⟩⟩
      · rename_i x hx
        have px : v.Pub W (stash ((r, c) :: os)) x := by
          have := (k.closed.pub _ _ hd hcoll.2).obj
          rw [ho] at this
          exact this x (List.mem_of_getElem? hx)
        refine wp_bind (wp_ask F k hf px fun e a asked _ k1 s1 b1 pa => ?_)
        have asked' : Asked W (fun z => z = r) env f x i { v with stack := st } e a := c62_asked_aux asked
        refine wp_bind (wp_read fun d2 hd2 => ?_)
        have hd2 : e.post.mem a = some d2 := hd2
        split
        · rename_i hb
          have hb : e.post.HasObj a (.bool true) := ⟨d2, hd2, hb⟩
          refine wp_bind (wp_copyStashed F C k1 (px.mono b1) fun y w k2 g2 st2 py fy cp => wp_bind (wp_deref fun y' hy => ?_))
          cases hy
          have old_r : e.post.Old W r := k1.old (o := (r, c)) (.head _)
          refine wp_bind (wp_append fun c' es' hc' hes' => ?_)
          cases same_cell (k2.made (r, c) (.head _)) hc'
          rw [hacc] at hes'; cases hes'
          have p3 : PubCell (w.Old W) { c with obj := .vec (acc ++ [y]) } := by
            refine ⟨?_, (k2.closed.cells r c hc').docstr, (k2.closed.cells r c hc').docvec⟩
            have := (k2.closed.cells r c hc').obj
            rw [hacc] at this
            intro z hz
            rcases List.mem_append.mp hz with hz | hz
            · exact this z hz
            · rw [List.mem_singleton.mp hz]; exact py.1
          have k3 := k2.change (d := { c with obj := .vec (acc ++ [y]) }) ha rfl rfl p3
          have g3 := (Vm.Step.mk (E := fun z => z = r) g2.sane0 g2.sane g2.closed (g2.quiet.mono fun _ h => h.elim)).change (r := r) (d := { c with obj := .vec (acc ++ [y]) }) ⟨_, .head _, rfl⟩ (.inl rfl) (k2.made (r, c) (.head _)) rfl rfl p3
          have e0 : stash ((r, { c with obj := Obj.vec (acc ++ [y]) }) :: os) = stash ((r, c) :: os) := funext fun x => propext (by rw [stash_cons, stash_cons])
          have b2 : v.births ≤ w.births := Nat.le_trans b1 g2.quiet.births
          have q3 : Vm.Quiet W (fun z => z = r) e.post { w with mem := w.mem.set r { c with obj := .vec (acc ++ [y]) } } := (Ends.pop.quiet).trans s1 g3.quiet
          have cp3 : Copied (fun z => ¬ e.post.Old W z) e.post.mem (w.mem.set r { c with obj := .vec (acc ++ [y]) }) x y :=
            cp.target fun z hz _ => Mem.set_other _ _ (fun h => hz (h ▸ old_r))
          refine wp_call fun a' u t ee => ?_
          obtain ⟨h1, h2, h3, st', h4⟩ := ih (i + 1) _ w.stack _ (acc ++ [y]) k3 rfl (e0 ▸ hcoll.mono b2) (e0 ▸ hf.mono b2) a' u t ee
          refine ⟨h1.trans st2, h2, e0 ▸ h3, st', ?_⟩
          rcases h4 with ⟨rfl, ys, h4, h5⟩ | ⟨h5, h4⟩
          · exact .inl ⟨rfl, y :: ys, by simpa using Picked.yes hv hx asked' hb q3 cp3 h4, by simpa using h5⟩
          · exact .inr ⟨h5, by simpa using PickFails.yes hv hx asked' hb q3 cp3 h4⟩
        · rename_i hb
          have hb : e.post.HasObj a (.bool false) := ⟨d2, hd2, hb⟩
          refine wp_call fun a' u t ee => ?_
          obtain ⟨h1, h2, h3, st', h4⟩ := ih (i + 1) _ e.post.stack _ acc k1 hacc (hcoll.mono b1) (hf.mono b1) a' u t ee
          refine ⟨h1, h2, h3, st', ?_⟩
          rcases h4 with ⟨rfl, ys, h4, h5⟩ | ⟨h5, h4⟩
          · exact .inl ⟨rfl, ys, by simpa using Picked.no hv hx asked' hb h4, h5⟩
          · exact .inr ⟨h5, by simpa using PickFails.no hv hx asked' hb h4⟩
        · rename_i hb1 hb2
          refine wp_pure ⟨rfl, k1.sane, k1.closed, e.post.stack, .inr ⟨⟨a, rfl⟩, ?_⟩⟩
          refine .bad hv hx asked' ?_
          rintro b ⟨d3, hd3, ho3⟩
          cases same_cell hd2 hd3
          cases b
          · exact hb2 ho3
          · exact hb1 ho3
    · rename_i hno
      split
      · rename_i m hm
        split
        · exact wp_fail
        · rename_i hi
          refine wp_pure ⟨rfl, k.sane, k.closed, st, .inl ⟨rfl, [], .changed ?_ (c62_length_aux (v := { v with stack := st }) hd hm) (by omega), ⟨c, hr, by simpa using hacc⟩⟩⟩
          rintro es ⟨d', hd', ho'⟩
          cases same_cell hd hd'
          exact hno _ ho'
      · exact wp_fail

theorem c62_str_aux (hL : L.Safe) {coll f : Ref} {os : List (Ref × Cell)} : ∀ n i v st acc, Stashed W env os v →
    v.Pub W (stash os) coll → v.Pub W (stash os) f →
    ∀ a u t, handle W L n (.aux (.copyStr i acc) [coll, f, env]) v = .ok (a, u, t) → ∀ r, a = some r →
    ∃ cs err p, PickedChars W env f coll i { v with stack := st } cs err p t ∧ Vm.Quiet W nobody p u ∧ p.Sane W ∧ ¬ p.Old W r ∧ if err then u.IsErr r else u.HasObj r (.str (acc ++ cs)) := by
  intro n
  induction n with
  | zero => intro i v st acc _ _ _ a u t e; cases e
  | succ n ih =>
    intro i v st acc k hcoll hf a u t e
    have F : Fine W (handle W L n) := handler_fine hL n
    suffices H : Wp W n (handle W L n) (Prog.copyStrTurn coll f env i acc) v fun a u t => ∀ r, a = some r →
      ∃ cs err p, PickedChars W env f coll i { v with stack := st } cs err p t ∧ Vm.Quiet W nobody p u ∧ p.Sane W ∧ ¬ p.Old W r ∧ if err then u.IsErr r else u.HasObj r (.str (acc ++ cs)) from
        H a u t (handle_succ (by simp) e)
    clear e a u t
    unfold Prog.copyStrTurn
    refine wp_bind (wp_read fun d hd => ?_)
    split
    · rename_i s ho
      have hv : Vm.HasObj { v with stack := st } coll (.str s) := ⟨d, hd, ho⟩
      split
      · rename_i hx
        refine wp_bind (wp_alloc k.sane fun r u al => wp_pure ?_)
        rintro _ ⟨⟩
        exact ⟨[], false, { v with stack := st }, .done hv (by simpa using hx), (Ends.pop (v := { v with stack := st }) (s := v.stack)).quiet.trans (c62_sane_aux k.sane) (al.quiet k.sane), c62_sane_aux k.sane, al.fresh, ⟨_, al.cell, by simp⟩⟩
      · rename_i c hx
        refine wp_bind (wp_alloc k.sane fun x v1 a1 => wp_bind (wp_push ?_))
        have k1 := (k.alloc a1 trivial).push a1.old
        have b1 : v.births ≤ v1.births := (a1.quiet (E := nobody) k.sane).births
        have px : Vm.Pub W (stash os) { v1 with stack := x :: v1.stack } x := a1.pub k.closed
        refine wp_bind (wp_ask F k1 (hf.mono b1) px fun e a asked keep k2 s2 b2 pa => ?_)
        have hchr : e.pre.HasObj x (.chr [c]) := ⟨_, keep x _ (.head _) a1.cell, rfl⟩
        have asked' : Asked W nobody env f x i { v with stack := st } e a := by
          have q := ((Ends.pop (v := { v with stack := st }) (s := v.stack)).quiet.trans (c62_sane_aux k.sane) (a1.quiet k.sane)).trans (c62_sane_aux k.sane)
            ((Ends.pop (v := v1) (s := x :: v1.stack)).quiet.trans (a1.sane k.sane) asked.before)
          exact ⟨q, asked.form, fun h => asked.fresh (h.mono b1), asked.env, asked.result⟩
        have b3 : v.births ≤ e.post.births := Nat.le_trans b1 b2
        refine wp_bind (wp_read fun d2 hd2 => ?_)
        have hd2 : e.post.mem a = some d2 := hd2
        split
        · rename_i hb
          have hb : e.post.HasObj a (.bool true) := ⟨d2, hd2, hb⟩
          refine wp_bind (wp_pop fun s0 hs0 => ?_)
          obtain rfl : s0 = v1.stack := by simpa using hs0.symm
          have k3 := k2.pop (r := x) (s := v1.stack) rfl (k.alloc a1 trivial).base
          refine wp_bind (wp_read fun d3 hd3 => ?_)
          have hd3 : e.post.mem coll = some d3 := hd3
          split
          · rename_i s' ho3
            split
            · rename_i c' hc'
              refine wp_call fun a' u t ee => ?_
              rintro r rfl
              obtain ⟨cs, err, p, h1, h2, h3, h4, h5⟩ := ih (i + 1) _ e.post.stack (acc ++ [c']) k3 (hcoll.mono b3) (hf.mono b3) _ u t ee r rfl
              refine ⟨c' :: cs, err, p, by simpa using PickedChars.yes hv hx a1.fresh hchr asked' hb ⟨d3, hd3, ho3⟩ hc' h1, h2, h3, h4, by simpa using h5⟩
            · exact wp_fail
          · exact wp_fail
        · rename_i hb
          have hb : e.post.HasObj a (.bool false) := ⟨d2, hd2, hb⟩
          refine wp_bind (wp_pop fun s0 hs0 => ?_)
          obtain rfl : s0 = v1.stack := by simpa using hs0.symm
          have k3 := k2.pop (r := x) (s := v1.stack) rfl (k.alloc a1 trivial).base
          refine wp_call fun a' u t ee => ?_
          rintro r rfl
          obtain ⟨cs, err, p, h1, h2, h3, h4, h5⟩ := ih (i + 1) _ e.post.stack acc k3 (hcoll.mono b3) (hf.mono b3) _ u t ee r rfl
          refine ⟨cs, err, p, by simpa using PickedChars.no hv hx a1.fresh hchr asked' hb h1, h2, h3, h4, h5⟩
        · rename_i hb1 hb2
          refine wp_bind (wp_pop fun s0 hs0 => ?_)
          obtain rfl : s0 = v1.stack := by simpa using hs0.symm
          have k3 := k2.pop (r := x) (s := v1.stack) rfl (k.alloc a1 trivial).base
          refine wp_errorStashed k3 fun r w _ g4 _ _ fr herr => ?_
          rintro _ ⟨⟩
          refine ⟨[], true, e.post, .bad hv hx a1.fresh hchr asked' ?_, (Ends.pop (v := e.post) (s := v1.stack)).quiet.trans s2 g4.quiet, s2, fr, herr⟩
          rintro b ⟨d3, hd3, ho3⟩
          cases same_cell hd2 hd3
          cases b
          · exact hb2 ho3
          · exact hb1 ho3
    · rename_i hno
      split
      · rename_i m hm
        split
        · exact wp_fail
        · rename_i hi
          refine wp_bind (wp_alloc k.sane fun r u al => wp_pure ?_)
          rintro _ ⟨⟩
          refine ⟨[], false, { v with stack := st }, .changed ?_ (c62_length_aux (v := { v with stack := st }) hd hm) (by omega),
            (Ends.pop (v := { v with stack := st }) (s := v.stack)).quiet.trans (c62_sane_aux k.sane) (al.quiet k.sane), c62_sane_aux k.sane, al.fresh, ⟨_, al.cell, by simp⟩⟩
          rintro s ⟨d', hd', ho'⟩
          cases same_cell hd hd'
          exact hno _ ho'
      · exact wp_fail

theorem c62_if_aux (hL : L.Safe) {n : Nat} (k : Held W args ts env v) {ca : Cell} (hca : v.mem args = some ca) (top : args ∈ v.stack) {x f : Ref} {es : List Ref} {d : FnData}
    (hts : ts = [x, f]) (hx : v.HasVec x es) (hf : v.HasObj f (.fn d)) :
    Wp W n (handle W L n) (Prog.copyVecIf x f env) v fun a u tr => ∀ r w, a = some r → Ends u w → CopyRun W env ts v r w tr := by
  unfold Prog.copyVecIf
  have k0 := Stashed.start k top hca
  refine wp_bind (wp_alloc k.sane fun r v1 al => wp_bind (wp_push ?_))
  have k1 := k0.hide al (by simp [PubObj])
  have hra : ∀ o ∈ [(args, ca)], o.1 ≠ r := by
    intro o ho
    rw [List.mem_singleton.mp ho]
    rintro rfl
    exact al.fresh (k.sane.old _ _ hca)
  have b1 : v.births ≤ v1.births := (al.quiet (E := nobody) k.sane).births
  have pub : ∀ z ∈ ts, Vm.Pub W (stash ((r, { obj := .vec [], uid := v.nextUid }) :: [(args, ca)])) { v1 with stack := r :: v1.stack } z := by
    intro z hz
    have p := k.pub z hz
    refine ⟨p.1.mono b1, fun h => ?_⟩
    rcases (stash_cons _ _ _).mp h with rfl | h
    · exact al.fresh p.1
    · rw [stash_one] at h; exact p.2 h
  have q1 : Vm.Quiet W nobody v { v1 with stack := r :: v1.stack } := (al.quiet k.sane).trans k.sane (Ends.pop (v := v1)).quiet
  have hx1 : Vm.HasVec { v1 with stack := r :: v1.stack } x es := by
    obtain ⟨c, hc, ho⟩ := hx
    refine ⟨c, ?_, ho⟩
    have hv : v.mem args = some ca := hca
    rw [← hc]
    refine al.kept x ?_ (by rintro rfl; exact al.fresh (k.sane.old _ _ hc))
    have : ca.obj = .vec ts := by
      rcases k.vec with ⟨c', hc', ho'⟩ | hn
      · cases same_cell hca hc'; exact ho'
      · rw [hn] at hca; cases hca
    exact .step (.root top) ⟨ca, hca, by unfold Cell.edges; rw [this, hts]; simp [Obj.children]⟩
  refine wp_bind (wp_call fun a u t e => ?_)
  obtain ⟨h1, su, cu, st', h4⟩ := c62_vec_aux hL hra n 0 _ (r :: v1.stack) _ [] k1 rfl (pub x (by simp [hts])) (pub f (by simp [hts])) a u t e
  rcases h4 with ⟨rfl, ys, h4, h5⟩ | ⟨⟨y, rfl⟩, h4⟩
  · refine wp_bind (wp_pop fun s hs => wp_pure ?_)
    rintro _ w ⟨⟩ e
    have e' : Ends { u with stack := st' } w := (Ends.pop (s := s)).trans e
    exact .picked hts hf hx q1 al.fresh hx1 (by simpa using h4) e'.quiet (e'.hasObj h5 (by simp))
  · have g : Vm.Step W (stash ((r, { obj := Obj.vec [], uid := v.nextUid }) :: [(args, ca)])) (fun z => z = r) u u := .refl su cu
    refine wp_bind (wp_pop fun s hs => ?_)
    refine wps_error (g.pop hs) fun r' w t' gw hp hm fr => ?_
    rintro _ w' ⟨⟩ e
    refine .pickFails (u := { u with stack := st' }) hts hf hx q1 al.fresh hx1 (by simpa using h4) ⟨?_, fr, e.isErr ⟨_, _, _, hm, rfl⟩⟩
    exact ((Ends.pop (v := { u with stack := st' }) (s := u.stack)).quiet.trans (c62_sane_aux su) gw.quiet).trans (c62_sane_aux su) e.quiet

theorem c62_chars_aux (hL : L.Safe) {n : Nat} (k : Held W args ts env v) {ca : Cell} (hca : v.mem args = some ca) (top : args ∈ v.stack) {x f : Ref} {s : Text} {d : FnData}
    (hts : ts = [x, f]) (hx : v.HasObj x (.str s)) (hf : v.HasObj f (.fn d)) :
    Wp W n (handle W L n) (Prog.call (.aux (.copyStr 0 []) [x, f, env])) v fun a u tr => ∀ r w, a = some r → Ends u w → CopyRun W env ts v r w tr := by
  have k0 := Stashed.start k top hca
  have pub : ∀ z ∈ ts, v.Pub W (stash [(args, ca)]) z := by rw [stash_one]; exact k.pub
  refine wp_call fun a u t e => ?_
  rintro r w rfl e'
  obtain ⟨cs, err, p, h1, h2, h3, h4, h5⟩ := c62_str_aux hL n 0 v v.stack [] k0 (pub x (by simp [hts])) (pub f (by simp [hts])) _ u t e r rfl
  cases err
  · exact .pickedChars hts hf hx h1 (h2.trans h3 e'.quiet) h4 (e'.hasObj (by simpa using h5) (by simp))
  · exact .charsFail hts hf hx h1 ⟨h2.trans h3 e'.quiet, h4, e'.isErr (by simpa using h5)⟩

theorem c62_drop_aux {n : Nat} {h : Handler} {p : Prog (Option Ref)} {v : Vm} {P Q : Ref → Vm → List Event → Prop}
    (hp : Wp W n h p v fun a u t => KeepsBuiltins v u ∧ ∀ r w, a = some r → Ends u w → P r w t) (hPQ : ∀ r w t, P r w t → Q r w t) :
    Wp W n h p v fun a u t => ∀ r w, a = some r → Ends u w → Q r w t :=
  hp.mono fun _ _ _ ⟨_, h2⟩ => fun r w e e' => hPQ r w _ (h2 r w e e')

theorem c62_run_aux (hL : L.Safe) {n : Nat} (k : Held W args ts env v) (top : args ∈ v.stack) :
    Wp W n (handle W L n) (Prog.biCopy args env) v fun a u tr => ∀ r w, a = some r → Ends u w → CopyRun W env ts v r w tr := by
  have F : Fine W (handle W L n) := handler_fine hL n
  have C : Copies W (handle W L n) := handler_copies n
  unfold Prog.biCopy
  refine first_aux k fun hv => ?_
  split
  · rename_i x
    refine wp_bind (wp_read fun c hc => ?_)
    simp only [List.nil_append]
    split
    · rename_i es ho
      refine c62_drop_aux (c62_all_aux F C k hv top (es := es) fun z hz => ?_) fun r w t g => .vector rfl ⟨c, hc, ho⟩ g
      exact .step (.root (List.mem_singleton.mpr rfl)) ⟨c, hc, by unfold Cell.edges; rw [ho]; exact List.mem_append_right _ hz⟩
    · rename_i s ho
      exact c62_drop_aux (give_aux k (by simp)) fun r w t g => .string rfl ⟨c, hc, ho⟩ g
    · rename_i m ho
      exact c62_drop_aux (give_aux k (by simp)) fun r w t g => .integer rfl ⟨c, hc, ho⟩ g
    · exact wp_fail
    · rename_i h1 h2 h3 h4
      refine c62_drop_aux (c34_error_aux k _) fun r w t g => .other rfl ⟨c, hc, rfl⟩ ?_ g
      rintro (⟨es, e⟩ | ⟨s, e⟩ | ⟨m, e⟩)
      · exact h1 _ e
      · exact h2 _ e
      · exact h3 _ e
  · rename_i x p
    refine wp_bind (wp_read fun c hc => ?_)
    simp only [List.nil_append]
    obtain ⟨ca, hca, hcao⟩ := hv
    split
    · rename_i d hd
      refine wp_bind (wp_read fun c2 hc2 => ?_)
      simp only [List.nil_append]
      split
      · rename_i es ho
        exact c62_if_aux hL k hca top rfl ⟨c2, hc2, ho⟩ ⟨c, hc, hd⟩
      · rename_i s ho
        exact c62_chars_aux hL k hca top rfl ⟨c2, hc2, ho⟩ ⟨c, hc, hd⟩
      · rename_i m ho
        exact c62_drop_aux (c34_error_aux k _) fun r w t g => .unfit rfl ⟨c, hc, hd⟩ ⟨c2, hc2, ho⟩ (by simp) (by simp) g
      · exact wp_fail
      · rename_i h1 h2 h3 h4
        exact c62_drop_aux (c34_error_aux k _) fun r w t g => .unfit rfl ⟨c, hc, hd⟩ ⟨c2, hc2, rfl⟩ h1 h2 g
    · rename_i hno
      refine c62_drop_aux (c34_error_aux k _) fun r w t g => .noFunction rfl ?_ g
      rintro d ⟨c', hc', ho'⟩
      cases same_cell hc hc'
      exact hno _ ho'
  · rename_i h1 h2
    refine c62_drop_aux (c34_error_aux k _) fun r w t g => .count ?_ ?_ g
    · intro e
      obtain ⟨x, hx⟩ := List.length_eq_one_iff.mp e
      exact h1 x hx
    · intro e
      obtain ⟨x, y, hx⟩ := List.length_eq_two.mp e
      exact h2 x y hx

end

/-- a builtin function called by name, that evaluates forms -/
theorem namedBuiltinThrough_aux {b : Builtin} {Run : List Ref → Vm → Ref → Vm → List Event → Prop} (hL : L.Safe) (hb : b ≠ .return)
    {v w : Vm} (rv : v.Reached W L) {form env op : Ref} {name : Text} {xs : List Ref}
    (hRun : ∀ n args ts v, Held W args ts env v → args ∈ v.stack →
      Wp W n (handle W L n) (Prog.builtin L b args env) v fun a u t => ∀ r w, a = some r → Ends u w → Run ts v r w t)
    (nc : NamedCall W v form env name op xs) (hop : v.HasObj op (.builtin b))
    {r : Option Ref} {tr : List Event} (ev : Evaluates W L v form env r w tr) :
    NamedOpCall W (ArgumentsFirst W form env (RunsThrough b op Run)) v env op r w tr := by
  obtain ⟨e0, tr', h1, h2, h3, h4, h5, h6, h7, h⟩ := c28_builtin hL rv nc hop ev
  refine ⟨e0, tr', h1, h2, h3, h4, h5, h6, h7, argumentsFirst_imp h fun ts u r w tr h => ?_⟩
  obtain ⟨r', rfl, n, args, b0, u0, u1, b', k, top, hb0, hrun, he, hb', hw⟩ := h
  intro hop
  cases hb0.unique hop
  have hq := hRun n args ts u k top _ _ _ hrun
  by_cases hret : b' = .return
  · subst hret
    rw [if_pos rfl] at hw
    refine ⟨r', { w with functionReturn := u1.functionReturn }, rfl, hq r' _ rfl (he.trans ⟨hw.births, hw.stays, hw.gone, rfl, hw.quit, hw.exitCode, hw.out, hw.roots, hw.readably⟩), .inr ⟨?_, ?_⟩⟩
    · exact hw.hasObj (v := { u1 with functionReturn := some r' }) hb' (by simp)
    · have : w.functionReturn = some r' := hw.ret
      rw [← this]
  · rw [if_neg hret] at hw
    exact ⟨r', w, rfl, hq r' w rfl (he.trans hw), .inl rfl⟩

/-! ### Theorems -/

/-- `copy`: a copy of a vector, string or integer; with a function, of those elements or characters for which it is true.  The parts of the copies are
new, and the vector itself is left alone (but not by the function). -/
theorem c62_copy (hL : L.Safe) {v w : Vm} (rv : v.Reached W L) {form env op : Ref} {name : Text} {xs : List Ref}
    (nc : NamedCall W v form env name op xs) (hop : v.HasObj op (.builtin .copy)) {r : Option Ref} {tr : List Event}
    (ev : Evaluates W L v form env r w tr) :
    NamedOpCall W (ArgumentsFirst W form env (RunsThrough .copy op (CopyRun W env))) v env op r w tr :=
  namedBuiltinThrough_aux hL (by simp) rv (fun _ _ _ _ k top => c62_run_aux hL k top) nc hop ev

/-- `+` with a vector as its first argument -/
theorem c62_plus_vector (hL : L.Safe) {v w : Vm} (rv : v.Reached W L) {form env op : Ref} {name : Text} {xs : List Ref}
    (nc : NamedCall W v form env name op xs) (hop : v.HasObj op (.builtin .plus)) {r : Option Ref} {tr : List Event}
    (ev : Evaluates W L v form env r w tr) :
    NamedOpCall W (ArgumentsFirst W form env (Runs .plus op fun ts u r w tr => (∃ x xs es, ts = x :: xs ∧ u.HasVec x es) → PlusVecRun W ts u r w tr))
      v env op r w tr :=
  namedBuiltinTop_aux hL (by simp) (fun _ _ _ _ _ F C k top hp => c62_plusRun_aux F C k top hp) rv nc hop ev

/-! ### Examples -/

/-- names for the examples -/
def kit17 : List (String × Obj × Bool) := [("copy", .builtin .copy, true), ("+", .builtin .plus, true), ("quote", .special .quote, false), ("fn", .special .fn, false),
  ("==", .special .eq, false)]

theorem kit17_plain : ∀ x ∈ kit17, x.2.1.children = [] := by decide

/-- `(copy '(1 2))` -/
example : ∃ (v w : Vm) (form op : Ref) (xs : List Ref) (r : Option Ref) (tr : List Event), v.Reached world library ∧
    NamedCall world v form v.globalEnv (txt "copy") op xs ∧ v.HasObj op (.builtin .copy) ∧
    Evaluates world library v form v.globalEnv r w tr ∧ elemsAt w r = some [some (.int 1), some (.int 2)] := by
  obtain ⟨v, form, r, w, tr, hr, of, oe, ev, h⟩ := stage_exists (table := kit17) (forms := []) (fuel := 60)
    (last := .vec [.sym "copy", .vec [.sym "quote", .vec [.int 1, .int 2]]])
    (P := fun v f r w tr => namedCheck v f "copy" (.builtin .copy) && decide (elemsAt w r = some [some (.int 1), some (.int 2)])) kit17_plain (by decide +kernel)
  simp only [Bool.and_eq_true, decide_eq_true_eq] at h
  obtain ⟨op, xs, h1, h2, h3⟩ := named_of_check h.1 of oe
  exact ⟨v, w, form, op, xs, r, tr, hr, h1, h2, ev, h.2⟩

/-- `(copy "ab")` -/
example : ∃ (v w : Vm) (form op : Ref) (xs : List Ref) (r : Option Ref) (tr : List Event), v.Reached world library ∧
    NamedCall world v form v.globalEnv (txt "copy") op xs ∧ v.HasObj op (.builtin .copy) ∧
    Evaluates world library v form v.globalEnv r w tr ∧ objAt w r = some (.str (txt "ab")) := by
  obtain ⟨v, form, r, w, tr, hr, of, oe, ev, h⟩ := stage_exists (table := kit17) (forms := []) (fuel := 60)
    (last := .vec [.sym "copy", .str "ab"])
    (P := fun v f r w tr => namedCheck v f "copy" (.builtin .copy) && decide (objAt w r = some (.str (txt "ab")))) kit17_plain (by decide +kernel)
  simp only [Bool.and_eq_true, decide_eq_true_eq] at h
  obtain ⟨op, xs, h1, h2, h3⟩ := named_of_check h.1 of oe
  exact ⟨v, w, form, op, xs, r, tr, hr, h1, h2, ev, h.2⟩

/-- `(copy 5)` -/
example : ∃ (v w : Vm) (form op : Ref) (xs : List Ref) (r : Option Ref) (tr : List Event), v.Reached world library ∧
    NamedCall world v form v.globalEnv (txt "copy") op xs ∧ v.HasObj op (.builtin .copy) ∧
    Evaluates world library v form v.globalEnv r w tr ∧ objAt w r = some (.int 5) := by
  obtain ⟨v, form, r, w, tr, hr, of, oe, ev, h⟩ := stage_exists (table := kit17) (forms := []) (fuel := 60)
    (last := .vec [.sym "copy", .int 5])
    (P := fun v f r w tr => namedCheck v f "copy" (.builtin .copy) && decide (objAt w r = some (.int 5))) kit17_plain (by decide +kernel)
  simp only [Bool.and_eq_true, decide_eq_true_eq] at h
  obtain ⟨op, xs, h1, h2, h3⟩ := named_of_check h.1 of oe
  exact ⟨v, w, form, op, xs, r, tr, hr, h1, h2, ev, h.2⟩

/-- `(copy '(3 1) (fn (x i) (== x i)))` -/
example : ∃ (v w : Vm) (form op : Ref) (xs : List Ref) (r : Option Ref) (tr : List Event), v.Reached world library ∧
    NamedCall world v form v.globalEnv (txt "copy") op xs ∧ v.HasObj op (.builtin .copy) ∧
    Evaluates world library v form v.globalEnv r w tr ∧ elemsAt w r = some [some (.int 1)] := by
  obtain ⟨v, form, r, w, tr, hr, of, oe, ev, h⟩ := stage_exists (table := kit17) (forms := []) (fuel := 80)
    (last := .vec [.sym "copy", .vec [.sym "quote", .vec [.int 3, .int 1]], .vec [.sym "fn", .vec [.sym "x", .sym "i"], .vec [.sym "==", .sym "x", .sym "i"]]])
    (P := fun v f r w tr => namedCheck v f "copy" (.builtin .copy) && decide (elemsAt w r = some [some (.int 1)])) kit17_plain (by decide +kernel)
  simp only [Bool.and_eq_true, decide_eq_true_eq] at h
  obtain ⟨op, xs, h1, h2, h3⟩ := named_of_check h.1 of oe
  exact ⟨v, w, form, op, xs, r, tr, hr, h1, h2, ev, h.2⟩

/-- `(copy '(3 1) (fn (x i) x))` -/
example : ∃ (v w : Vm) (form op : Ref) (xs : List Ref) (r : Option Ref) (tr : List Event), v.Reached world library ∧
    NamedCall world v form v.globalEnv (txt "copy") op xs ∧ v.HasObj op (.builtin .copy) ∧
    Evaluates world library v form v.globalEnv r w tr ∧ (match objAt w r with | some (.err _ _) => true | _ => false) = true := by
  obtain ⟨v, form, r, w, tr, hr, of, oe, ev, h⟩ := stage_exists (table := kit17) (forms := []) (fuel := 80)
    (last := .vec [.sym "copy", .vec [.sym "quote", .vec [.int 3, .int 1]], .vec [.sym "fn", .vec [.sym "x", .sym "i"], .sym "x"]])
    (P := fun v f r w tr => namedCheck v f "copy" (.builtin .copy) && decide ((match objAt w r with | some (.err _ _) => true | _ => false) = true)) kit17_plain (by decide +kernel)
  simp only [Bool.and_eq_true, decide_eq_true_eq] at h
  obtain ⟨op, xs, h1, h2, h3⟩ := named_of_check h.1 of oe
  exact ⟨v, w, form, op, xs, r, tr, hr, h1, h2, ev, h.2⟩

/-- `(copy "ab" (fn (x i) (== i 1)))` -/
example : ∃ (v w : Vm) (form op : Ref) (xs : List Ref) (r : Option Ref) (tr : List Event), v.Reached world library ∧
    NamedCall world v form v.globalEnv (txt "copy") op xs ∧ v.HasObj op (.builtin .copy) ∧
    Evaluates world library v form v.globalEnv r w tr ∧ objAt w r = some (.str (txt "b")) := by
  obtain ⟨v, form, r, w, tr, hr, of, oe, ev, h⟩ := stage_exists (table := kit17) (forms := []) (fuel := 80)
    (last := .vec [.sym "copy", .str "ab", .vec [.sym "fn", .vec [.sym "x", .sym "i"], .vec [.sym "==", .sym "i", .int 1]]])
    (P := fun v f r w tr => namedCheck v f "copy" (.builtin .copy) && decide (objAt w r = some (.str (txt "b")))) kit17_plain (by decide +kernel)
  simp only [Bool.and_eq_true, decide_eq_true_eq] at h
  obtain ⟨op, xs, h1, h2, h3⟩ := named_of_check h.1 of oe
  exact ⟨v, w, form, op, xs, r, tr, hr, h1, h2, ev, h.2⟩

/-- `(copy "ab" (fn (x i) x))` -/
example : ∃ (v w : Vm) (form op : Ref) (xs : List Ref) (r : Option Ref) (tr : List Event), v.Reached world library ∧
    NamedCall world v form v.globalEnv (txt "copy") op xs ∧ v.HasObj op (.builtin .copy) ∧
    Evaluates world library v form v.globalEnv r w tr ∧ (match objAt w r with | some (.err _ _) => true | _ => false) = true := by
  obtain ⟨v, form, r, w, tr, hr, of, oe, ev, h⟩ := stage_exists (table := kit17) (forms := []) (fuel := 80)
    (last := .vec [.sym "copy", .str "ab", .vec [.sym "fn", .vec [.sym "x", .sym "i"], .sym "x"]])
    (P := fun v f r w tr => namedCheck v f "copy" (.builtin .copy) && decide ((match objAt w r with | some (.err _ _) => true | _ => false) = true)) kit17_plain (by decide +kernel)
  simp only [Bool.and_eq_true, decide_eq_true_eq] at h
  obtain ⟨op, xs, h1, h2, h3⟩ := named_of_check h.1 of oe
  exact ⟨v, w, form, op, xs, r, tr, hr, h1, h2, ev, h.2⟩

/-- `(copy '(1) 2)` -/
example : ∃ (v w : Vm) (form op : Ref) (xs : List Ref) (r : Option Ref) (tr : List Event), v.Reached world library ∧
    NamedCall world v form v.globalEnv (txt "copy") op xs ∧ v.HasObj op (.builtin .copy) ∧
    Evaluates world library v form v.globalEnv r w tr ∧ (match objAt w r with | some (.err _ _) => true | _ => false) = true := by
  obtain ⟨v, form, r, w, tr, hr, of, oe, ev, h⟩ := stage_exists (table := kit17) (forms := []) (fuel := 80)
    (last := .vec [.sym "copy", .vec [.sym "quote", .vec [.int 1]], .int 2])
    (P := fun v f r w tr => namedCheck v f "copy" (.builtin .copy) && decide ((match objAt w r with | some (.err _ _) => true | _ => false) = true)) kit17_plain (by decide +kernel)
  simp only [Bool.and_eq_true, decide_eq_true_eq] at h
  obtain ⟨op, xs, h1, h2, h3⟩ := named_of_check h.1 of oe
  exact ⟨v, w, form, op, xs, r, tr, hr, h1, h2, ev, h.2⟩

/-- `(+ '(1) 2 3)` -/
example : ∃ (v w : Vm) (form op : Ref) (xs : List Ref) (r : Option Ref) (tr : List Event), v.Reached world library ∧
    NamedCall world v form v.globalEnv (txt "+") op xs ∧ v.HasObj op (.builtin .plus) ∧
    Evaluates world library v form v.globalEnv r w tr ∧ elemsAt w r = some [some (.int 1), some (.int 2), some (.int 3)] := by
  obtain ⟨v, form, r, w, tr, hr, of, oe, ev, h⟩ := stage_exists (table := kit17) (forms := []) (fuel := 60)
    (last := .vec [.sym "+", .vec [.sym "quote", .vec [.int 1]], .int 2, .int 3])
    (P := fun v f r w tr => namedCheck v f "+" (.builtin .plus) && decide (elemsAt w r = some [some (.int 1), some (.int 2), some (.int 3)])) kit17_plain (by decide +kernel)
  simp only [Bool.and_eq_true, decide_eq_true_eq] at h
  obtain ⟨op, xs, h1, h2, h3⟩ := named_of_check h.1 of oe
  exact ⟨v, w, form, op, xs, r, tr, hr, h1, h2, ev, h.2⟩

end Dern.Props
