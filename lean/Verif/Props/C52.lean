import Verif.Props.C50
import Verif.Props.C51
/-
C52: joining, stripping and overwriting texts.

`+` with a text first makes a new text, `+=` lengthens a string or symbol in place, `-` and `-=` take texts out of a string
in place, `(= s i c)` overwrites a string from a position on.  Other values stay as they are.

The texts that are appended must be ones that C strings can hold.  Appending a text to itself (which reads released memory) is
not covered, neither is `+=` with a value that contains the text that is changed.
-/
namespace Dern.Props
open Dern
open Dern.Spec (Shows Clean Stripped position)
open Dern.Prog (Library)
variable {W : World} {L : Library}

/-! ### Specification -/

/-- the value is a string or a character with the text `t` -/
def StrOrChr (v : Vm) (y : Ref) (t : Text) : Prop := v.HasObj y (.str t) ∨ v.HasObj y (.chr t)

/-- the first value is a text, and the texts are ones that C strings can hold -/
def JoinsTexts (ts : List Ref) (v : Vm) : Prop := (∃ x xs s, ts = x :: xs ∧ HasText v x s) ∧ ∀ y ∈ ts, ∀ t, HasText v y t → Clean t

/-- what `+` does with a text and more values -/
inductive JoinRun (W : World) (ts : List Ref) (v : Vm) (r : Ref) (w : Vm) (tr : List Event) : Prop
  | str {x xs s us} : ts = x :: xs → StrOrChr v x s → List.Forall₂ (StrOrChr v) xs us → Gives W (.str (s ++ us.flatten)) v r w tr → JoinRun W ts v r w tr
  | sym {x xs s us} : ts = x :: xs → v.HasObj x (.sym s) → List.Forall₂ (HasText v) xs us → Gives W (.sym (s ++ us.flatten)) v r w tr →
      JoinRun W ts v r w tr
  | symbol {x xs s y} : ts = x :: xs → StrOrChr v x s → y ∈ xs → (∀ t, ¬ StrOrChr v y t) → GivesError W v r w tr → JoinRun W ts v r w tr
  | wrong {x xs s y} : ts = x :: xs → v.HasObj x (.sym s) → y ∈ xs → (∀ t, ¬ HasText v y t) → GivesError W v r w tr → JoinRun W ts v r w tr

/-- the memory without the value `x` -/
def masked (v : Vm) (x : Ref) : Mem := fun z => if z = x then none else v.mem z

/-- what `+=` appends to the text `x` for the value `y`: the text of a text, the texts of the elements of a vector one after the
other, the printed form of another value -/
inductive AddsText (W : World) (v : Vm) (x : Ref) : Ref → Text → Prop
  | text {y t} : y ≠ x → HasText v y t → Clean t → AddsText W v x y t
  | vec {y es} {us : List Text} : v.HasVec y es → es.length = us.length →
      (∀ (i : Nat) e u, es[i]? = some e → us[i]? = some u → AddsText W v x e u) → AddsText W v x y us.flatten
  | other {y d t} : (∀ s, ¬ HasText v y s) → (∀ es, ¬ v.HasVec y es) → Denotes (masked v x) y d →
      Shows (fun d => W.fmt (.real d)) v.readably false d t → AddsText W v x y t

/-- the first value is a string or symbol, and the others can be appended -/
def PlusText (W : World) (ts : List Ref) (v : Vm) : Prop :=
  ∃ x ys s, ts = x :: ys ∧ (v.HasObj x (.str s) ∨ v.HasObj x (.sym s)) ∧ ∀ y ∈ ys, ∃ t, AddsText W v x y t

/-- what `+=` does with a string or symbol and more values -/
inductive PlusTextRun (W : World) (ts : List Ref) (v : Vm) (r : Ref) (w : Vm) (tr : List Event) : Prop
  | str {x ys s us} : ts = x :: ys → v.HasObj x (.str s) → List.Forall₂ (AddsText W v x) ys us → r = x →
      Becomes W (.str (s ++ us.flatten)) v x w tr → PlusTextRun W ts v r w tr
  | sym {x ys s us} : ts = x :: ys → v.HasObj x (.sym s) → List.Forall₂ (AddsText W v x) ys us → r = x →
      Becomes W (.sym (s ++ us.flatten)) v x w tr → PlusTextRun W ts v r w tr

/-- taking texts out of the string `x`, one after the other.  `x` itself stands for what is left at that time. -/
inductive Strips (v : Vm) (x : Ref) : Text → List Ref → Text → Prop
  | nil {s} : Strips v x s [] s
  | text {s y t r n ys s'} : y ≠ x → StrOrChr v y t → Stripped t s r n → Strips v x r ys s' → Strips v x s (y :: ys) s'
  | self {s ys s'} : Strips v x [] ys s' → Strips v x s (x :: ys) s'
  | empty {y t ys s'} : StrOrChr v y t → Strips v x [] ys s' → Strips v x [] (y :: ys) s'

/-- the first value is a string -/
def StringFirst (ts : List Ref) (v : Vm) : Prop := ∃ x ys s, ts = x :: ys ∧ v.HasObj x (.str s)

/-- what `-` and `-=` do with a string and more values; a value that is not a text is an error, but what was before it has been
taken out -/
inductive StripRun (W : World) (ts : List Ref) (v : Vm) (r : Ref) (w : Vm) (tr : List Event) : Prop
  | done {x ys s s'} : ts = x :: ys → v.HasObj x (.str s) → Strips v x s ys s' → r = x → Becomes W (.str s') v x w tr → StripRun W ts v r w tr
  | wrong {x ys y zs s s'} : ts = x :: (ys ++ y :: zs) → v.HasObj x (.str s) → Strips v x s ys s' → (∀ t, ¬ StrOrChr v y t) →
      ¬ v.Old W r → w.IsErr r → tr = [] → Vm.Quiet W (fun z => z = x) v w → w.HasObj x (.str s') → StripRun W ts v r w tr

/-- the values are a string and two others -/
def StringAt (ts : List Ref) (v : Vm) : Prop := ∃ x i y s, ts = [x, i, y] ∧ v.HasObj x (.str s)

/-- what `=` does with a string, a position and a character (which can have more than one code point); negative positions count
from the end -/
inductive OverwriteRun (W : World) (ts : List Ref) (v : Vm) (r : Ref) (w : Vm) (tr : List Event) : Prop
  | inside {x i y s n t k} : ts = [x, i, y] → v.HasObj x (.str s) → v.HasObj i (.int n) → v.HasObj y (.chr t) → position s.length n = some k → r = x →
      Becomes W (.str (s.take k ++ t ++ s.drop (k + t.length))) v x w tr → OverwriteRun W ts v r w tr
  | beyond {x i y s n t} : ts = [x, i, y] → v.HasObj x (.str s) → v.HasObj i (.int n) → v.HasObj y (.chr t) → (s.length : Int) ≤ n → r = x →
      Becomes W (.str (s ++ t)) v x w tr → OverwriteRun W ts v r w tr
  | before {x i y s n} : ts = [x, i, y] → v.HasObj x (.str s) → v.HasObj i (.int n) → n < -(s.length : Int) → GivesError W v r w tr → OverwriteRun W ts v r w tr
  | wrong {x i y} : ts = [x, i, y] → ¬ ((∃ n, v.HasObj i (.int n)) ∧ ∃ t, v.HasObj y (.chr t)) → GivesError W v r w tr → OverwriteRun W ts v r w tr

/-! ### joining -/

theorem wp_joined {n : Nat} {h : Handler} {r x : Ref} {s t : Text} {v : Vm} (hc : Clean t) {Q : Text → Vm → List Event → Prop}
    (hq : (t = [] ∨ r ≠ x) → Q (s ++ t) v []) : Wp W n h (Prog.joined r x s t) v Q := by
  unfold Prog.joined
  rw [getCString_eq t hc]
  split
  · rename_i e; cases e
  · rename_i e
    have : t = [] := by
      cases t with
      | nil => rfl
      | cons c cs =>
        have := recode_eq (c :: cs) hc
        simp only [recode, getCString_eq _ hc] at this
        cases e' : octetsOf (c :: cs) with
        | nil =>
          have e3 : stringNewVerified [] = some [] := by decide
          rw [e', Option.bind_eq_bind, Option.bind_some, e3] at this
          cases this
        | cons => rw [e'] at e; cases e
    subst this
    refine wp_pure ?_
    simpa using hq (.inl rfl)
  · split
    · exact wp_fail
    · rename_i hne
      rw [recode_eq t hc]
      exact wp_pure (hq (.inr hne))

/-- the new text `r` is being lengthened -/
structure Joining (W : World) (v : Vm) (xs : List Ref) (r : Ref) (o : Obj) (u : Vm) : Prop where
  step : Vm.Step W nobody nobody v u
  fresh : ¬ v.Old W r
  cell : u.HasObj r o
  same : ∀ y ∈ xs, u.mem y = v.mem y

theorem Joining.set {v u : Vm} {xs : List Ref} {r : Ref} {o : Obj} (g : Joining W v xs r o u) (hx : ∀ y ∈ xs, v.Old W y) {c : Cell} (hc : u.mem r = some c) {o' : Obj}
    (ho : ∀ P, PubObj P o') : Joining W v xs r o' { u with mem := u.mem.set r { c with obj := o' } } := by
  have p := g.step.closed.cells r c hc
  refine ⟨g.step.modify (.inr g.fresh) hc rfl rfl ⟨ho _, fun z hz => ⟨p.docstr z hz, id⟩, fun z hz => ⟨p.docvec z hz, id⟩⟩, g.fresh, ⟨_, Mem.set_self .., rfl⟩, ?_⟩
  intro y hy
  rw [← g.same y hy]
  exact Mem.set_other _ _ fun e => g.fresh (e ▸ hx y hy)

theorem ofText_pub {isSym : Bool} {s : Text} (P : Ref → Prop) : PubObj P (Prog.ofText isSym s) := by
  unfold Prog.ofText; split <;> exact trivial

theorem textOf_ofText {isSym : Bool} {s : Text} : Prog.textOf isSym (Prog.ofText isSym s) = some s := by
  unfold Prog.ofText Prog.textOf; cases isSym <;> rfl

/-- the texts that `+` takes -/
def joinsText (isSym : Bool) (v : Vm) (y : Ref) (t : Text) : Prop := StrOrChr v y t ∨ isSym = true ∧ v.HasObj y (.sym t)

theorem c52_join_aux {n : Nat} {h : Handler} {v : Vm} {r : Ref} {isSym : Bool} (xs : List Ref) : ∀ (u : Vm) (s : Text), Joining W v xs r (Prog.ofText isSym s) u →
    (∀ y ∈ xs, v.Old W y) → (∀ y ∈ xs, ∀ t, HasText v y t → Clean t) →
    Wp W n h (Prog.plusTexts isSym r xs) u fun a u tr => KeepsBuiltins v u ∧ ∀ q w, a = some q → Ends u w →
      (∃ us, List.Forall₂ (joinsText isSym v) xs us ∧ Gives W (Prog.ofText isSym (s ++ us.flatten)) v q w tr) ∨
      ∃ y ∈ xs, (∀ t, ¬ joinsText isSym v y t) ∧ GivesError W v q w tr := by
  induction xs with
  | nil =>
    intro u s g _ _
    unfold Prog.plusTexts
    refine wp_bind (wp_pop fun st _ => wp_pure ⟨keeps_mem g.step.quiet rfl, ?_⟩)
    rintro q w ⟨⟩ e
    have e' : Ends u w := (Ends.pop (s := st)).trans e
    refine .inl ⟨[], .nil, rfl, g.step.quiet.trans g.step.sane0 e'.quiet, g.fresh, ?_⟩
    simpa using e'.hasObj g.cell (by unfold Prog.ofText; split <;> simp)
  | cons x xs ih =>
    intro u s g hold hclean
    have good : ∀ t, HasText v x t → joinsText isSym v x t → Wp W n h (do
        let u ← Prog.read r
        match Prog.textOf isSym u.obj with
        | some s => do
          let u ← Prog.joined r x s t
          Prog.setObj r (Prog.ofText isSym u)
          Prog.plusTexts isSym r xs
        | none => Prog.fail .ub) u fun a u tr => KeepsBuiltins v u ∧ ∀ q w, a = some q → Ends u w →
      (∃ us, List.Forall₂ (joinsText isSym v) (x :: xs) us ∧ Gives W (Prog.ofText isSym (s ++ us.flatten)) v q w tr) ∨
      ∃ y ∈ x :: xs, (∀ t, ¬ joinsText isSym v y t) ∧ GivesError W v q w tr := by
      intro t ht hj
      refine wp_bind (wp_read fun c hc => ?_)
      obtain ⟨c', hc', ho'⟩ := g.cell
      obtain rfl := same_cell hc' hc
      rw [ho', textOf_ofText]
      refine wp_bind (wp_joined (hclean x (by simp) t ht) fun _ => wp_bind (wp_setObj fun c hc => ?_))
      have g' := (g.set hold hc (o' := Prog.ofText isSym (s ++ t)) (fun P => ofText_pub P))
      refine Wp.mono (ih _ (s ++ t) ⟨g'.step, g'.fresh, g'.cell, fun y hy => g'.same y (by simp [hy])⟩ (fun y hy => hold y (by simp [hy]))
        fun y hy => hclean y (by simp [hy])) ?_
      rintro a u tr ⟨h1, h2⟩
      refine ⟨h1, fun q w ha e => ?_⟩
      rcases h2 q w ha e with ⟨us, h3, h4⟩ | ⟨y, hy, h3, h4⟩
      · exact .inl ⟨t :: us, .cons hj h3, by simpa using h4⟩
      · exact .inr ⟨y, by simp [hy], h3, by simpa using h4⟩
    have bad : (∀ t, ¬ joinsText isSym v x t) → ∀ m, Wp W n h (do Prog.pop r; Prog.error m) u fun a u tr => KeepsBuiltins v u ∧ ∀ q w, a = some q → Ends u w →
      (∃ us, List.Forall₂ (joinsText isSym v) (x :: xs) us ∧ Gives W (Prog.ofText isSym (s ++ us.flatten)) v q w tr) ∨
      ∃ y ∈ x :: xs, (∀ t, ¬ joinsText isSym v y t) ∧ GivesError W v q w tr := by
      intro hn m
      refine wp_bind (wp_pop fun st hst => ?_)
      have g' : Vm.Step W nobody nobody v { u with stack := st } := g.step.pop (r := r) hst
      refine wps_errorStack g' fun q w gw hst hm fr => ⟨keeps_of_quiet gw.quiet, ?_⟩
      rintro q' w' ⟨⟩ e
      exact .inr ⟨x, by simp, hn, rfl, gw.quiet.trans gw.sane0 e.quiet, fr, e.isErr hm⟩
    unfold Prog.plusTexts
    refine wp_bind (wp_read fun c hc => ?_)
    have hc' : v.mem x = some c := by rw [← g.same x (by simp)]; exact hc
    simp only [List.nil_append]
    split
    · rename_i t ho; exact good t (.str ⟨c, hc', ho⟩) (.inl (.inl ⟨c, hc', ho⟩))
    · rename_i t ho; exact good t (.chr ⟨c, hc', ho⟩) (.inl (.inr ⟨c, hc', ho⟩))
    · rename_i t ho
      split
      · rename_i hs; exact good t (.sym ⟨c, hc', ho⟩) (.inr ⟨hs, ⟨c, hc', ho⟩⟩)
      · rename_i hs
        refine bad ?_ _
        rintro t' ((⟨c1, h1, h2⟩ | ⟨c1, h1, h2⟩) | ⟨h, _⟩)
        · cases same_cell hc' h1; rw [ho] at h2; cases h2
        · cases same_cell hc' h1; rw [ho] at h2; cases h2
        · exact hs h
    · rename_i h1 h2 h3
      refine bad ?_ _
      rintro t' ((⟨c1, g1, g2⟩ | ⟨c1, g1, g2⟩) | ⟨_, ⟨c1, g1, g2⟩⟩)
      · cases same_cell hc' g1; exact h1 _ g2
      · cases same_cell hc' g1; exact h2 _ g2
      · cases same_cell hc' g1; exact h3 _ g2


theorem c52_joinRun_aux {n : Nat} {h : Handler} {args env : Ref} {ts : List Ref} {v : Vm} (k : Held W args ts env v) (top : args ∈ v.stack) (hp : JoinsTexts ts v) :
    Wp W n h (Prog.biPlus args env) v fun a u tr => KeepsBuiltins v u ∧ ∀ r w, a = some r → Ends u w → JoinRun W ts v r w tr := by
  obtain ⟨⟨x, xs, s, rfl, hx⟩, hclean⟩ := hp
  have hs := hclean x (by simp) s hx
  have old : ∀ y ∈ xs, v.Old W y := fun y hy => (k.pub y (by simp [hy])).1
  have main : ∀ isSym, v.HasVec args (x :: xs) → Wp W n h (Prog.plusTextual isSym s xs) v fun a u tr => KeepsBuiltins v u ∧ ∀ q w, a = some q → Ends u w →
      (∃ us, List.Forall₂ (joinsText isSym v) xs us ∧ Gives W (Prog.ofText isSym (s ++ us.flatten)) v q w tr) ∨
      ∃ y ∈ xs, (∀ t, ¬ joinsText isSym v y t) ∧ GivesError W v q w tr := by
    intro isSym hv
    unfold Prog.plusTextual
    rw [recode_eq s hs]
    refine wp_bind (wp_alloc k.sane fun r w a => wp_bind (wp_push ?_))
    have g : Vm.Step W nobody nobody v w := Vm.Step.alloc (.refl k.sane k.closed.all) a (ofText_pub _)
    refine Wp.mono (c52_join_aux xs { w with stack := r :: w.stack } s ⟨g.push a.old, a.fresh, ⟨_, a.cell, rfl⟩, ?_⟩ old
      fun y hy => hclean y (by simp [hy])) fun a u tr h => by simpa using h
    intro y hy
    obtain ⟨c, hc, ho⟩ := hv
    exact a.kept y (.step (.root top) ⟨c, hc, by simpa [Cell.edges, ho, Obj.children] using .inr (.inr hy)⟩) fun e => a.fresh (e ▸ old y hy)
  unfold Prog.biPlus
  refine first_aux k fun hv => ?_
  refine wp_bind (wp_read fun c hc => ?_)
  simp only [List.nil_append]
  have str : StrOrChr v x s → Wp W n h (Prog.plusTextual false s xs) v fun a u tr => KeepsBuiltins v u ∧ ∀ r w, a = some r → Ends u w → JoinRun W (x :: xs) v r w tr := by
    intro hx
    refine Wp.mono (main false hv) ?_
    rintro a u tr ⟨h1, h2⟩
    refine ⟨h1, fun q w ha e => ?_⟩
    rcases h2 q w ha e with ⟨us, h3, h4⟩ | ⟨y, hy, h3, h4⟩
    · exact .str rfl hx (forall₂_imp h3 fun a b _ h => h.resolve_right (by simp)) h4
    · exact .symbol rfl hx hy (fun t ht => h3 t (.inl ht)) h4
  cases hx with
  | str h1 =>
    obtain ⟨c', hc', ho⟩ := id h1
    obtain rfl := same_cell hc' hc
    rw [ho]
    exact str (.inl h1)
  | chr h1 =>
    obtain ⟨c', hc', ho⟩ := id h1
    obtain rfl := same_cell hc' hc
    rw [ho]
    exact str (.inr h1)
  | sym h1 =>
    obtain ⟨c', hc', ho⟩ := id h1
    obtain rfl := same_cell hc' hc
    rw [ho]
    refine Wp.mono (main true hv) ?_
    rintro a u tr ⟨h1', h2⟩
    refine ⟨h1', fun q w ha e => ?_⟩
    rcases h2 q w ha e with ⟨us, h3, h4⟩ | ⟨y, hy, h3, h4⟩
    · refine .sym rfl h1 (forall₂_imp h3 ?_) h4
      rintro a b _ ((h | h) | ⟨_, h⟩)
      · exact .str h
      · exact .chr h
      · exact .sym h
    · refine .wrong rfl h1 hy (fun t ht => h3 t ?_) h4
      cases ht with
      | str h => exact .inl (.inl h)
      | chr h => exact .inl (.inr h)
      | sym h => exact .inr ⟨rfl, h⟩

/-! ### lengthening -/

theorem masked_denotes {v u : Vm} {x y : Ref} {d : Dern.Spec.Data} (hm : ∀ z, z ≠ x → u.mem z = v.mem z) (h : Denotes (masked v x) y d) : Denotes u.mem y d := by
  have key : ∀ z c, masked v x z = some c → u.mem z = some c := by
    intro z c hz
    unfold masked at hz
    split at hz
    · cases hz
    · rename_i hne; rw [hm z hne]; exact hz
  induction h with
  | atom h1 h2 => exact .atom (key _ _ h1) h2
  | vec h1 h2 h3 _ ih => exact .vec (key _ _ h1) h2 h3 ih
  | queue h1 h2 h3 _ ih => exact .queue (key _ _ h1) h2 h3 ih
  | list h1 h2 h3 _ ih => exact .list (key _ _ h1) h2 h3 ih
  | hmap h1 h2 h3 _ _ ih1 ih2 => exact .hmap (key _ _ h1) h2 h3 ih1 ih2

theorem c52_each_aux {n : Nat} {v : Vm} {x : Ref} {isSym : Bool} {f : Ref → Prog Unit} : ∀ (es : List Ref) (us : List Text), es.length = us.length →
    (∀ (i : Nat) e t, es[i]? = some e → us[i]? = some t → ∀ u s, Changing W x v u (Prog.ofText isSym s) →
      Wp W n (handle W L n) (f e) u fun _ w tr => tr = [] ∧ Changing W x v w (Prog.ofText isSym (s ++ t))) →
    ∀ u s, Changing W x v u (Prog.ofText isSym s) →
      Wp W n (handle W L n) (Prog.each f es) u fun _ w tr => tr = [] ∧ Changing W x v w (Prog.ofText isSym (s ++ us.flatten)) := by
  intro es
  induction es with
  | nil =>
    intro us hl _ u s g
    cases us with
    | nil => exact wp_pure ⟨rfl, by simpa using g⟩
    | cons => cases hl
  | cons e es ih =>
    intro us hl hf u s g
    cases us with
    | nil => cases hl
    | cons t us =>
      show Wp W n (handle W L n) (f e >>= fun _ => Prog.each f es) u _
      refine wp_bind (Wp.mono (hf 0 e t rfl rfl u s g) ?_)
      rintro _ w tr ⟨rfl, g'⟩
      refine Wp.mono (ih us (by simpa using hl) (fun i e t h1 h2 => hf (i + 1) e t h1 h2) w (s ++ t) g') ?_
      rintro _ w tr ⟨rfl, g''⟩
      exact ⟨rfl, by simpa using g''⟩

theorem c52_push_aux {v : Vm} {x y : Ref} {t : Text} {isSym : Bool} (hx : ∀ es, ¬ v.HasVec x es) (h : AddsText W v x y t) : ∀ n u s, Changing W x v u (Prog.ofText isSym s) →
    Wp W n (handle W L n) (Prog.pushText isSym x y) u fun _ w tr => tr = [] ∧ Changing W x v w (Prog.ofText isSym (s ++ t)) := by
  have set : ∀ n u s t, Changing W x v u (Prog.ofText isSym s) → Wp W n (handle W L n) (Prog.setObj x (Prog.ofText isSym (s ++ t))) u fun _ w tr =>
      tr = [] ∧ Changing W x v w (Prog.ofText isSym (s ++ t)) :=
    fun n u s t g => wp_setObj fun c hc => ⟨rfl, g.set hc (ofText_pub _)⟩
  induction h with
  | @text y t hne ht hc =>
    intro n u s g
    unfold Prog.pushText
    refine wp_bind (wp_read fun c hcx => ?_)
    obtain ⟨c', hc', ho'⟩ := g.cell
    obtain rfl := same_cell hc' hcx
    rw [ho', textOf_ofText]
    refine wp_bind (wp_read fun d hd => ?_)
    have hd' : v.mem y = some d := by rw [← g.other y hne]; exact hd
    have fin : Wp W n (handle W L n) (do
        let u ← Prog.joined x y s t
        Prog.setObj x (Prog.ofText isSym u)
        pure (none : Option Ref)) u fun _ w tr => tr = [] ∧ Changing W x v w (Prog.ofText isSym (s ++ t)) :=
      wp_bind (wp_joined hc fun _ => wp_bind (Wp.mono (set n u s t g) fun _ w tr h => wp_pure (by simpa using h)))
    simp only [List.nil_append]
    rcases ht with ⟨c2, h1, h2⟩ | ⟨c2, h1, h2⟩ | ⟨c2, h1, h2⟩ <;> (obtain rfl := same_cell h1 hd'; rw [h2]; exact fin)
  | @vec y es us hv hl _ ih =>
    intro n u s g
    unfold Prog.pushText
    refine wp_bind (wp_read fun c hcx => ?_)
    obtain ⟨c', hc', ho'⟩ := g.cell
    obtain rfl := same_cell hc' hcx
    rw [ho', textOf_ofText]
    have hne : y ≠ x := by
      rintro rfl
      exact hx _ hv
    refine wp_bind (wp_read fun d hd => ?_)
    have hd' : v.mem y = some d := by rw [← g.other y hne]; exact hd
    obtain ⟨c2, h1, h2⟩ := hv
    obtain rfl := same_cell h1 hd'
    simp only [h2, List.nil_append]
    refine wp_bind (Wp.mono (c52_each_aux es us hl ?_ u s g) ?_)
    · intro i e t he ht u s g
      refine wp_bind (wp_call fun a w tr e' => ?_)
      cases n with
      | zero => cases e'
      | succ n =>
        have H := ih i e t he ht n u s g
        obtain ⟨rfl, g'⟩ := H a w tr (handle_succ (by simp) e')
        exact wp_pure ⟨rfl, g'⟩
    · rintro _ w tr ⟨rfl, g'⟩
      exact wp_pure ⟨rfl, g'⟩
  | @other y d t h1 h2 hd hs =>
    intro n u s g
    unfold Prog.pushText
    refine wp_bind (wp_read fun c hcx => ?_)
    obtain ⟨c', hc', ho'⟩ := g.cell
    obtain rfl := same_cell hc' hcx
    rw [ho', textOf_ofText]
    obtain ⟨d', hd', _⟩ := hd.cell
    have hne : y ≠ x := by rintro rfl; simp [masked] at hd'
    have hdv : v.mem y = some d' := by unfold masked at hd'; rw [if_neg hne] at hd'; exact hd'
    refine wp_bind (wp_read fun e he => ?_)
    obtain rfl := same_cell hdv (by rw [← g.other y hne]; exact he)
    have fin : Wp W n (handle W L n) (do
        let t ← Prog.print false y
        match recode t with
        | none => Prog.fail .abort
        | some u => Prog.setObj x (Prog.ofText isSym (s ++ u))
        pure (none : Option Ref)) u fun _ w tr => tr = [] ∧ Changing W x v w (Prog.ofText isSym (s ++ t)) := by
      refine wp_bind (wp_print fun t' ht' => ?_)
      have : t' = t := print_shows (masked_denotes g.other hd) (by rw [g.step.quiet.readably]; exact hs) ht'
      subst this
      rw [recode_eq t' (shows_clean hs)]
      exact wp_bind (Wp.mono (set n u s t' g) fun _ w tr h => wp_pure (by simpa using h))
    simp only [List.nil_append]
    cases ho : d'.obj <;> simp only [] <;> first
      | exact fin
      | exact absurd (.str ⟨d', hdv, ho⟩) (h1 _)
      | exact absurd (.sym ⟨d', hdv, ho⟩) (h1 _)
      | exact absurd (.chr ⟨d', hdv, ho⟩) (h1 _)
      | exact absurd ⟨d', hdv, ho⟩ (h2 _)

theorem c52_noVec_aux {v : Vm} {x : Ref} {isSym : Bool} {s : Text} (hx : v.HasObj x (Prog.ofText isSym s)) (es : List Ref) : ¬ v.HasVec x es := by
  intro hv
  obtain ⟨c2, h1, h2⟩ := hv
  obtain ⟨c3, h3, h4⟩ := hx
  cases same_cell h1 h3
  rw [h2] at h4
  unfold Prog.ofText at h4
  split at h4 <;> cases h4

theorem c52_plusRun_aux {n : Nat} {args env : Ref} {ts : List Ref} {v : Vm} (k : Held W args ts env v) (hp : PlusText W ts v) :
    Wp W n (handle W L n) (Prog.biPlusEq L args env) v fun a u tr => KeepsBuiltins v u ∧ ∀ r w, a = some r → Ends u w → PlusTextRun W ts v r w tr := by
  obtain ⟨x, ys, s, rfl, hx, hy⟩ := hp
  obtain ⟨us, hus⟩ : ∃ us, List.Forall₂ (AddsText W v x) ys us := by
    clear k hx
    induction ys with
    | nil => exact ⟨[], .nil⟩
    | cons y ys ih =>
      obtain ⟨us, h⟩ := ih fun y h => hy y (by simp [h])
      obtain ⟨t, ht⟩ := hy y (by simp)
      exact ⟨t :: us, .cons ht h⟩
  have main : ∀ isSym, v.HasObj x (Prog.ofText isSym s) → Wp W n (handle W L n) (do
      Prog.each (fun y => do let _ ← Prog.pushText isSym x y) ys
      pure (some x)) v fun a u tr => KeepsBuiltins v u ∧ ∀ r w, a = some r → Ends u w → r = x ∧ Becomes W (Prog.ofText isSym (s ++ us.flatten)) v x w tr := by
    intro isSym hx
    refine wp_bind (Wp.mono (c52_each_aux ys us hus.length_eq ?_ v s (.start k.sane k.closed.all hx)) ?_)
    · intro i e t he ht u s g
      have H : AddsText W v x e t := by
        obtain ⟨hi, rfl⟩ := List.getElem?_eq_some_iff.mp he
        obtain ⟨hi', rfl⟩ := List.getElem?_eq_some_iff.mp ht
        exact (List.forall₂_iff_get.mp hus).2 i hi hi'
      refine wp_bind (Wp.mono (c52_push_aux (c52_noVec_aux hx) H n u s g) ?_)
      rintro _ w tr ⟨rfl, g'⟩
      exact wp_pure ⟨rfl, g'⟩
    · rintro _ u tr ⟨rfl, g⟩
      refine wp_pure ⟨g.keeps (by unfold Prog.ofText; split <;> simp), ?_⟩
      rintro r w ⟨⟩ e
      exact ⟨rfl, g.finish (by unfold Prog.ofText; split <;> simp) e⟩
  unfold Prog.biPlusEq
  refine c34_first_aux k ?_
  refine wp_bind (wp_read fun c hc => ?_)
  simp only [List.nil_append]
  rcases hx with h1 | h1
  · obtain ⟨c', hc', ho⟩ := id h1
    obtain rfl := same_cell hc' hc
    rw [ho]
    refine Wp.mono (main false h1) ?_
    rintro a u tr ⟨h2, h3⟩
    exact ⟨h2, fun r w ha e => .str rfl h1 hus (h3 r w ha e).1 (h3 r w ha e).2⟩
  · obtain ⟨c', hc', ho⟩ := id h1
    obtain rfl := same_cell hc' hc
    rw [ho]
    refine Wp.mono (main true h1) ?_
    rintro a u tr ⟨h2, h3⟩
    exact ⟨h2, fun r w ha e => .sym rfl h1 hus (h3 r w ha e).1 (h3 r w ha e).2⟩

/-! ### stripping -/

theorem Strips.snoc {v : Vm} {x : Ref} {s s' r : Text} {ys : List Ref} {y : Ref} (h : Strips v x s ys s') (h' : Strips v x s' [y] r) : Strips v x s (ys ++ [y]) r := by
  induction h with
  | nil => exact h'
  | text h1 h2 h3 _ ih => exact .text h1 h2 h3 (ih h')
  | self _ ih => exact .self (ih h')
  | empty h1 _ ih => exact .empty h1 (ih h')

theorem wp_stripText {n : Nat} {h : Handler} {v u : Vm} {x y : Ref} {s s0 : Text} (hx : v.HasObj x (.str s0)) (g : Changing W x v u (.str s)) {Q : Bool → Vm → List Event → Prop}
    (hyes : ∀ w r, Changing W x v w (.str r) → Strips v x s [y] r → Q true w []) (hno : (∀ t, ¬ StrOrChr v y t) → Q false u []) :
    Wp W n h (Prog.stripText x y) u Q := by
  unfold Prog.stripText
  refine wp_bind (wp_read fun c hc => ?_)
  obtain ⟨c', hc', ho'⟩ := g.cell
  obtain rfl := same_cell hc' hc
  rw [ho']
  refine wp_bind (wp_read fun d hd => ?_)
  by_cases hxy : y = x
  · subst hxy
    obtain rfl := same_cell hc' hd
    simp only [ho', List.nil_append]
    split
    · rename_i r hr
      have : r.1 = [] := by
        cases s with
        | nil => simp [removeAll] at hr; rw [← hr]
        | cons a b =>
          obtain ⟨r', m, h1, h2, _⟩ := c44_removeAll_aux (a :: b) (by simp) ((a :: b).length + 1) (a :: b) 0 (by omega)
          rw [h1] at hr; cases hr
          cases h2 with
          | done h => exact absurd ⟨0, [], [], by simp, rfl⟩ h
          | more h2 h3 =>
            have h0 := h2.2 0 ⟨[], [], by simp, rfl⟩
            have e1 := List.length_eq_zero_iff.mp (Nat.le_zero.mp h0)
            have e2 := h2.1
            subst e1
            simp at e2
            subst e2
            cases h3 with
            | done => rfl
            | more h4 _ =>
              have := congrArg List.length h4.1
              simp at this
      refine wp_bind (wp_setObj fun c hc => wp_pure ?_)
      rw [this]
      exact hyes _ [] (g.set hc trivial) (.self .nil)
    · exact wp_fail
  · have hd' : v.mem y = some d := by rw [← g.other y hxy]; exact hd
    have good : ∀ t, StrOrChr v y t → Wp W n h (match removeAll (s.length + 1) s t 0 with
      | some r => do
        Prog.setObj x (.str r.1)
        pure true
      | none => Prog.fail .fuel) u fun b u t' => Q b u ([] ++ ([] ++ t')) := by
      intro t ht
      split
      · rename_i r hr
        refine wp_bind (wp_setObj fun c hc => wp_pure ?_)
        refine hyes _ r.1 (g.set hc trivial) ?_
        by_cases h0 : t = []
        · subst h0
          by_cases hs : s = []
          · subst hs
            simp [removeAll] at hr
            rw [← hr]
            exact .empty ht .nil
          · rw [c44_remove_empty_hangs s hs] at hr; cases hr
        · obtain ⟨r', m, h1, h2, _⟩ := c44_removeAll_aux t h0 (s.length + 1) s 0 (by omega)
          rw [h1] at hr; cases hr
          exact .text hxy ht h2 .nil
      · exact wp_fail
    split
    · rename_i t ho; exact good t (.inl ⟨d, hd', ho⟩)
    · rename_i t ho; exact good t (.inr ⟨d, hd', ho⟩)
    · rename_i h1 h2
      refine wp_pure (hno ?_)
      rintro t (⟨c2, h3, h4⟩ | ⟨c2, h3, h4⟩)
      · obtain rfl := same_cell h3 hd'; exact h1 _ h4
      · obtain rfl := same_cell h3 hd'; exact h2 _ h4

/-- the end of the stripping: all texts have been taken out, or an error -/
inductive StripEnd (W : World) (v : Vm) (x : Ref) (s : Text) (ys : List Ref) (ok a : Option Ref) (w : Vm) : Prop
  | done {s'} : a = ok → Strips v x s ys s' → Changing W x v w (.str s') → StripEnd W v x s ys ok a w
  | wrong {xs y zs s' r} : ys = xs ++ y :: zs → Strips v x s xs s' → (∀ t, ¬ StrOrChr v y t) → a = some r → ¬ v.Old W r → w.IsErr r →
      Vm.Step W nobody (fun z => z = x) v w → w.HasObj x (.str s') → StripEnd W v x s ys ok a w

theorem StripEnd.cons {v w : Vm} {x y : Ref} {s s1 : Text} {ys : List Ref} {ok a : Option Ref} (h : Strips v x s [y] s1) (e : StripEnd W v x s1 ys ok a w) :
    StripEnd W v x s (y :: ys) ok a w := by
  have key : ∀ {xs s'}, Strips v x s1 xs s' → Strips v x s (y :: xs) s' := by
    intro xs s' h'
    cases h with
    | text h1 h2 h3 h4 => cases h4; exact .text h1 h2 h3 h'
    | self h1 => cases h1; exact .self h'
    | empty h1 h2 => cases h2; exact .empty h1 h'
  cases e with
  | done h0 h1 h2 => exact .done h0 (key h1) h2
  | wrong h1 h2 h3 h4 h5 h6 h7 h8 => exact .wrong (by rw [h1]; rfl) (key h2) h3 h4 h5 h6 h7 h8

theorem c52_bad_aux {n : Nat} {h : Handler} {v u : Vm} {args x : Ref} {ts : List Ref} {s s0 : Text} (hx : v.HasObj x (.str s0)) (hv : v.HasVec args ts) (top : args ∈ v.stack)
    (hxt : x ∈ ts) (g : Changing W x v u (.str s)) {m : String} {Q : Option Ref → Vm → List Event → Prop}
    (hq : ∀ r w, ¬ v.Old W r → w.IsErr r → Vm.Step W nobody (fun z => z = x) v w → w.HasObj x (.str s) → Q (some r) w []) : Wp W n h (Prog.error m) u Q := by
  refine wps_errorKept g.step fun r w gw hkept he hfr => hq r w hfr he gw ?_
  obtain ⟨c, hc, ho⟩ := hv
  obtain ⟨c1, hc1, ho1⟩ := hx
  have hne : args ≠ x := by rintro rfl; cases same_cell hc hc1; rw [ho] at ho1; cases ho1
  have ka : u.Kept args := .root (by rw [g.stack]; exact top)
  have kx : u.Kept x := ka.step ⟨c, by rw [g.other _ hne]; exact hc, by simpa [Cell.edges, ho, Obj.children] using .inr hxt⟩
  obtain ⟨c2, hc2, ho2⟩ := g.cell
  exact ⟨c2, by rw [hkept x (g.step.sane0.old _ _ hc1) kx]; exact hc2, ho2⟩

theorem c52_minusLoop_aux {n : Nat} {h : Handler} {v : Vm} {args x : Ref} {ts : List Ref} {s0 : Text} (hx : v.HasObj x (.str s0)) (hv : v.HasVec args ts) (top : args ∈ v.stack)
    (hxt : x ∈ ts) (ys : List Ref) : ∀ (u : Vm) (s : Text), Changing W x v u (.str s) →
    Wp W n h (Prog.minusTextual x ys) u fun a w t => t = [] ∧ StripEnd W v x s ys (some x) a w := by
  induction ys with
  | nil => intro u s g; exact wp_pure ⟨rfl, .done rfl .nil g⟩
  | cons y ys ih =>
    intro u s g
    show Wp W n h (Prog.stripText x y >>= fun b => if b then Prog.minusTextual x ys else Prog.error _) u _
    refine wp_bind (wp_stripText hx g ?_ ?_)
    · intro w r g' hs
      rw [if_pos rfl]
      refine Wp.mono (ih w r g') ?_
      rintro a w t ⟨rfl, h1⟩
      exact ⟨rfl, h1.cons hs⟩
    · intro hno
      rw [if_neg (by simp)]
      exact c52_bad_aux hx hv top hxt g fun r w h1 h2 h3 h4 => ⟨rfl, .wrong (xs := []) rfl .nil hno rfl h1 h2 h3 h4⟩

theorem c52_minusEqLoop_aux {n : Nat} {h : Handler} {v : Vm} {args x : Ref} {ts : List Ref} {s0 : Text} (hx : v.HasObj x (.str s0)) (hv : v.HasVec args ts) (top : args ∈ v.stack)
    (hxt : x ∈ ts) (ys : List Ref) : ∀ (u : Vm) (s : Text), Changing W x v u (.str s) →
    Wp W n h (Prog.eachUntil (fun y => Prog.orFail (Prog.stripText x y)) ys) u fun a w t => t = [] ∧ StripEnd W v x s ys none a w := by
  induction ys with
  | nil => intro u s g; exact wp_pure ⟨rfl, .done rfl .nil g⟩
  | cons y ys ih =>
    intro u s g
    show Wp W n h (Prog.orFail (Prog.stripText x y) >>= fun a => match a with
      | some e => pure (some e)
      | none => Prog.eachUntil (fun y => Prog.orFail (Prog.stripText x y)) ys) u _
    unfold Prog.orFail
    simp only [bind_assoc]
    refine wp_bind (wp_stripText hx g ?_ ?_)
    · intro w r g' hs
      simp only [if_true]
      refine wp_bind (wp_pure (Wp.mono (ih w r g') ?_))
      rintro a w t ⟨rfl, h1⟩
      exact ⟨rfl, h1.cons hs⟩
    · intro hno
      simp only [if_false, Bool.false_eq_true]
      exact wp_bind (c52_bad_aux hx hv top hxt g fun r w h1 h2 h3 h4 => wp_pure ⟨rfl, .wrong (xs := []) rfl .nil hno rfl h1 h2 h3 h4⟩)

theorem StripEnd.run {v u : Vm} {x : Ref} {s : Text} {ys : List Ref} {a : Option Ref} (hx : v.HasObj x (.str s)) (h : StripEnd W v x s ys (some x) a u) :
    KeepsBuiltins v u ∧ ∀ r w, a = some r → Ends u w → StripRun W (x :: ys) v r w [] := by
  cases h with
  | done h0 h1 h2 =>
    subst h0
    refine ⟨h2.keeps (by simp), ?_⟩
    rintro r w ⟨⟩ e
    exact .done rfl hx h1 rfl (h2.finish (by simp) e)
  | wrong h1 h2 h3 h4 h5 h6 h7 h8 =>
    subst h4
    refine ⟨?_, ?_⟩
    · obtain ⟨c0, hc0, ho0⟩ := hx
      intro op b b' ⟨c1, hc1, ho1⟩ ⟨c2, hc2, ho2⟩
      have hne : op ≠ x := by rintro rfl; cases same_cell hc0 hc1; rw [ho0] at ho1; cases ho1
      rcases h7.quiet.cells op c1 hne hc1 with e | e | ⟨_, _, _, e, _⟩
      · rw [hc2] at e; cases e; rw [ho1] at ho2; cases ho2; rfl
      · rw [hc2] at e; cases e
      · rw [ho1] at e; cases e
    · rintro r w ⟨⟩ e
      exact .wrong (by rw [h1]) hx h2 h3 h5 (e.isErr h6) rfl (h7.quiet.trans h7.sane0 e.quiet) (e.hasObj h8 (by simp))

theorem c52_minusRun_aux {n : Nat} {h : Handler} {args env : Ref} {ts : List Ref} {v : Vm} (k : Held W args ts env v) (top : args ∈ v.stack) (hp : StringFirst ts v) :
    Wp W n h (Prog.biMinus args env) v fun a u tr => KeepsBuiltins v u ∧ ∀ r w, a = some r → Ends u w → StripRun W ts v r w tr := by
  obtain ⟨x, ys, s, rfl, hx⟩ := hp
  unfold Prog.biMinus
  refine first_aux k fun hv => ?_
  refine wp_bind (wp_read fun c hc => ?_)
  obtain ⟨c0, hc0, ho0⟩ := id hx
  obtain rfl := same_cell hc0 hc
  simp only [ho0, List.nil_append]
  refine Wp.mono (c52_minusLoop_aux hx hv top (by simp) ys v s (.start k.sane k.closed.all hx)) ?_
  rintro a u t ⟨rfl, he⟩
  exact he.run hx

theorem c52_minusEqRun_aux {n : Nat} {h : Handler} {args env : Ref} {ts : List Ref} {v : Vm} (k : Held W args ts env v) (top : args ∈ v.stack) (hp : StringFirst ts v) :
    Wp W n h (Prog.biMinusEq args env) v fun a u tr => KeepsBuiltins v u ∧ ∀ r w, a = some r → Ends u w → StripRun W ts v r w tr := by
  obtain ⟨x, ys, s, rfl, hx⟩ := hp
  unfold Prog.biMinusEq
  refine first_aux k fun hv => ?_
  refine wp_bind (wp_read fun c hc => ?_)
  obtain ⟨c0, hc0, ho0⟩ := id hx
  obtain rfl := same_cell hc0 hc
  simp only [ho0, List.nil_append]
  refine wp_bind (Wp.mono (c52_minusEqLoop_aux hx hv top (by simp) ys v s (.start k.sane k.closed.all hx)) ?_)
  rintro a u t ⟨rfl, he⟩
  have he' : StripEnd W v x s ys (some x) (a.or (some x)) u := by
    cases he with
    | done h0 h1 h2 => subst h0; exact .done rfl h1 h2
    | wrong h1 h2 h3 h4 h5 h6 h7 h8 => subst h4; exact .wrong h1 h2 h3 rfl h5 h6 h7 h8
  unfold Prog.unlessError
  cases a <;> exact wp_pure (he'.run hx)

/-! ### overwriting -/

theorem c52_after_aux : ∀ (t s : Text) (k : Nat), s.length ≤ k → Prog.overwriteFrom s k t = s ++ t
  | [], s, k, _ => by simp [Prog.overwriteFrom]
  | c :: t, s, k, h => by
    unfold Prog.overwriteFrom
    rw [if_neg (by omega), c52_after_aux t (s ++ [c]) (k + 1) (by simp; omega)]
    simp

theorem c52_inside_aux : ∀ (t s : Text) (k : Nat), k ≤ s.length → Prog.overwriteFrom s k t = s.take k ++ t ++ s.drop (k + t.length)
  | [], s, k, h => by simp [Prog.overwriteFrom]
  | c :: t, s, k, h => by
    by_cases hk : k < s.length
    · unfold Prog.overwriteFrom
      rw [if_pos hk, c52_inside_aux t (s.set k c) (k + 1) (by simp; omega)]
      have e1 : (s.set k c).take (k + 1) = s.take k ++ [c] := by
        rw [List.take_succ, List.take_set_of_le (by omega)]
        simp [List.getElem?_set, hk]
      have e2 : (s.set k c).drop (k + 1 + t.length) = s.drop (k + (c :: t).length) := by
        rw [List.drop_set_of_lt (by omega)]
        congr 1
        simp; omega
      rw [e1, e2]
      simp
    · have : k = s.length := by omega
      subst this
      rw [c52_after_aux _ _ _ (Nat.le_refl _)]
      simp

theorem c52_setRun_aux {n : Nat} {h : Handler} {args env : Ref} {ts : List Ref} {v : Vm} (k : Held W args ts env v) (hp : StringAt ts v) :
    Wp W n h (Prog.biAssign args env) v fun a u tr => KeepsBuiltins v u ∧ ∀ r w, a = some r → Ends u w → OverwriteRun W ts v r w tr := by
  obtain ⟨x, i, y, s, rfl, hx⟩ := hp
  unfold Prog.biAssign
  refine c34_first_aux k ?_
  refine wp_bind (wp_push ?_)
  obtain ⟨c0, hc0, ho0⟩ := id hx
  have err : ∀ Q : Ref → Vm → List Event → Prop, (∀ r w, GivesError W v r w [] → Q r w []) → Wp W n h (do
      Prog.pop args
      if false = true then pure (some x) else Prog.error "Builtin '=' failed") { v with stack := args :: v.stack } fun a u tr =>
        KeepsBuiltins v u ∧ ∀ r w, a = some r → Ends u w → Q r w tr := by
    intro Q hQ
    refine wp_bind (wp_pop fun st hst => ?_)
    cases hst
    simp only [if_false, Bool.false_eq_true]
    refine Wp.mono (c34_error_aux k _) ?_
    rintro a u t ⟨h1, h2⟩
    refine ⟨h1, fun r w ha e => ?_⟩
    have := h2 r w ha e
    obtain rfl := this.1
    exact hQ r w this
  simp only [List.nil_append]
  unfold Prog.setCollection
  refine wp_bind (wp_bind (wp_read fun c hc => ?_))
  obtain rfl := same_cell hc0 hc
  simp only [ho0, List.nil_append]
  refine wp_bind (wp_read fun cy hcy => ?_)
  have hcy' : v.mem y = some cy := hcy
  split
  · rename_i t ht
    refine wp_bind (wp_read fun ci hci => ?_)
    have hci' : v.mem i = some ci := hci
    split
    · rename_i m hm
      have good : ∀ o : Text, Wp W n h (do Prog.setObj x (.str o); pure true) { v with stack := args :: v.stack } fun a u t' => Wp W n h (do
          Prog.pop args
          if a = true then pure (some x) else Prog.error "Builtin '=' failed") u fun a u t'' => KeepsBuiltins v u ∧ ∀ r w, a = some r → Ends u w →
            t' ++ t'' = [] ∧ r = x ∧ Becomes W (.str o) v x w [] := by
        intro o
        refine wp_bind (wp_setObj fun c hc => wp_pure (wp_bind (wp_pop fun st hst => ?_)))
        cases hst
        simp only [if_true]
        have g := Changing.set (o' := .str o) (.start k.sane k.closed.all hx) hc0 trivial
        cases same_cell hc0 hc
        refine wp_pure ⟨g.keeps (by simp), ?_⟩
        rintro r w ⟨⟩ e
        exact ⟨rfl, rfl, g.finish (by simp) e⟩
      unfold Prog.overwriteText
      rw [c44_index_aux]
      cases hk : position s.length m with
      | some j =>
        have hj := Vec.position_lt hk
        simp only []
        refine Wp.mono (good _) ?_
        intro a u t' H
        refine Wp.mono H ?_
        rintro a u t'' ⟨h1, h2⟩
        refine ⟨h1, fun r w ha e => ?_⟩
        obtain ⟨h3, h4, h5⟩ := h2 r w ha e
        rw [c52_inside_aux _ _ _ (Nat.le_of_lt hj)] at h5
        exact .inside rfl hx ⟨ci, hci', hm⟩ ⟨cy, hcy', ht⟩ hk h4 (by simpa [h3] using h5)
      | none =>
        by_cases hn : m < 0
        · simp only [if_pos hn]
          refine wp_pure ?_
          refine err (fun r w tr => OverwriteRun W [x, i, y] v r w tr) fun r w he => .before rfl hx ⟨ci, hci', hm⟩ ?_ he
          unfold position at hk
          rw [if_neg (by omega)] at hk
          split at hk
          · cases hk
          · omega
        · simp only [if_neg hn]
          have hl : (s.length : Int) ≤ m := by
            unfold position at hk
            rw [if_pos (by omega)] at hk
            split at hk
            · cases hk
            · omega
          refine Wp.mono (good _) ?_
          intro a u t' H
          refine Wp.mono H ?_
          rintro a u t'' ⟨h1, h2⟩
          refine ⟨h1, fun r w ha e => ?_⟩
          obtain ⟨h3, h4, h5⟩ := h2 r w ha e
          rw [c52_after_aux _ _ _ (by omega)] at h5
          exact .beyond rfl hx ⟨ci, hci', hm⟩ ⟨cy, hcy', ht⟩ hl h4 (by simpa [h3] using h5)
    · rename_i hm
      refine wp_pure ?_
      refine err (fun r w tr => OverwriteRun W [x, i, y] v r w tr) fun r w he => .wrong rfl ?_ he
      rintro ⟨⟨m, c2, h1, h2⟩, _⟩
      obtain rfl := same_cell h1 hci'
      exact hm m h2
  · rename_i ht
    refine wp_pure ?_
    refine err (fun r w tr => OverwriteRun W [x, i, y] v r w tr) fun r w he => .wrong rfl ?_ he
    rintro ⟨_, t, c2, h1, h2⟩
    obtain rfl := same_cell h1 hcy'
    exact ht t h2


/-! ### Theorems -/

/-- `+` with a text first -/
theorem c52_join (hL : L.Safe) {v w : Vm} (rv : v.Reached W L) {form env op : Ref} {name : Text} {xs : List Ref}
    (nc : NamedCall W v form env name op xs) (hop : v.HasObj op (.builtin .plus)) {r : Option Ref} {tr : List Event}
    (ev : Evaluates W L v form env r w tr) :
    NamedOpCall W (ArgumentsFirst W form env (Runs .plus op fun ts u r w tr => JoinsTexts ts u → JoinRun W ts u r w tr)) v env op r w tr :=
  namedBuiltinTop_aux hL (by simp) (fun _ _ _ _ _ _ _ k top hp => c52_joinRun_aux k top hp) rv nc hop ev

/-- `+=` with a string or symbol first -/
theorem c52_append (hL : L.Safe) {v w : Vm} (rv : v.Reached W L) {form env op : Ref} {name : Text} {xs : List Ref}
    (nc : NamedCall W v form env name op xs) (hop : v.HasObj op (.builtin .plusEq)) {r : Option Ref} {tr : List Event}
    (ev : Evaluates W L v form env r w tr) :
    NamedOpCall W (ArgumentsFirst W form env (Runs .plusEq op fun ts u r w tr => PlusText W ts u → PlusTextRun W ts u r w tr)) v env op r w tr :=
  namedBuiltinPre_aux hL (by simp) (fun _ _ _ _ _ _ _ k hp => c52_plusRun_aux k hp) rv nc hop ev

/-- `-` with a string first -/
theorem c52_minus (hL : L.Safe) {v w : Vm} (rv : v.Reached W L) {form env op : Ref} {name : Text} {xs : List Ref}
    (nc : NamedCall W v form env name op xs) (hop : v.HasObj op (.builtin .minus)) {r : Option Ref} {tr : List Event}
    (ev : Evaluates W L v form env r w tr) :
    NamedOpCall W (ArgumentsFirst W form env (Runs .minus op fun ts u r w tr => StringFirst ts u → StripRun W ts u r w tr)) v env op r w tr :=
  namedBuiltinTop_aux hL (by simp) (fun _ _ _ _ _ _ _ k top hp => c52_minusRun_aux k top hp) rv nc hop ev

/-- `-=` with a string first -/
theorem c52_strip (hL : L.Safe) {v w : Vm} (rv : v.Reached W L) {form env op : Ref} {name : Text} {xs : List Ref}
    (nc : NamedCall W v form env name op xs) (hop : v.HasObj op (.builtin .minusEq)) {r : Option Ref} {tr : List Event}
    (ev : Evaluates W L v form env r w tr) :
    NamedOpCall W (ArgumentsFirst W form env (Runs .minusEq op fun ts u r w tr => StringFirst ts u → StripRun W ts u r w tr)) v env op r w tr :=
  namedBuiltinTop_aux hL (by simp) (fun _ _ _ _ _ _ _ k top hp => c52_minusEqRun_aux k top hp) rv nc hop ev

/-- `=` with a string, a position and a character -/
theorem c52_overwrite (hL : L.Safe) {v w : Vm} (rv : v.Reached W L) {form env op : Ref} {name : Text} {xs : List Ref}
    (nc : NamedCall W v form env name op xs) (hop : v.HasObj op (.builtin .assign)) {r : Option Ref} {tr : List Event}
    (ev : Evaluates W L v form env r w tr) :
    NamedOpCall W (ArgumentsFirst W form env (Runs .assign op fun ts u r w tr => StringAt ts u → OverwriteRun W ts u r w tr)) v env op r w tr :=
  namedBuiltinPre_aux hL (by simp) (fun _ _ _ _ _ _ _ k hp => c52_setRun_aux k hp) rv nc hop ev

/-! ### Examples -/
/-- `(+ "ab" "" "c")` -/
example : ∃ (v w : Vm) (form op : Ref) (xs : List Ref) (r : Option Ref) (tr : List Event), v.Reached world library ∧
    NamedCall world v form v.globalEnv (txt "+") op xs ∧ v.HasObj op (.builtin .plus) ∧
    Evaluates world library v form v.globalEnv r w tr ∧ objAt w r = some (.str (txt "abc")) := by
  obtain ⟨v, form, r, w, tr, hr, of, oe, ev, h⟩ := stage_exists (table := kit7) (forms := []) (fuel := 60)
    (last := .vec [.sym "+", .str "ab", .str "", .str "c"])
    (P := fun v f r w tr => namedCheck v f "+" (.builtin .plus) && decide (objAt w r = some (.str (txt "abc")))) kit7_plain (by decide +kernel)
  simp only [Bool.and_eq_true, decide_eq_true_eq] at h
  obtain ⟨op, xs, h1, h2, h3⟩ := named_of_check h.1 of oe
  exact ⟨v, w, form, op, xs, r, tr, hr, h1, h2, ev, h.2⟩

/-- `(+ (quote a) "b" (quote c))` -/
example : ∃ (v w : Vm) (form op : Ref) (xs : List Ref) (r : Option Ref) (tr : List Event), v.Reached world library ∧
    NamedCall world v form v.globalEnv (txt "+") op xs ∧ v.HasObj op (.builtin .plus) ∧
    Evaluates world library v form v.globalEnv r w tr ∧ objAt w r = some (.sym (txt "abc")) := by
  obtain ⟨v, form, r, w, tr, hr, of, oe, ev, h⟩ := stage_exists (table := kit7) (forms := []) (fuel := 60)
    (last := .vec [.sym "+", .vec [.sym "quote", .sym "a"], .str "b", .vec [.sym "quote", .sym "c"]])
    (P := fun v f r w tr => namedCheck v f "+" (.builtin .plus) && decide (objAt w r = some (.sym (txt "abc")))) kit7_plain (by decide +kernel)
  simp only [Bool.and_eq_true, decide_eq_true_eq] at h
  obtain ⟨op, xs, h1, h2, h3⟩ := named_of_check h.1 of oe
  exact ⟨v, w, form, op, xs, r, tr, hr, h1, h2, ev, h.2⟩

/-- `(+ "a" (quote b))` is an error -/
example : ∃ (v w : Vm) (form op : Ref) (xs : List Ref) (r : Option Ref) (tr : List Event), v.Reached world library ∧
    NamedCall world v form v.globalEnv (txt "+") op xs ∧ v.HasObj op (.builtin .plus) ∧
    Evaluates world library v form v.globalEnv r w tr ∧ (match objAt w r with | some (.err _ _) => true | _ => false) = true := by
  obtain ⟨v, form, r, w, tr, hr, of, oe, ev, h⟩ := stage_exists (table := kit7) (forms := []) (fuel := 60)
    (last := .vec [.sym "+", .str "a", .vec [.sym "quote", .sym "b"]])
    (P := fun v f r w tr => namedCheck v f "+" (.builtin .plus) && decide ((match objAt w r with | some (.err _ _) => true | _ => false) = true)) kit7_plain (by decide +kernel)
  simp only [Bool.and_eq_true, decide_eq_true_eq] at h
  obtain ⟨op, xs, h1, h2, h3⟩ := named_of_check h.1 of oe
  exact ⟨v, w, form, op, xs, r, tr, hr, h1, h2, ev, h.2⟩

/-- `(+= "a" (vector "b" (vector (quote c))) (list "d"))` -/
example : ∃ (v w : Vm) (form op : Ref) (xs : List Ref) (r : Option Ref) (tr : List Event), v.Reached world library ∧
    NamedCall world v form v.globalEnv (txt "+=") op xs ∧ v.HasObj op (.builtin .plusEq) ∧
    Evaluates world library v form v.globalEnv r w tr ∧ objAt w r = some (.str (txt "abc(list [d])")) := by
  obtain ⟨v, form, r, w, tr, hr, of, oe, ev, h⟩ := stage_exists (table := kit7) (forms := []) (fuel := 60)
    (last := .vec [.sym "+=", .str "a", .vec [.sym "vector", .str "b", .vec [.sym "vector", .vec [.sym "quote", .sym "c"]]], .vec [.sym "list", .str "d"]])
    (P := fun v f r w tr => namedCheck v f "+=" (.builtin .plusEq) && decide (objAt w r = some (.str (txt "abc(list [d])")))) kit7_plain (by decide +kernel)
  simp only [Bool.and_eq_true, decide_eq_true_eq] at h
  obtain ⟨op, xs, h1, h2, h3⟩ := named_of_check h.1 of oe
  exact ⟨v, w, form, op, xs, r, tr, hr, h1, h2, ev, h.2⟩

/-- `(- "abcabbcc" "ab" "c")` -/
example : ∃ (v w : Vm) (form op : Ref) (xs : List Ref) (r : Option Ref) (tr : List Event), v.Reached world library ∧
    NamedCall world v form v.globalEnv (txt "-") op xs ∧ v.HasObj op (.builtin .minus) ∧
    Evaluates world library v form v.globalEnv r w tr ∧ objAt w r = some (.str (txt "b")) := by
  obtain ⟨v, form, r, w, tr, hr, of, oe, ev, h⟩ := stage_exists (table := kit7) (forms := []) (fuel := 60)
    (last := .vec [.sym "-", .str "abcabbcc", .str "ab", .str "c"])
    (P := fun v f r w tr => namedCheck v f "-" (.builtin .minus) && decide (objAt w r = some (.str (txt "b")))) kit7_plain (by decide +kernel)
  simp only [Bool.and_eq_true, decide_eq_true_eq] at h
  obtain ⟨op, xs, h1, h2, h3⟩ := named_of_check h.1 of oe
  exact ⟨v, w, form, op, xs, r, tr, hr, h1, h2, ev, h.2⟩

/-- `(-= "aabbcab" "ab")`: what comes together is taken out too -/
example : ∃ (v w : Vm) (form op : Ref) (xs : List Ref) (r : Option Ref) (tr : List Event), v.Reached world library ∧
    NamedCall world v form v.globalEnv (txt "-=") op xs ∧ v.HasObj op (.builtin .minusEq) ∧
    Evaluates world library v form v.globalEnv r w tr ∧ objAt w r = some (.str (txt "c")) := by
  obtain ⟨v, form, r, w, tr, hr, of, oe, ev, h⟩ := stage_exists (table := kit7) (forms := []) (fuel := 60)
    (last := .vec [.sym "-=", .str "aabbcab", .str "ab"])
    (P := fun v f r w tr => namedCheck v f "-=" (.builtin .minusEq) && decide (objAt w r = some (.str (txt "c")))) kit7_plain (by decide +kernel)
  simp only [Bool.and_eq_true, decide_eq_true_eq] at h
  obtain ⟨op, xs, h1, h2, h3⟩ := named_of_check h.1 of oe
  exact ⟨v, w, form, op, xs, r, tr, hr, h1, h2, ev, h.2⟩

/-- `(= "abc" -2 (character 120))` -/
example : ∃ (v w : Vm) (form op : Ref) (xs : List Ref) (r : Option Ref) (tr : List Event), v.Reached world library ∧
    NamedCall world v form v.globalEnv (txt "=") op xs ∧ v.HasObj op (.builtin .assign) ∧
    Evaluates world library v form v.globalEnv r w tr ∧ objAt w r = some (.str (txt "axc")) := by
  obtain ⟨v, form, r, w, tr, hr, of, oe, ev, h⟩ := stage_exists (table := kit7) (forms := []) (fuel := 60)
    (last := .vec [.sym "=", .str "abc", .int (-2), .vec [.sym "character", .int 120]])
    (P := fun v f r w tr => namedCheck v f "=" (.builtin .assign) && decide (objAt w r = some (.str (txt "axc")))) kit7_plain (by decide +kernel)
  simp only [Bool.and_eq_true, decide_eq_true_eq] at h
  obtain ⟨op, xs, h1, h2, h3⟩ := named_of_check h.1 of oe
  exact ⟨v, w, form, op, xs, r, tr, hr, h1, h2, ev, h.2⟩

/-- `(= "abc" 7 (character 120))` -/
example : ∃ (v w : Vm) (form op : Ref) (xs : List Ref) (r : Option Ref) (tr : List Event), v.Reached world library ∧
    NamedCall world v form v.globalEnv (txt "=") op xs ∧ v.HasObj op (.builtin .assign) ∧
    Evaluates world library v form v.globalEnv r w tr ∧ objAt w r = some (.str (txt "abcx")) := by
  obtain ⟨v, form, r, w, tr, hr, of, oe, ev, h⟩ := stage_exists (table := kit7) (forms := []) (fuel := 60)
    (last := .vec [.sym "=", .str "abc", .int 7, .vec [.sym "character", .int 120]])
    (P := fun v f r w tr => namedCheck v f "=" (.builtin .assign) && decide (objAt w r = some (.str (txt "abcx")))) kit7_plain (by decide +kernel)
  simp only [Bool.and_eq_true, decide_eq_true_eq] at h
  obtain ⟨op, xs, h1, h2, h3⟩ := named_of_check h.1 of oe
  exact ⟨v, w, form, op, xs, r, tr, hr, h1, h2, ev, h.2⟩

/-- what the theorems require is met: two strings, an integer and a character -/
example (v : Vm) : ∃ u : Vm, JoinsTexts [0, 1, 2] u ∧ PlusText world [0, 1, 3] u ∧ StringFirst [0, 1] u ∧ StringAt [0, 2, 3] u := by
  let m : Mem := fun x => if x = 0 then some { obj := .str [97], uid := 0 } else if x = 1 then some { obj := .str [98], uid := 1 } else
    if x = 2 then some { obj := .int 0, uid := 2 } else if x = 3 then some { obj := .chr [99], uid := 3 } else none
  have h0 : Vm.HasObj { v with mem := m } 0 (.str [97]) := ⟨{ obj := .str [97], uid := 0 }, rfl, rfl⟩
  have c1 : Clean [98] := by intro c hc; simp at hc; subst hc; decide
  have c2 : Clean [99] := by intro c hc; simp at hc; subst hc; decide
  have c0 : Clean [97] := by intro c hc; simp at hc; subst hc; decide
  refine ⟨{ v with mem := m }, ⟨⟨0, [1, 2], [97], rfl, .str h0⟩, ?_⟩, ⟨0, [1, 3], [97], rfl, .inl h0, ?_⟩, ⟨0, [1], _, rfl, h0⟩, ⟨0, 2, 3, _, rfl, h0⟩⟩
  · intro y hy t ht
    simp only [List.mem_cons, List.not_mem_nil, or_false] at hy
    rcases ht with ⟨c, h1, h2⟩ | ⟨c, h1, h2⟩ | ⟨c, h1, h2⟩ <;> rcases hy with rfl | rfl | rfl <;> cases h1 <;> cases h2
    · exact c0
    · exact c1
  · intro y hy
    simp only [List.mem_cons, List.not_mem_nil, or_false] at hy
    rcases hy with rfl | rfl
    · exact ⟨[98], .text (by decide) (.str ⟨_, rfl, rfl⟩) c1⟩
    · exact ⟨[99], .text (by decide) (.chr ⟨_, rfl, rfl⟩) c2⟩

end Dern.Props
