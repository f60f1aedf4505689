import Verif.Props.C52
import Mathlib.Data.List.TakeWhile
/-
C53: numbers and characters changed in place.

`++` and `--` change each of their arguments by one step, `+=` and `-=` add to or subtract from the number or character given
first.  The changed value is the result; other values stay as they are.

Reals: it is said that the result is a real, not which one.
-/
namespace Dern.Props
open Dern
open Dern.Spec (letters)
open Dern.Prog (Library)
variable {W : World} {L : Library}

/-! ### Specification: one step -/

/-- the objects in the memory -/
def objs (v : Vm) : Ref → Option Obj := fun z => (v.mem z).map (·.obj)

/-- the objects with `o` at `x` -/
def putObj (f : Ref → Option Obj) (x : Ref) (o : Obj) : Ref → Option Obj := fun z => if z = x then some o else f z

/-- what `++` makes of a value -/
inductive Upped : Obj → Obj → Prop
  | int {n} : Int32 (n + 1) → Upped (.int n) (.int (n + 1))
  | real {d e} : Upped (.real d) (.real e)

/-- what `--` makes of a value: of a queue, the oldest element is taken away -/
inductive Downed : Obj → Obj → Prop
  | int {n} : Int32 (n - 1) → Downed (.int n) (.int (n - 1))
  | real {d e} : Downed (.real d) (.real e)
  | vec {es x} : Downed (.vec (es ++ [x])) (.vec es)
  | list {es x} : Downed (.list (es ++ [x])) (.list es)
  | queue {m es x} : Downed (.queue m (x :: es)) (.queue m es)
  | str {s c} : Downed (.str (s ++ [c])) (.str s)

/-- the objects `f` become `f'` when the values `xs` are changed, one after the other -/
inductive Chain (R : Obj → Obj → Prop) : (Ref → Option Obj) → List Ref → (Ref → Option Obj) → Prop
  | nil {f} : Chain R f [] f
  | cons {f x xs o o' f'} : f x = some o → R o o' → Chain R (putObj f x o') xs f' → Chain R f (x :: xs) f'

/-- What `++` or `--` does.  At a value that cannot be changed there is an error; those before it have been changed. -/
inductive EachRun (R : Obj → Obj → Prop) (W : World) (ts : List Ref) (v : Vm) (r : Ref) (w : Vm) (tr : List Event) : Prop
  | none : ts = [] → GivesError W v r w tr → EachRun R W ts v r w tr
  | done {f} : ts.getLast? = some r → Chain R (objs v) ts f → tr = [] → Vm.Quiet W (fun z => z ∈ ts) v w →
      (∀ z o, (∀ m l, o ≠ .err m l) → f z = some o → w.HasObj z o) → EachRun R W ts v r w tr
  | wrong {xs y ys f o} : ts = xs ++ y :: ys → Chain R (objs v) xs f → f y = some o → (∀ o', ¬ R o o') → ¬ v.Old W r → w.IsErr r → tr = [] →
      Vm.Quiet W (fun z => z ∈ ts) v w → (∀ z o, z ∈ ts → (∀ m l, o ≠ .err m l) → f z = some o → w.HasObj z o) → EachRun R W ts v r w tr

/-! ### Proofs: one step -/

theorem wp_int32 {n : Nat} {h : Handler} {k : Int} {v : Vm} {Q : Int → Vm → List Event → Prop} (hq : Int32 k → Q k v []) : Wp W n h (Prog.int32 k) v Q := by
  unfold Prog.int32
  split
  · rename_i hf
    refine wp_pure (hq ?_)
    simpa [Prog.fits, Int32] using hf
  · exact wp_fail

/-- the values in `E` have been changed, the objects are `f` now -/
structure Altering (W : World) (E : Ref → Prop) (v u : Vm) (f : Ref → Option Obj) : Prop where
  step : Vm.Step W nobody E v u
  now : ∀ z, objs u z = f z
  same : ∀ z, ¬ E z → u.mem z = v.mem z
  stack : u.stack = v.stack

theorem Altering.set {E : Ref → Prop} {v u : Vm} {f : Ref → Option Obj} (g : Altering W E v u f) {x : Ref} {c : Cell} {o : Obj} (hx : E x) (hc : u.mem x = some c)
    (ho : ∀ P, PubObj P c.obj → PubObj P o) : Altering W E v { u with mem := u.mem.set x { c with obj := o } } (putObj f x o) := by
  have p := g.step.closed.cells x c hc
  refine ⟨g.step.modify (.inl hx) hc rfl rfl ⟨ho _ ?_, fun z hz => ⟨p.docstr z hz, id⟩, fun z hz => ⟨p.docvec z hz, id⟩⟩, fun z => ?_, fun z hz => ?_, g.stack⟩
  · exact (g.step.closed.pub x c hc (by exact id)).obj
  · unfold putObj objs
    split
    · rename_i e; subst e; simp [Mem.set_self]
    · rename_i e
      rw [← g.now z]
      simp only [Mem.set_other _ _ e, objs]
  · rw [← g.same z hz]
    exact Mem.set_other _ _ fun e => hz (e ▸ hx)

theorem Altering.tick {E : Ref → Prop} {v u : Vm} {f : Ref → Option Obj} (g : Altering W E v u f) : Altering W E v { u with ticks := u.ticks + 1 } f :=
  ⟨g.step.tick, g.now, g.same, g.stack⟩

theorem Upped.pub {o o' : Obj} (h : Upped o o') {P : Ref → Prop} (_ : PubObj P o) : PubObj P o' := by
  cases h <;> trivial

theorem Downed.pub {o o' : Obj} (h : Downed o o') {P : Ref → Prop} (hp : PubObj P o) : PubObj P o' := by
  cases h <;> first | trivial | (intro x hx; exact hp x (by simp [hx]))

/-- the loops of `++` and `--` take one step after the other -/
structure StepLoop (W : World) (n : Nat) (h : Handler) (R : Obj → Obj → Prop) (loop : List Ref → Option Ref → Prog (Option Ref)) : Prop where
  nil : ∀ last, loop [] last = pure last
  cons : ∀ x xs last (u : Vm) (Q : Option Ref → Vm → List Event → Prop),
    (∀ c o', u.mem x = some c → R c.obj o' → Wp W n h (loop xs (some x)) { u with mem := u.mem.set x { c with obj := o' } } Q) →
    (∀ c o', u.mem x = some c → R c.obj o' → Wp W n h (loop xs (some x)) { u with ticks := u.ticks + 1, mem := u.mem.set x { c with obj := o' } } Q) →
    (∀ c m, u.mem x = some c → (∀ o', ¬ R c.obj o') → Wp W n h (Prog.error m) u Q) → Wp W n h (loop (x :: xs) last) u Q

theorem c53_loop_aux {n : Nat} {h : Handler} {R : Obj → Obj → Prop} {loop : List Ref → Option Ref → Prog (Option Ref)} (sl : StepLoop W n h R loop)
    (pub : ∀ o o', R o o' → ∀ P, PubObj P o → PubObj P o') {args : Ref} {ts : List Ref} {v : Vm} (hv : v.HasVec args ts) (top : args ∈ v.stack)
    (hargs : args ∉ ts) (hold : ∀ z ∈ ts, v.Old W z) (xs : List Ref) :
    ∀ (u : Vm) (f : Ref → Option Obj) (last : Option Ref), Altering W (fun z => z ∈ ts) v u f → (∀ x ∈ xs, x ∈ ts) →
    Wp W n h (loop xs last) u fun a w tr => tr = [] ∧
      ((a = (xs.getLast?).or last ∧ ∃ f', Chain R f xs f' ∧ Altering W (fun z => z ∈ ts) v w f') ∨
       ∃ r pre y post f' o, a = some r ∧ xs = pre ++ y :: post ∧ Chain R f pre f' ∧ f' y = some o ∧ (∀ o', ¬ R o o') ∧ ¬ v.Old W r ∧ w.IsErr r ∧
        Vm.Step W nobody (fun z => z ∈ ts) v w ∧ ∀ z ∈ ts, objs w z = f' z) := by
  induction xs with
  | nil =>
    intro u f last g _
    rw [sl.nil]
    exact wp_pure ⟨rfl, .inl ⟨by simp, f, .nil, g⟩⟩
  | cons x xs ih =>
    intro u f last g hts
    have hx : x ∈ ts := hts x (by simp)
    have fin : ∀ (u' : Vm) (c : Cell) (o' : Obj), u.mem x = some c → R c.obj o' → Altering W (fun z => z ∈ ts) v u' (putObj f x o') →
        Wp W n h (loop xs (some x)) u' fun a w tr => tr = [] ∧
      ((a = ((x :: xs).getLast?).or last ∧ ∃ f', Chain R f (x :: xs) f' ∧ Altering W (fun z => z ∈ ts) v w f') ∨
       ∃ r pre y post f' o, a = some r ∧ x :: xs = pre ++ y :: post ∧ Chain R f pre f' ∧ f' y = some o ∧ (∀ o', ¬ R o o') ∧ ¬ v.Old W r ∧ w.IsErr r ∧
        Vm.Step W nobody (fun z => z ∈ ts) v w ∧ ∀ z ∈ ts, objs w z = f' z) := by
      intro u' c o' hc hR' g'
      have hf : f x = some c.obj := by rw [← g.now x]; simp [objs, hc]
      refine Wp.mono (ih u' _ (some x) g' fun y hy => hts y (by simp [hy])) ?_
      rintro a w tr ⟨rfl, ⟨rfl, f', h1, h2⟩ | ⟨r, pre, y, post, f', o, rfl, rfl, h1, h2⟩⟩
      · refine ⟨rfl, .inl ⟨?_, f', .cons hf hR' h1, h2⟩⟩
        cases xs <;> simp [List.getLast?_cons]
      · exact ⟨rfl, .inr ⟨r, x :: pre, y, post, f', o, rfl, rfl, .cons hf hR' h1, h2⟩⟩
    refine sl.cons x xs last u _ ?_ ?_ ?_
    · intro c o' hc hR'
      exact fin _ c o' hc hR' (g.set hx hc (pub _ _ hR'))
    · intro c o' hc hR'
      exact fin _ c o' hc hR' (g.tick.set hx hc (pub _ _ hR'))
    · intro c m hc hno
      refine wps_errorKept g.step fun r w gw hkept he hfr => ⟨rfl, .inr ⟨r, [], x, xs, f, c.obj, rfl, rfl, .nil, ?_, hno, hfr, he, gw, ?_⟩⟩
      · rw [← g.now x]; simp [objs, hc]
      · intro z hz
        obtain ⟨d, hd, hdo⟩ := hv
        rw [← g.same args hargs] at hd
        have ka : u.Kept args := .root (by rw [g.stack]; exact top)
        have kz : u.Kept z := ka.step ⟨d, hd, by simpa [Cell.edges, hdo, Obj.children] using .inr hz⟩
        rw [← g.now z]
        unfold objs
        rw [hkept z (hold z hz) kz]

theorem c53_run_aux {n : Nat} {h : Handler} {R : Obj → Obj → Prop} {loop : List Ref → Option Ref → Prog (Option Ref)} (sl : StepLoop W n h R loop)
    (pub : ∀ o o', R o o' → ∀ P, PubObj P o → PubObj P o') (hb : ∀ o o' b, R o o' → o ≠ .builtin b ∧ o' ≠ .builtin b)
    {args env : Ref} {ts : List Ref} {v : Vm} (k : Held W args ts env v) (hv : v.HasVec args ts) (top : args ∈ v.stack) (hne : ts ≠ []) :
    Wp W n h (loop ts none) v fun a u tr => KeepsBuiltins v u ∧ ∀ r w, a = some r → Ends u w → EachRun R W ts v r w tr := by
  have hargs : args ∉ ts := fun h => (k.pub args h).2 rfl
  have keep : ∀ {f : Ref → Option Obj} {xs f'}, Chain R f xs f' → ∀ z b, f' z = some (.builtin b) → f z = some (.builtin b) := by
    intro f xs f' hc
    induction hc with
    | nil => exact fun _ _ h => h
    | @cons f x xs o o' f' h1 h2 _ ih =>
      intro z b hz
      have := ih z b hz
      unfold putObj at this
      split at this
      · cases this; exact absurd rfl ((hb _ _ b h2).2)
      · exact this
  refine Wp.mono (c53_loop_aux sl pub hv top hargs (fun z hz => (k.pub z hz).1) ts v (objs v) none ⟨.refl k.sane k.closed.all, fun _ => rfl, fun _ _ => rfl, rfl⟩ fun _ h => h) ?_
  rintro a u tr ⟨rfl, ⟨rfl, f', h1, h2⟩ | ⟨r, pre, y, post, f', o, rfl, h1, h2, h3, h4, h5, h6, h7, h8⟩⟩
  · refine ⟨?_, ?_⟩
    · intro op b b' ⟨c, hc, ho⟩ ⟨d, hd, hdo⟩
      have := keep h1 op b' (by rw [← h2.now op]; simp [objs, hd, hdo])
      simp [objs, hc, ho] at this
      exact this.symm
    · intro r w ha e
      refine .done (by simpa using ha) h1 rfl (h2.step.quiet.trans h2.step.sane0 e.quiet) fun z o hne hf => e.hasObj ?_ hne
      rw [← h2.now z] at hf
      unfold objs at hf
      obtain ⟨c, hc, ho⟩ := Option.map_eq_some_iff.mp hf
      exact ⟨c, hc, ho⟩
  · have get : ∀ z o, z ∈ ts → f' z = some o → u.HasObj z o := by
      intro z o hz hf
      rw [← h8 z hz] at hf
      obtain ⟨c, hc, ho⟩ := Option.map_eq_some_iff.mp hf
      exact ⟨c, hc, ho⟩
    refine ⟨?_, ?_⟩
    · intro op b b' ⟨c, hc, ho⟩ ⟨d, hd, hdo⟩
      by_cases hz : op ∈ ts
      · have := keep h2 op b' (by rw [← h8 op hz]; simp [objs, hd, hdo])
        simp [objs, hc, ho] at this
        exact this.symm
      · rcases h7.quiet.cells op c hz hc with e | e | ⟨_, _, _, e, _⟩
        · rw [hd] at e; cases e; rw [ho] at hdo; cases hdo; rfl
        · rw [hd] at e; cases e
        · rw [ho] at e; cases e
    · rintro r' w ⟨⟩ e
      exact .wrong h1 h2 h3 h4 h5 (e.isErr h6) rfl (h7.quiet.trans h7.sane0 e.quiet) fun z o hz hne hf => e.hasObj (get z o hz hf) hne

theorem c53_incrLoop_aux {n : Nat} {h : Handler} : StepLoop W n h Upped Prog.incrLoop where
  nil := fun _ => rfl
  cons := fun x xs last u Q h1 h2 h3 => by
    unfold Prog.incrLoop
    refine wp_bind (wp_read fun c hc => ?_)
    split
    · rename_i m ho
      refine wp_bind (wp_int32 fun hm => wp_bind (wp_setObj fun c' hc' => ?_))
      cases same_cell hc hc'
      exact h1 c _ hc (by rw [ho]; exact .int hm)
    · rename_i d ho
      refine wp_bind (wp_real fun e => wp_bind (wp_setObj fun c' hc' => ?_))
      cases same_cell hc hc'
      exact h2 c _ hc (by rw [ho]; exact .real)
    · rename_i hi hr
      refine h3 c _ hc ?_
      intro o' ho'
      generalize c.obj = o at *
      cases ho'
      · exact hi _ rfl
      · exact hr _ rfl

theorem c53_decrLoop_aux {n : Nat} {h : Handler} : StepLoop W n h Downed Prog.decrLoop where
  nil := fun _ => rfl
  cons := fun x xs last u Q h1 h2 h3 => by
    unfold Prog.decrLoop
    refine wp_bind (wp_read fun c hc => ?_)
    have good : ∀ o', Downed c.obj o' → Wp W n h (do Prog.setObj x o'; Prog.decrLoop xs (some x)) u Q := by
      intro o' ho'
      refine wp_bind (wp_setObj fun c' hc' => ?_)
      cases same_cell hc hc'
      exact h1 c _ hc ho'
    cases ho : c.obj <;> simp only [Prog.Obj.less]
    case int m =>
      refine wp_bind (wp_int32 fun hm => ?_)
      exact good _ (by rw [ho]; exact .int hm)
    case real d =>
      refine wp_bind (wp_real fun e => wp_bind (wp_setObj fun c' hc' => ?_))
      cases same_cell hc hc'
      exact h2 c _ hc (by rw [ho]; exact .real)
    case vec es =>
      rcases List.eq_nil_or_concat es with rfl | ⟨ys, y, rfl⟩
      · exact h3 c _ hc fun o' h' => by rw [ho] at h'; generalize e : Obj.vec [] = o at h'; cases h' <;> simp at e
      · have e : (!(ys ++ [y]).isEmpty) = true := by simp
        simp only [List.concat_eq_append, List.dropLast_concat, if_true, e]
        exact good (.vec ys) (by rw [ho]; simpa using Downed.vec)
    case list es =>
      rcases List.eq_nil_or_concat es with rfl | ⟨ys, y, rfl⟩
      · exact h3 c _ hc fun o' h' => by rw [ho] at h'; generalize e : Obj.list [] = o at h'; cases h' <;> simp at e
      · have e : (!(ys ++ [y]).isEmpty) = true := by simp
        simp only [List.concat_eq_append, List.dropLast_concat, if_true, e]
        exact good (.list ys) (by rw [ho]; simpa using Downed.list)
    case str es =>
      rcases List.eq_nil_or_concat es with rfl | ⟨ys, y, rfl⟩
      · exact h3 c _ hc fun o' h' => by rw [ho] at h'; generalize e : Obj.str [] = o at h'; cases h' <;> simp at e
      · have e : (!(ys ++ [y]).isEmpty) = true := by simp
        simp only [List.concat_eq_append, List.dropLast_concat, if_true, e]
        exact good (.str ys) (by rw [ho]; simpa using Downed.str)
    case queue m es =>
      cases es with
      | nil => exact h3 c _ hc fun o' h' => by rw [ho] at h'; cases h'
      | cons y ys => simpa using good (.queue m ys) (by rw [ho]; exact Downed.queue)
    all_goals exact h3 c _ hc fun o' h' => by rw [ho] at h'; cases h'

theorem c53_incrRun_aux {n : Nat} {h : Handler} {args env : Ref} {ts : List Ref} {v : Vm} (k : Held W args ts env v) (top : args ∈ v.stack) :
    Wp W n h (Prog.biIncr args env) v fun a u tr => KeepsBuiltins v u ∧ ∀ r w, a = some r → Ends u w → EachRun Upped W ts v r w tr := by
  unfold Prog.biIncr
  refine first_aux k fun hv => ?_
  by_cases hne : ts = []
  · rw [if_pos hne]
    exact giveMono_aux (c34_error_aux k _) (Q := fun v r w tr => EachRun Upped W ts v r w tr) fun r w tr g => .none hne g
  · rw [if_neg hne]
    exact c53_run_aux c53_incrLoop_aux (fun _ _ h _ hp => h.pub hp) (fun o o' b h => by cases h <;> simp) k hv top hne

theorem c53_decrRun_aux {n : Nat} {h : Handler} {args env : Ref} {ts : List Ref} {v : Vm} (k : Held W args ts env v) (top : args ∈ v.stack) :
    Wp W n h (Prog.biDecr args env) v fun a u tr => KeepsBuiltins v u ∧ ∀ r w, a = some r → Ends u w → EachRun Downed W ts v r w tr := by
  unfold Prog.biDecr
  refine first_aux k fun hv => ?_
  by_cases hne : ts = []
  · rw [if_pos hne]
    exact giveMono_aux (c34_error_aux k _) (Q := fun v r w tr => EachRun Downed W ts v r w tr) fun r w tr g => .none hne g
  · rw [if_neg hne]
    exact c53_run_aux c53_decrLoop_aux (fun _ _ h _ hp => h.pub hp) (fun o o' b h => by cases h <;> simp) k hv top hne

/-! ### Specification: adding and subtracting -/

/-- adding or subtracting -/
def plusOrMinus (add : Bool) (n k : Int) : Int := if add then n + k else n - k

/-- a text of digits, minus signs and points -/
def NumericText (t : Text) : Prop := ∀ c ∈ t, c ∈ letters "-0123456789."

/-- a decimal digit -/
def Digit (c : Nat) : Prop := '0'.toNat ≤ c ∧ c ≤ '9'.toNat

/-- the number at the front of a text: digits (up to the first other character), after a minus sign if there is one -/
inductive FrontNumber : Text → Int → Prop
  | pos {ds rest} : (∀ c ∈ ds, Digit c) → (∀ c, rest.head? = some c → ¬ Digit c) → (ds ++ rest).head? ≠ some '-'.toNat →
      FrontNumber (ds ++ rest) (Dern.Spec.Numeral.value 10 ds)
  | neg {ds rest} : (∀ c ∈ ds, Digit c) → (∀ c, rest.head? = some c → ¬ Digit c) →
      FrontNumber ('-'.toNat :: (ds ++ rest)) (-(Dern.Spec.Numeral.value 10 ds : Int))

/-- What adding the value `y` to the number `x` (or subtracting it) makes of the number.  Texts of digits stand for their numbers (the
sum is reduced to int32_t), a vector for its elements one after the other; other values are ignored. -/
inductive Accrues (v : Vm) (x : Ref) (add : Bool) : Obj → Ref → Obj → Prop
  | int {n y k} : y ≠ x → v.HasObj y (.int k) → Int32 (plusOrMinus add n k) → Accrues v x add (.int n) y (.int (plusOrMinus add n k))
  | self {n} : Int32 (plusOrMinus add n n) → Accrues v x add (.int n) x (.int (plusOrMinus add n n))
  | real {n y d e} : y ≠ x → v.HasObj y (.real d) → Accrues v x add (.int n) y (.real e)
  | digits {n y t k} : v.HasObj y (.str t) → NumericText t → '.'.toNat ∉ t → FrontNumber t k →
      Accrues v x add (.int n) y (.int (Int.bmod (plusOrMinus add n k) (2 ^ 32)))
  | decimal {n y t e} : v.HasObj y (.str t) → NumericText t → '.'.toNat ∈ t → Accrues v x add (.int n) y (.real e)
  | reals {d y e} : (y = x ∨ IsNum v y ∨ ∃ t, v.HasObj y (.str t) ∧ NumericText t) → Accrues v x add (.real d) y (.real e)
  | vec {y es} {os : Nat → Obj} : v.HasVec y es → (∀ (i : Nat) e, es[i]? = some e → Accrues v x add (os i) e (os (i + 1))) →
      Accrues v x add (os 0) y (os es.length)
  | ignored {o y} : y ≠ x → ¬ IsNum v y → (∀ t, v.HasObj y (.str t) → ¬ NumericText t) → (∀ es, ¬ v.HasVec y es) → Accrues v x add o y o

/-- the number `o` becomes `o'` by one value after the other -/
inductive AccruesAll (v : Vm) (x : Ref) (add : Bool) : Obj → List Ref → Obj → Prop
  | nil {o} : AccruesAll v x add o [] o
  | cons {o y o1 ys o'} : Accrues v x add o y o1 → AccruesAll v x add o1 ys o' → AccruesAll v x add o (y :: ys) o'

/-- the first value is a number -/
def NumberFirst (ts : List Ref) (v : Vm) : Prop := ∃ x ys, ts = x :: ys ∧ IsNum v x

/-- what `+=` or `-=` does with a number and more values -/
inductive AccrueRun (add : Bool) (W : World) (ts : List Ref) (v : Vm) (r : Ref) (w : Vm) (tr : List Event) : Prop
  | done {x ys o o'} : ts = x :: ys → v.HasObj x o → AccruesAll v x add o ys o' → r = x → Becomes W o' v x w tr → AccrueRun add W ts v r w tr

/-! ### Specification: characters, and values that cannot be changed -/

/-- the first value is a character, and the others can be appended -/
def CharFirst (W : World) (ts : List Ref) (v : Vm) : Prop :=
  ∃ x ys s, ts = x :: ys ∧ v.HasObj x (.chr s) ∧ (∀ y t, ys.head? = some y → v.HasObj y (.chr t) → Dern.Spec.Clean t) ∧ ∀ y ∈ ys.tail, ∃ t, AddsText W v x y t

/-- What `+=` does with a character and more values.  Adding a number gives the character whose code is the sum; with another
character it becomes a string, to which the rest is appended. -/
inductive CharPlusRun (W : World) (ts : List Ref) (v : Vm) (r : Ref) (w : Vm) (tr : List Event) : Prop
  | alone {x s} : ts = [x] → v.HasObj x (.chr s) → r = x → Becomes W (.chr s) v x w tr → CharPlusRun W ts v r w tr
  | code {x y c s k} : ts = [x, y] → v.HasObj x (.chr (c :: s)) → v.HasObj y (.int k) → Int32 (Int.bmod c (2 ^ 32) + k) → r = x →
      Becomes W (.chr [(((c : Int) + k) % 2 ^ 32).toNat]) v x w tr → CharPlusRun W ts v r w tr
  | join {x y s t ys us} : ts = x :: y :: ys → y ≠ x → v.HasObj x (.chr s) → v.HasObj y (.chr t) → List.Forall₂ (AddsText W v x) ys us → r = x →
      Becomes W (.str (s ++ t ++ us.flatten)) v x w tr → CharPlusRun W ts v r w tr
  | ignored {x y s} : ts = [x, y] → v.HasObj x (.chr s) → (∀ k, ¬ v.HasObj y (.int k)) → (∀ t, ¬ v.HasObj y (.chr t)) → r = x → Becomes W (.chr s) v x w tr →
      CharPlusRun W ts v r w tr

/-- what `-=` does with a character and more values -/
inductive CharMinusRun (W : World) (ts : List Ref) (v : Vm) (r : Ref) (w : Vm) (tr : List Event) : Prop
  | alone {x s} : ts = [x] → v.HasObj x (.chr s) → r = x → Becomes W (.chr s) v x w tr → CharMinusRun W ts v r w tr
  | code {x y c s k} : ts = [x, y] → v.HasObj x (.chr (c :: s)) → v.HasObj y (.int k) → Int32 (Int.bmod c (2 ^ 32) - k) → r = x →
      Becomes W (.chr [(((c : Int) - k) % 2 ^ 32).toNat]) v x w tr → CharMinusRun W ts v r w tr
  | codes {x y c s d t} : ts = [x, y] → v.HasObj x (.chr (c :: s)) → v.HasObj y (.chr (d :: t)) → r = x →
      Becomes W (.chr [(((c : Int) - d) % 2 ^ 32).toNat]) v x w tr → CharMinusRun W ts v r w tr
  | ignored {x y s} : ts = [x, y] → v.HasObj x (.chr s) → (∀ k, ¬ v.HasObj y (.int k)) → (∀ t, ¬ v.HasObj y (.chr t)) → r = x → Becomes W (.chr s) v x w tr →
      CharMinusRun W ts v r w tr

/-- values that `+=` adds to -/
def plusFits : Obj → Prop
  | .chr _ | .real _ | .int _ | .vec _ | .list _ | .queue _ _ | .port _ | .str _ | .sym _ | .semver _ | .hmap _ _ => True
  | _ => False

/-- values that `-=` takes from -/
def minusFits : Obj → Prop
  | .chr _ | .real _ | .int _ | .vec _ | .str _ | .semver _ | .hmap _ _ => True
  | _ => False

/-- there is no first value, or one that cannot be changed -/
def UnfitFirst (fits : Obj → Prop) (ts : List Ref) (v : Vm) : Prop := ∀ x ys o, ts = x :: ys → v.HasObj x o → ¬ fits o

/-- without a value that can be changed, there is an error; if the first value is one, it is given back -/
inductive UnfitRun (W : World) (ts : List Ref) (v : Vm) (r : Ref) (w : Vm) (tr : List Event) : Prop
  | none : ts = [] → GivesError W v r w tr → UnfitRun W ts v r w tr
  | error {x ys} : ts = x :: ys → v.IsErr x → Returns W x v r w tr → UnfitRun W ts v r w tr
  | wrong {x ys} : ts = x :: ys → ¬ v.IsErr x → GivesError W v r w tr → UnfitRun W ts v r w tr

/-! ### Proofs: adding and subtracting -/

theorem c53_numeric_aux {t : Text} : containsOnly t Prog.numeric = true ↔ NumericText t := by
  rw [c44_contains_only]
  simp only [decide_eq_true_eq]
  exact Iff.rfl

theorem c53_value_aux : ∀ (ds : Text) (k : Nat), (∀ c ∈ ds, Digit c) →
    ds.foldl (fun v c => v * 10 + (Dern.Spec.Numeral.digitValue c).getD 0) k = ds.foldl (fun n c => 10 * n + (c - 48)) k
  | [], _, _ => rfl
  | c :: ds, k, h => by
    have hc := h c (by simp)
    have : (Dern.Spec.Numeral.digitValue c).getD 0 = c - 48 := by
      unfold Dern.Spec.Numeral.digitValue
      rw [if_pos (show '0'.toNat ≤ c ∧ c ≤ '9'.toNat from hc)]
      rfl
    simp only [List.foldl_cons, this]
    rw [Nat.mul_comm]
    exact c53_value_aux ds _ fun c hc => h c (by simp [hc])

theorem c53_digits_aux (t : Text) : ∃ rest, t = Prog.leadingDigits t ++ rest ∧ (∀ c ∈ Prog.leadingDigits t, Digit c) ∧ ∀ c, rest.head? = some c → ¬ Digit c := by
  refine ⟨t.dropWhile fun c => 48 ≤ c && c ≤ 57, (List.takeWhile_append_dropWhile ..).symm, ?_, ?_⟩
  · intro c hc
    have := List.mem_takeWhile_imp hc
    simpa [Digit] using this
  · intro c hc hd
    have := List.head?_dropWhile_not (fun c => decide (48 ≤ c) && decide (c ≤ 57)) t
    rw [hc] at this
    have h1 : (48 ≤ c ∧ c ≤ 57) := hd
    simp [h1] at this

theorem c53_front_aux (t : Text) : FrontNumber t (Prog.leadingInt t) := by
  unfold Prog.leadingInt
  split
  · rename_i ds
    obtain ⟨rest, h1, h2, h3⟩ := c53_digits_aux ds
    have : Prog.digitsValue (Prog.leadingDigits ds) = Dern.Spec.Numeral.value 10 (Prog.leadingDigits ds) := (c53_value_aux _ 0 h2).symm
    rw [this]
    generalize Prog.leadingDigits ds = l at *
    subst h1
    exact .neg h2 h3
  · rename_i hne
    obtain ⟨rest, h1, h2, h3⟩ := c53_digits_aux t
    have : Prog.digitsValue (Prog.leadingDigits t) = Dern.Spec.Numeral.value 10 (Prog.leadingDigits t) := (c53_value_aux _ 0 h2).symm
    rw [this]
    generalize Prog.leadingDigits t = l at *
    subst h1
    refine .pos h2 h3 ?_
    intro h
    cases e : l ++ rest with
    | nil => rw [e] at h; cases h
    | cons c cs => rw [e] at h; cases h; exact hne cs e

theorem wp_int64 {n : Nat} {h : Handler} {k : Int} {v : Vm} {Q : Int → Vm → List Event → Prop} (hq : Q k v []) : Wp W n h (Prog.int64 k) v Q := by
  unfold Prog.int64
  split
  · exact wp_pure hq
  · exact wp_fail

theorem c53_each_aux {n : Nat} {v : Vm} {x : Ref} {add : Bool} {f : Ref → Prog Unit} : ∀ (es : List Ref),
    (∀ e ∈ es, ∀ u o, Changing W x v u o → Wp W n (handle W L n) (f e) u fun _ w tr => tr = [] ∧ ∃ o', Accrues v x add o e o' ∧ Changing W x v w o') →
    ∀ u o, Changing W x v u o → Wp W n (handle W L n) (Prog.each f es) u fun _ w tr => tr = [] ∧ ∃ o', AccruesAll v x add o es o' ∧ Changing W x v w o' := by
  intro es
  induction es with
  | nil => intro _ u o g; exact wp_pure ⟨rfl, o, .nil, g⟩
  | cons e es ih =>
    intro hf u o g
    show Wp W n (handle W L n) (f e >>= fun _ => Prog.each f es) u _
    refine wp_bind (Wp.mono (hf e (by simp) u o g) ?_)
    rintro _ w tr ⟨rfl, o1, h1, g1⟩
    refine Wp.mono (ih (fun e he => hf e (by simp [he])) w o1 g1) ?_
    rintro _ w tr ⟨rfl, o2, h2, g2⟩
    exact ⟨rfl, o2, .cons h1 h2, g2⟩

theorem AccruesAll.vec {v : Vm} {x y : Ref} {add : Bool} {o o' : Obj} {es : List Ref} (hv : v.HasVec y es) (h : AccruesAll v x add o es o') : Accrues v x add o y o' := by
  have : ∃ os : Nat → Obj, os 0 = o ∧ os es.length = o' ∧ ∀ (i : Nat) e, es[i]? = some e → Accrues v x add (os i) e (os (i + 1)) := by
    clear hv
    induction h with
    | @nil o => exact ⟨fun _ => o, rfl, rfl, fun i e h => by cases h⟩
    | @cons o z o1 zs o' h1 _ ih =>
      obtain ⟨os, h2, h3, h4⟩ := ih
      refine ⟨fun i => match i with | 0 => o | i + 1 => os i, rfl, h3, ?_⟩
      intro i e he
      match i with
      | 0 => cases he; show Accrues v x add o _ (os 0); rw [h2]; exact h1
      | i + 1 => exact h4 i e he
  obtain ⟨os, h1, h2, h3⟩ := this
  have := Accrues.vec hv h3
  rwa [h1, h2] at this

theorem Changing.tick {v u : Vm} {x : Ref} {o : Obj} (g : Changing W x v u o) : Changing W x v { u with ticks := u.ticks + 1 } o :=
  ⟨g.step.tick, g.cell, g.other, g.uid, g.stack⟩

/-- an integer or a real -/
def numberObj : Obj → Prop
  | .int _ | .real _ => True
  | _ => False

theorem numberObj_pub {o : Obj} (h : numberObj o) (P : Ref → Prop) : PubObj P o := by
  cases o <;> first | trivial | exact h.elim

theorem c53_one_aux {n : Nat} {v : Vm} {x : Ref} {asInt add : Bool} (hx : IsNum v x)
    (rec : ∀ y u o a w tr, Changing W x v u o → handle W L n (.aux (.number asInt add) [x, y]) u = .ok (a, w, tr) →
      tr = [] ∧ ∃ o', Accrues v x add o y o' ∧ Changing W x v w o') :
    ∀ y u o, Changing W x v u o →
    Wp W n (handle W L n) (Prog.addNumber asInt add x y) u fun _ w tr => tr = [] ∧ ∃ o', Accrues v x add o y o' ∧ Changing W x v w o' := by
  intro y u o g
  have set : ∀ (u' : Vm) (o' : Obj), Changing W x v u' o → numberObj o' → Accrues v x add o y o' →
      Wp W n (handle W L n) (do Prog.setObj x o'; pure (none : Option Ref)) u' fun _ w tr => tr = [] ∧ ∃ o', Accrues v x add o y o' ∧ Changing W x v w o' := by
    intro u' o' g' hn ha
    refine wp_bind (wp_setObj fun c hc => wp_pure ⟨rfl, o', ha, g'.set hc (numberObj_pub hn _)⟩)
  have vec : ∀ es, v.HasVec y es → Wp W n (handle W L n) (do
      Prog.each (fun z => do let _ ← Prog.call (.aux (.number asInt add) [x, z])) es
      pure (none : Option Ref)) u fun _ w tr => tr = [] ∧ ∃ o', Accrues v x add o y o' ∧ Changing W x v w o' := by
    intro es hv
    refine wp_bind (Wp.mono (c53_each_aux (add := add) es ?_ u o g) ?_)
    · intro e _ u o g
      refine wp_bind (wp_call fun a w tr e' => ?_)
      obtain ⟨rfl, h⟩ := rec e u o a w tr g e'
      exact wp_pure ⟨rfl, h⟩
    · rintro _ w tr ⟨rfl, o', h, g'⟩
      exact wp_pure ⟨rfl, o', h.vec hv, g'⟩
  have ignored : ∀ d, v.mem y = some d → y ≠ x → (∀ k, d.obj ≠ .int k) → (∀ k, d.obj ≠ .real k) → (∀ t, d.obj = .str t → ¬ NumericText t) → (∀ es, d.obj ≠ .vec es) →
      Accrues v x add o y o := by
    intro d hd hne h1 h2 h3 h4
    refine .ignored hne ?_ ?_ ?_
    · rintro (⟨k, d', hd', e⟩ | ⟨k, d', hd', e⟩) <;> obtain rfl := same_cell hd hd'
      · exact h1 _ e
      · exact h2 _ e
    · rintro t ⟨d', hd', e⟩
      obtain rfl := same_cell hd hd'
      exact h3 _ e
    · rintro es ⟨d', hd', e⟩
      obtain rfl := same_cell hd hd'
      exact h4 _ e
  unfold Prog.addNumber
  refine wp_bind (wp_read fun c hc => ?_)
  obtain ⟨c', hc', ho'⟩ := g.cell
  obtain rfl := same_cell hc' hc
  rw [ho']
  simp only [List.nil_append]
  split
  · rename_i m
    refine wp_bind (wp_read fun d hd => ?_)
    simp only [List.nil_append]
    by_cases hxy : y = x
    · subst hxy
      obtain rfl := same_cell hc hd
      rw [ho']
      exact wp_bind (wp_int32 fun hm => set _ _ g trivial (.self hm))
    · have hd' : v.mem y = some d := by rw [← g.other y hxy]; exact hd
      split
      · rename_i t ht
        split
        · rename_i hn
          split
          · rename_i hdot
            exact wp_bind (wp_real fun e => set _ (.real e) g.tick trivial (.decimal ⟨d, hd', ht⟩ (c53_numeric_aux.mp hn) (by simpa [c44_contains] using hdot)))
          · rename_i hdot
            refine wp_bind (wp_int64 (wp_bind ?_))
            unfold Prog.addLong
            refine wp_bind (wp_int64 (wp_pure ?_))
            exact set _ (.int _) g trivial (.digits ⟨d, hd', ht⟩ (c53_numeric_aux.mp hn) (by simpa [c44_contains] using hdot) (c53_front_aux t))
        · rename_i hn
          exact wp_pure ⟨rfl, _, ignored d hd' hxy (by simp [ht]) (by simp [ht]) (fun t' e => by rw [ht] at e; cases e; exact fun h => hn (c53_numeric_aux.mpr h)) (by simp [ht]), g⟩
      · rename_i k hk
        exact wp_bind (wp_int32 fun hm => set _ (.int _) g trivial (.int hxy ⟨d, hd', hk⟩ hm))
      · rename_i e hk
        exact wp_bind (wp_real fun e => set _ (.real _) g.tick trivial (.real hxy ⟨d, hd', hk⟩))
      · rename_i es hk
        exact vec es ⟨d, hd', hk⟩
      · rename_i h1 h2 h3 h4
        exact wp_pure ⟨rfl, _, ignored d hd' hxy h2 h3 (fun t e => absurd e (h1 t)) h4, g⟩
  · rename_i e0
    refine wp_bind (wp_read fun d hd => ?_)
    simp only [List.nil_append]
    by_cases hxy : y = x
    · subst hxy
      obtain rfl := same_cell hc hd
      rw [ho']
      exact wp_bind (wp_real fun e => set _ (.real _) g.tick trivial (.reals (.inl rfl)))
    · have hd' : v.mem y = some d := by rw [← g.other y hxy]; exact hd
      split
      · rename_i t ht
        split
        · rename_i hn
          have fin : ∀ u', Changing W x v u' (.real e0) → Wp W n (handle W L n) (do let d ← Prog.real; Prog.setObj x (.real d); pure (none : Option Ref)) u'
              fun _ w tr => tr = [] ∧ ∃ o', Accrues v x add (.real e0) y o' ∧ Changing W x v w o' := fun u' g' =>
            wp_bind (wp_real fun e => set _ (.real _) g'.tick trivial (.reals (.inr (.inr ⟨t, ⟨d, hd', ht⟩, c53_numeric_aux.mp hn⟩))))
          split
          · exact wp_bind (wp_int64 (fin _ g))
          · exact fin _ g
        · rename_i hn
          exact wp_pure ⟨rfl, _, ignored d hd' hxy (by simp [ht]) (by simp [ht]) (fun t' e => by rw [ht] at e; cases e; exact fun h => hn (c53_numeric_aux.mpr h)) (by simp [ht]), g⟩
      · rename_i k hk
        exact wp_bind (wp_real fun e => set _ (.real _) g.tick trivial (.reals (.inr (.inl (.inl ⟨_, d, hd', hk⟩)))))
      · rename_i k hk
        exact wp_bind (wp_real fun e => set _ (.real _) g.tick trivial (.reals (.inr (.inl (.inr ⟨_, d, hd', hk⟩)))))
      · rename_i es hk
        exact vec es ⟨d, hd', hk⟩
      · rename_i h1 h2 h3 h4
        exact wp_pure ⟨rfl, _, ignored d hd' hxy h2 h3 (fun t e => absurd e (h1 t)) h4, g⟩
  · exact wp_fail

theorem c53_add_aux {v : Vm} {x : Ref} (hx : IsNum v x) {asInt add : Bool} : ∀ n y u o, Changing W x v u o →
    Wp W n (handle W L n) (Prog.addNumber asInt add x y) u fun _ w tr => tr = [] ∧ ∃ o', Accrues v x add o y o' ∧ Changing W x v w o' := by
  intro n
  induction n with
  | zero => exact c53_one_aux hx fun _ _ _ _ _ _ _ e => by cases e
  | succ n ih => exact c53_one_aux hx fun y u o a w tr g e => ih y u o g a w tr (handle_succ (by simp) e)

theorem c53_accrueRun_aux {n : Nat} {v : Vm} {x : Ref} {ys : List Ref} {o : Obj} {asInt add : Bool} (sv : v.Sane W) (cv : v.Closed W nobody) (hx : v.HasObj x o) (hn : IsNum v x) :
    Wp W n (handle W L n) (do
      Prog.each (fun y => do let _ ← Prog.addNumber asInt add x y) ys
      pure (some x)) v fun a u tr => KeepsBuiltins v u ∧ ∀ r w, a = some r → Ends u w → AccrueRun add W (x :: ys) v r w tr := by
  have num : ∀ o y o', Accrues v x add o y o' → numberObj o → numberObj o' := by
    intro o y o' h
    induction h with
    | @vec y es os _ _ ih =>
      intro h0
      have : ∀ i, i ≤ es.length → numberObj (os i) := by
        intro i
        induction i with
        | zero => exact fun _ => h0
        | succ i ihi =>
          intro hi
          exact ih i es[i] (List.getElem?_eq_getElem hi) (ihi (by omega))
      exact this _ (Nat.le_refl _)
    | ignored => exact id
    | _ => exact fun _ => trivial
  have nums : ∀ o ys o', AccruesAll v x add o ys o' → numberObj o → numberObj o' := by
    intro o ys o' h
    induction h with
    | nil => exact id
    | cons h _ ih => exact fun h0 => ih (num _ _ _ h h0)
  refine wp_bind (Wp.mono (c53_each_aux (add := add) ys ?_ v o (.start sv cv hx)) ?_)
  · intro y _ u o g
    refine wp_bind (Wp.mono (c53_add_aux hn n y u o g) ?_)
    rintro _ w tr ⟨rfl, h⟩
    exact wp_pure ⟨rfl, h⟩
  · rintro _ u tr ⟨rfl, o', h, g⟩
    have h0 : numberObj o' := by
      refine nums _ _ _ h ?_
      obtain ⟨c, hc, ho⟩ := hx
      rcases hn with ⟨k, c', hc', ho'⟩ | ⟨k, c', hc', ho'⟩ <;> (obtain rfl := same_cell hc hc'; rw [← ho, ho']; trivial)
    refine wp_pure ⟨g.keeps ?_, ?_⟩
    · rintro b rfl; exact h0
    · rintro r w ⟨⟩ e
      exact .done rfl hx h rfl (g.finish (by rintro m l rfl; exact h0) e)

theorem c53_plusEqRun_aux {n : Nat} {args env : Ref} {ts : List Ref} {v : Vm} (k : Held W args ts env v) (hp : NumberFirst ts v) :
    Wp W n (handle W L n) (Prog.biPlusEq L args env) v fun a u tr => KeepsBuiltins v u ∧ ∀ r w, a = some r → Ends u w → AccrueRun true W ts v r w tr := by
  obtain ⟨x, ys, rfl, hx⟩ := hp
  unfold Prog.biPlusEq
  refine c34_first_aux k ?_
  refine wp_bind (wp_read fun c hc => ?_)
  simp only [List.nil_append]
  rcases id hx with ⟨m, c', hc', ho⟩ | ⟨m, c', hc', ho⟩ <;>
    (obtain rfl := same_cell hc' hc; simp only [ho]; exact c53_accrueRun_aux k.sane k.closed.all ⟨c', hc, ho⟩ hx)

theorem c53_minusEqRun_aux {n : Nat} {args env : Ref} {ts : List Ref} {v : Vm} (k : Held W args ts env v) (hp : NumberFirst ts v) :
    Wp W n (handle W L n) (Prog.biMinusEq args env) v fun a u tr => KeepsBuiltins v u ∧ ∀ r w, a = some r → Ends u w → AccrueRun false W ts v r w tr := by
  obtain ⟨x, ys, rfl, hx⟩ := hp
  unfold Prog.biMinusEq
  refine c34_first_aux k ?_
  refine wp_bind (wp_read fun c hc => ?_)
  simp only [List.nil_append]
  rcases id hx with ⟨m, c', hc', ho⟩ | ⟨m, c', hc', ho⟩ <;>
    (obtain rfl := same_cell hc' hc; simp only [ho]; exact c53_accrueRun_aux k.sane k.closed.all ⟨c', hc, ho⟩ hx)

/-! ### Proofs: characters -/

theorem c53_emod_aux (c : Nat) (k : Int) : ((Int.bmod c (2 ^ 32) + k).emod (2 ^ 32)) = ((c : Int) + k) % 2 ^ 32 := by
  have hm : ∀ a b : Int, a.emod b = a % b := fun _ _ => rfl
  rw [hm]
  have h := Int.bmod_emod (x := c) (m := 2 ^ 32)
  have : ((2 ^ 32 : Nat) : Int) = 2 ^ 32 := by decide
  rw [this] at h
  rw [Int.add_emod, h, ← Int.add_emod]

theorem c53_emodSub_aux (c : Nat) (k : Int) : ((Int.bmod c (2 ^ 32) - k).emod (2 ^ 32)) = ((c : Int) - k) % 2 ^ 32 := by
  have := c53_emod_aux c (-k)
  rwa [← Int.sub_eq_add_neg, ← Int.sub_eq_add_neg] at this

theorem c53_noChr_aux {v : Vm} {x : Ref} {s : Text} (hx : v.HasObj x (.chr s)) (es : List Ref) : ¬ v.HasVec x es := by
  rintro ⟨c2, h1, h2⟩
  obtain ⟨c3, h3, h4⟩ := hx
  cases same_cell h1 h3
  rw [h2] at h4; cases h4

theorem wp_codeOf {n : Nat} {h : Handler} {s : Text} {v : Vm} {Q : Nat → Vm → List Event → Prop} (hq : ∀ c s', s = c :: s' → Q c v []) : Wp W n h (Prog.codeOf s) v Q := by
  unfold Prog.codeOf
  split
  · exact wp_fail
  · exact wp_pure (hq _ _ rfl)

theorem c53_addChar_aux {n : Nat} {h : Handler} {v : Vm} {x y : Ref} {s : Text} (hx : v.HasObj x (.chr s)) (g : Changing W x v v (.chr s))
    (hcl : ∀ t, v.HasObj y (.chr t) → Dern.Spec.Clean t) :
    Wp W n h (Prog.addChar x y) v fun _ u tr => tr = [] ∧
      ((∃ c s' k, s = c :: s' ∧ v.HasObj y (.int k) ∧ Int32 (Int.bmod c (2 ^ 32) + k) ∧ Changing W x v u (.chr [(((c : Int) + k) % 2 ^ 32).toNat])) ∨
       (∃ t, y ≠ x ∧ v.HasObj y (.chr t) ∧ Changing W x v u (.str (s ++ t))) ∨
       ((∀ k, ¬ v.HasObj y (.int k)) ∧ (∀ t, ¬ v.HasObj y (.chr t)) ∧ u = v)) := by
  unfold Prog.addChar
  refine wp_bind (wp_read fun c hc => ?_)
  obtain ⟨c', hc', ho⟩ := id hx
  obtain rfl := same_cell hc' hc
  simp only [ho, List.nil_append]
  refine wp_bind (wp_read fun d hd => ?_)
  simp only [List.nil_append]
  split
  · rename_i k hk
    refine wp_bind (wp_codeOf fun c s' hs => wp_bind (wp_int32 fun hm => wp_setObj fun c2 hc2 => ⟨rfl, .inl ⟨c, s', k, hs, ⟨d, hd, hk⟩, hm, ?_⟩⟩))
    rw [← c53_emod_aux]
    exact g.set hc2 trivial
  · rename_i t ht
    split
    · exact wp_fail
    · rename_i hne
      exact wp_bind (wp_joined (hcl t ⟨d, hd, ht⟩) fun _ => wp_setObj fun c2 hc2 => ⟨rfl, .inr (.inl ⟨t, fun e => hne e.symm, ⟨d, hd, ht⟩, g.set hc2 trivial⟩)⟩)
  · rename_i h1 h2
    refine wp_pure ⟨rfl, .inr (.inr ⟨?_, ?_, rfl⟩)⟩
    · rintro k ⟨d', hd', e⟩
      obtain rfl := same_cell hd hd'
      exact h1 _ e
    · rintro k ⟨d', hd', e⟩
      obtain rfl := same_cell hd hd'
      exact h2 _ e

theorem c53_chrPush_aux {n : Nat} {h : Handler} {u : Vm} {x : Ref} {s : Text} (hx : u.HasObj x (.chr s)) (ys : List Ref) :
    Wp W n h (Prog.each (fun y => do let _ ← Prog.pushText false x y) ys) u fun _ w tr => ys = [] ∧ tr = [] ∧ w = u := by
  cases ys with
  | nil => exact wp_pure ⟨rfl, rfl, rfl⟩
  | cons y ys =>
    unfold Prog.each
    refine wp_bind (wp_bind ?_)
    unfold Prog.pushText
    refine wp_bind (wp_read fun c hc => ?_)
    obtain ⟨c', hc', ho⟩ := id hx
    obtain rfl := same_cell hc' hc
    rw [ho]
    exact wp_fail

theorem c53_chrPop_aux {n : Nat} {h : Handler} {u : Vm} {x : Ref} {s : Text} (hx : u.HasObj x (.chr s)) (ys : List Ref) :
    Wp W n h (Prog.each (fun _ => Prog.popString x) ys) u fun _ w tr => ys = [] ∧ tr = [] ∧ w = u := by
  cases ys with
  | nil => exact wp_pure ⟨rfl, rfl, rfl⟩
  | cons y ys =>
    unfold Prog.each
    refine wp_bind ?_
    unfold Prog.popString
    refine wp_bind (wp_read fun c hc => ?_)
    obtain ⟨c', hc', ho⟩ := id hx
    obtain rfl := same_cell hc' hc
    rw [ho]
    exact wp_fail

theorem c53_charEnd_aux {n : Nat} {h : Handler} {v u : Vm} {x : Ref} {o : Obj} {R : Ref → Vm → List Event → Prop} (g : Changing W x v u o) (h1 : ∀ b, o ≠ .builtin b) (h2 : ∀ m l, o ≠ .err m l)
    (hr : ∀ r w tr, r = x → Becomes W o v x w tr → R r w tr) :
    Wp W n h (pure (some x)) u fun a u tr => KeepsBuiltins v u ∧ ∀ r w, a = some r → Ends u w → R r w tr := by
  refine wp_pure ⟨g.keeps h1, ?_⟩
  rintro r w ⟨⟩ e
  exact hr _ _ _ rfl (g.finish h2 e)

theorem c53_charPlusRun_aux {n : Nat} {args env : Ref} {ts : List Ref} {v : Vm} (k : Held W args ts env v) (hp : CharFirst W ts v) :
    Wp W n (handle W L n) (Prog.biPlusEq L args env) v fun a u tr => KeepsBuiltins v u ∧ ∀ r w, a = some r → Ends u w → CharPlusRun W ts v r w tr := by
  obtain ⟨x, ys, s, rfl, hx, hcl, hys⟩ := hp
  unfold Prog.biPlusEq
  refine c34_first_aux k ?_
  refine wp_bind (wp_read fun c hc => ?_)
  simp only [List.nil_append]
  obtain ⟨c', hc', ho⟩ := id hx
  obtain rfl := same_cell hc' hc
  simp only [ho]
  have g0 : Changing W x v v (.chr s) := .start k.sane k.closed.all hx
  cases ys with
  | nil =>
    unfold Prog.plusEqChar
    exact wp_bind (wp_pure (c53_charEnd_aux g0 (by simp) (by simp) fun r w tr h1 h2 => .alone rfl hx h1 h2))
  | cons y ys =>
    unfold Prog.plusEqChar
    simp only [bind_assoc]
    refine wp_bind (Wp.mono (c53_addChar_aux hx g0 fun t ht => hcl y t rfl ht) ?_)
    rintro _ u tr ⟨rfl, ⟨c, s', m, rfl, hm, hi, g⟩ | ⟨t, hne, ht, g⟩ | ⟨hi, hc, rfl⟩⟩
    · refine wp_bind (Wp.mono (c53_chrPush_aux g.cell ys) ?_)
      rintro _ w tr ⟨rfl, rfl, rfl⟩
      exact c53_charEnd_aux g (by simp) (by simp) fun r w tr h1 h2 => .code rfl hx hm hi h1 h2
    · obtain ⟨us, hus⟩ : ∃ us, List.Forall₂ (AddsText W v x) ys us := by
        replace hys : ∀ y ∈ ys, ∃ t, AddsText W v x y t := hys
        clear k hcl
        induction ys with
        | nil => exact ⟨[], .nil⟩
        | cons y ys ih =>
          obtain ⟨us, h⟩ := ih fun y h => hys y (by simp [h])
          obtain ⟨t, ht⟩ := hys y (by simp)
          exact ⟨t :: us, .cons ht h⟩
      refine wp_bind (Wp.mono (c52_each_aux (v := v) (isSym := false) ys us hus.length_eq ?_ u (s ++ t) g) ?_)
      · intro i e t he ht u s g
        have H : AddsText W v x e t := by
          obtain ⟨hi, rfl⟩ := List.getElem?_eq_some_iff.mp he
          obtain ⟨hi', rfl⟩ := List.getElem?_eq_some_iff.mp ht
          exact (List.forall₂_iff_get.mp hus).2 i hi hi'
        refine wp_bind (Wp.mono (c52_push_aux (c53_noChr_aux hx) H n u s g) ?_)
        rintro _ w tr ⟨rfl, g'⟩
        exact wp_pure ⟨rfl, g'⟩
      · rintro _ u tr ⟨rfl, g⟩
        exact c53_charEnd_aux g (by simp [Prog.ofText]) (by simp [Prog.ofText]) fun r w tr h1 h2 => .join rfl hne hx ht hus h1 h2
    · refine wp_bind (Wp.mono (c53_chrPush_aux hx ys) ?_)
      rintro _ w tr ⟨rfl, rfl, rfl⟩
      exact c53_charEnd_aux g0 (by simp) (by simp) fun r w tr h1 h2 => .ignored rfl hx hi hc h1 h2

theorem c53_subChar_aux {n : Nat} {h : Handler} {v : Vm} {x y : Ref} {s : Text} (hx : v.HasObj x (.chr s)) (g : Changing W x v v (.chr s)) :
    Wp W n h (Prog.subChar x y) v fun _ u tr => tr = [] ∧
      ((∃ c s' k, s = c :: s' ∧ v.HasObj y (.int k) ∧ Int32 (Int.bmod c (2 ^ 32) - k) ∧ Changing W x v u (.chr [(((c : Int) - k) % 2 ^ 32).toNat])) ∨
       (∃ c s' d t, s = c :: s' ∧ v.HasObj y (.chr (d :: t)) ∧ Changing W x v u (.chr [(((c : Int) - d) % 2 ^ 32).toNat])) ∨
       ((∀ k, ¬ v.HasObj y (.int k)) ∧ (∀ t, ¬ v.HasObj y (.chr t)) ∧ u = v)) := by
  unfold Prog.subChar
  refine wp_bind (wp_read fun c hc => ?_)
  obtain ⟨c', hc', ho⟩ := id hx
  obtain rfl := same_cell hc' hc
  simp only [ho, List.nil_append]
  refine wp_bind (wp_read fun d hd => ?_)
  simp only [List.nil_append]
  split
  · rename_i k hk
    refine wp_bind (wp_codeOf fun c s' hs => wp_bind (wp_int32 fun hm => wp_setObj fun c2 hc2 => ⟨rfl, .inl ⟨c, s', k, hs, ⟨d, hd, hk⟩, hm, ?_⟩⟩))
    rw [← c53_emodSub_aux]
    exact g.set hc2 trivial
  · rename_i t ht
    refine wp_bind (wp_codeOf fun c s' hs => wp_bind (wp_codeOf fun e t' ht' => wp_setObj fun c2 hc2 => ⟨rfl, .inr (.inl ⟨c, s', e, t', hs, ?_, g.set hc2 trivial⟩)⟩))
    subst ht'
    exact ⟨d, hd, ht⟩
  · rename_i h1 h2
    refine wp_pure ⟨rfl, .inr (.inr ⟨?_, ?_, rfl⟩)⟩
    · rintro k ⟨d', hd', e⟩
      obtain rfl := same_cell hd hd'
      exact h1 _ e
    · rintro k ⟨d', hd', e⟩
      obtain rfl := same_cell hd hd'
      exact h2 _ e

theorem c53_charMinusRun_aux {n : Nat} {h : Handler} {args env : Ref} {ts : List Ref} {v : Vm} (k : Held W args ts env v) (hp : ∃ x ys s, ts = x :: ys ∧ v.HasObj x (.chr s)) :
    Wp W n h (Prog.biMinusEq args env) v fun a u tr => KeepsBuiltins v u ∧ ∀ r w, a = some r → Ends u w → CharMinusRun W ts v r w tr := by
  obtain ⟨x, ys, s, rfl, hx⟩ := hp
  unfold Prog.biMinusEq
  refine c34_first_aux k ?_
  refine wp_bind (wp_read fun c hc => ?_)
  simp only [List.nil_append]
  obtain ⟨c', hc', ho⟩ := id hx
  obtain rfl := same_cell hc' hc
  simp only [ho]
  have g0 : Changing W x v v (.chr s) := .start k.sane k.closed.all hx
  cases ys with
  | nil =>
    unfold Prog.minusEqChar
    exact wp_bind (wp_pure (c53_charEnd_aux g0 (by simp) (by simp) fun r w tr h1 h2 => .alone rfl hx h1 h2))
  | cons y ys =>
    unfold Prog.minusEqChar
    simp only [bind_assoc]
    refine wp_bind (Wp.mono (c53_subChar_aux hx g0) ?_)
    rintro _ u tr ⟨rfl, ⟨c, s', m, rfl, hm, hi, g⟩ | ⟨c, s', d, t, rfl, ht, g⟩ | ⟨hi, hc, rfl⟩⟩
    · refine wp_bind (Wp.mono (c53_chrPop_aux g.cell ys) ?_)
      rintro _ w tr ⟨rfl, rfl, rfl⟩
      exact c53_charEnd_aux g (by simp) (by simp) fun r w tr h1 h2 => .code rfl hx hm hi h1 h2
    · refine wp_bind (Wp.mono (c53_chrPop_aux g.cell ys) ?_)
      rintro _ w tr ⟨rfl, rfl, rfl⟩
      exact c53_charEnd_aux g (by simp) (by simp) fun r w tr h1 h2 => .codes rfl hx ht h1 h2
    · refine wp_bind (Wp.mono (c53_chrPop_aux hx ys) ?_)
      rintro _ w tr ⟨rfl, rfl, rfl⟩
      exact c53_charEnd_aux g0 (by simp) (by simp) fun r w tr h1 h2 => .ignored rfl hx hi hc h1 h2

/-! ### Proofs: values that cannot be changed -/

theorem c53_unfitPlus_aux {n : Nat} {h : Handler} {args env : Ref} {ts : List Ref} {v : Vm} (k : Held W args ts env v) (hp : UnfitFirst plusFits ts v) :
    Wp W n h (Prog.biPlusEq L args env) v fun a u tr => KeepsBuiltins v u ∧ ∀ r w, a = some r → Ends u w → UnfitRun W ts v r w tr := by
  unfold Prog.biPlusEq
  refine c34_first_aux k ?_
  cases ts with
  | nil => exact giveMono_aux (c34_error_aux k _) (Q := fun v r w tr => UnfitRun W [] v r w tr) fun r w tr g => .none rfl g
  | cons x ys =>
    refine wp_bind (wp_read fun c hc => ?_)
    have hn : ¬ plusFits c.obj := hp x ys _ rfl ⟨c, hc, rfl⟩
    simp only [List.nil_append]
    have bad : (∀ m l, c.obj ≠ .err m l) → ∀ msg, Wp W n h (Prog.error msg) v fun a u tr => KeepsBuiltins v u ∧ ∀ r w, a = some r → Ends u w → UnfitRun W (x :: ys) v r w tr := by
      intro he msg
      refine giveMono_aux (c34_error_aux k _) (Q := fun v r w tr => UnfitRun W (x :: ys) v r w tr) fun r w tr g => .wrong rfl ?_ g
      rintro ⟨m, l, d, hd, e⟩
      obtain rfl := same_cell hc hd
      exact he _ _ e
    cases ho : c.obj <;> rw [ho] at hn bad <;> simp only [] <;> first
      | exact absurd trivial hn
      | exact bad (by simp) _
      | exact giveMono_aux (giveSelf_aux k.sane) (Q := fun v r w tr => UnfitRun W (x :: ys) v r w tr) fun r w tr g => .error rfl ⟨_, _, c, hc, ho⟩ g

theorem c53_unfitMinus_aux {n : Nat} {h : Handler} {args env : Ref} {ts : List Ref} {v : Vm} (k : Held W args ts env v) (hp : UnfitFirst minusFits ts v) :
    Wp W n h (Prog.biMinusEq args env) v fun a u tr => KeepsBuiltins v u ∧ ∀ r w, a = some r → Ends u w → UnfitRun W ts v r w tr := by
  unfold Prog.biMinusEq
  refine c34_first_aux k ?_
  cases ts with
  | nil => exact giveMono_aux (c34_error_aux k _) (Q := fun v r w tr => UnfitRun W [] v r w tr) fun r w tr g => .none rfl g
  | cons x ys =>
    refine wp_bind (wp_read fun c hc => ?_)
    have hn : ¬ minusFits c.obj := hp x ys _ rfl ⟨c, hc, rfl⟩
    simp only [List.nil_append]
    have bad : (∀ m l, c.obj ≠ .err m l) → ∀ msg, Wp W n h (Prog.error msg) v fun a u tr => KeepsBuiltins v u ∧ ∀ r w, a = some r → Ends u w → UnfitRun W (x :: ys) v r w tr := by
      intro he msg
      refine giveMono_aux (c34_error_aux k _) (Q := fun v r w tr => UnfitRun W (x :: ys) v r w tr) fun r w tr g => .wrong rfl ?_ g
      rintro ⟨m, l, d, hd, e⟩
      obtain rfl := same_cell hc hd
      exact he _ _ e
    cases ho : c.obj <;> rw [ho] at hn bad <;> simp only [] <;> first
      | exact absurd trivial hn
      | exact bad (by simp) _
      | exact giveMono_aux (giveSelf_aux k.sane) (Q := fun v r w tr => UnfitRun W (x :: ys) v r w tr) fun r w tr g => .error rfl ⟨_, _, c, hc, ho⟩ g

/-! ### Theorems -/

/-- `++` -/
theorem c53_incr (hL : L.Safe) {v w : Vm} (rv : v.Reached W L) {form env op : Ref} {name : Text} {xs : List Ref}
    (nc : NamedCall W v form env name op xs) (hop : v.HasObj op (.builtin .plusPlus)) {r : Option Ref} {tr : List Event}
    (ev : Evaluates W L v form env r w tr) :
    NamedOpCall W (ArgumentsFirst W form env (Runs .plusPlus op (EachRun Upped W))) v env op r w tr :=
  namedBuiltinStack_aux hL (by simp) (fun _ _ _ _ _ _ _ k top => c53_incrRun_aux k top) rv nc hop ev

/-- `--` -/
theorem c53_decr (hL : L.Safe) {v w : Vm} (rv : v.Reached W L) {form env op : Ref} {name : Text} {xs : List Ref}
    (nc : NamedCall W v form env name op xs) (hop : v.HasObj op (.builtin .minusMinus)) {r : Option Ref} {tr : List Event}
    (ev : Evaluates W L v form env r w tr) :
    NamedOpCall W (ArgumentsFirst W form env (Runs .minusMinus op (EachRun Downed W))) v env op r w tr :=
  namedBuiltinStack_aux hL (by simp) (fun _ _ _ _ _ _ _ k top => c53_decrRun_aux k top) rv nc hop ev

/-- `+=` with a number first -/
theorem c53_plusEq (hL : L.Safe) {v w : Vm} (rv : v.Reached W L) {form env op : Ref} {name : Text} {xs : List Ref}
    (nc : NamedCall W v form env name op xs) (hop : v.HasObj op (.builtin .plusEq)) {r : Option Ref} {tr : List Event}
    (ev : Evaluates W L v form env r w tr) :
    NamedOpCall W (ArgumentsFirst W form env (Runs .plusEq op fun ts u r w tr => NumberFirst ts u → AccrueRun true W ts u r w tr)) v env op r w tr :=
  namedBuiltinPre_aux hL (by simp) (fun _ _ _ _ _ _ _ k hp => c53_plusEqRun_aux k hp) rv nc hop ev

/-- `-=` with a number first -/
theorem c53_minusEq (hL : L.Safe) {v w : Vm} (rv : v.Reached W L) {form env op : Ref} {name : Text} {xs : List Ref}
    (nc : NamedCall W v form env name op xs) (hop : v.HasObj op (.builtin .minusEq)) {r : Option Ref} {tr : List Event}
    (ev : Evaluates W L v form env r w tr) :
    NamedOpCall W (ArgumentsFirst W form env (Runs .minusEq op fun ts u r w tr => NumberFirst ts u → AccrueRun false W ts u r w tr)) v env op r w tr :=
  namedBuiltinPre_aux hL (by simp) (fun _ _ _ _ _ _ _ k hp => c53_minusEqRun_aux k hp) rv nc hop ev

/-- `+=` with a character first -/
theorem c53_plusChar (hL : L.Safe) {v w : Vm} (rv : v.Reached W L) {form env op : Ref} {name : Text} {xs : List Ref}
    (nc : NamedCall W v form env name op xs) (hop : v.HasObj op (.builtin .plusEq)) {r : Option Ref} {tr : List Event}
    (ev : Evaluates W L v form env r w tr) :
    NamedOpCall W (ArgumentsFirst W form env (Runs .plusEq op fun ts u r w tr => CharFirst W ts u → CharPlusRun W ts u r w tr)) v env op r w tr :=
  namedBuiltinPre_aux hL (by simp) (fun _ _ _ _ _ _ _ k hp => c53_charPlusRun_aux k hp) rv nc hop ev

/-- `-=` with a character first -/
theorem c53_minusChar (hL : L.Safe) {v w : Vm} (rv : v.Reached W L) {form env op : Ref} {name : Text} {xs : List Ref}
    (nc : NamedCall W v form env name op xs) (hop : v.HasObj op (.builtin .minusEq)) {r : Option Ref} {tr : List Event}
    (ev : Evaluates W L v form env r w tr) :
    NamedOpCall W (ArgumentsFirst W form env (Runs .minusEq op fun ts u r w tr => (∃ x ys s, ts = x :: ys ∧ u.HasObj x (.chr s)) → CharMinusRun W ts u r w tr)) v env op r w tr :=
  namedBuiltinPre_aux hL (by simp) (fun _ _ _ _ _ _ _ k hp => c53_charMinusRun_aux k hp) rv nc hop ev

/-- `+=` with a first value that cannot be changed -/
theorem c53_plusUnfit (hL : L.Safe) {v w : Vm} (rv : v.Reached W L) {form env op : Ref} {name : Text} {xs : List Ref}
    (nc : NamedCall W v form env name op xs) (hop : v.HasObj op (.builtin .plusEq)) {r : Option Ref} {tr : List Event}
    (ev : Evaluates W L v form env r w tr) :
    NamedOpCall W (ArgumentsFirst W form env (Runs .plusEq op fun ts u r w tr => UnfitFirst plusFits ts u → UnfitRun W ts u r w tr)) v env op r w tr :=
  namedBuiltinPre_aux hL (by simp) (fun _ _ _ _ _ _ _ k hp => c53_unfitPlus_aux k hp) rv nc hop ev

/-- `-=` with a first value that cannot be changed -/
theorem c53_minusUnfit (hL : L.Safe) {v w : Vm} (rv : v.Reached W L) {form env op : Ref} {name : Text} {xs : List Ref}
    (nc : NamedCall W v form env name op xs) (hop : v.HasObj op (.builtin .minusEq)) {r : Option Ref} {tr : List Event}
    (ev : Evaluates W L v form env r w tr) :
    NamedOpCall W (ArgumentsFirst W form env (Runs .minusEq op fun ts u r w tr => UnfitFirst minusFits ts u → UnfitRun W ts u r w tr)) v env op r w tr :=
  namedBuiltinPre_aux hL (by simp) (fun _ _ _ _ _ _ _ k hp => c53_unfitMinus_aux k hp) rv nc hop ev

/-! ### Examples -/
def kit9 : List (String × Obj × Bool) := kit7 ++ [("++", .builtin .plusPlus, true), ("--", .builtin .minusMinus, true)]

theorem kit9_plain : ∀ x ∈ kit9, x.2.1.children = [] := by decide

/-- `(++ 4 7)` -/
example : ∃ (v w : Vm) (form op : Ref) (xs : List Ref) (r : Option Ref) (tr : List Event), v.Reached world library ∧
    NamedCall world v form v.globalEnv (txt "++") op xs ∧ v.HasObj op (.builtin .plusPlus) ∧
    Evaluates world library v form v.globalEnv r w tr ∧ objAt w r = some (.int 8) := by
  obtain ⟨v, form, r, w, tr, hr, of, oe, ev, h⟩ := stage_exists (table := kit9) (forms := []) (fuel := 60)
    (last := .vec [.sym "++", .int 4, .int 7])
    (P := fun v f r w tr => namedCheck v f "++" (.builtin .plusPlus) && decide (objAt w r = some (.int 8))) kit9_plain (by decide +kernel)
  simp only [Bool.and_eq_true, decide_eq_true_eq] at h
  obtain ⟨op, xs, h1, h2, h3⟩ := named_of_check h.1 of oe
  exact ⟨v, w, form, op, xs, r, tr, hr, h1, h2, ev, h.2⟩

/-- `(++ "a")` is an error -/
example : ∃ (v w : Vm) (form op : Ref) (xs : List Ref) (r : Option Ref) (tr : List Event), v.Reached world library ∧
    NamedCall world v form v.globalEnv (txt "++") op xs ∧ v.HasObj op (.builtin .plusPlus) ∧
    Evaluates world library v form v.globalEnv r w tr ∧ (match objAt w r with | some (.err _ _) => true | _ => false) = true := by
  obtain ⟨v, form, r, w, tr, hr, of, oe, ev, h⟩ := stage_exists (table := kit9) (forms := []) (fuel := 60)
    (last := .vec [.sym "++", .str "a"])
    (P := fun v f r w tr => namedCheck v f "++" (.builtin .plusPlus) && decide ((match objAt w r with | some (.err _ _) => true | _ => false) = true)) kit9_plain (by decide +kernel)
  simp only [Bool.and_eq_true, decide_eq_true_eq] at h
  obtain ⟨op, xs, h1, h2, h3⟩ := named_of_check h.1 of oe
  exact ⟨v, w, form, op, xs, r, tr, hr, h1, h2, ev, h.2⟩

/-- `(-- "ab")` -/
example : ∃ (v w : Vm) (form op : Ref) (xs : List Ref) (r : Option Ref) (tr : List Event), v.Reached world library ∧
    NamedCall world v form v.globalEnv (txt "--") op xs ∧ v.HasObj op (.builtin .minusMinus) ∧
    Evaluates world library v form v.globalEnv r w tr ∧ objAt w r = some (.str (txt "a")) := by
  obtain ⟨v, form, r, w, tr, hr, of, oe, ev, h⟩ := stage_exists (table := kit9) (forms := []) (fuel := 60)
    (last := .vec [.sym "--", .str "ab"])
    (P := fun v f r w tr => namedCheck v f "--" (.builtin .minusMinus) && decide (objAt w r = some (.str (txt "a")))) kit9_plain (by decide +kernel)
  simp only [Bool.and_eq_true, decide_eq_true_eq] at h
  obtain ⟨op, xs, h1, h2, h3⟩ := named_of_check h.1 of oe
  exact ⟨v, w, form, op, xs, r, tr, hr, h1, h2, ev, h.2⟩

/-- `(-- 4 (vector))` is an error -/
example : ∃ (v w : Vm) (form op : Ref) (xs : List Ref) (r : Option Ref) (tr : List Event), v.Reached world library ∧
    NamedCall world v form v.globalEnv (txt "--") op xs ∧ v.HasObj op (.builtin .minusMinus) ∧
    Evaluates world library v form v.globalEnv r w tr ∧ (match objAt w r with | some (.err _ _) => true | _ => false) = true := by
  obtain ⟨v, form, r, w, tr, hr, of, oe, ev, h⟩ := stage_exists (table := kit9) (forms := []) (fuel := 60)
    (last := .vec [.sym "--", .int 4, .vec [.sym "vector"]])
    (P := fun v f r w tr => namedCheck v f "--" (.builtin .minusMinus) && decide ((match objAt w r with | some (.err _ _) => true | _ => false) = true)) kit9_plain (by decide +kernel)
  simp only [Bool.and_eq_true, decide_eq_true_eq] at h
  obtain ⟨op, xs, h1, h2, h3⟩ := named_of_check h.1 of oe
  exact ⟨v, w, form, op, xs, r, tr, hr, h1, h2, ev, h.2⟩

/-- `(+= 1 2 "30" (vector 400 "-5" (list 1)))` -/
example : ∃ (v w : Vm) (form op : Ref) (xs : List Ref) (r : Option Ref) (tr : List Event), v.Reached world library ∧
    NamedCall world v form v.globalEnv (txt "+=") op xs ∧ v.HasObj op (.builtin .plusEq) ∧
    Evaluates world library v form v.globalEnv r w tr ∧ objAt w r = some (.int 428) := by
  obtain ⟨v, form, r, w, tr, hr, of, oe, ev, h⟩ := stage_exists (table := kit9) (forms := []) (fuel := 60)
    (last := .vec [.sym "+=", .int 1, .int 2, .str "30", .vec [.sym "vector", .int 400, .str "-5", .vec [.sym "list", .int 1]]])
    (P := fun v f r w tr => namedCheck v f "+=" (.builtin .plusEq) && decide (objAt w r = some (.int 428))) kit9_plain (by decide +kernel)
  simp only [Bool.and_eq_true, decide_eq_true_eq] at h
  obtain ⟨op, xs, h1, h2, h3⟩ := named_of_check h.1 of oe
  exact ⟨v, w, form, op, xs, r, tr, hr, h1, h2, ev, h.2⟩

/-- `(-= 1 2 "x")` -/
example : ∃ (v w : Vm) (form op : Ref) (xs : List Ref) (r : Option Ref) (tr : List Event), v.Reached world library ∧
    NamedCall world v form v.globalEnv (txt "-=") op xs ∧ v.HasObj op (.builtin .minusEq) ∧
    Evaluates world library v form v.globalEnv r w tr ∧ objAt w r = some (.int (-1)) := by
  obtain ⟨v, form, r, w, tr, hr, of, oe, ev, h⟩ := stage_exists (table := kit9) (forms := []) (fuel := 60)
    (last := .vec [.sym "-=", .int 1, .int 2, .str "x"])
    (P := fun v f r w tr => namedCheck v f "-=" (.builtin .minusEq) && decide (objAt w r = some (.int (-1)))) kit9_plain (by decide +kernel)
  simp only [Bool.and_eq_true, decide_eq_true_eq] at h
  obtain ⟨op, xs, h1, h2, h3⟩ := named_of_check h.1 of oe
  exact ⟨v, w, form, op, xs, r, tr, hr, h1, h2, ev, h.2⟩

/-- `(+= (character 97) 2)` -/
example : ∃ (v w : Vm) (form op : Ref) (xs : List Ref) (r : Option Ref) (tr : List Event), v.Reached world library ∧
    NamedCall world v form v.globalEnv (txt "+=") op xs ∧ v.HasObj op (.builtin .plusEq) ∧
    Evaluates world library v form v.globalEnv r w tr ∧ objAt w r = some (.chr (txt "c")) := by
  obtain ⟨v, form, r, w, tr, hr, of, oe, ev, h⟩ := stage_exists (table := kit9) (forms := []) (fuel := 60)
    (last := .vec [.sym "+=", .vec [.sym "character", .int 97], .int 2])
    (P := fun v f r w tr => namedCheck v f "+=" (.builtin .plusEq) && decide (objAt w r = some (.chr (txt "c")))) kit9_plain (by decide +kernel)
  simp only [Bool.and_eq_true, decide_eq_true_eq] at h
  obtain ⟨op, xs, h1, h2, h3⟩ := named_of_check h.1 of oe
  exact ⟨v, w, form, op, xs, r, tr, hr, h1, h2, ev, h.2⟩

/-- `(+= (character 97) (character 98) "cd" 1)` -/
example : ∃ (v w : Vm) (form op : Ref) (xs : List Ref) (r : Option Ref) (tr : List Event), v.Reached world library ∧
    NamedCall world v form v.globalEnv (txt "+=") op xs ∧ v.HasObj op (.builtin .plusEq) ∧
    Evaluates world library v form v.globalEnv r w tr ∧ objAt w r = some (.str (txt "abcd{D+1}")) := by
  obtain ⟨v, form, r, w, tr, hr, of, oe, ev, h⟩ := stage_exists (table := kit9) (forms := []) (fuel := 60)
    (last := .vec [.sym "+=", .vec [.sym "character", .int 97], .vec [.sym "character", .int 98], .str "cd", .int 1])
    (P := fun v f r w tr => namedCheck v f "+=" (.builtin .plusEq) && decide (objAt w r = some (.str (txt "abcd{D+1}")))) kit9_plain (by decide +kernel)
  simp only [Bool.and_eq_true, decide_eq_true_eq] at h
  obtain ⟨op, xs, h1, h2, h3⟩ := named_of_check h.1 of oe
  exact ⟨v, w, form, op, xs, r, tr, hr, h1, h2, ev, h.2⟩

/-- `(-= (character 97) (character 95))` -/
example : ∃ (v w : Vm) (form op : Ref) (xs : List Ref) (r : Option Ref) (tr : List Event), v.Reached world library ∧
    NamedCall world v form v.globalEnv (txt "-=") op xs ∧ v.HasObj op (.builtin .minusEq) ∧
    Evaluates world library v form v.globalEnv r w tr ∧ objAt w r = some (.chr [2]) := by
  obtain ⟨v, form, r, w, tr, hr, of, oe, ev, h⟩ := stage_exists (table := kit9) (forms := []) (fuel := 60)
    (last := .vec [.sym "-=", .vec [.sym "character", .int 97], .vec [.sym "character", .int 95]])
    (P := fun v f r w tr => namedCheck v f "-=" (.builtin .minusEq) && decide (objAt w r = some (.chr [2]))) kit9_plain (by decide +kernel)
  simp only [Bool.and_eq_true, decide_eq_true_eq] at h
  obtain ⟨op, xs, h1, h2, h3⟩ := named_of_check h.1 of oe
  exact ⟨v, w, form, op, xs, r, tr, hr, h1, h2, ev, h.2⟩

/-- `(+= + 1)` is an error -/
example : ∃ (v w : Vm) (form op : Ref) (xs : List Ref) (r : Option Ref) (tr : List Event), v.Reached world library ∧
    NamedCall world v form v.globalEnv (txt "+=") op xs ∧ v.HasObj op (.builtin .plusEq) ∧
    Evaluates world library v form v.globalEnv r w tr ∧ (match objAt w r with | some (.err _ _) => true | _ => false) = true := by
  obtain ⟨v, form, r, w, tr, hr, of, oe, ev, h⟩ := stage_exists (table := kit9) (forms := []) (fuel := 60)
    (last := .vec [.sym "+=", .sym "+", .int 1])
    (P := fun v f r w tr => namedCheck v f "+=" (.builtin .plusEq) && decide ((match objAt w r with | some (.err _ _) => true | _ => false) = true)) kit9_plain (by decide +kernel)
  simp only [Bool.and_eq_true, decide_eq_true_eq] at h
  obtain ⟨op, xs, h1, h2, h3⟩ := named_of_check h.1 of oe
  exact ⟨v, w, form, op, xs, r, tr, hr, h1, h2, ev, h.2⟩

/-- `(-= (list 1) 1)` is an error -/
example : ∃ (v w : Vm) (form op : Ref) (xs : List Ref) (r : Option Ref) (tr : List Event), v.Reached world library ∧
    NamedCall world v form v.globalEnv (txt "-=") op xs ∧ v.HasObj op (.builtin .minusEq) ∧
    Evaluates world library v form v.globalEnv r w tr ∧ (match objAt w r with | some (.err _ _) => true | _ => false) = true := by
  obtain ⟨v, form, r, w, tr, hr, of, oe, ev, h⟩ := stage_exists (table := kit9) (forms := []) (fuel := 60)
    (last := .vec [.sym "-=", .vec [.sym "list", .int 1], .int 1])
    (P := fun v f r w tr => namedCheck v f "-=" (.builtin .minusEq) && decide ((match objAt w r with | some (.err _ _) => true | _ => false) = true)) kit9_plain (by decide +kernel)
  simp only [Bool.and_eq_true, decide_eq_true_eq] at h
  obtain ⟨op, xs, h1, h2, h3⟩ := named_of_check h.1 of oe
  exact ⟨v, w, form, op, xs, r, tr, hr, h1, h2, ev, h.2⟩

/-- what the theorems require is met: an integer, a character, a string and a nil -/
example (v : Vm) : ∃ u : Vm, NumberFirst [0, 2] u ∧ CharFirst world [1, 1, 2] u ∧ UnfitFirst plusFits [3, 0] u ∧ UnfitFirst minusFits [3] u := by
  let m : Mem := fun x => if x = 0 then some { obj := .int 5, uid := 0 } else if x = 1 then some { obj := .chr [98], uid := 1 } else
    if x = 2 then some { obj := .str [99], uid := 2 } else if x = 3 then some { obj := .nil, uid := 3 } else none
  have c1 : Dern.Spec.Clean [98] := by intro c hc; simp at hc; subst hc; decide
  have c2 : Dern.Spec.Clean [99] := by intro c hc; simp at hc; subst hc; decide
  refine ⟨{ v with mem := m }, ⟨0, [2], rfl, .inl ⟨5, _, rfl, rfl⟩⟩, ⟨1, [1, 2], [98], rfl, ⟨_, rfl, rfl⟩, ?_, ?_⟩, ?_, ?_⟩
  · rintro y t ⟨⟩ ⟨c, h1, h2⟩
    cases h1; cases h2; exact c1
  · intro y hy
    simp only [List.tail_cons, List.mem_cons, List.not_mem_nil, or_false] at hy
    subst hy
    exact ⟨[99], .text (by decide) (.str ⟨_, rfl, rfl⟩) c2⟩
  · rintro x ys o ⟨⟩ ⟨c, h1, rfl⟩ h
    cases h1; exact h
  · rintro x ys o ⟨⟩ ⟨c, h1, rfl⟩ h
    cases h1; exact h

end Dern.Props
