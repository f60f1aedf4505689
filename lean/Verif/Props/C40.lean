import Verif.Props.C31
import Verif.Props.C34
import Verif.Dern.Apply
/-
C40: `for` visits the elements of a container, or the integers of a range, in order.

For every reachable state and every call of `for` (see `Calling.lean` for the vocabulary): which forms are
evaluated, in which order and environment, to what the counter is bound in each turn, and the result, the
number of completed turns.

`(for x in container body…)` and `(for x from a to b body…)`; `step n` may come before the body.
As the code has it, the size of the steps is also the first form of the body, the word between the ends of
a range is not looked at, and the start of a range is read again in each turn.
-/
namespace Dern.Props
open Dern
open Dern.Prog (Library)
variable {W : World} {L : Library}

/-- `is` are the multiples of `step` below `len`, in increasing order -/
structure Multiples (len step : Nat) (is : List Nat) : Prop where
  sorted : is.Pairwise (· < ·)
  mem : ∀ i, i ∈ is ↔ i < len ∧ step ∣ i

/-- the container `c` has `len` elements in the state `v` -/
inductive Sized (v : Vm) (c : Ref) : Nat → Prop
  | str {s} : v.HasObj c (.str s) → Sized v c s.length
  | vec {es} : v.HasObj c (.vec es) → Sized v c es.length
  | list {es} : v.HasObj c (.list es) → Sized v c es.length
  | queue {m es} : v.HasObj c (.queue m es) → Sized v c es.length
  | hmap {k es} : v.HasObj c (.hmap k es) → Sized v c es.length
  | env {bs e} : v.HasObj c (.env bs e) → Sized v c bs.length

/-- In the state `v`, `x` is the `i`-th element of the container `c`: of a vector, list or queue the element
itself; of a string a new character, of a hash map or environment a new vector of key and value, which
are there in the state `u`.  (The order of the bindings of an environment is not part of the model.) -/
inductive Element (W : World) (c : Ref) (i : Nat) (v u : Vm) (x : Ref) : Prop
  | vec {es} : v.HasObj c (.vec es) → es[i]? = some x → Element W c i v u x
  | list {es} : v.HasObj c (.list es) → es[i]? = some x → Element W c i v u x
  | queue {m es} : v.HasObj c (.queue m es) → es[i]? = some x → Element W c i v u x
  | str {s ch} : v.HasObj c (.str s) → s[i]? = some ch → ¬ v.Old W x → u.HasObj x (.chr [ch]) → Element W c i v u x
  | hmap {m es k y} : v.HasObj c (.hmap m es) → es[i]? = some (k, y) → ¬ v.Old W x → u.HasObj x (.vec [k, y]) →
      Element W c i v u x
  | env {bs e b} : v.HasObj c (.env bs e) → b ∈ bs → ¬ v.Old W x → u.HasObj x (.vec [b.key, b.val]) →
      Element W c i v u x

/-- In the state `v` the start of the range is the integer `n`; `x` is a new integer, which is `i` more
(or less) than `n`, as 32-bit numbers. -/
def Counter (W : World) (start : Ref) (up : Bool) (i : Nat) (v u : Vm) (x : Ref) : Prop :=
  ∃ n m : Int, v.HasObj start (.int n) ∧ ¬ v.Old W x ∧ u.HasObj x (.int m) ∧ -2147483648 ≤ m ∧ m ≤ 2147483647 ∧
    ∃ q : Int, m = (if up then n + i else n - i) + q * 4294967296

/-- From `v` to `u` the name that is the symbol `sym` gets bound to `x` in the environment `env`, and
nothing else happens. -/
structure CounterBound (W : World) (env sym x : Ref) (v u : Vm) : Prop where
  quiet : Vm.Quiet W (fun r => r = env) v u
  bound : ∃ name bs bs' enc, v.HasObj sym (.sym name) ∧ v.HasObj env (.env bs enc) ∧ u.HasObj env (.env bs' enc) ∧
    ∀ s, (bs'.find? fun b => b.name = s).map (·.val) = if s = name then some x else (bs.find? fun b => b.name = s).map (·.val)

/-- The turns for the indices given, from `v` to `w`: in each turn the counter gets its value, which is
bound to the symbol, and the body is passed through.  `k` is the number of completed turns; at the
end all indices are used up (`none`), or the loop is left with a value. -/
inductive ForLoop (W : World) (env sym : Ref) (body : List Ref) (Next : Nat → Vm → Vm → Ref → Prop) :
    List Nat → Vm → List Event → Vm → Nat → Option Ref → Prop
  | all {v} : ForLoop W env sym body Next [] v [] v 0 none
  | turn {i is v m x u tr w tr' z k o} : Next i v m x → Vm.Quiet W nobody v m → CounterBound W env sym x m u →
      BodyPass W env u body tr w none → ForLoop W env sym body Next is w tr' z k o →
      ForLoop W env sym body Next (i :: is) v (tr ++ tr') z (k + 1) o
  | left {i is v m x u tr w r} : Next i v m x → Vm.Quiet W nobody v m → CounterBound W env sym x m u →
      BodyPass W env u body tr w (some r) → ForLoop W env sym body Next (i :: is) v tr w 0 (some r)

/-- How `for` ends, in the state `u` after `k` completed turns -/
inductive ForEnd (W : World) (k : Nat) (u : Vm) (r : Ref) (w : Vm) : Option Ref → Prop
  | done : Vm.Quiet W nobody u w → ¬ u.Old W r → w.HasObj r (.int k) → ForEnd W k u r w none
  | left : Ends u w → ForEnd W k u r w (some r)

/-- the size of the steps and the body, from the arguments `xs` after the container or the range -/
inductive StepsBody (v : Vm) (xs : List Ref) : Nat → List Ref → Prop
  | one {y ys} : xs = y :: ys → ¬ v.HasObj y (.sym (txt "step")) → StepsBody v xs 1 xs
  | given {y z ys k} : xs = y :: z :: ys → v.HasObj y (.sym (txt "step")) → v.HasObj z (.int (k : Nat)) → 0 < k →
      StepsBody v xs k (z :: ys)

/-- the size of the steps is missing or wrong -/
def StepsWrong (v : Vm) (xs : List Ref) : Prop :=
  ∃ y ys, xs = y :: ys ∧ v.HasObj y (.sym (txt "step")) ∧ ∀ z, ys.head? = some z → ∀ n : Int, 0 < n → ¬ v.HasObj z (.int n)

/-- From the state `v`: a new environment enclosed by `env`, the turns for the multiples of the step below
`len`, and the end. -/
inductive ForAll (W : World) (env sym : Ref) (Next : Nat → Vm → Vm → Ref → Prop) (len : Nat) (v : Vm) (xs : List Ref)
    (r : Ref) (w : Vm) : List Event → Prop
  | step : StepsWrong v xs → Vm.Quiet W nobody v w → w.IsErr r → ForAll W env sym Next len v xs r w []
  | run {step body is ext v1 tr u k o} : StepsBody v xs step body → Multiples len step is → Vm.Quiet W nobody v v1 →
      ¬ v.Old W ext → v1.HasObj ext (.env [] (some env)) → ForLoop W ext sym body Next is v1 tr u k o →
      ForEnd W k u r w o → ForAll W env sym Next len v xs r w tr

/-- What `for` does with the arguments `xs` in the state `v`. -/
inductive ForRun (W : World) (v : Vm) (xs : List Ref) (env r : Ref) (w : Vm) : List Event → Prop
  | count : xs.length < 4 → Vm.Quiet W nobody v w → w.IsErr r → ForRun W v xs env r w []
  | name {sym ys} : xs = sym :: ys → (∀ s, ¬ v.HasObj sym (.sym s)) → Vm.Quiet W nobody v w → w.IsErr r →
      ForRun W v xs env r w []
  | word {sym kind ys} : xs = sym :: kind :: ys → (∀ s, ¬ v.HasObj kind (.sym s)) → Vm.Quiet W nobody v w → w.IsErr r →
      ForRun W v xs env r w []
  | noContainer {sym kind c ys e t} : xs = sym :: kind :: c :: ys → v.HasObj kind (.sym (txt "in")) →
      Evals W v c env e t → (∀ len, ¬ Sized e.post t len) → Vm.Quiet W nobody e.post w → w.IsErr r →
      ForRun W v xs env r w [e]
  | inside {sym kind c ys e t len tr} : xs = sym :: kind :: c :: ys → v.HasObj kind (.sym (txt "in")) →
      Evals W v c env e t → Sized e.post t len → ForAll W env sym (Element W t) len e.post ys r w tr →
      ForRun W v xs env r w (e :: tr)
  | noStart {sym kind a ys e t} : xs = sym :: kind :: a :: ys → v.HasObj kind (.sym (txt "from")) →
      Evals W v a env e t → (∀ n, ¬ e.post.HasObj t (.int n)) → Vm.Quiet W nobody e.post w → w.IsErr r →
      ForRun W v xs env r w [e]
  | noStop {sym kind a mid e t} : xs = [sym, kind, a, mid] → v.HasObj kind (.sym (txt "from")) →
      Evals W v a env e t → e.post.quit = true → Vm.Quiet W nobody e.post w → w.IsErr r → ForRun W v xs env r w [e]
  | kinds {sym kind a mid b ys e t n e' t' o o'} : xs = sym :: kind :: a :: mid :: b :: ys → v.HasObj kind (.sym (txt "from")) →
      Evals W v a env e t → e.post.HasObj t (.int n) → Evals W e.post b env e' t' →
      e'.post.HasObj t o → e'.post.HasObj t' o' → o'.tag ≠ o.tag → Vm.Quiet W nobody e'.post w → w.IsErr r →
      ForRun W v xs env r w [e, e']
  | range {sym kind a mid b ys e t n e' t' i j tr} : xs = sym :: kind :: a :: mid :: b :: ys → v.HasObj kind (.sym (txt "from")) →
      Evals W v a env e t → e.post.HasObj t (.int n) → Evals W e.post b env e' t' →
      e'.post.HasObj t (.int i) → e'.post.HasObj t' (.int j) →
      ForAll W env sym (Counter W t (decide (i ≤ j))) (i - j).natAbs.succ e'.post ys r w tr →
      ForRun W v xs env r w (e :: e' :: tr)
  | rangeStep {sym kind a mid b ys e t n e' t'} : xs = sym :: kind :: a :: mid :: b :: ys → v.HasObj kind (.sym (txt "from")) →
      Evals W v a env e t → e.post.HasObj t (.int n) → Evals W e.post b env e' t' →
      StepsWrong e'.post ys → Vm.Quiet W nobody e'.post w → w.IsErr r → ForRun W v xs env r w [e, e']


/-! ### proofs -/

theorem c40_indices_aux (len step : Nat) (hs : 0 < step) : Multiples len step (Prog.indices len step) where
  sorted := by
    unfold Prog.indices
    rw [List.pairwise_map]
    exact List.pairwise_lt_range.imp fun h => Nat.mul_lt_mul_of_pos_right h hs
  mem := by
    intro i
    unfold Prog.indices
    simp only [List.mem_map, List.mem_range]
    constructor
    · rintro ⟨q, hq, rfl⟩
      refine ⟨?_, Dvd.intro_left q rfl⟩
      rw [Nat.lt_iff_add_one_le, Nat.le_div_iff_mul_le hs, Nat.add_mul] at hq
      omega
    · rintro ⟨hi, q, rfl⟩
      refine ⟨q, ?_, Nat.mul_comm q step⟩
      rw [Nat.lt_iff_add_one_le, Nat.le_div_iff_mul_le hs, Nat.add_mul, Nat.mul_comm q]
      omega

theorem wp_popAll {n : Nat} {h : Handler} : ∀ (rs : List Ref) (v : Vm) {Q : Unit → Vm → List Event → Prop},
    (∀ s, Q () { v with stack := s } []) → Wp W n h (Prog.popAll rs) v Q := by
  intro rs
  induction rs with
  | nil => intro v Q hq; exact wp_pure (hq v.stack)
  | cons r rs ih =>
    intro v Q hq
    unfold Prog.popAll
    exact wp_bind (wp_pop fun s hs => ih _ fun s' => hq s')

theorem wps_popAll {n : Nat} {h : Handler} {X E : Ref → Prop} {v0 : Vm} : ∀ (rs : List Ref) (v : Vm) {Q : Unit → Vm → List Event → Prop},
    Vm.Step W X E v0 v → (∀ s, Vm.Step W X E v0 { v with stack := s } → Q () { v with stack := s } []) →
    Wp W n h (Prog.popAll rs) v Q := by
  intro rs
  induction rs with
  | nil => intro v Q g hq; exact wp_pure (hq v.stack g)
  | cons r rs ih =>
    intro v Q g hq
    unfold Prog.popAll
    exact wp_bind (wp_pop fun s hs => ih _ (g.pop hs) fun s' g' => hq s' g')

theorem c40_body_aux {n : Nat} {h : Handler} (F : Fine W h) {args env : Ref} {xs : List Ref} :
    ∀ k i v, i + k = xs.length → Held W args xs env v → ∀ Q : Option Ref → Vm → List Event → Prop,
    (∀ u tr o, BodyPass W env v (xs.drop i) tr u o → Held W args xs env u → v.births ≤ u.births → Q o u tr) →
    Wp W n h (Prog.forBody args env k i) v Q := by
  intro k
  induction k with
  | zero =>
    intro i v hi k Q h1
    rw [List.drop_eq_nil_of_le (by omega)] at h1
    exact wp_pure (h1 v [] _ .all k (Nat.le_refl _))
  | succ m ih =>
    intro i v hi k Q h1
    have hi1 : i < xs.length := by omega
    rw [List.drop_eq_getElem_cons hi1] at h1
    unfold Prog.forBody
    refine wp_bind (wp_evalReq F k hi1 fun x t u hx ku gu hs hp => ?_)
    rw [List.getElem?_eq_getElem hi1] at hx
    cases hx
    refine wp_bind (wp_read fun d hd => ?_)
    have ev : Evals W v xs[i] env ⟨xs[i], env, v, some t, u⟩ t := ⟨rfl, rfl, rfl, .refl v⟩
    simp only [List.nil_append]
    split
    · rename_i msg l ho
      exact wp_pure (h1 u _ _ (.failed ev ⟨msg, l, d, hd, ho⟩) ku gu.later.births)
    · rename_i hno
      have ne : ¬ u.IsErr t := by
        rintro ⟨m, l, d', hd', ho'⟩
        obtain rfl := same_cell hd hd'
        exact hno m l ho'
      refine wp_bind (wp_getReturn ?_)
      split
      · rename_i x hx
        exact wp_pure (h1 u _ _ (.returned ev ne hx) ku gu.later.births)
      · rename_i hx
        refine ih (i + 1) u (by omega) ku _ ?_
        intro u' tr o hb ku' hbi
        exact h1 u' _ o (.next ev ne hx hb) ku' (Nat.le_trans gu.later.births hbi)

theorem c40_assign_aux {n : Nat} {h : Handler} {args ext sym x : Ref} {xs : List Ref} {v : Vm} (k : Held W args xs ext v)
    (hs : sym ∈ xs) (hx : v.Pub W (fun x => x = args) x) {Q : Unit → Vm → List Event → Prop}
    (hq : ∀ u, CounterBound W ext sym x v u → Held W args xs ext u → u.births = v.births → Q () u []) :
    Wp W n h (Prog.envSet ext sym x) v Q := by
  refine wp_envSet fun c bs enc name hc ho hn => ?_
  have hp := k.closed.pub ext c hc k.env.2
  have hpo : PubObj (v.Pub W fun x => x = args) (.env bs enc) := ho ▸ hp.obj
  have g : Vm.Step W (fun x => x = args) (fun r => r = ext) v
      { v with mem := v.mem.set ext { c with obj := .env (Prog.setBinding bs ⟨name, sym, x⟩) enc } } := by
    refine k.here.modify (.inl rfl) hc rfl rfl ⟨⟨?_, hpo.2⟩, hp.docstr, hp.docvec⟩
    intro b hb
    rcases mem_setBinding hb with rfl | hb
    · exact ⟨k.pub _ hs, hx⟩
    · exact hpo.1 b hb
  refine hq _ ⟨g.quiet, name, bs, _, enc, hn, ⟨c, hc, ho⟩, ⟨_, Mem.set_self _ _ _, rfl⟩, ?_⟩ ?_ rfl
  · intro s
    rw [find_setBinding]
    by_cases e : name = s
    · simp [e]
    · simp [e, Ne.symm e]
  · refine ⟨g.sane, g.closed, ?_, k.env, k.pub⟩
    rcases k.vec with ⟨d, hd, hdo⟩ | e
    · exact .inl ⟨d, (Mem.set_other _ _ (fun e => k.env.2 e.symm)).trans hd, hdo⟩
    · exact .inr ((Mem.set_other _ _ (fun e => k.env.2 e.symm)).trans e)

/-- how the loop function reports that -/
def forReport (count : Int) : Option Ref → Ref ⊕ Int
  | none => .inr count
  | some r => .inl r

theorem c40_loop_aux {n : Nat} {h : Handler} (F : Fine W h) {args ext sym : Ref} {xs : List Ref} (hsym : sym ∈ xs)
    {k first : Nat} (hk : first + k = xs.length) {P : Vm → Prop} (hP : ∀ v w : Vm, v.births ≤ w.births → P v → P w)
    {next : Nat → Prog Ref} {Next : Nat → Vm → Vm → Ref → Prop}
    (hnext : ∀ i v, Held W args xs ext v → P v → Wp W n h (next i) v fun x u t => t = [] ∧
      Vm.Step W (fun x => x = args) nobody v u ∧ u.Pub W (fun x => x = args) x ∧ Next i v u x) :
    ∀ is (count : Int) v, Held W args xs ext v → P v → ∀ Q : Ref ⊕ Int → Vm → List Event → Prop,
    (∀ u tr j o, ForLoop W ext sym (xs.drop first) Next is v tr u j o → Held W args xs ext u →
      Q (forReport (count + j) o) u tr) →
    Wp W n h (Prog.forTurns next args ext sym k first is count) v Q := by
  intro is
  induction is with
  | nil =>
    intro count v kv pv Q hq
    exact wp_pure (by simpa [forReport] using hq v [] 0 none .all kv)
  | cons i is ih =>
    intro count v kv pv Q hq
    unfold Prog.forTurns
    refine wp_bind (Wp.mono (hnext i v kv pv) ?_)
    rintro x m t ⟨rfl, gm, hx, hn⟩
    have km := kv.step gm
    refine wp_bind (c40_assign_aux km hsym hx fun u ha ku hb => ?_)
    refine wp_bind (c40_body_aux F _ _ u hk ku _ fun w tr o hp kw hbw => ?_)
    simp only [List.nil_append]
    have pw : P w := hP _ _ (Nat.le_trans gm.quiet.births (Nat.le_trans (Nat.le_of_eq hb.symm) hbw)) pv
    cases o with
    | some r => exact wp_pure (by simpa [forReport] using hq w tr 0 (some r) (.left hn gm.quiet ha hp) kw)
    | none =>
      dsimp only
      split
      · exact wp_fail
      · refine ih (count + 1) w kw pw _ fun z tr' j o hl kz => ?_
        have := hq z _ (j + 1) o (.turn hn gm.quiet ha hp hl) kz
        cases o with
        | some r => simpa [forReport] using this
        | none =>
          have e : count + 1 + (j : Int) = count + ((j + 1 : Nat) : Int) := by omega
          rw [e]
          simpa using this

theorem c40_pair_aux {n : Nat} {h : Handler} {X : Ref → Prop} {v0 v : Vm} (g : Vm.Step W X nobody v0 v) {k y : Ref}
    (hk : v.Pub W X k) (hy : v.Pub W X y) {Q : Ref → Vm → List Event → Prop}
    (hq : ∀ x u, Vm.Step W X nobody v0 u → u.Pub W X x → ¬ v0.Old W x → u.HasObj x (.vec [k, y]) → Q x u []) :
    Wp W n h (Prog.pairVec k y) v Q := by
  unfold Prog.pairVec
  refine wp_bind (wp_alloc g.sane fun r w a => ?_)
  have gw := g.alloc a (by intro x hx; cases hx)
  have hb : v.births ≤ w.births := by rw [a.births]; omega
  have fr : ¬ v0.Old W r := fun h => a.fresh (h.mono g.quiet.births)
  refine wp_bind (wp_append fun c es hc ho => ?_)
  obtain rfl := same_cell hc a.cell
  cases ho
  have g1 := gw.modify (.inr fr) a.cell (d := { obj := .vec ([] ++ [k]), uid := v.nextUid }) rfl rfl
    ⟨by intro x hx; rw [List.nil_append, List.mem_singleton] at hx; subst hx; exact hk.mono hb, by simp [PubOpt], by simp [PubOpt]⟩
  refine wp_bind (wp_append fun c es hc ho => ?_)
  obtain rfl := same_cell hc (Mem.set_self _ _ _)
  cases ho
  have g2 := g1.modify (.inr fr) (Mem.set_self _ _ _) (d := { obj := .vec ([] ++ [k] ++ [y]), uid := v.nextUid }) rfl rfl
    ⟨by
      intro x hx
      simp only [List.nil_append, List.singleton_append, List.mem_cons, List.not_mem_nil, or_false] at hx
      rcases hx with rfl | rfl
      · exact hk.mono hb
      · exact hy.mono hb, by simp [PubOpt], by simp [PubOpt]⟩
  exact wp_pure (hq r _ g2 (a.pub g.closed) fr ⟨_, Mem.set_self _ _ _, rfl⟩)

theorem c40_element_aux {n : Nat} {h : Handler} {args ext c : Ref} {xs : List Ref} {gen : Nat} (i : Nat) (v : Vm)
    (k : Held W args xs ext v) (hp : v.Pub W (fun x => x = args) c) :
    Wp W n h (Prog.forElement c gen i) v fun x u t => t = [] ∧
      Vm.Step W (fun x => x = args) nobody v u ∧ u.Pub W (fun x => x = args) x ∧ Element W c i v u x := by
  unfold Prog.forElement
  refine wp_bind (wp_read fun d hd => ?_)
  split
  · exact wp_fail
  have hpub := (k.closed.pub c d hd hp.2).obj
  split
  · rename_i s ho
    split
    · rename_i ch hch
      refine wp_alloc k.sane fun r w a => ?_
      exact ⟨rfl, k.here.alloc a trivial, a.pub k.closed, .str ⟨d, hd, ho⟩ hch a.fresh ⟨_, a.cell, rfl⟩⟩
    · exact wp_fail
  · rename_i es ho
    rw [ho] at hpub
    split
    · rename_i x hx
      exact wp_pure ⟨rfl, k.here, hpub x (List.mem_of_getElem? hx), .vec ⟨d, hd, ho⟩ hx⟩
    · exact wp_fail
  · rename_i m es ho
    rw [ho] at hpub
    split
    · rename_i x hx
      exact wp_pure ⟨rfl, k.here, hpub x (List.mem_of_getElem? hx), .queue ⟨d, hd, ho⟩ hx⟩
    · exact wp_fail
  · rename_i es ho
    rw [ho] at hpub
    split
    · rename_i x hx
      exact wp_pure ⟨rfl, k.here, hpub x (List.mem_of_getElem? hx), .list ⟨d, hd, ho⟩ hx⟩
    · exact wp_fail
  · rename_i m es ho
    rw [ho] at hpub
    split
    · rename_i e he
      have := hpub e (List.mem_of_getElem? he)
      refine c40_pair_aux k.here this.1 this.2 fun x u gu hx fr ho' => ⟨rfl, gu, hx, .hmap ⟨d, hd, ho⟩ he fr ho'⟩
    · exact wp_fail
  · rename_i bs enc ho
    rw [ho] at hpub
    refine wp_bind (wp_arrange ?_)
    rintro ⟨q, es⟩ hperm
    dsimp only
    split
    · rename_i e he
      have hm : e ∈ bs.map fun b => (b.key, b.val) := hperm.mem_iff.mp (List.mem_of_getElem? he)
      obtain ⟨b, hb, rfl⟩ := List.mem_map.mp hm
      have := hpub.1 b hb
      refine c40_pair_aux k.here.tick this.1 this.2 fun x u gu hx fr ho' => ⟨rfl, gu, hx, .env ⟨d, hd, ho⟩ hb fr ho'⟩
    · exact wp_fail
  · exact wp_fail

theorem wp_copyHeld {n : Nat} {h : Handler} (F : Fine W h) (C : Copies W h) {args env x : Ref} {xs : List Ref} {v : Vm}
    (k : Held W args xs env v) (hx : v.Pub W (fun x => x = args) x) {Q : Ref → Vm → List Event → Prop}
    (hq : ∀ r w, Vm.Step W (fun x => x = args) nobody v w → ¬ v.Old W r → w.Pub W (fun x => x = args) r →
      Copied (fun z => ¬ v.Old W z) v.mem w.mem x r → Q r w []) : Wp W n h (Prog.copyOf x) v Q := by
  unfold Prog.copyOf
  refine wp_bind (wp_call fun a w t e => wp_deref fun r ha => ?_)
  subst ha
  obtain ⟨sw, rfl, q, fresh⟩ := F.copy _ _ _ _ _ k.sane e
  have := F.spec (fun x => x = args) (.copy x) v v.stack k.sane k.closed (by simpa [Call.refs] using hx) rfl
  rw [e] at this
  obtain ⟨_, r', hr', ok⟩ := C _ _ _ _ _ k.sane k.closed.open' hx.1 e
  cases hr'
  exact hq r w ⟨k.sane, sw, this.1.closed, q⟩ (fresh r rfl) (this.2.2 r rfl) ok.copied

theorem c40_number_aux {n : Nat} {h : Handler} (F : Fine W h) (C : Copies W h) {args ext c : Ref} {xs : List Ref} {up : Bool}
    (i : Nat) (v : Vm) (k : Held W args xs ext v) (hp : v.Pub W (fun x => x = args) c) :
    Wp W n h (Prog.forNumber c up i) v fun x u t => t = [] ∧
      Vm.Step W (fun x => x = args) nobody v u ∧ u.Pub W (fun x => x = args) x ∧ Counter W c up i v u x := by
  unfold Prog.forNumber
  refine wp_bind (wp_copyHeld F C k hp fun r w g fr hr cp => ?_)
  refine wp_bind (wp_read fun d hd => ?_)
  split
  · rename_i m ho
    have hc : v.HasObj c (.int m) := by
      cases cp with
      | simple h1 h2 _ _ h5 => obtain rfl := same_cell hd h2; exact ⟨_, h1, h5 ▸ ho⟩
      | @seq _ _ c0 _ _ h1 h2 _ h4 h5 =>
        obtain rfl := same_cell hd h2
        rw [h5] at ho
        revert h4 ho
        cases c0.obj <;> simp [Obj.elems, Obj.refill]
      | hmap _ h2 _ _ h5 => obtain rfl := same_cell hd h2; rw [h5] at ho; cases ho
    refine wp_bind (wp_setObj fun d' hd' => ?_)
    obtain rfl := same_cell hd hd'
    have pc := g.closed.pub r d hd hr.2
    have g' := g.modify (.inr fr) hd (d := { d with obj := .int (Int.bmod (if up = true then m + i else m - i) (2 ^ 32)) }) rfl rfl
      ⟨trivial, pc.docstr, pc.docvec⟩
    refine wp_pure ⟨rfl, g', hr, m, _, hc, fr, ⟨_, Mem.set_self _ _ _, rfl⟩, ?_⟩
    generalize (if up = true then m + (i : Int) else m - i) = z
    have h1 := Int.le_bmod (x := z) (m := 2 ^ 32) (by decide)
    have h2 := Int.bmod_lt (x := z) (m := 2 ^ 32) (by decide)
    obtain ⟨q, hq⟩ : ((2 ^ 32 : Nat) : Int) ∣ z.bmod (2 ^ 32) - z := Int.dvd_bmod_sub_self
    refine ⟨by omega, by omega, q, ?_⟩
    omega
  · exact wp_fail

theorem wp_isSymbol {n : Nat} {h : Handler} {v : Vm} {x : Ref} {s : Text} {Q : Bool → Vm → List Event → Prop}
    (hq : ∀ b : Bool, (b = true ↔ v.HasObj x (.sym s)) → Q b v []) : Wp W n h (Prog.isSymbol x s) v Q := by
  unfold Prog.isSymbol
  refine wp_bind (wp_read fun c hc => ?_)
  split
  · rename_i t ho
    refine wp_pure (hq _ ?_)
    rw [decide_eq_true_eq]
    constructor
    · rintro rfl; exact ⟨c, hc, ho⟩
    · rintro ⟨d, hd, ho'⟩
      obtain rfl := same_cell hc hd
      rw [ho] at ho'; cases ho'; rfl
  · rename_i hno
    refine wp_pure (hq _ ?_)
    constructor
    · intro e; cases e
    · rintro ⟨d, hd, ho'⟩
      obtain rfl := same_cell hc hd
      exact absurd ho' (hno s)

theorem c40_step_aux {n : Nat} {h : Handler} {args env : Ref} {xs rest : List Ref} {v : Vm} (k : Held W args xs env v)
    {i : Nat} {Q : Option Ref ⊕ Nat × Nat → Vm → List Event → Prop}
    (h1 : ∀ r w, StepsWrong v (xs.drop i) → Vm.Quiet W nobody v w → w.IsErr r → Q (.inl (some r)) w [])
    (h2 : ∀ step first, StepsBody v (xs.drop i) step (xs.drop first) → 0 < step → first ≤ xs.length → Q (.inr (step, first)) v []) :
    Wp W n h (Prog.forStep args i xs.length rest) v Q := by
  unfold Prog.forStep
  refine wp_bind (wp_elemAt_vec k.vec fun hv => wp_bind (wp_require fun x hx => ?_))
  obtain ⟨hi, hxi⟩ := List.getElem?_eq_some_iff.mp hx
  have hd : xs.drop i = x :: xs.drop (i + 1) := by rw [← hxi]; exact List.drop_eq_getElem_cons hi
  rw [hd] at h1 h2
  refine wp_bind (wp_isSymbol fun b hb => ?_)
  simp only [List.nil_append]
  split
  · rename_i hbt
    have hst := hb.mp hbt
    split
    · rename_i hlt
      refine wp_bind (wps_popAll (E := nobody) _ _ k.here fun s gs => wp_bind (wps_error gs fun r w t g hp hm _ => wp_pure ?_))
      refine h1 r _ ⟨x, _, rfl, hst, ?_⟩ g.quiet ⟨_, _, _, hm, rfl⟩
      intro z hz
      rw [List.drop_eq_nil_of_le (by omega)] at hz
      cases hz
    · rename_i hlt
      have hi1 : i + 1 < xs.length := by omega
      have hd1 : xs.drop (i + 1) = xs[i + 1] :: xs.drop (i + 2) := List.drop_eq_getElem_cons hi1
      refine wp_bind (wp_elemAt_vec k.vec fun hv => wp_bind (wp_require fun y hy => ?_))
      rw [List.getElem?_eq_getElem hi1] at hy
      cases hy
      refine wp_bind (wp_read fun d hdd => ?_)
      simp only [List.nil_append]
      split
      · rename_i m ho
        split
        · rename_i hm0
          refine wp_bind (wps_error (E := nobody) k.here fun r w t g hp hm _ => ?_)
          refine wp_bind (wp_popAll _ _ fun s => wp_pure ?_)
          refine h1 r _ ⟨x, _, rfl, hst, ?_⟩ (g.quiet.trans k.sane (Ends.pop (s := s)).quiet) (Ends.pop.isErr ⟨_, _, _, hm, rfl⟩)
          intro z hz m' hm' hzo
          rw [hd1] at hz
          cases hz
          obtain ⟨d', hd', ho'⟩ := hzo
          obtain rfl := same_cell hdd hd'
          rw [ho] at ho'; cases ho'; omega
        · rename_i hm0
          refine wp_pure (h2 m.toNat (i + 1) ?_ (by omega) (by omega))
          rw [hd1]
          refine .given rfl hst ⟨d, hdd, ?_⟩ (by omega)
          rw [ho, Int.toNat_of_nonneg (by omega)]
      · rename_i hno
        refine wp_bind (wps_error (E := nobody) k.here fun r w t g hp hm _ => ?_)
        refine wp_bind (wp_popAll _ _ fun s => wp_pure ?_)
        refine h1 r _ ⟨x, _, rfl, hst, ?_⟩ (g.quiet.trans k.sane (Ends.pop (s := s)).quiet) (Ends.pop.isErr ⟨_, _, _, hm, rfl⟩)
        intro z hz m' hm' hzo
        rw [hd1] at hz
        cases hz
        obtain ⟨d', hd', ho'⟩ := hzo
        obtain rfl := same_cell hdd hd'
        exact hno _ ho'
  · rename_i hbf
    refine wp_pure (h2 1 i ?_ (by omega) (by omega))
    rw [hd]
    exact .one rfl fun e => hbf (hb.mpr e)

theorem c40_end_aux {n : Nat} {h : Handler} {args env : Ref} {xs rest : List Ref} {u : Vm} (k : Held W args xs env u) {j : Nat} {o : Option Ref}
    {Q : Option Ref → Vm → List Event → Prop} (hq : ∀ r w, (∀ w', Ends w w' → ForEnd W j u r w' o) → Q (some r) w []) :
    Wp W n h (Prog.forEnd rest (forReport (0 + (j : Int)) o)) u Q := by
  cases o with
  | none =>
    refine wp_bind (wps_popAll (E := nobody) _ _ k.here fun s gs => wp_bind (wp_alloc gs.sane fun r w a => wp_pure ?_))
    refine hq r w fun w' he => .done ?_ a.fresh ?_
    · exact (gs.alloc a trivial).quiet.trans k.sane he.quiet
    · have := he.hasObj ⟨_, a.cell, rfl⟩ (by simp)
      simpa using this
  | some r =>
    exact wp_bind (wps_popAll (E := nobody) _ _ k.here fun s gs => wp_pure (hq r _ fun w' he => .left (Ends.pop.trans he)))

theorem c40_run_aux {n : Nat} {h : Handler} (F : Fine W h) {args ext sym : Ref} {xs rest : List Ref} {v : Vm}
    (k : Held W args xs ext v) (hsym : sym ∈ xs) {first : Nat} (hf : first ≤ xs.length) {next : Nat → Prog Ref}
    {Next : Nat → Vm → Vm → Ref → Prop} {P : Vm → Prop} (hP : ∀ v w : Vm, v.births ≤ w.births → P v → P w) (pv : P v)
    (hnext : ∀ i u, Held W args xs ext u → P u → Wp W n h (next i) u fun x w t => t = [] ∧
      Vm.Step W (fun x => x = args) nobody u w ∧ w.Pub W (fun x => x = args) x ∧ Next i u w x) {is : List Nat} :
    Wp W n h (Prog.forTurns next args ext sym (xs.length - first) first is 0 >>= fun x => Prog.forEnd rest x) v
      fun a w t => ∀ r w', a = some r → Ends w w' → ∃ u j o, ForLoop W ext sym (xs.drop first) Next is v t u j o ∧ ForEnd W j u r w' o := by
  refine wp_bind (c40_loop_aux F hsym (by omega) hP hnext is 0 v k pv _ fun u tr j o hl ku => ?_)
  refine c40_end_aux ku ?_
  rintro r w he r' w' e hw
  cases e
  exact ⟨u, j, o, by simpa using hl, he w' hw⟩

theorem c40_sized_aux {v : Vm} {r : Ref} {c : Cell} (hc : v.mem r = some c) {len : Nat} :
    Sized v r len ↔ Prog.forLength c.obj = some len := by
  constructor
  · rintro (⟨d, hd, ho⟩ | ⟨d, hd, ho⟩ | ⟨d, hd, ho⟩ | ⟨d, hd, ho⟩ | ⟨d, hd, ho⟩ | ⟨d, hd, ho⟩) <;>
      (obtain rfl := same_cell hc hd; rw [ho]; rfl)
  · intro h
    cases ho : c.obj <;> rw [ho] at h <;> cases h
    · exact .str ⟨c, hc, ho⟩
    · exact .vec ⟨c, hc, ho⟩
    · exact .hmap ⟨c, hc, ho⟩
    · exact .queue ⟨c, hc, ho⟩
    · exact .list ⟨c, hc, ho⟩
    · exact .env ⟨c, hc, ho⟩

theorem c40_stepsBody_aux {v w : Vm} {xs body : List Ref} {k : Nat} (h : StepsBody v xs k body) (hm : v.mem = w.mem) : StepsBody w xs k body := by
  have up : ∀ {r o}, v.HasObj r o ↔ w.HasObj r o := fun {r o} => by simp only [Vm.HasObj, hm]
  cases h with
  | one h1 h2 => exact .one h1 fun h => h2 (up.mpr h)
  | given h1 h2 h3 h4 => exact .given h1 (up.mp h2) (up.mp h3) h4

theorem c40_in_aux {n : Nat} {h : Handler} (F : Fine W h) {args env sym kind c : Ref} {ys : List Ref} {v0 v : Vm}
    (k : Held W args (sym :: kind :: c :: ys) env v) (q : Vm.Quiet W nobody v0 v) (hk : v0.HasObj kind (.sym (txt "in"))) :
    Wp W n h (Prog.forIn args env sym (sym :: kind :: c :: ys).length) v fun a u t => ∀ r w, a = some r → Ends u w →
      ForRun W v0 (sym :: kind :: c :: ys) env r w t := by
  unfold Prog.forIn
  refine wp_bind (wp_evalReq F k (by simp) fun x t u hx ku gu hs hp => ?_)
  simp only [List.getElem?_cons_succ, List.getElem?_cons_zero, Option.some.injEq] at hx
  subst hx
  have ev : Evals W v0 c env ⟨c, env, v, some t, u⟩ t := ⟨rfl, rfl, rfl, q⟩
  refine wp_bind (wp_push (wp_bind (wp_read fun d hd => ?_)))
  have kp := ku.push hp.1
  have hd : u.mem t = some d := hd
  split
  · exact wp_fail
  · rename_i hno _
    refine wp_bind (wps_error (E := nobody) kp.here fun r w msg g hp hm _ => ?_)
    refine wp_bind (wp_popAll _ _ fun s => wp_pure ?_)
    rintro r' w' e he
    cases e
    refine .noContainer rfl hk ev ?_ ?_ ?_
    · intro len hl
      rw [c40_sized_aux hd] at hl
      rw [hno] at hl; cases hl
    · exact ((Ends.pop (v := u) (s := t :: u.stack)).quiet.trans ku.sane g.quiet).trans ku.sane ((Ends.pop (s := s)).trans he).quiet
    · exact (Ends.pop.trans he).isErr ⟨_, _, _, hm, rfl⟩
  · rename_i len hlen _
    refine wp_bind (c40_step_aux kp ?_ ?_)
    · intro r w hw qw ew
      refine wp_pure ?_
      rintro r' w' e he
      cases e
      refine .inside rfl hk ev ((c40_sized_aux hd).mpr hlen) ?_
      exact .step hw (((Ends.pop (v := u) (s := t :: u.stack)).quiet.trans ku.sane qw).trans ku.sane he.quiet) (he.isErr ew)
    · intro step first hsb hpos hf
      refine wp_bind (wp_alloc kp.sane fun ext w a => ?_)
      have gw := (kp.here (E := nobody)).alloc a ⟨by simp, by rintro x e; cases e; exact kp.env⟩
      have kw : Held W args (sym :: kind :: c :: ys) ext w := { kp.step gw with env := a.pub kp.closed }
      refine wp_bind (wp_push ?_)
      have kw' := kw.push kw.env.1
      refine Wp.mono (c40_run_aux F kw' (List.mem_cons_self ..) hf (P := fun v => v.Pub W (fun x => x = args) t)
        (fun v w hb hp => hp.mono hb) (v := { w with stack := ext :: w.stack }) ⟨hp.1.mono gw.quiet.births, hp.2⟩ (fun i u ku pu => c40_element_aux i u ku pu)) ?_
      rintro a' u' tr hfin r w' e he
      obtain ⟨z, j, o, h1, h2⟩ := hfin r w' e he
      refine .inside rfl hk ev ((c40_sized_aux hd).mpr hlen) ?_
      have hsb' : StepsBody u ys step ((sym :: kind :: c :: ys).drop first) := c40_stepsBody_aux hsb rfl
      refine .run hsb' (c40_indices_aux len step hpos) ?_ ?_ ?_ (by simpa using h1) h2
      · exact ((Ends.pop (v := u) (s := t :: u.stack)).quiet.trans ku.sane gw.quiet).trans ku.sane (Ends.pop (s := ext :: w.stack)).quiet
      · exact a.fresh
      · exact ⟨_, a.cell, rfl⟩

theorem c40_forward_aux {v w : Vm} {r : Ref} {o : Obj} {d : Cell} (q : Vm.Quiet W nobody v w) (h : v.HasObj r o)
    (ho : ∀ m l, o ≠ .err m l) (hd : w.mem r = some d) : d.obj = o := by
  obtain ⟨c, hc, rfl⟩ := h
  rcases q.cells r c id hc with e | e | ⟨m, t, l, he, e⟩
  · obtain rfl := same_cell hd e; rfl
  · rw [hd] at e; cases e
  · exact absurd he (ho m l)

theorem c40_from_aux {n : Nat} {h : Handler} (F : Fine W h) (C : Copies W h) {args env sym kind a : Ref} {ys : List Ref} {v0 v : Vm}
    (k : Held W args (sym :: kind :: a :: ys) env v) (hy : ys ≠ []) (q : Vm.Quiet W nobody v0 v) (hk : v0.HasObj kind (.sym (txt "from"))) :
    Wp W n h (Prog.forFrom args env sym (sym :: kind :: a :: ys).length) v fun a' u t => ∀ r w, a' = some r → Ends u w →
      ForRun W v0 (sym :: kind :: a :: ys) env r w t := by
  unfold Prog.forFrom
  refine wp_bind (wp_evalReq F k (by simp) fun x t u hx ku gu hs hp => ?_)
  simp only [List.getElem?_cons_succ, List.getElem?_cons_zero, Option.some.injEq] at hx
  subst hx
  have ev : Evals W v0 a env ⟨a, env, v, some t, u⟩ t := ⟨rfl, rfl, rfl, q⟩
  refine wp_bind (wp_push (wp_bind (wp_read fun d hd => ?_)))
  have kp := ku.push hp.1
  have hd : u.mem t = some d := hd
  split
  swap
  · rename_i hno
    refine wp_bind (wps_error (E := nobody) kp.here fun r w msg g hp hm _ => ?_)
    refine wp_bind (wp_popAll _ _ fun s => wp_pure ?_)
    rintro r' w' e he
    cases e
    refine .noStart rfl hk ev ?_ ?_ ?_
    · rintro m ⟨d', hd', ho'⟩
      obtain rfl := same_cell hd hd'
      exact hno m ho'
    · exact ((Ends.pop (v := u) (s := t :: u.stack)).quiet.trans ku.sane g.quiet).trans ku.sane ((Ends.pop (s := s)).trans he).quiet
    · exact (Ends.pop.trans he).isErr ⟨_, _, _, hm, rfl⟩
  rename_i n0 ho
  obtain ⟨mid, zs, rfl⟩ : ∃ mid zs, ys = mid :: zs := by
    cases ys with
    | nil => exact absurd rfl hy
    | cons m zs => exact ⟨m, zs, rfl⟩
  cases zs with
  | nil =>
    unfold Prog.evalReq
    simp only [bind_assoc]
    refine wp_bind (wp_elemAt_vec kp.vec fun hv => ?_)
    simp only [List.getElem?_cons_succ, List.getElem?_nil]
    unfold Prog.evalOpt
    simp only [bind_assoc]
    refine wp_bind (wp_isQuit ?_)
    split
    · rename_i hq
      simp only [bind_assoc, pure_bind]
      refine wp_bind (wp_alloc kp.sane fun r w al => wp_bind (wp_require fun r' e => ?_))
      cases e
      have gw := (kp.here (E := nobody)).alloc al trivial
      have kw := kp.step gw
      refine wp_bind (wp_push (wp_bind (wp_read fun d1 hd1 => wp_bind (wp_read fun d2 hd2 => ?_))))
      have kw' := kw.push al.old
      have hd1 : w.mem r = some d1 := hd1
      have hd2 : w.mem t = some d2 := hd2
      have ho2 : d2.obj = .int n0 := c40_forward_aux gw.quiet ⟨d, hd, ho⟩ (by simp) hd2
      obtain rfl := same_cell al.cell hd1
      rw [if_pos (by rw [ho2]; simp [Obj.tag])]
      refine wp_bind (wps_error (E := nobody) kw'.here fun r w1 msg g hp hm _ => ?_)
      refine wp_bind (wp_popAll _ _ fun s => wp_pure ?_)
      rintro r' w' e he
      cases e
      have qw : Vm.Quiet W nobody u w := (Ends.pop (v := u) (s := t :: u.stack)).quiet.trans ku.sane gw.quiet
      refine .noStop rfl hk ev hq ?_ ?_
      · exact ((qw.trans ku.sane (Ends.pop (s := _)).quiet).trans ku.sane g.quiet).trans ku.sane ((Ends.pop (s := s)).trans he).quiet
      · exact (Ends.pop.trans he).isErr ⟨_, _, _, hm, rfl⟩
    · refine wp_bind (wp_bind (wp_verifyEnv fun _ => wp_pure (wp_bind (wp_require fun r' e => ?_))))
      cases e
  | cons b zs =>
  refine wp_bind (wp_evalReq F kp (by simp) fun x t' u' hx ku' gu' hs' hp' => ?_)
  simp only [List.getElem?_cons_succ, List.getElem?_cons_zero, Option.some.injEq] at hx
  subst hx
  have ev' : Evals W u b env ⟨b, env, { u with stack := t :: u.stack }, some t', u'⟩ t' := ⟨rfl, rfl, rfl, Ends.pop.quiet⟩
  have hpt : u'.Pub W (fun x => x = args) t := ⟨hp.1.mono gu'.later.births, hp.2⟩
  refine wp_bind (wp_push (wp_bind (wp_read fun d1 hd1 => wp_bind (wp_read fun d2 hd2 => ?_))))
  have kp' := ku'.push hp'.1
  have hd1 : u'.mem t' = some d1 := hd1
  have hd2 : u'.mem t = some d2 := hd2
  split
  · rename_i htag
    refine wp_bind (wps_error (E := nobody) kp'.here fun r w msg g hp hm _ => ?_)
    refine wp_bind (wp_popAll _ _ fun s => wp_pure ?_)
    rintro r' w' e he
    cases e
    refine .kinds rfl hk ev ⟨d, hd, ho⟩ ev' ⟨d2, hd2, rfl⟩ ⟨d1, hd1, rfl⟩ htag ?_ ?_
    · exact ((Ends.pop (v := u') (s := t' :: u'.stack)).quiet.trans ku'.sane g.quiet).trans ku'.sane ((Ends.pop (s := s)).trans he).quiet
    · exact (Ends.pop.trans he).isErr ⟨_, _, _, hm, rfl⟩
  refine wp_bind (c40_step_aux kp' ?_ ?_)
  · intro r w hw qw ew
    refine wp_pure ?_
    rintro r' w' e he
    cases e
    exact .rangeStep rfl hk ev ⟨d, hd, ho⟩ ev' hw (((Ends.pop (v := u') (s := t' :: u'.stack)).quiet.trans ku'.sane qw).trans ku'.sane he.quiet) (he.isErr ew)
  intro step first hsb hpos hf
  refine wp_bind (wp_alloc kp'.sane fun ext w al => ?_)
  have gw := (kp'.here (E := nobody)).alloc al ⟨by simp, by rintro x e; cases e; exact kp'.env⟩
  have kw : Held W args (sym :: kind :: a :: mid :: b :: zs) ext w := { kp'.step gw with env := al.pub kp'.closed }
  refine wp_bind (wp_push ?_)
  have kw' := kw.push kw.env.1
  have qw : Vm.Quiet W nobody u' w := (Ends.pop (v := u') (s := t' :: u'.stack)).quiet.trans ku'.sane gw.quiet
  unfold Prog.forRange
  simp only [bind_assoc]
  refine wp_bind (wp_read fun d3 hd3 => wp_bind (wp_read fun d4 hd4 => ?_))
  split
  swap
  · exact wp_bind wp_fail
  rename_i i j hi hj
  have hi' : u'.HasObj t (.int i) := qw.hasObj id hpt.1 (by simp) ⟨d3, hd3, hi⟩
  have hj' : u'.HasObj t' (.int j) := qw.hasObj id hp'.1 (by simp) ⟨d4, hd4, hj⟩
  refine wp_bind (wp_pure ?_)
  dsimp only
  refine wp_bind (c34_int32_aux (m := 0) ?_)
  have hlen : (if decide (i ≤ j) = true then j - i else i - j).toNat + 1 = (i - j).natAbs.succ := by
    split <;> rename_i hle <;> simp at hle <;> omega
  rw [hlen]
  refine Wp.mono (c40_run_aux F kw' (List.mem_cons_self ..) hf (P := fun v => v.Pub W (fun x => x = args) t)
    (fun v w hb hp => hp.mono hb) (v := { w with stack := ext :: w.stack }) ⟨hpt.1.mono qw.births, hpt.2⟩
    (fun i u ku pu => c40_number_aux F C i u ku pu)) ?_
  rintro a' u1 tr hfin r w' e he
  obtain ⟨z, l, o, h1, h2⟩ := hfin r w' e he
  refine .range rfl hk ev ⟨d, hd, ho⟩ ev' hi' hj' ?_
  have hsb' : StepsBody u' zs step ((sym :: kind :: a :: mid :: b :: zs).drop first) := c40_stepsBody_aux hsb rfl
  refine .run hsb' (c40_indices_aux _ step hpos) ?_ ?_ ?_ (by simpa using h1) h2
  · exact qw.trans ku'.sane (Ends.pop (s := ext :: w.stack)).quiet
  · exact al.fresh
  · exact ⟨_, al.cell, rfl⟩

theorem c40_for_aux {n : Nat} {h : Handler} (F : Fine W h) (C : Copies W h) {args env : Ref} {xs : List Ref} {v0 v : Vm}
    (k : Held W args xs env v) (g : Vm.Step W (fun x => x = args) nobody v0 v) (hold : ∀ x ∈ xs, v0.Old W x) :
    Wp W n h (Prog.spFor args env) v fun a u t => ∀ r w, a = some r → Ends u w → ForRun W v0 xs env r w t := by
  unfold Prog.spFor
  refine wp_bind (wp_verifyVec_vec k.vec fun _ => wp_bind (wp_verifyEnv fun _ => wp_bind (wp_push ?_)))
  have kp := k.push k.old
  have gp := g.push k.old
  simp only [List.nil_append]
  split
  · rename_i sym kind c y ys _
    refine wp_bind (wp_read fun d hd => ?_)
    have hd : v.mem sym = some d := hd
    split
    · rename_i s ho
      refine wp_bind (wp_read fun d' hd' => ?_)
      have hd' : v.mem kind = some d' := hd'
      split
      · rename_i s' ho'
        have hk : v0.HasObj kind (.sym s') := g.quiet.hasObj id (hold _ (by simp)) (by simp) ⟨d', hd', ho'⟩
        split
        · rename_i e
          subst e
          exact Wp.mono (c40_in_aux F kp gp.quiet hk) fun a u t h => by simpa using h
        · split
          · rename_i e
            subst e
            exact Wp.mono (c40_from_aux F C kp (by simp) gp.quiet hk) fun a u t h => by simpa using h
          · exact wp_fail
      · rename_i hno
        refine wp_bind (wp_pop fun s hs => wps_error (gp.pop hs) fun r w t gw hp hm _ => ?_)
        rintro r' w' e he
        cases e
        refine .word rfl ?_ (gw.quiet.trans g.sane0 he.quiet) (he.isErr ⟨_, _, _, hm, rfl⟩)
        exact fun s h => hno s (c40_forward_aux g.quiet h (by simp) hd')
    · rename_i hno
      refine wp_bind (wp_pop fun s hs => wps_error (gp.pop hs) fun r w t gw hp hm _ => ?_)
      rintro r' w' e he
      cases e
      refine .name rfl ?_ (gw.quiet.trans g.sane0 he.quiet) (he.isErr ⟨_, _, _, hm, rfl⟩)
      exact fun s h => hno s (c40_forward_aux g.quiet h (by simp) hd)
  · rename_i hno
    refine wp_bind (wp_pop fun s hs => wps_error (gp.pop hs) fun r w t gw hp hm _ => ?_)
    rintro r' w' e he
    cases e
    refine .count ?_ (gw.quiet.trans g.sane0 he.quiet) (he.isErr ⟨_, _, _, hm, rfl⟩)
    by_contra hl
    match xs, hl, hno with
    | sym :: kind :: c :: y :: ys, _, hno => exact hno sym kind c y ys rfl
    | [], hl, _ => simp at hl
    | [_], hl, _ => simp at hl
    | [_, _], hl, _ => simp at hl
    | [_, _, _], hl, _ => simp at hl

/-- `for`, called by name -/
theorem c40_for (hL : L.Safe) {v w : Vm} (rv : v.Reached W L) {form env op : Ref} {name : Text} {xs : List Ref}
    (nc : NamedCall W v form env name op xs) (hop : v.HasObj op (.special .for)) (hargs : ∀ x ∈ xs, ¬ v.IsErr x)
    {r : Option Ref} {tr : List Event} (ev : Evaluates W L v form env r w tr) : NamedFormCall W (ForRun W) v xs env op r w tr :=
  namedFormCall_aux hL (fun _ _ _ _ _ _ F C k g hold _ _ => c40_for_aux F C k g hold) rv nc hop hargs ev

/-- `for`, the operator being given by any form -/
theorem c40_for_operator (hL : L.Safe) {v w : Vm} (rv : v.Reached W L) {form env first : Ref} {rest : List Ref}
    (hq : v.quit = false) (hf : v.HasVec form (first :: rest)) (of : v.Old W form) (oe : v.Old W env)
    {r : Option Ref} {tr : List Event} (ev : Evaluates W L v form env r w tr) :
    FormCall W .for (ForRun W) v form first env r w tr :=
  formCall_aux hL (fun _ _ _ _ _ _ F C k g hold _ _ => c40_for_aux F C k g hold) rv hq hf of oe ev

/-- A loop that is not left early completes one turn for every index and evaluates all the forms of the body
once in each of them, in order. -/
theorem c40_loop_complete {env sym : Ref} {body : List Ref} {Next : Nat → Vm → Vm → Ref → Prop} {is : List Nat} {v u : Vm}
    {tr : List Event} {k : Nat} {o : Option Ref} (h : ForLoop W env sym body Next is v tr u k o) (ho : o = none) :
    k = is.length ∧ tr.map (·.form) = (List.replicate is.length body).flatten ∧ ∀ e ∈ tr, e.env = env := by
  induction h with
  | all => simp
  | turn _ _ _ hb _ ih =>
    obtain ⟨h1, h2, h3⟩ := ih ho
    obtain ⟨h4, h5⟩ := c31_pass_forms hb rfl
    refine ⟨by simp [h1], by simp [List.replicate_succ, h2, h4], fun e he => ?_⟩
    rcases List.mem_append.mp he with he | he
    · exact h5 e he
    · exact h3 e he
  | left => cases ho

/-- A loop that is left early was left in the turn after the completed ones. -/
theorem c40_loop_left {env sym : Ref} {body : List Ref} {Next : Nat → Vm → Vm → Ref → Prop} {is : List Nat} {v u : Vm}
    {tr : List Event} {k : Nat} {r : Ref} (h : ForLoop W env sym body Next is v tr u k (some r)) : k < is.length := by
  generalize ho : some r = o at h
  induction h with
  | all => cases ho
  | turn _ _ _ _ _ ih => have := ih ho; simp; omega
  | left => simp

/-- In a range whose start still is the integer `a` the counter is `a + i`, or `a - i` downwards, exactly. -/
theorem c40_counter_exact {start x : Ref} {i : Nat} {v u : Vm} {a b : Int} (h : Counter W start (decide (a ≤ b)) i v u x)
    (ha : v.HasObj start (.int a)) (h1 : -2147483648 ≤ a ∧ a ≤ 2147483647) (h2 : -2147483648 ≤ b ∧ b ≤ 2147483647)
    (hi : i < (a - b).natAbs.succ) : u.HasObj x (.int (if a ≤ b then a + i else a - i)) := by
  obtain ⟨n, m, hn, _, hm, m1, m2, q, e⟩ := h
  cases hn.unique ha
  have : m = if a ≤ b then a + i else a - i := by
    simp only [decide_eq_true_eq] at e
    split at e <;> rename_i hle
    · rw [if_pos hle]; omega
    · rw [if_neg hle]; omega
  exact this ▸ hm

/-- There is one turn for every multiple of the step below the length: `⌈len / step⌉` turns, which visit
all the elements if the step is 1. -/
theorem c40_multiples {len step : Nat} {is : List Nat} (h : Multiples len step is) (hs : 0 < step) :
    is = (List.range ((len + step - 1) / step)).map (· * step) := by
  have h' := c40_indices_aux len step hs
  have hp : is.Perm (Prog.indices len step) := by
    rw [List.perm_ext_iff_of_nodup (h.sorted.imp Nat.ne_of_lt) (h'.sorted.imp Nat.ne_of_lt)]
    intro i
    rw [h.mem, h'.mem]
  exact hp.eq_of_pairwise (fun a b _ _ h1 h2 => absurd h1 (Nat.not_lt.mpr (Nat.le_of_lt h2))) h.sorted h'.sorted

theorem c40_multiples_one {len : Nat} {is : List Nat} (h : Multiples len 1 is) : is = List.range len := by
  have := c40_multiples h (by decide)
  simpa using this

/-- for the examples -/
def kitFor : List (String × Obj × Bool) := kit ++ [("for", .special .for, true), ("==", .special .eq, true)]

theorem kitFor_plain : ∀ x ∈ kitFor, x.2.1.children = [] := by decide

/-- the hypotheses hold for `(for x in '(10 20 30) step 2 (== x 30))`: two turns, in the last of which `x` is 30 -/
example : ∃ (v w : Vm) (form op : Ref) (xs : List Ref) (r : Option Ref) (tr : List Event), v.Reached world library ∧
    NamedCall world v form v.globalEnv (txt "for") op xs ∧ v.HasObj op (.special .for) ∧ (∀ x ∈ xs, ¬ v.IsErr x) ∧
    Evaluates world library v form v.globalEnv r w tr ∧ objAt w r = some (.int 2) ∧ tr.length = 6 ∧
    (tr.filterMap fun e => objAt e.post e.result).getLast? = some (.bool true) := by
  obtain ⟨v, form, r, w, tr, hr, of, oe, ev, h⟩ := stage_exists (table := kitFor)
    (forms := []) (fuel := 40)
    (last := .vec [.sym "for", .sym "x", .sym "in", .vec [.sym "quote", .vec [.int 10, .int 20, .int 30]], .sym "step", .int 2,
      .vec [.sym "==", .sym "x", .int 30]])
    (P := fun v f r w tr => namedCheck v f "for" (.special .for) &&
      (decide (objAt w r = some (.int 2)) && (tr.length == 6 &&
        decide ((tr.filterMap fun e => objAt e.post e.result).getLast? = some (.bool true))))) kitFor_plain (by decide +kernel)
  simp only [Bool.and_eq_true, decide_eq_true_eq, beq_iff_eq] at h
  obtain ⟨op, xs, h1, h2, h3⟩ := named_of_check h.1 of oe
  exact ⟨v, w, form, op, xs, r, tr, hr, h1, h2, h3, ev, h.2⟩

/-- … and for `(for x from 3 to 1 (== x 1))`: three turns, in the last of which `x` is 1 -/
example : ∃ (v w : Vm) (form op : Ref) (xs : List Ref) (r : Option Ref) (tr : List Event), v.Reached world library ∧
    NamedCall world v form v.globalEnv (txt "for") op xs ∧ v.HasObj op (.special .for) ∧ (∀ x ∈ xs, ¬ v.IsErr x) ∧
    Evaluates world library v form v.globalEnv r w tr ∧ objAt w r = some (.int 3) ∧
    (tr.map fun e => objAt e.post e.result).drop 3 = [some (.bool false), some (.bool false), some (.bool true)] := by
  obtain ⟨v, form, r, w, tr, hr, of, oe, ev, h⟩ := stage_exists (table := kitFor)
    (forms := []) (fuel := 40)
    (last := .vec [.sym "for", .sym "x", .sym "from", .int 3, .sym "to", .int 1, .vec [.sym "==", .sym "x", .int 1]])
    (P := fun v f r w tr => namedCheck v f "for" (.special .for) &&
      (decide (objAt w r = some (.int 3)) &&
        decide ((tr.map fun e => objAt e.post e.result).drop 3 = [some (.bool false), some (.bool false), some (.bool true)])))
    kitFor_plain (by decide +kernel)
  simp only [Bool.and_eq_true, decide_eq_true_eq] at h
  obtain ⟨op, xs, h1, h2, h3⟩ := named_of_check h.1 of oe
  exact ⟨v, w, form, op, xs, r, tr, hr, h1, h2, h3, ev, h.2⟩

end Dern.Props
