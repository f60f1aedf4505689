import Verif.Props.C45
import Verif.Props.C14
/-
C46: `(max a b …)` and `(min a b …)`.

The result is one of the arguments itself: for `max` the first one that is not less than any other one, for `min` the
first one that is not greater than any other one, in the sense of the comparison functions (C14).  Nothing else happens.
-/
namespace Dern.Props
open Dern
open Dern.Spec (Data sign)
open Dern.Prog (Library)
variable {W : World} {L : Library}

/-! ### Specification -/

/-- `a` is greater than (`strict`) or at least `b`, if `isMax`; less than or at most `b` otherwise: what `>`, `>=`, `<`, `<=`
say -/
def Beats (m : Mem) (isMax strict : Bool) (a b : Ref) : Prop :=
  match isMax, strict with
  | true, true => ∃ n, isGreaterThan m n a b = .ok true
  | true, false => ∃ n, isGreaterOrEqual m n a b = .ok true
  | false, true => ∃ n, isLessThan m n a b = .ok true
  | false, false => ∃ n, isLessOrEqual m n a b = .ok true

/-- `r` is the first of the extreme ones among `ts` -/
def FirstExtreme (m : Mem) (isMax : Bool) (ts : List Ref) (r : Ref) : Prop :=
  ∃ ys zs, ts = ys ++ r :: zs ∧ (∀ y ∈ ys, Beats m isMax true r y) ∧ ∀ z ∈ zs, Beats m isMax false r z

/-- what `max` and `min` do with the values `ts` -/
inductive ExtremeRun (W : World) (isMax : Bool) (ts : List Ref) (v : Vm) (r : Ref) (w : Vm) : List Event → Prop
  | count {tr} : ts.length < 2 → GivesError W v r w tr → ExtremeRun W isMax ts v r w tr
  | extreme : 2 ≤ ts.length → FirstExtreme v.mem isMax ts r → Vm.Quiet W nobody v w → ExtremeRun W isMax ts v r w []

/-- all of these are data that can be ordered (see C14) -/
def AllOrdered (v : Vm) (lo : Int) (ts : List Ref) : Prop := ∀ t ∈ ts, ∃ d, Ordered v.mem lo t d

/-! ### Proofs -/

theorem c46_beats_aux {m : Mem} {n : Nat} {a b : Ref} {z : Int} (h : compareRef m n a b = .ok z) (isMax strict : Bool)
    (hz : match isMax, strict with | true, true => 0 < z | true, false => 0 ≤ z | false, true => z < 0 | false, false => z ≤ 0) :
    Beats m isMax strict a b := by
  have A := c14_of_compare_aux h
  cases isMax <;> cases strict <;> simp only at hz <;> simp only [Beats]
  · obtain ⟨n, h⟩ := A.le; exact ⟨n, by rw [h]; simpa using hz⟩
  · obtain ⟨n, h⟩ := A.lt; exact ⟨n, by rw [h]; simpa using hz⟩
  · obtain ⟨n, h⟩ := A.ge; exact ⟨n, by rw [h]; simpa using hz⟩
  · obtain ⟨n, h⟩ := A.gt; exact ⟨n, by rw [h]; simpa using hz⟩

/-- `x` before `y` strictly or not, in the order or its reverse -/
def Wins (isMax strict : Bool) (x y : Data) : Prop :=
  let o := if isMax then dataCmp x y else dataCmp y x
  if strict then o = .gt else o ≠ .lt

theorem c46_wins_aux {m : Mem} {lo : Int} {a b : Ref} {da db : Data} (ha : Ordered m lo a da) (hb : Ordered m lo b db) {isMax strict : Bool}
    (h : Wins isMax strict da db) : Beats m isMax strict a b := by
  obtain ⟨n, z, hz, hs⟩ := c14_compare_aux ha hb
  refine c46_beats_aux hz isMax strict ?_
  have sw := dataCmp_swap da db
  unfold Wins at h
  rcases Int.lt_trichotomy z 0 with hlt | rfl | hgt
  · rw [Int.sign_eq_neg_one_of_neg hlt] at hs
    cases isMax <;> cases strict <;> cases hd : dataCmp da db <;> simp_all [sign] <;> omega
  · cases isMax <;> cases strict <;> cases hd : dataCmp da db <;> simp_all [sign]
  · rw [Int.sign_eq_one_of_pos hgt] at hs
    cases isMax <;> cases strict <;> cases hd : dataCmp da db <;> simp_all [sign] <;> omega

theorem c46_weak_aux {isMax : Bool} {x y : Data} (h : Wins isMax true x y) : Wins isMax false x y := by
  cases isMax <;> simp_all [Wins]

theorem c46_cmpTrans_aux {x y z : Data} (h1 : dataCmp x y = .gt) (h2 : dataCmp y z ≠ .lt) : dataCmp x z = .gt := by
  cases h : dataCmp x z with
  | gt => rfl
  | _ =>
    have h3 : dataCmp z y ≠ .gt := by rw [dataCmp_swap y z]; cases hh : dataCmp y z <;> simp_all
    exact absurd h1 (dataCmp_tri x z y (by simp [h]) h3).1

theorem c46_cmpTrans'_aux {x y z : Data} (h1 : dataCmp x y ≠ .lt) (h2 : dataCmp y z = .gt) : dataCmp x z = .gt := by
  cases h : dataCmp x z with
  | gt => rfl
  | _ =>
    have h3 : dataCmp y x ≠ .gt := by rw [dataCmp_swap x y]; cases hh : dataCmp x y <;> simp_all
    exact absurd h2 (dataCmp_tri y x z h3 (by simp [h])).1

theorem c46_trans_aux {isMax : Bool} {x y z : Data} (h1 : Wins isMax true x y) (h2 : Wins isMax false y z) : Wins isMax true x z := by
  cases isMax
  · simp only [Wins, if_true, Bool.false_eq_true, if_false] at h1 h2 ⊢
    exact c46_cmpTrans'_aux h2 h1
  · simp only [Wins, if_true, Bool.false_eq_true, if_false] at h1 h2 ⊢
    exact c46_cmpTrans_aux h1 h2

theorem c46_loop_aux {n : Nat} {h : Handler} {v : Vm} {lo : Int} {D : Ref → Data} {isMax : Bool} : ∀ (xs pre : List Ref) (best : Ref),
    (∀ t ∈ pre ++ xs, Ordered v.mem lo t (D t)) → best ∈ pre →
    (∃ ys zs, pre = ys ++ best :: zs ∧ (∀ y ∈ ys, Wins isMax true (D best) (D y)) ∧ ∀ z ∈ zs, Wins isMax false (D best) (D z)) →
    Wp W n h (Prog.extreme isMax best xs) v fun r u t => u = v ∧ t = [] ∧ r ∈ pre ++ xs ∧
      ∃ ys zs, pre ++ xs = ys ++ r :: zs ∧ (∀ y ∈ ys, Wins isMax true (D r) (D y)) ∧ ∀ z ∈ zs, Wins isMax false (D r) (D z) := by
  intro xs
  induction xs with
  | nil => intro pre best _ hb hi; exact wp_pure ⟨rfl, rfl, by simpa using hb, by simpa using hi⟩
  | cons x xs ih =>
    intro pre best ho hb ⟨ys, zs, hp, h1, h2⟩
    unfold Prog.extreme
    refine wp_bind (wp_compare fun c hc => ?_)
    have ob := ho best (by simp [hb])
    have ox := ho x (by simp)
    have hs := compareRef_sign _ _ _ _ _ _ _ ox.1 ob.1 ox.2.1 ob.2.1 hc
    have assoc : pre ++ [x] ++ xs = pre ++ x :: xs := by simp
    have next : ∀ b, b ∈ pre ++ [x] →
        (∃ ys zs, pre ++ [x] = ys ++ b :: zs ∧ (∀ y ∈ ys, Wins isMax true (D b) (D y)) ∧ ∀ z ∈ zs, Wins isMax false (D b) (D z)) → _ :=
      fun b hb hi => ih (pre ++ [x]) b (by rw [assoc]; exact ho) hb hi
    rw [assoc] at next
    by_cases hw : (if isMax = true then 0 < c else c < 0)
    · rw [if_pos hw]
      refine Wp.mono (next x (by simp) ⟨pre, [], rfl, fun y hy => ?_, by simp⟩) fun a u t h => by simpa using h
      have w0 : Wins isMax true (D x) (D best) := by
        have sw := dataCmp_swap (D x) (D best)
        unfold Wins
        cases isMax
        · simp only [Bool.false_eq_true, if_false] at hw
          rw [Int.sign_eq_neg_one_of_neg hw] at hs
          cases hd : dataCmp (D x) (D best) <;> simp_all [sign]
        · simp only [if_true] at hw
          rw [Int.sign_eq_one_of_pos hw] at hs
          cases hd : dataCmp (D x) (D best) <;> simp_all [sign]
      rw [hp] at hy
      rcases List.mem_append.mp hy with hy | hy
      · exact c46_trans_aux w0 (c46_weak_aux (h1 y hy))
      · rcases List.mem_cons.mp hy with rfl | hy
        · exact w0
        · exact c46_trans_aux w0 (h2 y hy)
    · rw [if_neg hw]
      refine Wp.mono (next best (by simp [hb]) ⟨ys, zs ++ [x], by simp [hp], h1, fun z hz => ?_⟩) fun a u t h => by simpa using h
      rcases List.mem_append.mp hz with hz | hz
      · exact h2 z hz
      · simp only [List.mem_singleton] at hz
        subst hz
        have sw := dataCmp_swap (D z) (D best)
        have hz : Int.sign c = sign (dataCmp (D z) (D best)) := hs
        unfold Wins
        cases isMax
        · simp only [Bool.false_eq_true, if_false] at hw ⊢
          intro hd
          rw [hd] at hz
          have := Int.sign_eq_neg_one_iff_neg.mp (by simpa [sign] using hz)
          omega
        · simp only [if_true] at hw ⊢
          simp only [Bool.false_eq_true, if_false]
          intro hd
          rw [hd] at sw
          have e : dataCmp (D z) (D best) = .gt := by
            revert sw
            generalize dataCmp (D z) (D best) = o
            cases o <;> intro sw <;> first | rfl | cases sw
          rw [e] at hz
          have := Int.sign_eq_one_iff_pos.mp (by simpa [sign] using hz)
          omega

theorem c46_run_aux {n : Nat} {h : Handler} {args env : Ref} {ts : List Ref} {v : Vm} {lo : Int} {isMax : Bool} (k : Held W args ts env v)
    (ho : AllOrdered v lo ts) :
    Wp W n h (Prog.biExtreme isMax args env) v fun a u tr => KeepsBuiltins v u ∧ ∀ r w, a = some r → Ends u w → ExtremeRun W isMax ts v r w tr := by
  unfold Prog.biExtreme
  refine c34_first_aux k ?_
  split
  · rename_i x y xs
    classical
    have : ∃ D : Ref → Data, ∀ t ∈ x :: y :: xs, Ordered v.mem lo t (D t) :=
      ⟨fun t => if h : ∃ d, Ordered v.mem lo t d then h.choose else .nil, fun t ht => by
        have := ho t ht
        simp only [this, dite_true]
        exact this.choose_spec⟩
    obtain ⟨D, hD⟩ := this
    refine wp_bind (Wp.mono (c46_loop_aux (D := D) (lo := lo) (y :: xs) [x] x (by simpa using hD) (by simp) ⟨[], [], rfl, by simp, by simp⟩) ?_)
    rintro r u t ⟨rfl, rfl, hr, ys, zs, he, h1, h2⟩
    refine wp_pure ⟨keeps_of_quiet (W := W) (.refl _), ?_⟩
    rintro _ w ⟨⟩ e
    have he : x :: y :: xs = ys ++ r :: zs := by simpa using he
    have or : Ordered u.mem lo r (D r) := hD r (by simpa using hr)
    refine .extreme (by simp) ⟨ys, zs, he, fun y hy => ?_, fun z hz => ?_⟩ e.quiet
    · exact c46_wins_aux or (hD y (by rw [he]; simp [hy])) (h1 y hy)
    · exact c46_wins_aux or (hD z (by rw [he]; simp [hz])) (h2 z hz)
  · rename_i hne
    refine giveMono_aux (c34_error_aux k _) (Q := fun v r w tr => ExtremeRun W isMax ts v r w tr) fun r w tr g => .count ?_ g
    match ts with
    | [] => simp
    | [_] => simp
    | x :: y :: l => exact absurd rfl (hne x y l)

/-! ### Theorems -/

/-- `max`, called by name with values that can be ordered (C14) -/
theorem c46_max_partial (hL : L.Safe) {v w : Vm} (rv : v.Reached W L) {form env op : Ref} {name : Text} {xs : List Ref}
    (nc : NamedCall W v form env name op xs) (hop : v.HasObj op (.builtin .max))
    {r : Option Ref} {tr : List Event} (ev : Evaluates W L v form env r w tr) (lo : Int) :
    NamedOpCall W (ArgumentsFirst W form env (Runs .max op fun ts u r w tr => AllOrdered u lo ts → ExtremeRun W true ts u r w tr)) v env op r w tr :=
  namedBuiltinPre_aux (Pre := fun ts u => AllOrdered u lo ts) hL (by simp) (fun _ _ _ _ _ _ _ k ho => c46_run_aux k ho) rv nc hop ev

/-- `min`, called by name with values that can be ordered (C14) -/
theorem c46_min_partial (hL : L.Safe) {v w : Vm} (rv : v.Reached W L) {form env op : Ref} {name : Text} {xs : List Ref}
    (nc : NamedCall W v form env name op xs) (hop : v.HasObj op (.builtin .min))
    {r : Option Ref} {tr : List Event} (ev : Evaluates W L v form env r w tr) (lo : Int) :
    NamedOpCall W (ArgumentsFirst W form env (Runs .min op fun ts u r w tr => AllOrdered u lo ts → ExtremeRun W false ts u r w tr)) v env op r w tr :=
  namedBuiltinPre_aux (Pre := fun ts u => AllOrdered u lo ts) hL (by simp) (fun _ _ _ _ _ _ _ k ho => c46_run_aux k ho) rv nc hop ev

/-- In particular for integers that are not too far from each other: `max` gives the greatest one and `min` the least one. -/
theorem c46_integers {m : Mem} {isMax : Bool} {ts : List Ref} {r : Ref} (h : FirstExtreme m isMax ts r) {N : Ref → Int}
    (hN : ∀ t ∈ ts, ∃ c, m t = some c ∧ c.obj = .int (N t)) (near : ∀ a ∈ ts, ∀ b ∈ ts, N a - N b < 2 ^ 31) :
    r ∈ ts ∧ ∀ t ∈ ts, if isMax then N t ≤ N r else N r ≤ N t := by
  obtain ⟨ys, zs, rfl, h1, h2⟩ := h
  refine ⟨by simp, fun t ht => ?_⟩
  have key : ∀ strict, t ∈ ys ++ r :: zs → Beats m isMax strict r t → if isMax then N t ≤ N r else N r ≤ N t := by
    intro strict ht hb
    obtain ⟨c, hc, ho⟩ := hN r (by simp)
    obtain ⟨c', hc', ho'⟩ := hN t ht
    have A := c14_integers hc hc' ho ho' (near r (by simp) t ht) (near t ht r (by simp))
    have det : ∀ {f : Int → Bool} {n n' : Nat} {b b' : Bool}, (compareRef m n r t).map f = .ok b → (compareRef m n' r t).map f = .ok b' → b = b' := by
      intro f n n' b b' h h'
      obtain ⟨z, hz, rfl⟩ := c14_map_aux h
      obtain ⟨z', hz', rfl⟩ := c14_map_aux h'
      rw [compareRef_det m hz hz']
    obtain ⟨⟨_, a1⟩, ⟨_, a2⟩, _, ⟨_, a4⟩, ⟨_, a5⟩⟩ := A
    cases isMax <;> cases strict <;> obtain ⟨_, hb⟩ := hb
    · have := det a2 hb; simpa using this
    · have := det a1 hb; simp at this; simp; omega
    · have := det a4 hb; simpa using this
    · have := det a5 hb; simp at this; simp; omega
  rcases List.mem_append.mp ht with hy | hy
  · exact key true ht (h1 t hy)
  · rcases List.mem_cons.mp hy with rfl | hz
    · split <;> exact Int.le_refl _
    · exact key false ht (h2 t hz)

/-! ### Examples -/

/-- `(max 3 (+ 3 4) 7 1)` and `(min 3 (+ 3 4) 1)` -/
example : ∃ (v w : Vm) (form op : Ref) (xs : List Ref) (r : Option Ref) (tr : List Event), v.Reached world library ∧
    NamedCall world v form v.globalEnv (txt "max") op xs ∧ v.HasObj op (.builtin .max) ∧
    Evaluates world library v form v.globalEnv r w tr ∧ objAt w r = some (.int 7) := by
  obtain ⟨v, form, r, w, tr, hr, of, oe, ev, h⟩ := stage_exists (table := kit3) (forms := []) (fuel := 60)
    (last := .vec [.sym "max", .int 3, .vec [.sym "+", .int 3, .int 4], .int 7, .int 1])
    (P := fun v f r w tr => namedCheck v f "max" (.builtin .max) && decide (objAt w r = some (.int 7))) kit3_plain (by decide +kernel)
  simp only [Bool.and_eq_true, decide_eq_true_eq] at h
  obtain ⟨op, xs, h1, h2, h3⟩ := named_of_check h.1 of oe
  exact ⟨v, w, form, op, xs, r, tr, hr, h1, h2, ev, h.2⟩

example : stageCheck kit3 [] (.vec [.sym "min", .int 3, .vec [.sym "+", .int 3, .int 4], .int 1]) 60
      (fun _ _ r w _ => match objAt w r with | some (.int 1) => true | _ => false) = true := by decide +kernel

/-- the values of the arguments of these examples can be ordered -/
example : AllOrdered { Vm.base world.malloc with mem := memOf [.int 3, .int 7, .int 1] } 0 [0, 1, 2] := by
  intro t ht
  have : t = 0 ∨ t = 1 ∨ t = 2 := by simpa using ht
  rcases this with rfl | rfl | rfl
  · exact ⟨.int 3, .atom rfl rfl, .int, .int (by omega) (by omega)⟩
  · exact ⟨.int 7, .atom rfl rfl, .int, .int (by omega) (by omega)⟩
  · exact ⟨.int 1, .atom rfl rfl, .int, .int (by omega) (by omega)⟩

/-- `(max 2147483647 -2)` has no defined result: the comparison overflows. -/
theorem c46_overflow : (match run world 60 (handler world (Prog.body library) 60) (do
      let f ← setup kit3 [] (.vec [.sym "max", .int 2147483647, .int (-2)])
      Prog.eval f (← Prog.root .globalEnv)) (Vm.base world.malloc) with
    | .error e => decide (e = .ub)
    | .ok _ => false) = true := by decide +kernel

end Dern.Props
