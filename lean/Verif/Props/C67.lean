import Verif.Props.C66
import Verif.Props.C63
import Verif.Props.C62
import Verif.Props.C61
import Verif.Dern.Spare
/-
C67: `cp@`.

`(cp@ x i)` is a new copy of the element of the vector or list `x` at `i`, the character of a text, a bit of an integer, or a part of a version;
`(cp@ x i j)` is a new vector with copies of the elements or characters from `i` to `j`.
-/
namespace Dern.Props
open Dern
open Dern.Spec (Reach position Dbl Clean)
open Dern.Prog (Library)
variable {W : World} {L : Library}

/-! ### Specification -/

/-- `y` is the number with at most 24 significant bits that is nearest to `x`, which has `24 + k` bits; in the middle between two such numbers, the one with
the even significand.  Conversion to `float`. -/
def Nearest (x y : Int) : Prop :=
  ∃ k : Nat, x.natAbs < 2 ^ (24 + k) ∧ (k = 0 ∨ 2 ^ (23 + k) ≤ x.natAbs) ∧ (2 ^ k : Int) ∣ y ∧ 2 * (x - y).natAbs ≤ 2 ^ k ∧
    (2 * (x - y).natAbs = 2 ^ k → (2 ^ (k + 1) : Int) ∣ y)

/-- the index that a value denotes: numbers pass through a `float`, and then lose the places after the point -/
inductive IndexOf (v : Vm) (y : Ref) (i : Int) : Prop
  | int {n} : v.HasObj y (.int n) → Nearest n i → IndexOf v y i
  | real {d x z} : v.HasObj y (.real d) → d.exponent ≠ 2047 → d.value = some x → Nearest x z →
      (0 ≤ z → Dbl.ofInt i ≤ z ∧ z < Dbl.ofInt (i + 1)) → (z ≤ 0 → Dbl.ofInt (i - 1) < z ∧ z ≤ Dbl.ofInt i) → IndexOf v y i

/-- the two indices after the first value: the second one is the same as the first if it is left out -/
def Indices (v : Vm) (ys : List Ref) (i j : Int) : Prop :=
  (∃ y, ys = [y] ∧ IndexOf v y i ∧ j = i) ∨ ∃ y z, ys = [y, z] ∧ IndexOf v y i ∧ IndexOf v z j

/-- `r` is a new copy of the value `e`, all parts of which are new; otherwise nothing has changed (afterwards, only messages of errors may be extended) -/
def GivesCopy (W : World) (e : Ref) (v : Vm) (r : Ref) (w : Vm) (tr : List Event) : Prop :=
  tr = [] ∧ ∃ u, Vm.Quiet W nobody v u ∧ Copied (fun z => ¬ v.Old W z) v.mem u.mem e r ∧ Ends u w

/-- no value has been collected since the value `r` was created as an empty vector -/
def NoneCollected (W : World) (v : Vm) (r : Ref) (w : Vm) : Prop :=
  ∃ u, Vm.Quiet W nobody v u ∧ u.HasVec r [] ∧ ∀ x, (u.mem x).isSome → (w.mem x).isSome

/-- the part of a version at `k`: the three numbers, then the identifiers of the pre-release (always the first of these) and of the build -/
inductive PartAt (s : Spec.Version) : Nat → Obj → Prop
  | major : PartAt s 0 (.int (Int.bmod s.major (2 ^ 32)))
  | minor : PartAt s 1 (.int (Int.bmod s.minor (2 ^ 32)))
  | patch : PartAt s 2 (.int (Int.bmod s.patch (2 ^ 32)))
  | number {k n} : k < s.pre.length → s.pre.head? = some (.num n) → PartAt s (3 + k) (.int (Int.bmod n (2 ^ 32)))
  | word {k t u} : k < s.pre.length → s.pre.head? = some (.lex t) → (Clean t → u = t) → PartAt s (3 + k) (.str u)
  | build {k t u} : s.build[k]? = some t → (Clean t → u = t) → PartAt s (3 + s.pre.length + k) (.str u)

/-- the number of parts of a version -/
def parts (s : Spec.Version) : Nat := 3 + s.pre.length + s.build.length

/-- `x` is a string or a symbol -/
def IsText (v : Vm) (x : Ref) (s : Text) : Prop := v.HasObj x (.str s) ∨ v.HasObj x (.sym s)

/-- what `cp@` can be used with -/
def Picks (o : Obj) : Prop := o = .nil ∨ (∃ s, o = .str s) ∨ (∃ s, o = .sym s) ∨ (∃ es, o = .vec es) ∨ (∃ es, o = .list es) ∨ (∃ s, o = .semver s) ∨
  (∃ n, o = .int n) ∨ (∃ nb es, o = .hmap nb es) ∨ ∃ n es, o = .queue n es

/-- What `cp@` does with values that are not hash maps.  There is no result for a queue, for an index outside of a list, if the second index comes before
the first one, or if a collection happens while a new vector is filled. -/
inductive CpAtRun (W : World) (ts : List Ref) (v : Vm) (r : Ref) (w : Vm) (tr : List Event) : Prop
  | count : ts.length < 2 → GivesError W v r w tr → CpAtRun W ts v r w tr
  | unfit {x ys o} : ts = x :: ys → ys ≠ [] → v.HasObj x o → ¬ Picks o → GivesError W v r w tr → CpAtRun W ts v r w tr
  | character {x ys} {s : Text} {i k} {c : Ch} : ts = x :: ys → IsText v x s → Indices v ys i i → position s.length i = some k → s[k]? = some c →
      Gives W (.chr [c]) v r w tr → CpAtRun W ts v r w tr
  | characters {x ys} {s : Text} {i j k l} : ts = x :: ys → IsText v x s → Indices v ys i j → i ≠ j → position s.length i = some k →
      position s.length j = some l → k ≤ l → GivesVec W (((s.drop k).take (l + 1 - k)).map fun c => .chr [c]) v r w tr → NoneCollected W v r w →
      CpAtRun W ts v r w tr
  | element {x ys es i k e} : ts = x :: ys → v.HasVec x es → Indices v ys i i → position es.length i = some k → es[k]? = some e →
      GivesCopy W e v r w tr → CpAtRun W ts v r w tr
  | elements {x ys es i j k l} : ts = x :: ys → v.HasVec x es → Indices v ys i j → i ≠ j → position es.length i = some k →
      position es.length j = some l → k ≤ l → GivesCopies W ((es.drop k).take (l + 1 - k)) v r w tr → NoneCollected W v r w → CpAtRun W ts v r w tr
  | outside {x ys i j n} : ts = x :: ys → ((∃ s, IsText v x s ∧ n = s.length) ∨ ∃ es, v.HasVec x es ∧ n = es.length) → Indices v ys i j →
      position n i = none ∨ position n j = none → GivesError W v r w tr → CpAtRun W ts v r w tr
  | outsideFirst {x y z es i} : ts = [x, y, z] → v.HasVec x es → IndexOf v y i → position es.length i = none → GivesError W v r w tr → CpAtRun W ts v r w tr
  | noNumber {x ys y} : ts = x :: ys → y ∈ ys → ¬ IsNum v y → ((∃ s, IsText v x s) ∨ ∃ es, v.HasVec x es) → GivesError W v r w tr → CpAtRun W ts v r w tr
  | tooMany {x ys} : ts = x :: ys → 2 < ys.length → ((∃ s, IsText v x s) ∨ ∃ es, v.HasVec x es) → GivesError W v r w tr → CpAtRun W ts v r w tr
  | listElement {x y es i e} : ts = [x, y] → v.HasObj x (.list es) → v.HasObj y (.int i) → ElementAt es i e → GivesCopy W e v r w tr → CpAtRun W ts v r w tr
  | bit {x y n i k} : ts = [x, y] → v.HasObj x (.int n) → v.HasObj y (.int i) → position 32 i = some k → Gives W (.int (n / 2 ^ k % 2)) v r w tr →
      CpAtRun W ts v r w tr
  | noBit {x y n i} : ts = [x, y] → v.HasObj x (.int n) → v.HasObj y (.int i) → position 32 i = none → GivesError W v r w tr → CpAtRun W ts v r w tr
  | part {x y s i k o} : ts = [x, y] → v.HasObj x (.semver s) → v.HasObj y (.int i) → i ≠ -(parts s : Int) → position (parts s) i = some k → PartAt s k o →
      Gives W o v r w tr → CpAtRun W ts v r w tr
  | noPart {x y s i} : ts = [x, y] → v.HasObj x (.semver s) → v.HasObj y (.int i) → i = -(parts s : Int) ∨ position (parts s) i = none →
      GivesError W v r w tr → CpAtRun W ts v r w tr
  | nil {x y} : ts = [x, y] → v.HasObj x .nil → Gives W .nil v r w tr → CpAtRun W ts v r w tr
  | noInteger {x y o} : ts = [x, y] → v.HasObj x o → ((∃ es, o = .list es) ∨ (∃ s, o = .semver s) ∨ ∃ n, o = .int n) → (∀ i, ¬ v.HasObj y (.int i)) →
      GivesError W v r w tr → CpAtRun W ts v r w tr
  | onlyTwo {x ys o} : ts = x :: ys → 1 < ys.length → v.HasObj x o → (o = .nil ∨ (∃ es, o = .list es) ∨ (∃ s, o = .semver s) ∨ ∃ n, o = .int n) →
      GivesError W v r w tr → CpAtRun W ts v r w tr

/-- the element of a hash map that the two values after it denote: by its key, or by its place (with `index`; from 0 on) -/
inductive MapElement (v : Vm) (x y z : Ref) : Option Ref → Prop
  | hash {f d} : v.HasObj z (.sym (txt "hash")) → IsMap v x f → KeyAt v y d → MapElement v x y z (f d)
  | place {nb es} {i : Nat} : v.HasObj z (.sym (txt "index")) → v.HasObj x (.hmap nb es) → v.HasObj y (.int i) → MapElement v x y z (es[i]?.map (·.2))

/-- what `cp@` does with a hash map -/
inductive CpMapRun (W : World) (ts : List Ref) (v : Vm) (r : Ref) (w : Vm) (tr : List Event) : Prop
  | found {x y z e} : ts = [x, y, z] → MapElement v x y z (some e) → GivesCopy W e v r w tr → CpMapRun W ts v r w tr
  | missing {x y z} : ts = [x, y, z] → MapElement v x y z none → GivesError W v r w tr → CpMapRun W ts v r w tr
  | count {x nb es} {ys : List Ref} : ts = x :: ys → v.HasObj x (.hmap nb es) → ys.length ≠ 2 → GivesError W v r w tr → CpMapRun W ts v r w tr
  | wrong {x y z nb es} : ts = [x, y, z] → v.HasObj x (.hmap nb es) → (¬ v.HasObj z (.sym (txt "hash")) ∧ ¬ v.HasObj z (.sym (txt "index")) ∨
      v.HasObj z (.sym (txt "index")) ∧ ∀ i, ¬ v.HasObj y (.int i)) → GivesError W v r w tr → CpMapRun W ts v r w tr

/-- the first value is a hash map; with `hash`, its keys and the next value are data that can be keys; with `index`, the next value is not negative -/
def MapFirst (ts : List Ref) (v : Vm) : Prop := ∃ x ys nb es, ts = x :: ys ∧ v.HasObj x (.hmap nb es) ∧ ∀ y z, ys = [y, z] →
  (v.HasObj z (.sym (txt "hash")) → ∃ f d, IsMap v x f ∧ KeyAt v y d) ∧ (v.HasObj z (.sym (txt "index")) → ∀ i, v.HasObj y (.int i) → 0 ≤ i)

/-! ### Proofs -/

theorem c67_trunc_aux {z : Int} : (0 ≤ z → Dbl.ofInt (z.tdiv (Dbl.unit : Int)) ≤ z ∧ z < Dbl.ofInt (z.tdiv (Dbl.unit : Int) + 1)) ∧
    (z ≤ 0 → Dbl.ofInt (z.tdiv (Dbl.unit : Int) - 1) < z ∧ z ≤ Dbl.ofInt (z.tdiv (Dbl.unit : Int))) := by
  have hu : (0 : Int) < (Dbl.unit : Int) := by exact_mod_cast Dbl.unit_pos
  constructor
  · intro h0
    rw [Int.tdiv_eq_ediv_of_nonneg h0]
    unfold Dbl.ofInt
    have h1 := Int.emod_add_mul_ediv z (Dbl.unit : Int)
    have h2 := Int.emod_nonneg z (Int.ne_of_gt hu)
    have h3 := Int.emod_lt_of_pos z hu
    rw [Int.mul_comm] at h1
    rw [Int.add_mul, Int.one_mul]
    omega
  · intro h0
    have e : z.tdiv (Dbl.unit : Int) = -((-z) / (Dbl.unit : Int)) := by
      rw [← Int.tdiv_eq_ediv_of_nonneg (by omega), Int.neg_tdiv, Int.neg_neg]
    rw [e]
    unfold Dbl.ofInt
    have h1 := Int.emod_add_mul_ediv (-z) (Dbl.unit : Int)
    have h2 := Int.emod_nonneg (-z) (Int.ne_of_gt hu)
    have h3 := Int.emod_lt_of_pos (-z) hu
    rw [Int.mul_comm] at h1
    rw [Int.sub_mul, Int.one_mul, Int.neg_mul]
    omega

theorem c67_round_aux (n : Nat) : ∃ k, n < 2 ^ (24 + k) ∧ (k = 0 ∨ 2 ^ (23 + k) ≤ n) ∧ 2 ^ k ∣ Prog.round24 n ∧
    2 * ((n : Int) - Prog.round24 n).natAbs ≤ 2 ^ k ∧ (2 * ((n : Int) - Prog.round24 n).natAbs = 2 ^ k → 2 ^ (k + 1) ∣ Prog.round24 n) := by
  unfold Prog.round24
  by_cases h : n < 2 ^ 24
  · rw [if_pos h]
    exact ⟨0, by simpa using h, .inl rfl, by simp, by simp, by simp⟩
  · rw [if_neg h]
    have hn : n ≠ 0 := by rintro rfl; exact h (by decide)
    have l1 : 2 ^ n.log2 ≤ n := Nat.log2_self_le hn
    have l2 : n < 2 ^ (n.log2 + 1) := Nat.lt_log2_self
    have l3 : 24 ≤ n.log2 := by
      rcases Nat.lt_or_ge n.log2 24 with h' | h'
      · exact absurd (Nat.lt_of_lt_of_le l2 (Nat.pow_le_pow_right (by decide) h')) h
      · exact h'
    obtain ⟨k, hk⟩ : ∃ k, n.log2 = 24 + k := ⟨n.log2 - 24, by omega⟩
    rw [hk] at l1 l2 ⊢
    have e1 : 24 + k - 23 = k + 1 := by omega
    simp only [e1, Nat.add_sub_cancel]
    have d := Nat.div_add_mod n (2 ^ (k + 1))
    have m := Nat.mod_lt n (Nat.pow_pos (a := 2) (n := k + 1) (by decide))
    have q1 : 2 ^ 23 ≤ n / 2 ^ (k + 1) := (Nat.le_div_iff_mul_le (Nat.pow_pos (by decide))).mpr (by rw [← Nat.pow_add]; exact Nat.le_trans (Nat.le_of_eq (by congr 1; omega)) l1)
    have q2 : n / 2 ^ (k + 1) < 2 ^ 24 := (Nat.div_lt_iff_lt_mul (Nat.pow_pos (by decide))).mpr (by rw [← Nat.pow_add]; exact Nat.lt_of_lt_of_le l2 (Nat.le_of_eq (by congr 1)))
    generalize n / 2 ^ (k + 1) = q at *
    generalize n % 2 ^ (k + 1) = r at *
    have p1 : 2 ^ (k + 1) = 2 * 2 ^ k := by rw [Nat.pow_succ]; omega
    have p4 : 2 ^ (k + 1 + 1) = 2 * (2 * 2 ^ k) := by rw [Nat.pow_succ, p1]; omega
    refine ⟨k + 1, by rw [show 24 + (k + 1) = 24 + k + 1 by omega]; exact l2, .inr (by rw [show 23 + (k + 1) = 24 + k by omega]; exact l1), ?_⟩
    rw [p4]
    rw [p1] at d m ⊢
    have pos : 0 < 2 ^ k := Nat.pow_pos (by decide)
    generalize 2 ^ k = b at *
    have hd : 2 * b * q = q * (2 * b) := Nat.mul_comm _ _
    split
    · rename_i hr
      have e : (q + 1) * (2 * b) = q * (2 * b) + 2 * b := by rw [Nat.add_mul, Nat.one_mul]
      refine ⟨⟨q + 1, Nat.mul_comm _ _⟩, ?_, ?_⟩
      · omega
      · intro h'
        have : q % 2 = 1 := by omega
        refine ⟨(q + 1) / 2, ?_⟩
        have : q + 1 = 2 * ((q + 1) / 2) := by omega
        conv => lhs; rw [this]
        ac_rfl
    · rename_i hr
      refine ⟨⟨q, Nat.mul_comm _ _⟩, ?_, ?_⟩
      · omega
      · intro h'
        have : q % 2 = 0 := by omega
        refine ⟨q / 2, ?_⟩
        have : q = 2 * (q / 2) := by omega
        conv => lhs; rw [this]
        ac_rfl

theorem c67_nearest_aux (x : Int) : Nearest x (Prog.toFloat x) := by
  obtain ⟨k, h2, h3, h1, h4, h5⟩ := c67_round_aux x.natAbs
  unfold Prog.toFloat
  refine ⟨k, ?_⟩
  split
  · have e : (x.natAbs : Int) = x := by omega
    rw [e] at h4 h5
    exact ⟨h2, h3, by exact_mod_cast h1, h4, fun h => by exact_mod_cast h5 h⟩
  · have e : (x - -(Prog.round24 x.natAbs : Int)).natAbs = ((x.natAbs : Int) - Prog.round24 x.natAbs).natAbs := by omega
    rw [e]
    exact ⟨h2, h3, Int.dvd_neg.mpr (by exact_mod_cast h1), h4, fun h => Int.dvd_neg.mpr (by exact_mod_cast h5 h)⟩

theorem wp_indexOf {n : Nat} {h : Handler} {y : Ref} {c : Cell} {v : Vm} (hc : v.mem y = some c) {Q : Option Int → Vm → List Event → Prop}
    (hs : ∀ i, IndexOf v y i → Q (some i) v []) (hn : ¬ IsNum v y → Q none v []) : Wp W n h (Prog.indexOf c.obj) v Q := by
  unfold Prog.indexOf
  cases ho : c.obj
  case int k => exact wp_pure (hs _ (.int ⟨c, hc, ho⟩ (c67_nearest_aux k)))
  case real d =>
    simp only
    split
    · rename_i x hx
      by_cases he : d.exponent = 2047
      · rw [if_pos he]; exact wp_fail
      · rw [if_neg he]
        exact wp_bind (wp_int64 (wp_pure (hs _ (.real ⟨c, hc, ho⟩ he hx (c67_nearest_aux x) c67_trunc_aux.1 c67_trunc_aux.2))))
    · exact wp_fail
  all_goals
    refine wp_pure (hn ?_)
    rintro (⟨k, c', hc', ho'⟩ | ⟨d, c', hc', ho'⟩) <;> cases same_cell hc hc' <;> rw [ho] at ho' <;> cases ho'

theorem c67_textIndex_aux (s : Text) (i : Int) : textIndex s i = position s.length i := by
  unfold textIndex position
  repeat' split
  all_goals first | rfl | omega

theorem c67_indexIn_aux (n : Nat) (i : Int) : Prog.indexIn n i = position n i := by
  unfold Prog.indexIn position
  repeat' split
  all_goals first | rfl | omega

theorem c67_position_aux {n : Nat} {i : Int} {k : Nat} (h : position n i = some k) : k < n := by
  unfold position at h
  split at h
  · split at h
    · cases h; omega
    · cases h
  · split at h
    · cases h; omega
    · cases h

/-! #### a vector that nothing protects -/

/-- `r` is a new vector that nothing refers to; nothing has been collected since the state `B` after its allocation -/
structure Slicing (W : World) (v B : Vm) (r : Ref) (cur : List Ref) (u : Vm) : Prop where
  sane0 : v.Sane W
  sane : u.Sane W
  closed : u.Closed W (fun z => z = r)
  stack : u.stack = v.stack
  loose : r ∉ u.stack
  quiet : Vm.Quiet W nobody v u
  fresh : ¬ v.Old W r
  cell : u.HasVec r cur
  whole : ∀ x, (B.mem x).isSome → (u.mem x).isSome
  back : ∀ x c, v.Old W x → u.mem x = some c → v.mem x = some c

theorem c67_start_aux {v u : Vm} {r : Ref} (sv : v.Sane W) (cv : v.Closed W fun _ => False) (a : Allocated W v (.vec []) r u) :
    Slicing W v u r [] u where
  sane0 := sv
  sane := a.sane sv
  closed := by
    have h := hide_new cv (a.sane sv) (a.quiet sv) (a.closed cv (by simp [PubObj]))
    have e : (fun z => False ∨ ¬ v.Old W z ∧ u.Old W z) = fun z => z = r := by
      funext z
      apply propext
      constructor
      · rintro (h | ⟨h1, k, hk, rfl⟩)
        · exact h.elim
        · rw [a.births] at hk
          by_cases hk' : k < v.births
          · exact absurd ⟨k, hk', rfl⟩ h1
          · rw [a.addr]; congr 1; omega
      · rintro rfl
        exact .inr ⟨a.fresh, a.old⟩
    rw [e] at h
    exact h
  stack := a.stack
  loose := fun h => a.fresh (cv.stack r (by rw [← a.stack]; exact h))
  quiet := a.quiet sv
  fresh := a.fresh
  cell := ⟨_, a.cell, rfl⟩
  whole := fun _ h => h
  back := fun x c ho hc => by
    rcases a.some hc with ⟨rfl, _⟩ | ⟨_, h⟩
    · exact absurd ho a.fresh
    · exact h

/-- the effect of one more element `y`, made by a step from `u` to `w` in which the vector survives -/
theorem Slicing.add {v B u w : Vm} {r y : Ref} {cur : List Ref} (f : Slicing W v B r cur u) (sw : w.Sane W) (cw : w.Closed W (fun z => z = r))
    (hst : w.stack = u.stack) (q : Vm.Quiet W nobody u w) (hc : ∀ x c, u.mem x = some c → w.mem x = some c ∨ w.mem x = none)
    (sp : Spares (fun z => z = r) u w) (hy : w.Pub W (fun z => z = r) y) {c : Cell} {es : List Ref} (hr : w.mem r = some c) (ho : c.obj = .vec es) :
    es = cur ∧ Slicing W v B r (cur ++ [y]) { w with mem := w.mem.set r { c with obj := .vec (es ++ [y]) } } ∧ ∀ x c, u.mem x = some c → w.mem x = some c := by
  have whole : ∀ x c, u.mem x = some c → w.mem x = some c := by
    intro x d hd
    rcases hc x d hd with e | e
    · exact e
    · have := sp r rfl (by rw [hr]; rfl) x (by rw [hd]; rfl)
      rw [e] at this; cases this
  have hes : es = cur := by
    obtain ⟨c0, hc0, ho0⟩ := f.cell
    have := whole r c0 hc0
    rw [hr] at this
    cases this
    rw [ho] at ho0; cases ho0; rfl
  subst hes
  have p := cw.cells r c hr
  refine ⟨rfl, ⟨f.sane0, write_sane sw hr rfl rfl, ?_, hst.trans f.stack, by show r ∉ w.stack; rw [hst]; exact f.loose,
    (f.quiet.trans f.sane0 q).write f.sane0 (.inr f.fresh) hr, f.fresh, ⟨_, Mem.set_self .., rfl⟩, ?_, ?_⟩, whole⟩
  · refine ⟨?_, ?_, cw.stack, cw.ret, fun which => by have := cw.roots which; cases which <;> exact this, cw.known⟩
    · intro x d hd
      rcases set_some hd with ⟨rfl, rfl⟩ | ⟨_, h⟩
      · refine ⟨?_, p.docstr, p.docvec⟩
        have := p.obj
        rw [ho] at this
        intro z hz
        rcases List.mem_append.mp hz with hz | hz
        · exact this z hz
        · rw [List.mem_singleton.mp hz]; exact hy.1
      · exact cw.cells x d h
    · intro x d hd hx
      rcases set_some hd with ⟨rfl, rfl⟩ | ⟨_, h⟩
      · exact absurd rfl hx
      · exact cw.pub x d h hx
  · intro x hx
    by_cases e : x = r
    · subst e; show (w.mem.set x _ x).isSome; rw [Mem.set_self]; rfl
    · show (w.mem.set r _ x).isSome
      rw [Mem.set_other _ _ e]
      obtain ⟨d, hd⟩ := Option.isSome_iff_exists.mp (f.whole x hx)
      rw [whole x d hd]; rfl
  · intro x d ho' hd
    have hx : x ≠ r := fun e => f.fresh (e ▸ ho')
    have hd' : w.mem x = some d := by rw [← hd]; exact (Mem.set_other _ _ hx).symm
    cases hm : u.mem x with
    | none => rw [q.gone x (ho'.mono f.quiet.births) hm] at hd'; cases hd'
    | some d' =>
      rw [whole x d' hm] at hd'
      cases hd'
      exact f.back x d ho' hm

theorem Slicing.append {n : Nat} {h : Handler} {v B u w : Vm} {r y : Ref} {cur : List Ref} (f : Slicing W v B r cur u) (sw : w.Sane W)
    (cw : w.Closed W (fun z => z = r)) (hst : w.stack = u.stack) (q : Vm.Quiet W nobody u w)
    (hc : ∀ x c, u.mem x = some c → w.mem x = some c ∨ w.mem x = none) (sp : Spares (fun z => z = r) u w) (hy : w.Pub W (fun z => z = r) y)
    {Q : Unit → Vm → List Event → Prop}
    (hq : ∀ w', Slicing W v B r (cur ++ [y]) w' → (∀ x, x ≠ r → w'.mem x = w.mem x) → (∀ x c, u.mem x = some c → w.mem x = some c) → Q () w' []) :
    Wp W n h (Prog.append r y) w Q := by
  refine wp_append fun c es hr ho => ?_
  obtain ⟨rfl, g, whole⟩ := f.add sw cw hst q hc sp hy hr ho
  exact hq _ g (fun x hx => Mem.set_other _ _ hx) whole

/-- allocating, with what it collects -/
theorem wp_allocSpares {n : Nat} {h : Handler} {o : Obj} {v : Vm} {X : Ref → Prop} (sv : v.Sane W) (cv : v.Closed W X) (hl : Loose X v)
    {Q : Ref → Vm → List Event → Prop} (hq : ∀ r w, Allocated W v o r w → Spares X v w → Q r w []) : Wp W n h (Prog.alloc o) v Q := by
  refine wp_op fun r w t e => ?_
  simp only [step, quiet] at e
  cases ha : Dern.alloc W.malloc o v with
  | error e' => rw [ha] at e; cases e
  | ok x =>
    obtain ⟨r', w'⟩ := x
    rw [ha] at e
    simp only [Except.ok.injEq, Prod.mk.injEq] at e
    obtain ⟨rfl, rfl, rfl⟩ := e
    exact hq _ _ (alloc_spec sv ha) (alloc_spares sv cv hl ha)

section
variable {n : Nat} {args env : Ref} {ts : List Ref} {v B : Vm}

/-- copies of old values are appended -/
theorem c67_copies_aux (hL : L.Safe) (cv : v.Closed W fun _ => False) {r : Ref} : ∀ (xs done cur : List Ref) (u : Vm), (∀ z ∈ xs, v.Old W z) →
    Slicing W v B r cur u → List.Forall₂ (Copied (fun z => ¬ v.Old W z ∧ z ≠ r) v.mem u.mem) done cur →
    Wp W n (handle W L n) (Prog.appendCopies r xs) u fun _ w t => t = [] ∧ ∃ cur', Slicing W v B r cur' w ∧
      List.Forall₂ (Copied (fun z => ¬ v.Old W z ∧ z ≠ r) v.mem w.mem) (done ++ xs) cur' := by
  intro xs
  induction xs with
  | nil => intro done cur u _ f hf; exact wp_pure ⟨rfl, cur, f, by simpa using hf⟩
  | cons x xs ih =>
    intro done cur u old f hf
    have ox := old x (by simp)
    show Wp W n (handle W L n) (Prog.copyOf x >>= fun y => Prog.append r y >>= fun _ => Prog.appendCopies r xs) u _
    unfold Prog.copyOf
    rw [bind_assoc]
    refine wp_bind (wp_call fun a w t e => ?_)
    have hx : ∀ z ∈ (Call.copy x).refs, u.Pub W (fun z => z = r) z := by
      intro z hz
      simp only [Call.refs, List.mem_singleton] at hz
      subst hz
      exact ⟨ox.mono f.quiet.births, fun h => f.fresh (h ▸ ox)⟩
    obtain ⟨sw, rfl, q, _⟩ := (handler_fine hL n).copy _ _ _ _ _ f.sane e
    obtain ⟨_, y, rfl, ok⟩ := handler_copies n _ _ _ _ _ f.sane f.closed.all (ox.mono f.quiet.births) e
    have g := (handler_fine hL n).spec (fun z => z = r) (.copy x) u u.stack f.sane f.closed hx rfl
    have e2 : handler W (Prog.body L) n (.copy x) u = .ok (some y, w, []) := e
    rw [e2] at g
    obtain ⟨g, _, hy⟩ := g
    have sp := handler_spares hL n (fun z => z = r) (.copy x) u u.stack _ _ _ f.sane f.closed (fun z hz h => f.loose (h ▸ hz)) hx rfl e
    refine wp_bind (wp_deref fun y' e' => ?_)
    cases e'
    refine wp_bind (f.append sw g.closed ok.stack q ok.pure.cells sp (hy y rfl) fun w' f' other whole => ?_)
    have stays : ∀ z, u.Old W z → w.mem z = u.mem z := by
      intro z hz
      cases hm : u.mem z with
      | none => exact ok.pure.gone z hz hm
      | some c => exact whole z c hm
    have oldCur : ∀ b ∈ cur, u.Old W b := by
      obtain ⟨c, hc, ho⟩ := f.cell
      intro b hb
      have := (f.closed.cells r c hc).obj
      rw [ho] at this
      exact this b hb
    have key : List.Forall₂ (Copied (fun z => ¬ v.Old W z ∧ z ≠ r) v.mem w.mem) (done ++ [x]) (cur ++ [y]) := by
      refine forall₂_snoc (c35_rel_aux hf fun a b hb hh => hh.target fun z _ hr => stays z ?_) ?_
      · exact c62_reachOld_aux (ts := [b]) f.closed (by simpa using oldCur b hb) (hr.mono (by rintro _ rfl; exact .root (by simp)))
      · refine (ok.copied.source (P := v.Old W) ?_ ?_ ox).mono fun z hz => ⟨fun h => hz (h.mono f.quiet.births), fun e => hz (e ▸ f.closed.known r rfl)⟩
        · exact f.back
        · exact fun z c b _ hc hb => (cv.cells z c hc).obj.children hb
    refine Wp.mono (ih (done ++ [x]) (cur ++ [y]) w' (fun z hz => old z (by simp [hz])) f'
      (c35_rel_aux key fun a b _ hh => hh.target fun z hz _ => other z hz.2)) ?_
    rintro _ w2 t ⟨rfl, cur', h1, h2⟩
    exact ⟨rfl, cur', h1, by simpa using h2⟩

/-- new characters are appended -/
theorem c67_chars_aux {h : Handler} {r : Ref} : ∀ (cs : Text) (done : List Obj) (cur : List Ref) (u : Vm), Slicing W v B r cur u → (r :: cur).Nodup →
    List.Forall₂ (fun x o => ¬ v.Old W x ∧ u.HasObj x o) cur done →
    Wp W n h (Prog.appendChars r cs) u fun _ w t => t = [] ∧ ∃ cur', Slicing W v B r cur' w ∧ (r :: cur').Nodup ∧
      List.Forall₂ (fun x o => ¬ v.Old W x ∧ w.HasObj x o) cur' (done ++ cs.map fun c => .chr [c]) := by
  intro cs
  induction cs with
  | nil => intro done cur u f nd hf; exact wp_pure ⟨rfl, cur, f, nd, by simpa using hf⟩
  | cons c cs ih =>
    intro done cur u f nd hf
    show Wp W n h (Prog.alloc (.chr [c]) >>= fun y => Prog.append r y >>= fun _ => Prog.appendChars r cs) u _
    refine wp_bind (wp_allocSpares f.sane f.closed (fun z hz h => f.loose (h ▸ hz)) fun y w a sp => ?_)
    have cells : ∀ x c, u.mem x = some c → w.mem x = some c ∨ w.mem x = none := by
      intro x c hc
      rcases a.other x (fun e => a.fresh (e ▸ f.sane.old x c hc)) with e | e
      · rw [e]; exact .inl hc
      · exact .inr e
    have oldCur : ∀ b ∈ cur, u.Old W b := by
      obtain ⟨c, hc, ho⟩ := f.cell
      intro b hb
      have := (f.closed.cells r c hc).obj
      rw [ho] at this
      exact this b hb
    have yr : y ≠ r := fun e => a.fresh (e ▸ f.closed.known r rfl)
    refine wp_bind (f.append (a.sane f.sane) (a.closed f.closed trivial) a.stack (a.quiet f.sane) cells sp (a.pub f.closed) fun w' f' other whole => ?_)
    have nd' : (r :: (cur ++ [y])).Nodup := by
      rw [← List.cons_append]
      refine List.nodup_append.mpr ⟨nd, by simp, ?_⟩
      intro b hb b' hb' e
      rw [List.mem_singleton.mp hb'] at e
      subst e
      rcases List.mem_cons.mp hb with rfl | hb
      · exact yr rfl
      · exact a.fresh (oldCur _ hb)
    have ne : ∀ b ∈ cur, b ≠ r := by
      rintro b hb rfl
      exact (List.nodup_cons.mp nd).1 hb
    have key : List.Forall₂ (fun x o => ¬ v.Old W x ∧ w'.HasObj x o) (cur ++ [y]) (done ++ [.chr [c]]) := by
      refine forall₂_snoc (forall₂_imp hf ?_) ⟨fun h => a.fresh (h.mono f.quiet.births), _, by rw [other y yr]; exact a.cell, rfl⟩
      rintro b o hb ⟨h1, d, hd, ho⟩
      exact ⟨h1, d, by rw [other b (ne b hb)]; exact whole b d hd, ho⟩
    refine Wp.mono (ih _ _ w' f' nd' key) ?_
    rintro _ w2 t ⟨rfl, cur', h1, h2, h3⟩
    exact ⟨rfl, cur', h1, h2, by simpa using h3⟩

theorem c67_copy_aux (hL : L.Safe) (k : Held W args ts env v) {x : Ref} (ox : v.Old W x) :
    Wp W n (handle W L n) (Prog.call (.copy x)) v fun a u t => KeepsBuiltins v u ∧ ∀ r w, a = some r → Ends u w → GivesCopy W x v r w t := by
  refine wp_call fun a u t e => ?_
  obtain ⟨su, rfl, q, _⟩ := (handler_fine hL n).copy _ _ _ _ _ k.sane e
  obtain ⟨_, y, rfl, ok⟩ := handler_copies n _ _ _ _ _ k.sane k.closed.all ox e
  refine ⟨keeps_of_quiet q, ?_⟩
  rintro _ w ⟨⟩ e'
  exact ⟨rfl, u, q, ok.copied, e'⟩

/-- the indices -/
theorem c67_indices_aux {h : Handler} (k : Held W args ts env v) {y : Ref} {rest : List Ref} (hr : rest.length ≤ 1)
    {Q : Option (Int × Int) × Option Ref → Vm → List Event → Prop} (hs : ∀ i j, Indices v (y :: rest) i j → Q (some (i, j), none) v [])
    (hn : ∀ z a u t, z ∈ y :: rest → ¬ IsNum v z → KeepsBuiltins v u → (∀ r w, a = some r → Ends u w → GivesError W v r w t) → Q (none, a) u t) :
    Wp W n h (Prog.cpIndices y rest) v Q := by
  unfold Prog.cpIndices
  refine wp_bind (wp_read fun c hc => ?_)
  refine wp_bind (wp_indexOf hc (fun i hi => ?_) fun hno => ?_)
  · match rest, hr with
    | [], _ => exact wp_pure (by simpa using hs i i (.inl ⟨y, rfl, hi, rfl⟩))
    | [z], _ =>
      refine wp_bind (wp_read fun c' hc' => ?_)
      refine wp_bind (wp_indexOf hc' (fun j hj => ?_) fun hno => ?_)
      · exact wp_pure (by simpa using hs i j (.inr ⟨y, z, rfl, hi, hj⟩))
      · refine wp_bind (Wp.mono (c34_error_aux k _) fun a u t h => wp_pure ?_)
        have := hn z a u t (by simp) hno h.1 h.2
        simpa using this
  · refine wp_bind (Wp.mono (c34_error_aux k _) fun a u t h => wp_pure ?_)
    have := hn y a u t (by simp) hno h.1 h.2
    simpa using this

/-- the vector of a slice -/
theorem c67_slice_aux {h : Handler} (k : Held W args ts env v) {f : Ref → Prog (Option Ref)} {Q : Option Ref → Vm → List Event → Prop}
    (hf : ∀ r u, Slicing W v u r [] u → Wp W n h (f r) u Q) : Wp W n h (Prog.alloc (.vec []) >>= f) v Q := by
  refine wp_bind (wp_alloc k.sane fun r u a => ?_)
  have := hf r u (c67_start_aux k.sane k.closed.all a)
  simpa using this

theorem c67_none_aux {r : Ref} {cur : List Ref} {u w : Vm} (b : Vm.Quiet W nobody v B) (hb : B.HasVec r []) (f : Slicing W v B r cur u) (e : Ends u w) :
    NoneCollected W v r w := by
  refine ⟨B, b, hb, fun x hx => ?_⟩
  obtain ⟨c, hc⟩ := Option.isSome_iff_exists.mp (f.whole x hx)
  rcases e.stays x c hc with h | ⟨m, t, l, _, h⟩ <;> rw [h] <;> rfl

theorem c67_text_aux {h : Handler} {x y : Ref} {rest : List Ref} (k : Held W args (x :: y :: rest) env v) {s : Text} (hx : IsText v x s) :
    Wp W n h (Prog.cpAtText s y rest) v fun a u tr => KeepsBuiltins v u ∧ ∀ r w, a = some r → Ends u w → CpAtRun W (x :: y :: rest) v r w tr := by
  unfold Prog.cpAtText
  by_cases hr : 1 < rest.length
  · rw [if_pos hr]
    exact giveMono_aux (c34_error_aux k _) (Q := fun v r w tr => CpAtRun W _ v r w tr) fun r w tr g => .tooMany rfl (by simp; omega) (.inl ⟨s, hx⟩) g
  rw [if_neg hr]
  refine wp_bind (c67_indices_aux k (by omega) (fun i j hij => ?_) fun z a u t hz hn kb g => ?_)
  · simp only [List.nil_append]
    unfold Prog.cpText
    rw [c67_textIndex_aux, c67_textIndex_aux]
    cases hi : position s.length i with
    | none => exact giveMono_aux (c34_error_aux k _) (Q := fun v r w tr => CpAtRun W _ v r w tr) fun r w tr g => .outside rfl (.inl ⟨s, hx, rfl⟩) hij (.inl hi) g
    | some a =>
      simp only
      cases hj : position s.length j with
      | none => exact giveMono_aux (c34_error_aux k _) (Q := fun v r w tr => CpAtRun W _ v r w tr) fun r w tr g => .outside rfl (.inl ⟨s, hx, rfl⟩) hij (.inr hj) g
      | some b =>
        simp only
        by_cases e : i = j
        · rw [if_pos e]
          subst e
          split
          · rename_i c hc
            exact giveMono_aux (give_aux k (by simp)) (Q := fun v r w tr => CpAtRun W _ v r w tr) fun r w tr g => .character rfl hx hij hi hc g
          · exact wp_fail
        · rw [if_neg e]
          refine c67_slice_aux k fun r B f => ?_
          by_cases hab : b < a
          · rw [if_pos hab]; exact wp_fail
          · rw [if_neg hab]
            refine wp_bind (Wp.mono (c67_chars_aux _ [] [] B f (by simp) .nil) ?_)
            rintro _ u t ⟨rfl, cur, f', nd, hf⟩
            refine wp_pure ⟨keeps_of_quiet f'.quiet, ?_⟩
            rintro _ w ⟨⟩ ew
            refine .characters rfl hx hij e hi hj (by omega) ⟨rfl, f'.quiet.trans k.sane ew.quiet, f'.fresh, cur, ew.hasObj f'.cell (by simp), nd, ?_⟩ (c67_none_aux f.quiet f.cell f' ew)
            rw [List.nil_append] at hf
            refine c35_rel_aux hf fun z o ho hh => ⟨hh.1, ew.hasObj hh.2 ?_⟩
            obtain ⟨c, _, rfl⟩ := List.mem_map.mp ho
            simp
  · refine wp_pure ⟨kb, ?_⟩
    intro r w e ew
    exact .noNumber rfl hz hn (.inl ⟨s, hx⟩) (by simpa using g r w e ew)

theorem c67_vec_aux (hL : L.Safe) {x y : Ref} {rest : List Ref} (k : Held W args (x :: y :: rest) env v) {es : List Ref} (hx : v.HasVec x es) :
    Wp W n (handle W L n) (Prog.cpAtVec es y rest) v fun a u tr => KeepsBuiltins v u ∧ ∀ r w, a = some r → Ends u w → CpAtRun W (x :: y :: rest) v r w tr := by
  have old : ∀ z ∈ es, v.Old W z := by
    obtain ⟨c, hc, ho⟩ := hx
    have := (k.closed.cells x c hc).obj
    rw [ho] at this
    exact this
  have single : ∀ i a, Indices v (y :: rest) i i → position es.length i = some a →
      Wp W n (handle W L n) (Prog.cpVec es i i a a) v fun a u tr => KeepsBuiltins v u ∧ ∀ r w, a = some r → Ends u w → CpAtRun W (x :: y :: rest) v r w tr := by
    intro i a hij hi
    unfold Prog.cpVec
    rw [if_pos rfl]
    split
    · rename_i e he
      exact giveMono_aux (c67_copy_aux hL k (old e (List.mem_of_getElem? he))) (Q := fun v r w tr => CpAtRun W _ v r w tr) fun r w tr g => .element rfl hx hij hi he g
    · exact wp_fail
  unfold Prog.cpAtVec
  by_cases hr : 1 < rest.length
  · rw [if_pos hr]
    exact giveMono_aux (c34_error_aux k _) (Q := fun v r w tr => CpAtRun W _ v r w tr) fun r w tr g => .tooMany rfl (by simp; omega) (.inr ⟨es, hx⟩) g
  rw [if_neg hr]
  refine wp_bind (wp_read fun c hc => ?_)
  refine wp_bind (wp_indexOf hc (fun i hi => ?_) fun hno => ?_)
  · simp only [List.nil_append]
    rw [c67_indexIn_aux]
    cases pi : position es.length i with
    | none =>
      refine giveMono_aux (c34_error_aux k _) (Q := fun v r w tr => CpAtRun W _ v r w tr) fun r w tr g => ?_
      match rest, hr with
      | [], _ => exact .outside rfl (.inr ⟨es, hx, rfl⟩) (.inl ⟨y, rfl, hi, rfl⟩) (.inl pi) g
      | [z], _ => exact .outsideFirst rfl hx hi pi g
      | _ :: _ :: _, h => simp at h
    | some a =>
      simp only
      match rest, hr, k, single with
      | [], _, k, single => exact single i a (.inl ⟨y, rfl, hi, rfl⟩) pi
      | [z], _, k, single =>
        simp only
        refine wp_bind (wp_read fun c' hc' => ?_)
        refine wp_bind (wp_indexOf hc' (fun j hj => ?_) fun hno => ?_)
        · simp only [List.nil_append]
          rw [c67_indexIn_aux]
          have hij : Indices v [y, z] i j := .inr ⟨y, z, rfl, hi, hj⟩
          cases pj : position es.length j with
          | none => exact giveMono_aux (c34_error_aux k _) (Q := fun v r w tr => CpAtRun W _ v r w tr) fun r w tr g => .outside rfl (.inr ⟨es, hx, rfl⟩) hij (.inr pj) g
          | some b =>
            simp only
            by_cases e : i = j
            · subst e
              rw [pi] at pj
              cases pj
              exact single i a hij pi
            · unfold Prog.cpVec
              rw [if_neg e]
              refine c67_slice_aux k fun r B f => ?_
              by_cases hab : b < a
              · rw [if_pos hab]; exact wp_bind (Wp.mono (c67_copies_aux hL k.closed.all _ [] [] B (fun z hz => old z (List.mem_of_mem_drop hz)) f .nil) fun _ _ _ _ => wp_fail)
              · rw [if_neg hab]
                refine wp_bind (Wp.mono (c67_copies_aux hL k.closed.all _ [] [] B (fun z hz => old z (List.mem_of_mem_drop (List.mem_of_mem_take hz))) f .nil) ?_)
                rintro _ u t ⟨rfl, cur, f', hf⟩
                refine wp_pure ⟨keeps_of_quiet f'.quiet, ?_⟩
                rintro _ w ⟨⟩ ew
                exact .elements rfl hx hij e pi pj (by omega) ⟨rfl, f'.fresh, u, cur, f'.quiet, forall₂_imp hf fun _ _ _ h => h.mono fun _ hz => hz.1, ew,
                  ew.hasObj f'.cell (by simp)⟩ (c67_none_aux f.quiet f.cell f' ew)
        · exact giveMono_aux (c34_error_aux k _) (Q := fun v r w tr => CpAtRun W _ v r w tr) fun r w tr g => .noNumber (y := z) rfl (by simp) hno (.inr ⟨es, hx⟩) g
      | _ :: _ :: _, h, _, _ => simp at h
  · exact giveMono_aux (c34_error_aux k _) (Q := fun v r w tr => CpAtRun W _ v r w tr) fun r w tr g => .noNumber (y := y) rfl (by simp) hno (.inr ⟨es, hx⟩) g

/-! #### bits and parts -/

theorem c67_bit_aux {m : Int} {i : Int} {k : Nat} (h : position 32 i = some k) : Prog.bitOf m i = m / 2 ^ k % 2 := by
  have hk := c67_position_aux h
  have e : (if 0 ≤ i then i else 32 + i).toNat = k := by
    unfold position at h
    split at h
    · split at h
      · cases h; rw [if_pos (by assumption)]
      · cases h
    · split at h
      · cases h; rw [if_neg (by assumption)]; rfl
      · cases h
  unfold Prog.bitOf
  rw [e]
  have hp : (2 : Int) ^ 32 = 2 ^ k * (2 * 2 ^ (31 - k)) := by rw [← Int.pow_succ', ← Int.pow_add]; congr 1; omega
  have h1 : m / 2 ^ k % 2 = (m.emod (2 ^ 32)) / 2 ^ k % 2 := by
    have d := Int.emod_add_mul_ediv m (2 ^ 32)
    have key : ∀ A B : Int, (A + 2 ^ 32 * B) / 2 ^ k % 2 = A / 2 ^ k % 2 := by
      intro A B
      rw [hp, Int.mul_assoc (2 ^ k), Int.add_mul_ediv_left _ _ (Int.pow_ne_zero (by decide)), Int.mul_assoc 2, Int.add_mul_emod_self_left]
    conv => lhs; rw [← d]
    exact key _ _
  rw [h1]
  have h2 : 0 ≤ m.emod (2 ^ 32) := Int.emod_nonneg _ (by decide)
  obtain ⟨j, hj⟩ := Int.eq_ofNat_of_zero_le h2
  rw [hj]
  simp only [Int.toNat_natCast, Nat.testBit_eq_decide_div_mod_eq, decide_eq_true_eq]
  have h3 : ((j : Int) / 2 ^ k % 2) = ((j / 2 ^ k % 2 : Nat) : Int) := by push_cast; rfl
  rw [h3]
  split <;> omega

theorem c67_partObj_aux {s : Spec.Version} {k : Nat} {o : Obj} (h : PartAt s k o) : ∀ m l, o ≠ .err m l := by cases h <;> simp

theorem c67_part_aux {h : Handler} {s : Spec.Version} {k : Nat} (hk : k < parts s) {Q : Option Obj → Vm → List Event → Prop} (hq : ∀ o, PartAt s k o → Q (some o) v []) :
    Wp W n h (Prog.versionObj s k) v Q := by
  unfold Prog.versionObj
  by_cases h0 : k = 0
  · subst h0; exact wp_pure (hq _ .major)
  rw [if_neg h0]
  by_cases h1 : k = 1
  · subst h1; exact wp_pure (hq _ .minor)
  rw [if_neg h1]
  by_cases h2 : k = 2
  · subst h2; exact wp_pure (hq _ .patch)
  rw [if_neg h2]
  obtain ⟨j, rfl⟩ : ∃ j, k = 3 + j := ⟨k - 3, by omega⟩
  have e : 3 + j - 3 = j := by omega
  simp only [e]
  have rec_aux : ∀ (t : Text), (∀ u, (Clean t → u = t) → PartAt s (3 + j) (.str u)) →
      Wp W n h (match recode t with | some u => pure (some (.str u)) | none => Prog.fail .abort) v Q := by
    intro t ht
    split
    · rename_i u hu
      refine wp_pure (hq _ (ht u fun hc => ?_))
      rw [recode_eq t hc] at hu; cases hu; rfl
    · exact wp_fail
  by_cases hj : j < s.pre.length
  · rw [if_pos hj]
    cases hp : s.pre.head? with
    | none => rw [List.head?_eq_none_iff] at hp; rw [hp] at hj; simp at hj
    | some d =>
      cases d with
      | num m => exact wp_pure (hq _ (.number hj hp))
      | lex t => exact rec_aux t fun u hu => .word hj hp hu
  · rw [if_neg hj]
    obtain ⟨b, rfl⟩ : ∃ b, j = s.pre.length + b := ⟨j - s.pre.length, by omega⟩
    have e2 : s.pre.length + b - s.pre.length = b := by omega
    rw [e2]
    have : b < s.build.length := by unfold parts at hk; omega
    rw [List.getElem?_eq_getElem this]
    refine rec_aux _ fun u hu => ?_
    rw [← Nat.add_assoc]
    exact .build (List.getElem?_eq_getElem this) hu

/-! #### all kinds -/

theorem c67_run_aux (hL : L.Safe) (k : Held W args ts env v) (hp : ∀ x ys nb es, ts = x :: ys → ¬ v.HasObj x (.hmap nb es)) :
    Wp W n (handle W L n) (Prog.biCpAt args env) v fun a u tr => KeepsBuiltins v u ∧ ∀ r w, a = some r → Ends u w → CpAtRun W ts v r w tr := by
  unfold Prog.biCpAt
  refine c34_first_aux k ?_
  match ts, k, hp with
  | [], k, _ => exact giveMono_aux (c34_error_aux k _) (Q := fun v r w tr => CpAtRun W _ v r w tr) fun r w tr g => .count (by simp) g
  | [x], k, _ => exact giveMono_aux (c34_error_aux k _) (Q := fun v r w tr => CpAtRun W _ v r w tr) fun r w tr g => .count (by simp) g
  | x :: y :: rest, k, hp =>
    refine wp_bind (wp_read fun c hc => ?_)
    simp only [List.nil_append]
    have two : ∀ {o p q} {s : String}, c.obj = o → (o = .nil ∨ (∃ es, o = .list es) ∨ (∃ s, o = .semver s) ∨ ∃ n, o = .int n) → 
        p = (if rest ≠ [] then Prog.error s else q) → (rest = [] → Wp W n (handle W L n) q v fun a u tr => KeepsBuiltins v u ∧ ∀ r w, a = some r → Ends u w → CpAtRun W [x, y] v r w tr) →
        Wp W n (handle W L n) p v fun a u tr => KeepsBuiltins v u ∧ ∀ r w, a = some r → Ends u w → CpAtRun W (x :: y :: rest) v r w tr := by
      intro o p q s ho hk e hq
      subst e
      by_cases hr : rest = []
      · subst hr; rw [if_neg (by simp)]; exact hq rfl
      · rw [if_pos hr]
        have : 0 < rest.length := List.length_pos_iff.mpr hr
        exact giveMono_aux (c34_error_aux k _) (Q := fun v r w tr => CpAtRun W _ v r w tr) fun r w tr g => .onlyTwo rfl (by simp; omega) ⟨c, hc, ho⟩ hk g
    have noInt : ∀ {o : Obj} {d : Cell} {s : String}, c.obj = o → ((∃ es, o = .list es) ∨ (∃ s, o = .semver s) ∨ ∃ n, o = .int n) → v.mem y = some d → (∀ i, d.obj ≠ .int i) → rest = [] →
        Wp W n (handle W L n) (Prog.error s) v fun a u tr => KeepsBuiltins v u ∧ ∀ r w, a = some r → Ends u w → CpAtRun W [x, y] v r w tr := by
      intro o d s ho hk hd hn hr
      exact giveMono_aux (c34_error_aux k _) (Q := fun v r w tr => CpAtRun W _ v r w tr) fun r w tr g => .noInteger rfl ⟨c, hc, ho⟩ hk
        (by rintro i ⟨d', hd', ho'⟩; cases same_cell hd hd'; exact hn i ho') g
    cases ho : c.obj
    case str s => exact c67_text_aux k (.inl ⟨c, hc, ho⟩)
    case sym s => exact c67_text_aux k (.inr ⟨c, hc, ho⟩)
    case vec es => exact c67_vec_aux hL k ⟨c, hc, ho⟩
    case hmap nb es => exact absurd ⟨c, hc, ho⟩ (hp x (y :: rest) nb es rfl)
    case queue => exact wp_fail
    case list es =>
      refine two ho (by simp) rfl fun hr => ?_
      refine wp_bind (wp_read fun d hd => ?_)
      simp only [List.nil_append]
      cases hod : d.obj
      case int i =>
        simp only
        split
        · rename_i e he
          have hm : e ∈ es := by
            rw [Option.bind_eq_some_iff] at he
            obtain ⟨j, _, hj⟩ := he
            exact List.mem_of_getElem? hj
          have old : v.Old W e := by
            have := (k.closed.cells x c hc).obj
            rw [ho] at this
            exact this e hm
          exact giveMono_aux (c67_copy_aux hL k old) (Q := fun v r w tr => CpAtRun W _ v r w tr) fun r w tr g =>
            .listElement rfl ⟨c, hc, ho⟩ ⟨d, hd, hod⟩ ((c49_indexIn_aux es i e).mp he) g
        · exact wp_fail
      all_goals exact noInt ho (by simp) hd (by simp [hod]) hr
    case semver s =>
      refine two ho (by simp) rfl fun hr => ?_
      refine wp_bind (wp_read fun d hd => ?_)
      simp only [List.nil_append]
      cases hod : d.obj
      case int i =>
        simp only
        unfold Prog.versionAt
        have pl : Prog.versionLength s = parts s := rfl
        rw [pl]
        by_cases hl : parts s ≤ i.natAbs
        · rw [if_pos hl]
          refine giveMono_aux (c34_error_aux k _) (Q := fun v r w tr => CpAtRun W _ v r w tr) fun r w tr g => .noPart rfl ⟨c, hc, ho⟩ ⟨d, hd, hod⟩ ?_ g
          unfold position
          by_cases hi : i = -(parts s : Int)
          · exact .inl hi
          · right
            split
            · rw [if_neg (by omega)]
            · rw [if_neg (by omega)]
        · rw [if_neg hl]
          have hpos : position (parts s) i = some (if i < 0 then ((parts s : Int) + i).toNat else i.toNat) := by
            unfold position
            split
            · rw [if_pos (by omega), if_neg (by omega)]
            · rw [if_pos (by omega), if_pos (by omega)]
          refine wp_bind (c67_part_aux (c67_position_aux hpos) fun o hpo => ?_)
          have ne : ∀ m l, o ≠ .err m l := c67_partObj_aux hpo
          exact giveMono_aux (give_aux k ne) (Q := fun v r w tr => CpAtRun W _ v r w tr) fun r w tr g =>
            .part rfl ⟨c, hc, ho⟩ ⟨d, hd, hod⟩ (by omega) hpos hpo g
      all_goals exact noInt ho (by simp) hd (by simp [hod]) hr
    case nil =>
      refine two ho (by simp) rfl fun hr => ?_
      exact giveMono_aux (give_aux k (by simp)) (Q := fun v r w tr => CpAtRun W _ v r w tr) fun r w tr g => .nil rfl ⟨c, hc, ho⟩ g
    case int m =>
      refine two ho (by simp) rfl fun hr => ?_
      refine wp_bind (wp_read fun d hd => ?_)
      simp only [List.nil_append]
      cases hod : d.obj
      case int i =>
        simp only
        unfold Prog.bitAt
        by_cases hl : i < -32 ∨ 31 < i
        · rw [if_pos hl]
          refine giveMono_aux (c34_error_aux k _) (Q := fun v r w tr => CpAtRun W _ v r w tr) fun r w tr g => .noBit rfl ⟨c, hc, ho⟩ ⟨d, hd, hod⟩ ?_ g
          unfold position
          split
          · rw [if_neg (by omega)]
          · rw [if_neg (by omega)]
        · rw [if_neg hl]
          have hpos : ∃ j, position 32 i = some j := by
            unfold position
            split
            · exact ⟨_, if_pos (by omega)⟩
            · exact ⟨_, if_pos (by omega)⟩
          obtain ⟨j, hj⟩ := hpos
          rw [c67_bit_aux hj]
          exact giveMono_aux (give_aux k (by simp)) (Q := fun v r w tr => CpAtRun W _ v r w tr) fun r w tr g =>
            .bit rfl ⟨c, hc, ho⟩ ⟨d, hd, hod⟩ hj g
      all_goals exact noInt ho (by simp) hd (by simp [hod]) hr
    all_goals exact giveMono_aux (c34_error_aux k _) (Q := fun v r w tr => CpAtRun W _ v r w tr) fun r w tr g => .unfit rfl (by simp) ⟨c, hc, ho⟩ (by simp [Picks]) g

theorem c67_value_aux {es : List (Ref × Ref)} {ps : List (Spec.Data × Ref)} (h : KeyPairs v es ps) {d : Spec.Data} {e : Ref} (hm : (d, e) ∈ ps) : ∃ b ∈ es, b.2 = e := by
  unfold KeyPairs at h
  induction h with
  | nil => cases hm
  | cons h1 _ ih =>
    rcases List.mem_cons.mp hm with rfl | hm
    · exact ⟨_, by simp, h1.2⟩
    · obtain ⟨b, hb, e⟩ := ih hm
      exact ⟨b, by simp [hb], e⟩

theorem c67_map_aux (hL : L.Safe) (k : Held W args ts env v) (hp : MapFirst ts v) :
    Wp W n (handle W L n) (Prog.biCpAt args env) v fun a u tr => KeepsBuiltins v u ∧ ∀ r w, a = some r → Ends u w → CpMapRun W ts v r w tr := by
  obtain ⟨x, ys, nb, es, rfl, ⟨c, hc, ho⟩, hp⟩ := hp
  have err : ∀ (s : String), (∀ r w tr, GivesError W v r w tr → CpMapRun W (x :: ys) v r w tr) →
      Wp W n (handle W L n) (Prog.error s) v fun a u tr => KeepsBuiltins v u ∧ ∀ r w, a = some r → Ends u w → CpMapRun W (x :: ys) v r w tr :=
    fun s hq => giveMono_aux (c34_error_aux k _) (Q := fun v r w tr => CpMapRun W _ v r w tr) hq
  have old : ∀ e ∈ es, v.Old W e.2 := by
    have := (k.closed.cells x c hc).obj
    rw [ho] at this
    exact fun e he => (this e he).2
  unfold Prog.biCpAt
  refine c34_first_aux k ?_
  match ys, hp, k, err with
  | [], _, k, err => exact err _ fun r w tr g => .count rfl ⟨c, hc, ho⟩ (by simp) g
  | [y], _, k, err =>
    refine wp_bind (wp_read fun c' hc' => ?_)
    obtain rfl := same_cell hc hc'
    simp only [ho, List.nil_append]
    exact err _ fun r w tr g => .count rfl ⟨c, hc, ho⟩ (by simp) g
  | y :: z :: z' :: zs, _, k, err =>
    refine wp_bind (wp_read fun c' hc' => ?_)
    obtain rfl := same_cell hc hc'
    simp only [ho, List.nil_append]
    exact err _ fun r w tr g => .count rfl ⟨c, hc, ho⟩ (by simp) g
  | [y, z], hp, k, err =>
    refine wp_bind (wp_read fun c' hc' => ?_)
    obtain rfl := same_cell hc hc'
    simp only [ho, List.nil_append]
    obtain ⟨hh, hi⟩ := hp y z rfl
    have err' : ∀ (s : String), (∀ r w tr, GivesError W v r w tr → CpMapRun W [x, y, z] v r w tr) →
        Wp W n (handle W L n) (Prog.error s >>= fun e => pure ((none : Option Ref), e)) v fun p u tr => p.1 = none ∧ KeepsBuiltins v u ∧ ∀ r w, p.2 = some r → Ends u w → CpMapRun W [x, y, z] v r w tr :=
      fun s hq => wp_bind (Wp.mono (err s hq) fun a u t h => wp_pure ⟨rfl, h.1, by simpa using h.2⟩)
    have fin : ∀ {p : Prog (Option Ref × Option Ref)}, (Wp W n (handle W L n) p v fun p u tr => (∃ e, p.1 = some e ∧ u = v ∧ tr = [] ∧ MapElement v x y z (some e) ∧ v.Old W e) ∨
          (p.1 = none ∧ KeepsBuiltins v u ∧ ∀ r w, p.2 = some r → Ends u w → CpMapRun W [x, y, z] v r w tr)) →
        Wp W n (handle W L n) (p >>= fun p => match p.1 with | some x => Prog.call (.copy x) | none => pure p.2) v
          fun a u tr => KeepsBuiltins v u ∧ ∀ r w, a = some r → Ends u w → CpMapRun W [x, y, z] v r w tr := by
      intro p h
      refine wp_bind (Wp.mono h ?_)
      rintro ⟨p1, p2⟩ u t (⟨e, rfl, rfl, rfl, he, oe⟩ | ⟨rfl, h1, h2⟩)
      · simp only [List.nil_append]
        exact giveMono_aux (c67_copy_aux hL k oe) (Q := fun v r w tr => CpMapRun W _ v r w tr) fun r w tr g => .found rfl he g
      · exact wp_pure ⟨h1, by simpa using h2⟩
    refine fin ?_
    unfold Prog.mapElement
    refine wp_bind (wp_read fun d hd => ?_)
    simp only [List.nil_append]
    have other : (∀ t, d.obj = .sym t → t ≠ txt "hash" ∧ t ≠ txt "index") → ∀ r w tr, GivesError W v r w tr → CpMapRun W [x, y, z] v r w tr := by
      intro hno r w tr g
      refine .wrong rfl ⟨c, hc, ho⟩ (.inl ⟨?_, ?_⟩) g
      · rintro ⟨d', hd', ho'⟩; cases same_cell hd hd'; exact (hno _ ho').1 rfl
      · rintro ⟨d', hd', ho'⟩; cases same_cell hd hd'; exact (hno _ ho').2 rfl
    cases hod : d.obj
    case sym t =>
      simp only
      by_cases hti : t = txt "index"
      · subst hti
        rw [if_pos rfl]
        refine wp_bind (wp_read fun d2 hd2 => ?_)
        simp only [List.nil_append]
        cases hod2 : d2.obj
        case int i =>
          simp only
          have h0 := hi ⟨d, hd, hod⟩ i ⟨d2, hd2, hod2⟩
          refine wp_bind (wp_read fun c' hc' => ?_)
          obtain rfl := same_cell hc hc'
          simp only [ho, List.nil_append]
          unfold Prog.mapAt
          rw [if_pos h0]
          refine wp_bind (wp_pure ?_)
          obtain ⟨j, rfl⟩ := Int.eq_ofNat_of_zero_le h0
          simp only [Int.toNat_natCast]
          have me := MapElement.place (v := v) (x := x) (y := y) (z := z) (i := j) ⟨d, hd, hod⟩ ⟨c, hc, ho⟩ ⟨d2, hd2, hod2⟩
          cases he : es[j]? with
          | some e =>
            rw [he] at me
            exact wp_pure (.inl ⟨e.2, rfl, rfl, rfl, me, old e (List.mem_of_getElem? he)⟩)
          | none =>
            rw [he] at me
            exact Wp.mono (err' _ fun r w tr g => .missing rfl me g) fun _ _ _ h => .inr (by simpa using h)
        all_goals
          refine Wp.mono (err' _ fun r w tr g => .wrong rfl ⟨c, hc, ho⟩ (.inr ⟨⟨d, hd, hod⟩, ?_⟩) g) fun _ _ _ h => .inr (by simpa using h)
          rintro i ⟨d', hd', ho'⟩
          cases same_cell hd2 hd'
          rw [hod2] at ho'; cases ho'
      · rw [if_neg hti]
        by_cases hth : t = txt "hash"
        · subst hth
          rw [if_pos rfl]
          obtain ⟨f, dk, hm, hk⟩ := hh ⟨d, hd, hod⟩
          refine wp_bind (c50_get_aux hm hk ?_)
          have me := MapElement.hash (z := z) ⟨d, hd, hod⟩ hm hk
          cases hf : f dk with
          | some e =>
            rw [hf] at me
            refine wp_pure (.inl ⟨e, rfl, rfl, rfl, me, ?_⟩)
            obtain ⟨nb', es', ps, ⟨c', hc', ho'⟩, h2, _, h4⟩ := hm
            cases same_cell hc hc'
            rw [ho] at ho'; cases ho'
            obtain ⟨b, hb, rfl⟩ := c67_value_aux h2 ((h4 dk e).mp hf)
            exact old b hb
          | none =>
            rw [hf] at me
            exact Wp.mono (err' _ fun r w tr g => .missing rfl me g) fun _ _ _ h => .inr (by simpa using h)
        · rw [if_neg hth]
          exact Wp.mono (err' _ (other (by rintro _ h; rw [hod] at h; cases h; exact ⟨hth, hti⟩))) fun _ _ _ h => .inr (by simpa using h)
    all_goals exact Wp.mono (err' _ (other (by rintro _ h; rw [hod] at h; cases h))) fun _ _ _ h => .inr (by simpa using h)
end

/-! ### Theorems -/

/-- `Nearest` is a function -/
theorem c67_nearest_unique {x y z : Int} (hy : Nearest x y) (hz : Nearest x z) : y = z := by
  obtain ⟨k, h1, h2, h3, h4, h5⟩ := hy
  obtain ⟨l, g1, g2, g3, g4, g5⟩ := hz
  have le : ∀ {k l : Nat}, x.natAbs < 2 ^ (24 + k) → (l = 0 ∨ 2 ^ (23 + l) ≤ x.natAbs) → l ≤ k := by
    intro k l h1 h2
    rcases h2 with rfl | h2
    · omega
    · rcases Nat.lt_or_ge k l with h | h
      · exact absurd (Nat.lt_of_lt_of_le h1 (Nat.le_trans (Nat.pow_le_pow_right (by decide) (by omega)) h2)) (Nat.lt_irrefl _)
      · exact h
  obtain rfl : k = l := Nat.le_antisymm (le g1 h2) (le h1 g2)
  have p : (2 ^ (k + 1) : Int) = 2 * 2 ^ k := by rw [Int.pow_succ]; omega
  rw [p] at h5 g5
  have pos : 0 < 2 ^ k := Nat.pow_pos (by decide)
  have pc : ((2 ^ k : Nat) : Int) = 2 ^ k := by simp
  rw [← pc] at h3 g3 h5 g5
  generalize 2 ^ k = b at *
  obtain ⟨m, rfl⟩ := h3
  obtain ⟨n, rfl⟩ := g3
  have hd : (b : Int) * m - b * n = b * (m - n) := by rw [Int.mul_sub]
  by_cases e : m = n
  · rw [e]
  · exfalso
    have ae : (b : Nat) ≤ ((b : Int) * (m - n)).natAbs := by
      rw [Int.natAbs_mul, Int.natAbs_natCast]
      exact Nat.le_mul_of_pos_right _ (by omega)
    have t1 : 2 * (x - b * m).natAbs = b := by omega
    have t2 : 2 * (x - b * n).natAbs = b := by omega
    obtain ⟨m', hm⟩ := h5 t1
    obtain ⟨n', hn⟩ := g5 t2
    have hm' : m = 2 * m' := Int.eq_of_mul_eq_mul_left (a := (b : Int)) (by omega) (by rw [hm]; ac_rfl)
    have hn' : n = 2 * n' := Int.eq_of_mul_eq_mul_left (a := (b : Int)) (by omega) (by rw [hn]; ac_rfl)
    have ae2 : 2 * (b : Nat) ≤ ((b : Int) * (m - n)).natAbs := by
      rw [Int.natAbs_mul, Int.natAbs_natCast, Nat.mul_comm]
      exact Nat.mul_le_mul_left _ (by omega)
    omega

/-- an index of at most 24 bits is not changed -/
theorem c67_nearest_exact {x y : Int} (hx : x.natAbs ≤ 2 ^ 24) : Nearest x y ↔ y = x := by
  have self : Nearest x x := by
    rcases Nat.lt_or_ge x.natAbs (2 ^ 24) with h | h
    · exact ⟨0, by simpa using h, .inl rfl, by simp, by simp, by simp⟩
    · have e : x.natAbs = 2 ^ 24 := Nat.le_antisymm hx h
      exact ⟨1, by rw [e]; decide, .inr (by rw [e]), by norm_num at e ⊢; omega, by simp, by simp⟩
  exact ⟨fun h => c67_nearest_unique h self, by rintro rfl; exact self⟩

/-- `cp@` on anything but a hash map -/
theorem c67_copy_at (hL : L.Safe) {v w : Vm} (rv : v.Reached W L) {form env op : Ref} {name : Text} {xs : List Ref}
    (nc : NamedCall W v form env name op xs) (hop : v.HasObj op (.builtin .cpAt)) {r : Option Ref} {tr : List Event}
    (ev : Evaluates W L v form env r w tr) :
    NamedOpCall W (ArgumentsFirst W form env (Runs .cpAt op fun ts u r w tr =>
      (∀ x ys nb es, ts = x :: ys → ¬ u.HasObj x (.hmap nb es)) → CpAtRun W ts u r w tr)) v env op r w tr :=
  namedBuiltinPre_aux hL (by simp) (fun _ _ _ _ _ _ _ k hp => c67_run_aux hL k hp) rv nc hop ev

/-- `cp@` on a hash map -/
theorem c67_copy_at_map (hL : L.Safe) {v w : Vm} (rv : v.Reached W L) {form env op : Ref} {name : Text} {xs : List Ref}
    (nc : NamedCall W v form env name op xs) (hop : v.HasObj op (.builtin .cpAt)) {r : Option Ref} {tr : List Event}
    (ev : Evaluates W L v form env r w tr) :
    NamedOpCall W (ArgumentsFirst W form env (Runs .cpAt op fun ts u r w tr => MapFirst ts u → CpMapRun W ts u r w tr)) v env op r w tr :=
  namedBuiltinPre_aux hL (by simp) (fun _ _ _ _ _ _ _ k hp => c67_map_aux hL k hp) rv nc hop ev

/-! ### Examples -/

/-- names for the examples -/
def kit22 : List (String × Obj × Bool) := [("cp@", .builtin .cpAt, true), ("vector", .builtin .vector, true), ("hash-map", .builtin .hashMap, true),
  ("list", .builtin .list, true), ("quote", .special .quote, true), ("v", .semver ⟨1, 2, 3, [.lex (txt "a"), .num 7], [txt "b"]⟩, true)]

theorem kit22_plain : ∀ x ∈ kit22, x.2.1.children = [] := by decide

/-- an index in the middle between two `float`s -/
example : Nearest 16777219 16777220 ∧ ¬ Nearest 16777219 16777218 := by
  have h : Nearest 16777219 16777220 := ⟨1, by decide, .inr (by decide), by decide, by decide, fun _ => by decide⟩
  exact ⟨h, fun g => absurd (c67_nearest_unique h g) (by decide)⟩

/-- `(cp@ "abc" -1)` -/
example : ∃ (v w : Vm) (form op : Ref) (xs : List Ref) (r : Option Ref) (tr : List Event), v.Reached world library ∧
    NamedCall world v form v.globalEnv (txt "cp@") op xs ∧ v.HasObj op (.builtin .cpAt) ∧
    Evaluates world library v form v.globalEnv r w tr ∧ objAt w r = some (.chr (txt "c")) := by
  obtain ⟨v, form, r, w, tr, hr, of, oe, ev, h⟩ := stage_exists (table := kit22) (forms := []) (fuel := 60)
    (last := .vec [.sym "cp@", .str "abc", .int (-1)])
    (P := fun v f r w tr => namedCheck v f "cp@" (.builtin .cpAt) && decide (objAt w r = some (.chr (txt "c")))) kit22_plain (by decide +kernel)
  simp only [Bool.and_eq_true, decide_eq_true_eq] at h
  obtain ⟨op, xs, h1, h2, h3⟩ := named_of_check h.1 of oe
  exact ⟨v, w, form, op, xs, r, tr, hr, h1, h2, ev, h.2⟩

/-- `(cp@ "abcd" 1 2)` -/
example : ∃ (v w : Vm) (form op : Ref) (xs : List Ref) (r : Option Ref) (tr : List Event), v.Reached world library ∧
    NamedCall world v form v.globalEnv (txt "cp@") op xs ∧ v.HasObj op (.builtin .cpAt) ∧
    Evaluates world library v form v.globalEnv r w tr ∧ elemsAt w r = some [some (.chr (txt "b")), some (.chr (txt "c"))] := by
  obtain ⟨v, form, r, w, tr, hr, of, oe, ev, h⟩ := stage_exists (table := kit22) (forms := []) (fuel := 60)
    (last := .vec [.sym "cp@", .str "abcd", .int 1, .int 2])
    (P := fun v f r w tr => namedCheck v f "cp@" (.builtin .cpAt) && decide (elemsAt w r = some [some (.chr (txt "b")), some (.chr (txt "c"))])) kit22_plain (by decide +kernel)
  simp only [Bool.and_eq_true, decide_eq_true_eq] at h
  obtain ⟨op, xs, h1, h2, h3⟩ := named_of_check h.1 of oe
  exact ⟨v, w, form, op, xs, r, tr, hr, h1, h2, ev, h.2⟩

/-- `(cp@ "abc" 3)` -/
example : ∃ (v w : Vm) (form op : Ref) (xs : List Ref) (r : Option Ref) (tr : List Event), v.Reached world library ∧
    NamedCall world v form v.globalEnv (txt "cp@") op xs ∧ v.HasObj op (.builtin .cpAt) ∧
    Evaluates world library v form v.globalEnv r w tr ∧ (match objAt w r with | some (.err _ _) => true | _ => false) = true := by
  obtain ⟨v, form, r, w, tr, hr, of, oe, ev, h⟩ := stage_exists (table := kit22) (forms := []) (fuel := 60)
    (last := .vec [.sym "cp@", .str "abc", .int 3])
    (P := fun v f r w tr => namedCheck v f "cp@" (.builtin .cpAt) && decide ((match objAt w r with | some (.err _ _) => true | _ => false) = true)) kit22_plain (by decide +kernel)
  simp only [Bool.and_eq_true, decide_eq_true_eq] at h
  obtain ⟨op, xs, h1, h2, h3⟩ := named_of_check h.1 of oe
  exact ⟨v, w, form, op, xs, r, tr, hr, h1, h2, ev, h.2⟩

/-- `(cp@ (vector 5 "a" 7) 1)` -/
example : ∃ (v w : Vm) (form op : Ref) (xs : List Ref) (r : Option Ref) (tr : List Event), v.Reached world library ∧
    NamedCall world v form v.globalEnv (txt "cp@") op xs ∧ v.HasObj op (.builtin .cpAt) ∧
    Evaluates world library v form v.globalEnv r w tr ∧ objAt w r = some (.str (txt "a")) := by
  obtain ⟨v, form, r, w, tr, hr, of, oe, ev, h⟩ := stage_exists (table := kit22) (forms := []) (fuel := 60)
    (last := .vec [.sym "cp@", .vec [.sym "vector", .int 5, .str "a", .int 7], .int 1])
    (P := fun v f r w tr => namedCheck v f "cp@" (.builtin .cpAt) && decide (objAt w r = some (.str (txt "a")))) kit22_plain (by decide +kernel)
  simp only [Bool.and_eq_true, decide_eq_true_eq] at h
  obtain ⟨op, xs, h1, h2, h3⟩ := named_of_check h.1 of oe
  exact ⟨v, w, form, op, xs, r, tr, hr, h1, h2, ev, h.2⟩

/-- `(cp@ (vector 5 "a" 7) 1 -1)` -/
example : ∃ (v w : Vm) (form op : Ref) (xs : List Ref) (r : Option Ref) (tr : List Event), v.Reached world library ∧
    NamedCall world v form v.globalEnv (txt "cp@") op xs ∧ v.HasObj op (.builtin .cpAt) ∧
    Evaluates world library v form v.globalEnv r w tr ∧ elemsAt w r = some [some (.str (txt "a")), some (.int 7)] := by
  obtain ⟨v, form, r, w, tr, hr, of, oe, ev, h⟩ := stage_exists (table := kit22) (forms := []) (fuel := 60)
    (last := .vec [.sym "cp@", .vec [.sym "vector", .int 5, .str "a", .int 7], .int 1, .int (-1)])
    (P := fun v f r w tr => namedCheck v f "cp@" (.builtin .cpAt) && decide (elemsAt w r = some [some (.str (txt "a")), some (.int 7)])) kit22_plain (by decide +kernel)
  simp only [Bool.and_eq_true, decide_eq_true_eq] at h
  obtain ⟨op, xs, h1, h2, h3⟩ := named_of_check h.1 of oe
  exact ⟨v, w, form, op, xs, r, tr, hr, h1, h2, ev, h.2⟩

/-- `(cp@ (list 5 6) 1)` -/
example : ∃ (v w : Vm) (form op : Ref) (xs : List Ref) (r : Option Ref) (tr : List Event), v.Reached world library ∧
    NamedCall world v form v.globalEnv (txt "cp@") op xs ∧ v.HasObj op (.builtin .cpAt) ∧
    Evaluates world library v form v.globalEnv r w tr ∧ objAt w r = some (.int 6) := by
  obtain ⟨v, form, r, w, tr, hr, of, oe, ev, h⟩ := stage_exists (table := kit22) (forms := []) (fuel := 60)
    (last := .vec [.sym "cp@", .vec [.sym "list", .int 5, .int 6], .int 1])
    (P := fun v f r w tr => namedCheck v f "cp@" (.builtin .cpAt) && decide (objAt w r = some (.int 6))) kit22_plain (by decide +kernel)
  simp only [Bool.and_eq_true, decide_eq_true_eq] at h
  obtain ⟨op, xs, h1, h2, h3⟩ := named_of_check h.1 of oe
  exact ⟨v, w, form, op, xs, r, tr, hr, h1, h2, ev, h.2⟩

/-- `(cp@ 6 1)` -/
example : ∃ (v w : Vm) (form op : Ref) (xs : List Ref) (r : Option Ref) (tr : List Event), v.Reached world library ∧
    NamedCall world v form v.globalEnv (txt "cp@") op xs ∧ v.HasObj op (.builtin .cpAt) ∧
    Evaluates world library v form v.globalEnv r w tr ∧ objAt w r = some (.int 1) := by
  obtain ⟨v, form, r, w, tr, hr, of, oe, ev, h⟩ := stage_exists (table := kit22) (forms := []) (fuel := 60)
    (last := .vec [.sym "cp@", .int 6, .int 1])
    (P := fun v f r w tr => namedCheck v f "cp@" (.builtin .cpAt) && decide (objAt w r = some (.int 1))) kit22_plain (by decide +kernel)
  simp only [Bool.and_eq_true, decide_eq_true_eq] at h
  obtain ⟨op, xs, h1, h2, h3⟩ := named_of_check h.1 of oe
  exact ⟨v, w, form, op, xs, r, tr, hr, h1, h2, ev, h.2⟩

/-- `(cp@ -1 -1)` -/
example : ∃ (v w : Vm) (form op : Ref) (xs : List Ref) (r : Option Ref) (tr : List Event), v.Reached world library ∧
    NamedCall world v form v.globalEnv (txt "cp@") op xs ∧ v.HasObj op (.builtin .cpAt) ∧
    Evaluates world library v form v.globalEnv r w tr ∧ objAt w r = some (.int 1) := by
  obtain ⟨v, form, r, w, tr, hr, of, oe, ev, h⟩ := stage_exists (table := kit22) (forms := []) (fuel := 60)
    (last := .vec [.sym "cp@", .int (-1), .int (-1)])
    (P := fun v f r w tr => namedCheck v f "cp@" (.builtin .cpAt) && decide (objAt w r = some (.int 1))) kit22_plain (by decide +kernel)
  simp only [Bool.and_eq_true, decide_eq_true_eq] at h
  obtain ⟨op, xs, h1, h2, h3⟩ := named_of_check h.1 of oe
  exact ⟨v, w, form, op, xs, r, tr, hr, h1, h2, ev, h.2⟩

/-- `(cp@ v 4)` -/
example : ∃ (v w : Vm) (form op : Ref) (xs : List Ref) (r : Option Ref) (tr : List Event), v.Reached world library ∧
    NamedCall world v form v.globalEnv (txt "cp@") op xs ∧ v.HasObj op (.builtin .cpAt) ∧
    Evaluates world library v form v.globalEnv r w tr ∧ objAt w r = some (.str (txt "a")) := by
  obtain ⟨v, form, r, w, tr, hr, of, oe, ev, h⟩ := stage_exists (table := kit22) (forms := []) (fuel := 60)
    (last := .vec [.sym "cp@", .sym "v", .int 4])
    (P := fun v f r w tr => namedCheck v f "cp@" (.builtin .cpAt) && decide (objAt w r = some (.str (txt "a")))) kit22_plain (by decide +kernel)
  simp only [Bool.and_eq_true, decide_eq_true_eq] at h
  obtain ⟨op, xs, h1, h2, h3⟩ := named_of_check h.1 of oe
  exact ⟨v, w, form, op, xs, r, tr, hr, h1, h2, ev, h.2⟩

/-- `(cp@ v 5)` -/
example : ∃ (v w : Vm) (form op : Ref) (xs : List Ref) (r : Option Ref) (tr : List Event), v.Reached world library ∧
    NamedCall world v form v.globalEnv (txt "cp@") op xs ∧ v.HasObj op (.builtin .cpAt) ∧
    Evaluates world library v form v.globalEnv r w tr ∧ objAt w r = some (.str (txt "b")) := by
  obtain ⟨v, form, r, w, tr, hr, of, oe, ev, h⟩ := stage_exists (table := kit22) (forms := []) (fuel := 60)
    (last := .vec [.sym "cp@", .sym "v", .int 5])
    (P := fun v f r w tr => namedCheck v f "cp@" (.builtin .cpAt) && decide (objAt w r = some (.str (txt "b")))) kit22_plain (by decide +kernel)
  simp only [Bool.and_eq_true, decide_eq_true_eq] at h
  obtain ⟨op, xs, h1, h2, h3⟩ := named_of_check h.1 of oe
  exact ⟨v, w, form, op, xs, r, tr, hr, h1, h2, ev, h.2⟩

/-- `(cp@ v -6)` -/
example : ∃ (v w : Vm) (form op : Ref) (xs : List Ref) (r : Option Ref) (tr : List Event), v.Reached world library ∧
    NamedCall world v form v.globalEnv (txt "cp@") op xs ∧ v.HasObj op (.builtin .cpAt) ∧
    Evaluates world library v form v.globalEnv r w tr ∧ (match objAt w r with | some (.err _ _) => true | _ => false) = true := by
  obtain ⟨v, form, r, w, tr, hr, of, oe, ev, h⟩ := stage_exists (table := kit22) (forms := []) (fuel := 60)
    (last := .vec [.sym "cp@", .sym "v", .int (-6)])
    (P := fun v f r w tr => namedCheck v f "cp@" (.builtin .cpAt) && decide ((match objAt w r with | some (.err _ _) => true | _ => false) = true)) kit22_plain (by decide +kernel)
  simp only [Bool.and_eq_true, decide_eq_true_eq] at h
  obtain ⟨op, xs, h1, h2, h3⟩ := named_of_check h.1 of oe
  exact ⟨v, w, form, op, xs, r, tr, hr, h1, h2, ev, h.2⟩

/-- `(cp@ (hash-map "a" 1 2 "b") 2 'hash)` -/
example : ∃ (v w : Vm) (form op : Ref) (xs : List Ref) (r : Option Ref) (tr : List Event), v.Reached world library ∧
    NamedCall world v form v.globalEnv (txt "cp@") op xs ∧ v.HasObj op (.builtin .cpAt) ∧
    Evaluates world library v form v.globalEnv r w tr ∧ objAt w r = some (.str (txt "b")) := by
  obtain ⟨v, form, r, w, tr, hr, of, oe, ev, h⟩ := stage_exists (table := kit22) (forms := []) (fuel := 60)
    (last := .vec [.sym "cp@", .vec [.sym "hash-map", .str "a", .int 1, .int 2, .str "b"], .int 2, .vec [.sym "quote", .sym "hash"]])
    (P := fun v f r w tr => namedCheck v f "cp@" (.builtin .cpAt) && decide (objAt w r = some (.str (txt "b")))) kit22_plain (by decide +kernel)
  simp only [Bool.and_eq_true, decide_eq_true_eq] at h
  obtain ⟨op, xs, h1, h2, h3⟩ := named_of_check h.1 of oe
  exact ⟨v, w, form, op, xs, r, tr, hr, h1, h2, ev, h.2⟩

/-- `(cp@ (hash-map "a" 1 2 "b") 1 'index)` -/
example : ∃ (v w : Vm) (form op : Ref) (xs : List Ref) (r : Option Ref) (tr : List Event), v.Reached world library ∧
    NamedCall world v form v.globalEnv (txt "cp@") op xs ∧ v.HasObj op (.builtin .cpAt) ∧
    Evaluates world library v form v.globalEnv r w tr ∧ (objAt w r = some (.str (txt "b")) ∨ objAt w r = some (.int 1)) := by
  obtain ⟨v, form, r, w, tr, hr, of, oe, ev, h⟩ := stage_exists (table := kit22) (forms := []) (fuel := 60)
    (last := .vec [.sym "cp@", .vec [.sym "hash-map", .str "a", .int 1, .int 2, .str "b"], .int 1, .vec [.sym "quote", .sym "index"]])
    (P := fun v f r w tr => namedCheck v f "cp@" (.builtin .cpAt) && decide ((objAt w r = some (.str (txt "b")) ∨ objAt w r = some (.int 1)))) kit22_plain (by decide +kernel)
  simp only [Bool.and_eq_true, decide_eq_true_eq] at h
  obtain ⟨op, xs, h1, h2, h3⟩ := named_of_check h.1 of oe
  exact ⟨v, w, form, op, xs, r, tr, hr, h1, h2, ev, h.2⟩

/-- `(cp@ (hash-map "a" 1 2 "b") 2 'index)` -/
example : ∃ (v w : Vm) (form op : Ref) (xs : List Ref) (r : Option Ref) (tr : List Event), v.Reached world library ∧
    NamedCall world v form v.globalEnv (txt "cp@") op xs ∧ v.HasObj op (.builtin .cpAt) ∧
    Evaluates world library v form v.globalEnv r w tr ∧ (match objAt w r with | some (.err _ _) => true | _ => false) = true := by
  obtain ⟨v, form, r, w, tr, hr, of, oe, ev, h⟩ := stage_exists (table := kit22) (forms := []) (fuel := 60)
    (last := .vec [.sym "cp@", .vec [.sym "hash-map", .str "a", .int 1, .int 2, .str "b"], .int 2, .vec [.sym "quote", .sym "index"]])
    (P := fun v f r w tr => namedCheck v f "cp@" (.builtin .cpAt) && decide ((match objAt w r with | some (.err _ _) => true | _ => false) = true)) kit22_plain (by decide +kernel)
  simp only [Bool.and_eq_true, decide_eq_true_eq] at h
  obtain ⟨op, xs, h1, h2, h3⟩ := named_of_check h.1 of oe
  exact ⟨v, w, form, op, xs, r, tr, hr, h1, h2, ev, h.2⟩

end Dern.Props
