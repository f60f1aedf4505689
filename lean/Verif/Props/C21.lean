import Verif.Core.Semver
/-
C21: comparing semantic versions is the SemVer precedence order, a total order up to build
metadata.

Proved for versions whose numbers fit in an `int` (below 2^31), which is what `int diff = a - b`
can tell apart.  Beyond this the property is false; a literal like 2147483648.0.0 gets there.
-/
namespace Dern.Props
open Dern Dern.Spec

/-- numbers below 2^31, texts that survive conversion to a C string -/
def c21_ident : Ident → Prop
  | .num n => n < 2 ^ 31
  | .lex s => ∀ c ∈ s, PrintCh c

structure Modest (v : Version) : Prop where
  major : v.major < 2 ^ 31
  minor : v.minor < 2 ^ 31
  patch : v.patch < 2 ^ 31
  count : v.pre.length < 2 ^ 31
  pre : ∀ i ∈ v.pre, c21_ident i

theorem c21_intDiff_aux {a b : Nat} (ha : a < 2 ^ 31) (hb : b < 2 ^ 31) :
    Semver.intDiff a b = (a : Int) - b := by
  unfold Semver.intDiff
  rw [Int.bmod_eq_of_le] <;> omega

/-- the same comparison without the limits of the machine -/
def c21_fields : List Ident → List Ident → Ordering
  | [], [] => .eq
  | [], _ :: _ => .lt
  | _ :: _, [] => .gt
  | .num m :: as, .num n :: bs => if m < n then .lt else if n < m then .gt else c21_fields as bs
  | .num _ :: _, .lex _ :: _ => .lt
  | .lex _ :: _, .num _ :: _ => .gt
  | .lex s :: as, .lex t :: bs => match lexCmp s t with
    | .lt => .lt
    | .gt => .gt
    | .eq => c21_fields as bs

theorem c21_fields_lt_aux : ∀ a b, c21_fields a b = .lt ↔ PreLt a b := by
  intro a
  induction a with
  | nil =>
    intro b
    cases b with
    | nil => simp only [c21_fields]; exact ⟨nofun, nofun⟩
    | cons b bs => simp only [c21_fields, true_iff]; exact .more
  | cons a as ih =>
    intro b
    cases b with
    | nil => cases a <;> (simp only [c21_fields]; exact ⟨nofun, nofun⟩)
    | cons b bs =>
      cases a with
      | num m =>
        cases b with
        | num n =>
          simp only [c21_fields]
          by_cases h1 : m < n
          · simp only [h1, if_true, true_iff]; exact .field (.num h1)
          · by_cases h2 : n < m
            · simp only [h1, h2, if_true, if_false]
              constructor
              · nofun
              · intro h; cases h with
                | field h => cases h with | num h => omega
                | next h => omega
            · simp only [h1, h2, if_false, ih]
              obtain rfl : m = n := by omega
              constructor
              · exact .next
              · intro h; cases h with
                | field h => cases h with | num h => omega
                | next h => exact h
        | lex t => simp only [c21_fields, true_iff]; exact .field .mixed
      | lex s =>
        cases b with
        | num n =>
          simp only [c21_fields]
          constructor
          · nofun
          · intro h; cases h with | field h => cases h
        | lex t =>
          simp only [c21_fields]
          cases hc : lexCmp s t with
          | lt => simp only [true_iff]; exact .field (.lex hc)
          | gt =>
            constructor
            · nofun
            · intro h; cases h with
              | field h => cases h with | lex h => rw [h] at hc; cases hc
              | next h => rw [lexCmp_refl] at hc; cases hc
          | eq =>
            simp only [ih]
            obtain rfl := lexCmp_eq s t hc
            constructor
            · exact .next
            · intro h; cases h with
              | field h => cases h with | lex h => rw [h] at hc; cases hc
              | next h => exact h

theorem c21_fields_swap_aux : ∀ a b, c21_fields b a = (c21_fields a b).swap := by
  intro a
  induction a with
  | nil => intro b; cases b with
    | nil => rfl
    | cons b bs => cases b <;> rfl
  | cons a as ih =>
    intro b
    cases b with
    | nil => cases a <;> rfl
    | cons b bs =>
      cases a with
      | num m =>
        cases b with
        | num n =>
          simp only [c21_fields]
          by_cases h1 : m < n
          · rw [if_neg (by omega), if_pos h1, if_pos h1]; rfl
          · by_cases h2 : n < m
            · rw [if_pos h2, if_neg h1, if_pos h2]; rfl
            · rw [if_neg h2, if_neg h1, if_neg h1, if_neg h2]; exact ih bs
        | lex t => rfl
      | lex s =>
        cases b with
        | num n => rfl
        | lex t =>
          simp only [c21_fields]
          rw [lexCmp_swap s t]
          cases lexCmp s t with
          | lt => rfl
          | gt => rfl
          | eq => exact ih bs

theorem c21_fields_eq_aux : ∀ a b, c21_fields a b = .eq ↔ a = b := by
  intro a
  induction a with
  | nil => intro b; cases b with
    | nil => simp [c21_fields]
    | cons b bs => cases b <;> simp [c21_fields]
  | cons a as ih =>
    intro b
    cases b with
    | nil => cases a <;> simp [c21_fields]
    | cons b bs =>
      cases a with
      | num m =>
        cases b with
        | num n =>
          simp only [c21_fields]
          by_cases h1 : m < n
          · simp [h1]; omega
          · by_cases h2 : n < m
            · simp [h1, h2]; omega
            · have : m = n := by omega
              simp [ih, this]
        | lex t => simp [c21_fields]
      | lex s =>
        cases b with
        | num n => simp [c21_fields]
        | lex t =>
          simp only [c21_fields]
          cases hc : lexCmp s t with
          | lt => simp; rintro rfl; rw [lexCmp_refl] at hc; cases hc
          | gt => simp; rintro rfl; rw [lexCmp_refl] at hc; cases hc
          | eq => simp [ih, lexCmp_eq s t hc]

/-- the loop of the code, followed by the comparison of the lengths -/
theorem c21_compareFields_aux : ∀ a b : List Ident, (∀ i ∈ a, c21_ident i) → (∀ i ∈ b, c21_ident i) →
    ∃ d, Semver.compareFields a b = some d ∧
      (if d ≠ 0 then d else if a.length = b.length then 0 else if a.length < b.length then -1 else 1)
        = sign (c21_fields a b) := by
  intro a
  induction a with
  | nil => intro b _ _; cases b with
    | nil => exact ⟨0, rfl, rfl⟩
    | cons b bs => exact ⟨0, rfl, by simp [c21_fields, sign]⟩
  | cons a as ih =>
    intro b ha hb
    cases b with
    | nil => cases a <;> exact ⟨0, rfl, by simp [c21_fields, sign]⟩
    | cons b bs =>
      have h' := ih bs (fun i hi => ha i (by simp [hi])) (fun i hi => hb i (by simp [hi]))
      have hl : ∀ d : Int, (if d ≠ 0 then d else if (a :: as).length = (b :: bs).length then 0
          else if (a :: as).length < (b :: bs).length then -1 else 1) =
          (if d ≠ 0 then d else if as.length = bs.length then 0
            else if as.length < bs.length then -1 else 1) := by
        intro d; simp
      have ha0 := ha a (by simp)
      have hb0 := hb b (by simp)
      cases a with
      | num m =>
        cases b with
        | num n =>
          simp only [Semver.compareFields, c21_fields, c21_intDiff_aux ha0 hb0]
          by_cases h1 : m < n
          · refine ⟨-1, ?_, by simp [h1, sign]⟩
            rw [if_pos (by omega), if_pos (by omega)]
          · by_cases h2 : n < m
            · refine ⟨1, ?_, by simp [h1, h2, sign]⟩
              rw [if_pos (by omega), if_neg (by omega)]
            · rw [if_neg (by omega), if_neg h1, if_neg h2]
              simpa only [hl] using h'
        | lex t => exact ⟨-1, rfl, rfl⟩
      | lex s =>
        cases b with
        | num n => exact ⟨1, rfl, rfl⟩
        | lex t =>
          simp only [Semver.compareFields, c21_fields, stringCompare_eq s t ha0 hb0]
          cases lexCmp s t with
          | lt => exact ⟨-1, rfl, rfl⟩
          | gt => exact ⟨1, rfl, rfl⟩
          | eq =>
            simp only [sign, ne_eq, not_true_eq_false, if_false]
            simpa only [hl, sign] using h'

/-- the order of versions as a function -/
def c21_cmp (v w : Version) : Ordering :=
  if v.major < w.major then .lt else if w.major < v.major then .gt else
  if v.minor < w.minor then .lt else if w.minor < v.minor then .gt else
  if v.patch < w.patch then .lt else if w.patch < v.patch then .gt else
  match v.pre, w.pre with
  | [], [] => .eq
  | [], _ :: _ => .gt
  | _ :: _, [] => .lt
  | _, _ => c21_fields v.pre w.pre

theorem c21_compare_aux {v w : Version} (hv : Modest v) (hw : Modest w) :
    Semver.compare v w = some (sign (c21_cmp v w)) := by
  unfold Semver.compare c21_cmp
  simp only [c21_intDiff_aux hv.major hw.major, c21_intDiff_aux hv.minor hw.minor,
    c21_intDiff_aux hv.patch hw.patch]
  have step : ∀ (a b : Nat) (X : Option Int) (Y : Ordering), X = some (sign Y) →
      (if (a : Int) - b ≠ 0 then some (if (a : Int) - b < 0 then -1 else 1) else X) =
        some (sign (if a < b then .lt else if b < a then .gt else Y)) := by
    intro a b X Y h
    by_cases h1 : a < b
    · rw [if_pos (by omega), if_pos (by omega), if_pos h1]; rfl
    · by_cases h2 : b < a
      · rw [if_pos (by omega), if_neg (by omega), if_neg h1, if_pos h2]; rfl
      · rw [if_neg (by omega), if_neg h1, if_neg h2, h]
  apply step
  apply step
  apply step
  obtain ⟨d, h1, h2⟩ := c21_compareFields_aux v.pre w.pre hv.pre hw.pre
  have hlen := c21_intDiff_aux hv.count hw.count
  cases hvp : v.pre with
  | nil => cases hwp : w.pre <;> simp [sign]
  | cons a as =>
    cases hwp : w.pre with
    | nil => simp [sign]
    | cons b bs =>
      simp only [List.length_cons, Nat.add_one_ne_zero, if_false]
      rw [hvp, hwp] at h1 h2 hlen
      rw [h1, ← h2]
      simp only [List.length_cons] at hlen h2 ⊢
      by_cases hd : d ≠ 0
      · simp only [hd, if_true, ne_eq, not_false_eq_true]
      · simp only [hd, if_false, ne_eq, not_true_eq_false]
        split
        · rfl
        · have hiff : Semver.intDiff (as.length + 1) (bs.length + 1) < 0 ↔
              as.length + 1 < bs.length + 1 := by rw [hlen]; omega
          by_cases hx : as.length + 1 < bs.length + 1
          · rw [if_pos (hiff.mpr hx), if_pos hx]
          · rw [if_neg (fun h => hx (hiff.mp h)), if_neg hx]

theorem c21_precedes_aux (v w : Version) : c21_cmp v w = .lt ↔ v.Precedes w := by
  unfold c21_cmp
  by_cases h1 : v.major < w.major
  · simp only [h1, if_true, true_iff]; exact .major h1
  by_cases h2 : w.major < v.major
  · simp only [h1, h2, if_true, if_false]
    exact ⟨nofun, fun h => by cases h <;> omega⟩
  by_cases h3 : v.minor < w.minor
  · simp only [h1, h2, h3, if_true, if_false, true_iff]; exact .minor (by omega) h3
  by_cases h4 : w.minor < v.minor
  · simp only [h1, h2, h3, h4, if_true, if_false]
    exact ⟨nofun, fun h => by cases h <;> omega⟩
  by_cases h5 : v.patch < w.patch
  · simp only [h1, h2, h3, h4, h5, if_true, if_false, true_iff]
    exact .patch (by omega) (by omega) h5
  by_cases h6 : w.patch < v.patch
  · simp only [h1, h2, h3, h4, h5, h6, if_true, if_false]
    exact ⟨nofun, fun h => by cases h <;> omega⟩
  simp only [h1, h2, h3, h4, h5, h6, if_false]
  have e1 : v.major = w.major := by omega
  have e2 : v.minor = w.minor := by omega
  have e3 : v.patch = w.patch := by omega
  cases hv : v.pre with
  | nil =>
    cases hw : w.pre with
    | nil => exact ⟨nofun, fun h => by cases h <;> first | omega | simp_all⟩
    | cons b bs => exact ⟨nofun, fun h => by cases h <;> first | omega | simp_all⟩
  | cons a as =>
    cases hw : w.pre with
    | nil => simp only [true_iff]; exact .release e1 e2 e3 (by simp [hv]) hw
    | cons b bs =>
      simp only
      rw [c21_fields_lt_aux]
      constructor
      · intro h; exact .pre e1 e2 e3 (by simp [hv]) (by simp [hw]) (by rw [hv, hw]; exact h)
      · intro h
        cases h with
        | pre _ _ _ _ _ h => rwa [hv, hw] at h
        | release _ _ _ _ h => simp [hw] at h
        | major h => omega
        | minor _ h => omega
        | patch _ _ h => omega

theorem c21_cmp_swap_aux (v w : Version) : c21_cmp w v = (c21_cmp v w).swap := by
  unfold c21_cmp
  have step : ∀ (a b : Nat) (X Y : Ordering), X = Y.swap →
      (if b < a then .lt else if a < b then .gt else X) =
        (if a < b then Ordering.lt else if b < a then .gt else Y).swap := by
    intro a b X Y h
    by_cases h1 : a < b
    · rw [if_neg (by omega), if_pos h1, if_pos h1]; rfl
    · by_cases h2 : b < a
      · rw [if_pos h2, if_neg h1, if_pos h2]; rfl
      · rw [if_neg h2, if_neg h1, if_neg h1, if_neg h2, h]
  apply step
  apply step
  apply step
  cases hv : v.pre <;> cases hw : w.pre <;> first | rfl | exact c21_fields_swap_aux _ _

theorem c21_cmp_eq_aux (v w : Version) : c21_cmp v w = .eq ↔ v.Same w := by
  unfold c21_cmp Version.Same
  by_cases h1 : v.major < w.major
  · simp [h1]; omega
  by_cases h2 : w.major < v.major
  · simp [h1, h2]; omega
  by_cases h3 : v.minor < w.minor
  · simp [h1, h2, h3]; omega
  by_cases h4 : w.minor < v.minor
  · simp [h1, h2, h3, h4]; omega
  by_cases h5 : v.patch < w.patch
  · simp [h1, h2, h3, h4, h5]; omega
  by_cases h6 : w.patch < v.patch
  · simp [h1, h2, h3, h4, h5, h6]; omega
  simp only [h1, h2, h3, h4, h5, h6, if_false]
  rw [show (v.major = w.major) = True by simp; omega, show (v.minor = w.minor) = True by simp; omega,
    show (v.patch = w.patch) = True by simp; omega]
  simp only [true_and]
  cases hv : v.pre <;> cases hw : w.pre <;> first | simp; done | exact c21_fields_eq_aux _ _

/-! ### the theorems -/

/-- Comparing is SemVer precedence: negative exactly if the first precedes the second, positive
exactly if the second precedes the first, zero exactly if they differ at most in build metadata. -/
theorem c21_precedence_partial {v w : Version} (hv : Modest v) (hw : Modest w) :
    ∃ d, Semver.compare v w = some d ∧ (d = -1 ∨ d = 0 ∨ d = 1) ∧
      (d = -1 ↔ v.Precedes w) ∧ (d = 1 ↔ w.Precedes v) ∧ (d = 0 ↔ v.Same w) := by
  refine ⟨_, c21_compare_aux hv hw, ?_, ?_, ?_, ?_⟩
  · cases c21_cmp v w <;> simp [sign]
  · rw [← c21_precedes_aux]; cases c21_cmp v w <;> simp [sign]
  · rw [← c21_precedes_aux, c21_cmp_swap_aux v w]; cases c21_cmp v w <;> simp [sign]
  · rw [← c21_cmp_eq_aux]; cases c21_cmp v w <;> simp [sign]

theorem c21_identLt_trans_aux {a b c : Ident} (h1 : a.Lt b) (h2 : b.Lt c) : a.Lt c := by
  cases h1 with
  | num h => cases h2 with
    | num h' => exact .num (by omega)
    | mixed => exact .mixed
  | lex h => cases h2 with | lex h' => exact .lex (lexCmp_trans _ _ _ h h')
  | mixed => cases h2 with | lex h' => exact .mixed

theorem c21_preLt_trans_aux : ∀ {a b c : List Ident}, PreLt a b → PreLt b c → PreLt a c := by
  intro a b c h1
  induction h1 generalizing c with
  | more => intro h2; cases h2 <;> exact .more
  | field h =>
    intro h2
    cases h2 with
    | field h' => exact .field (c21_identLt_trans_aux h h')
    | next h' => exact .field h
  | next h ih =>
    intro h2
    cases h2 with
    | field h' => exact .field h'
    | next h' => exact .next (ih h')

theorem c21_precedes_trans_aux {u v w : Version} (h1 : u.Precedes v) (h2 : v.Precedes w) :
    u.Precedes w := by
  cases h1 with
  | major h => exact .major (by cases h2 <;> omega)
  | minor e h => cases h2 with
    | major h' => exact .major (by omega)
    | minor e' h' => exact .minor (by omega) (by omega)
    | patch e' f' h' => exact .minor (by omega) (by omega)
    | release e' f' g' p q => exact .minor (by omega) (by omega)
    | pre e' f' g' p q r => exact .minor (by omega) (by omega)
  | patch e f h => cases h2 with
    | major h' => exact .major (by omega)
    | minor e' h' => exact .minor (by omega) (by omega)
    | patch e' f' h' => exact .patch (by omega) (by omega) (by omega)
    | release e' f' g' p q => exact .patch (by omega) (by omega) (by omega)
    | pre e' f' g' p q r => exact .patch (by omega) (by omega) (by omega)
  | release e f g p q => cases h2 with
    | major h' => exact .major (by omega)
    | minor e' h' => exact .minor (by omega) (by omega)
    | patch e' f' h' => exact .patch (by omega) (by omega) (by omega)
    | release e' f' g' p' q' => exact absurd q p'
    | pre e' f' g' p' q' r' => exact absurd q p'
  | pre e f g p q r => cases h2 with
    | major h' => exact .major (by omega)
    | minor e' h' => exact .minor (by omega) (by omega)
    | patch e' f' h' => exact .patch (by omega) (by omega) (by omega)
    | release e' f' g' p' q' => exact .release (by omega) (by omega) (by omega) p q'
    | pre e' f' g' p' q' r' =>
      exact .pre (by omega) (by omega) (by omega) p q' (c21_preLt_trans_aux r r')

/-- Comparing is a total preorder: reflexive, antisymmetric up to build metadata, transitive, and
any two versions can be compared. -/
theorem c21_total_order_partial :
    (∀ v, Modest v → Semver.isSmallerOrEqual v v = some true) ∧
    (∀ v w, Modest v → Modest w → Semver.isSmallerOrEqual v w = some true →
      Semver.isSmallerOrEqual w v = some true → v.Same w) ∧
    (∀ u v w, Modest u → Modest v → Modest w → Semver.isSmallerOrEqual u v = some true →
      Semver.isSmallerOrEqual v w = some true → Semver.isSmallerOrEqual u w = some true) ∧
    (∀ v w, Modest v → Modest w → Semver.isSmallerOrEqual v w = some true ∨
      Semver.isSmallerOrEqual w v = some true) := by
  have le : ∀ {v w : Version}, Modest v → Modest w →
      (Semver.isSmallerOrEqual v w = some true ↔ c21_cmp v w ≠ .gt) := by
    intro v w hv hw
    unfold Semver.isSmallerOrEqual
    rw [c21_compare_aux hv hw]
    cases c21_cmp v w <;> simp [sign]
  refine ⟨?_, ?_, ?_, ?_⟩
  · intro v hv
    rw [le hv hv, (c21_cmp_eq_aux v v).mpr ⟨rfl, rfl, rfl, rfl⟩]; nofun
  · intro v w hv hw h1 h2
    rw [le hv hw] at h1
    rw [le hw hv, c21_cmp_swap_aux] at h2
    rw [← c21_cmp_eq_aux]
    cases h : c21_cmp v w <;> simp_all
  · intro u v w hu hv hw h1 h2
    rw [le hu hv] at h1
    rw [le hv hw] at h2
    rw [le hu hw]
    have same : ∀ {a b c d : Version}, a.Same b → c.Same d → c21_cmp a c = c21_cmp b d := by
      intro a b c d ⟨a1, a2, a3, a4⟩ ⟨b1, b2, b3, b4⟩
      unfold c21_cmp; rw [a1, a2, a3, a4, b1, b2, b3, b4]
    cases h12 : c21_cmp u v with
    | gt => exact absurd h12 h1
    | eq =>
      rw [same ((c21_cmp_eq_aux _ _).mp h12) ⟨rfl, rfl, rfl, rfl⟩]; exact h2
    | lt =>
      cases h23 : c21_cmp v w with
      | gt => exact absurd h23 h2
      | eq =>
        rw [← same ⟨rfl, rfl, rfl, rfl⟩ ((c21_cmp_eq_aux _ _).mp h23), h12]; nofun
      | lt =>
        rw [(c21_precedes_aux u w).mpr (c21_precedes_trans_aux ((c21_precedes_aux _ _).mp h12)
          ((c21_precedes_aux _ _).mp h23))]; nofun
  · intro v w hv hw
    rw [le hv hw, le hw hv, c21_cmp_swap_aux v w]
    cases c21_cmp v w <;> simp

/-- The six comparison functions are what their names say in terms of precedence. -/
theorem c21_comparison_functions {v w : Version} (hv : Modest v) (hw : Modest w) :
    (Semver.isSmallerThan v w = some true ↔ v.Precedes w) ∧
    (Semver.isGreaterThan v w = some true ↔ w.Precedes v) ∧
    (Semver.isEqual v w = some true ↔ v.Same w) ∧
    (Semver.isUnequal v w = some true ↔ ¬ v.Same w) ∧
    (Semver.isSmallerOrEqual v w = some true ↔ v.Precedes w ∨ v.Same w) ∧
    (Semver.isGreaterOrEqual v w = some true ↔ w.Precedes v ∨ v.Same w) := by
  unfold Semver.isSmallerThan Semver.isGreaterThan Semver.isUnequal Semver.isEqual
    Semver.isSmallerOrEqual Semver.isGreaterOrEqual
  simp only [c21_compare_aux hv hw, ← c21_precedes_aux, ← c21_cmp_eq_aux, c21_cmp_swap_aux v w]
  cases c21_cmp v w <;> simp [sign]

/-- Beyond `int` the order is wrong: 2147483648.0.0 is smaller than 0.0.0. -/
theorem c21_large_major_is_smaller :
    Semver.compare ⟨2147483648, 0, 0, [], []⟩ ⟨0, 0, 0, [], []⟩ = some (-1) := by decide

/-- Beyond 32 bits different versions are equal: 4294967296.0.0 and 0.0.0. -/
theorem c21_large_major_is_equal :
    Semver.compare ⟨4294967296, 0, 0, [], []⟩ ⟨0, 0, 0, [], []⟩ = some 0 := by decide

/-- Beyond `int` comparing is not transitive. -/
theorem c21_not_transitive :
    ∃ u v w, Semver.compare u v = some (-1) ∧ Semver.compare v w = some (-1) ∧
      Semver.compare u w = some 1 :=
  ⟨⟨0, 0, 0, [], []⟩, ⟨2147483647, 0, 0, [], []⟩, ⟨4294967294, 0, 0, [], []⟩, by decide, by decide,
    by decide⟩

/-- the example of the SemVer document: alpha < alpha.1 < alpha.beta < beta < beta.2 < beta.11 -/
example :
    Modest ⟨1, 0, 0, [.lex (txt "beta"), .num 2], []⟩ ∧
    Semver.compare ⟨1, 0, 0, [.lex (txt "alpha")], []⟩
      ⟨1, 0, 0, [.lex (txt "alpha"), .num 1], []⟩ = some (-1) ∧
    Semver.compare ⟨1, 0, 0, [.lex (txt "alpha"), .num 1], []⟩
      ⟨1, 0, 0, [.lex (txt "alpha"), .lex (txt "beta")], []⟩ = some (-1) ∧
    Semver.compare ⟨1, 0, 0, [.lex (txt "beta"), .num 11], []⟩
      ⟨1, 0, 0, [.lex (txt "beta"), .num 2], []⟩ = some 1 ∧
    Semver.compare ⟨1, 0, 0, [.lex (txt "rc"), .num 1], []⟩ ⟨1, 0, 0, [], []⟩ = some (-1) := by
  refine ⟨⟨by decide, by decide, by decide, by decide, ?_⟩, by decide, by decide, by decide, by decide⟩
  intro i hi
  simp only [List.mem_cons, List.not_mem_nil, or_false] at hi
  rcases hi with rfl | rfl
  · show ∀ c ∈ txt "beta", PrintCh c
    decide
  · show 2 < 2 ^ 31
    decide

end Dern.Props
