import Verif.Props.C60
import Verif.Props.C53
import Verif.Dern.ExactDouble
import Mathlib.Data.List.TakeWhile
/-
C61: conversions and functions of mathematics.

`to-integer`, `to-real`, `character`, and `cos`, `sin`, `sqrt`, `pow` and so on.  What the functions of mathematics and
strtod give is not modelled; that they give new reals, and which arguments are errors, is.
-/
namespace Dern.Props
open Dern
open Dern.Spec (Dbl)
open Dern.Spec (Clean Signed Decimal letters)
open Dern.Prog (Library)
variable {W : World} {L : Library}

/-! ### Specification -/

/-- `n` is the integral part of the finite real `d` -/
def IntegralPart (d : Dbl) (n : Int) : Prop :=
  d.exponent ≠ 2047 ∧ ∃ x, d.value = some x ∧ (0 ≤ x → Dbl.ofInt n ≤ x ∧ x < Dbl.ofInt (n + 1)) ∧ (x ≤ 0 → Dbl.ofInt (n - 1) < x ∧ x ≤ Dbl.ofInt n)

/-- white space of C -/
def CSpace (c : Nat) : Prop := c = ' '.toNat ∨ '\t'.toNat ≤ c ∧ c ≤ '\r'.toNat

/-- `ds` are the digits at the front of `ds ++ rest` -/
def DigitsFront (ds rest : Text) : Prop := (∀ c ∈ ds, Digit c) ∧ ∀ c, rest.head? = some c → ¬ Digit c

/-- the number that a text begins with: white space, a sign, digits; zero without digits -/
inductive TextNumber : Text → Int → Prop
  | plain {sp ds rest} : (∀ c ∈ sp, CSpace c) → DigitsFront ds rest →
      (∀ c, (ds ++ rest).head? = some c → ¬ CSpace c ∧ c ≠ '-'.toNat ∧ c ≠ '+'.toNat) → TextNumber (sp ++ (ds ++ rest)) (Dern.Spec.Numeral.value 10 ds)
  | plus {sp ds rest} : (∀ c ∈ sp, CSpace c) → DigitsFront ds rest → TextNumber (sp ++ '+'.toNat :: (ds ++ rest)) (Dern.Spec.Numeral.value 10 ds)
  | minus {sp ds rest} : (∀ c ∈ sp, CSpace c) → DigitsFront ds rest →
      TextNumber (sp ++ '-'.toNat :: (ds ++ rest)) (-(Dern.Spec.Numeral.value 10 ds : Int))

/-- the nearest number of 64 bits, reduced to int32_t -/
def reduced (k : Int) : Int := Int.bmod (max (-2 ^ 63) (min k (2 ^ 63 - 1))) (2 ^ 32)

/-- the value is neither a number nor a text -/
def Unconverted (o : Obj) : Prop :=
  (∀ n, o ≠ .int n) ∧ (∀ d, o ≠ .real d) ∧ (∀ t, o ≠ .chr t) ∧ (∀ t, o ≠ .str t) ∧ ∀ t, o ≠ .sym t

/-- what `to-integer` does; there is no result for a real whose integral part is not an int32_t -/
inductive ToIntegerRun (W : World) (ts : List Ref) (v : Vm) (r : Ref) (w : Vm) (tr : List Event) : Prop
  | count : ts.length ≠ 1 → GivesError W v r w tr → ToIntegerRun W ts v r w tr
  | int {x n} : ts = [x] → v.HasObj x (.int n) → Gives W (.int n) v r w tr → ToIntegerRun W ts v r w tr
  | real {x d n} : ts = [x] → v.HasObj x (.real d) → IntegralPart d n → Int32 n → Gives W (.int n) v r w tr → ToIntegerRun W ts v r w tr
  | character {x} {c : Nat} {t} : ts = [x] → v.HasObj x (.chr (c :: t)) → Gives W (.int (Int.bmod c (2 ^ 32))) v r w tr → ToIntegerRun W ts v r w tr
  | empty {x} : ts = [x] → v.HasObj x (.chr []) → Gives W (.int 0) v r w tr → ToIntegerRun W ts v r w tr
  | text {x t k} : ts = [x] → v.HasObj x (.str t) ∨ v.HasObj x (.sym t) → (Clean t → TextNumber t k) → Gives W (.int (reduced k)) v r w tr →
      ToIntegerRun W ts v r w tr
  | other {x o} : ts = [x] → v.HasObj x o → Unconverted o → GivesError W v r w tr → ToIntegerRun W ts v r w tr

/-- what `to-real` does -/
inductive ToRealRun (W : World) (ts : List Ref) (v : Vm) (r : Ref) (w : Vm) (tr : List Event) : Prop
  | count : ts.length ≠ 1 → GivesError W v r w tr → ToRealRun W ts v r w tr
  | int {x n d} : ts = [x] → v.HasObj x (.int n) → (Int32 n → d.value = some (Dbl.ofInt n)) → Gives W (.real d) v r w tr → ToRealRun W ts v r w tr
  | real {x d} : ts = [x] → v.HasObj x (.real d) → Gives W (.real d) v r w tr → ToRealRun W ts v r w tr
  | character {x} {c : Nat} {t d} : ts = [x] → v.HasObj x (.chr (c :: t)) → (c < 2 ^ 32 → d.value = some (Dbl.ofInt c)) → Gives W (.real d) v r w tr →
      ToRealRun W ts v r w tr
  | empty {x d} : ts = [x] → v.HasObj x (.chr []) → d.value = some 0 → Gives W (.real d) v r w tr → ToRealRun W ts v r w tr
  | text {x t d} : ts = [x] → v.HasObj x (.str t) ∨ v.HasObj x (.sym t) → Gives W (.real d) v r w tr → ToRealRun W ts v r w tr
  | other {x o} : ts = [x] → v.HasObj x o → Unconverted o → GivesError W v r w tr → ToRealRun W ts v r w tr

/-- the number in a value, without the places after the point -/
def HasWhole (v : Vm) (x : Ref) (n : Int) : Prop := v.HasObj x (.int n) ∨ ∃ d, v.HasObj x (.real d) ∧ IntegralPart d n ∧ Int32 n

/-- the text in a string, symbol or character -/
def HasLetters (v : Vm) (x : Ref) (t : Text) : Prop := v.HasObj x (.str t) ∨ v.HasObj x (.sym t) ∨ v.HasObj x (.chr t)

/-- what `character` does -/
inductive CharacterRun (W : World) (ts : List Ref) (v : Vm) (r : Ref) (w : Vm) (tr : List Event) : Prop
  | count : ts.length ≠ 1 → GivesError W v r w tr → CharacterRun W ts v r w tr
  | code {x} {n : Nat} : ts = [x] → HasWhole v x n → Gives W (.chr [n]) v r w tr → CharacterRun W ts v r w tr
  | negative {x n} : ts = [x] → HasWhole v x n → n < 0 → GivesError W v r w tr → CharacterRun W ts v r w tr
  | copyright {x} : ts = [x] → HasLetters v x (letters "copyright sign") → Gives W (.chr ['©'.toNat]) v r w tr → CharacterRun W ts v r w tr
  | lambda {x} : ts = [x] → HasLetters v x (letters "greek small letter lambda") → Gives W (.chr ['λ'.toNat]) v r w tr → CharacterRun W ts v r w tr
  | unnamed {x t} : ts = [x] → HasLetters v x t → t ≠ letters "copyright sign" → t ≠ letters "greek small letter lambda" → GivesError W v r w tr →
      CharacterRun W ts v r w tr
  | other {x o} : ts = [x] → v.HasObj x o → Unconverted o → GivesError W v r w tr → CharacterRun W ts v r w tr

/-- a number is negative -/
def NegativeNumber (v : Vm) (x : Ref) : Prop := (∃ n, v.HasObj x (.int n) ∧ n < 0) ∨ ∃ d y, v.HasObj x (.real d) ∧ d.value = some y ∧ y < 0

/-- how many arguments the functions of mathematics take -/
def Suits (f : MathFn) (count : Nat) : Prop :=
  match f with
  | .sqrt => count = 1
  | .pow => count = 2
  | _ => 1 ≤ count

/-- What a function of mathematics does: with too few (for `sqrt` and `pow` also with too many) arguments, arguments that
are no numbers, or `sqrt` of a negative number, an error; otherwise a new real. -/
inductive MathRun (W : World) (f : MathFn) (ts : List Ref) (v : Vm) (r : Ref) (w : Vm) (tr : List Event) : Prop
  | count : ¬ Suits f ts.length → GivesError W v r w tr → MathRun W f ts v r w tr
  | unfit {x} : Suits f ts.length → x ∈ ts → (f ≠ .pow → ts.head? = some x) → ¬ IsNum v x → GivesError W v r w tr → MathRun W f ts v r w tr
  | negative {x} : f = .sqrt → ts = [x] → NegativeNumber v x → GivesError W v r w tr → MathRun W f ts v r w tr
  | real {d} : Suits f ts.length → (∀ x, ts.head? = some x → IsNum v x ∧ (f = .sqrt → ¬ NegativeNumber v x)) → (f = .pow → ∀ x ∈ ts, IsNum v x) →
      Gives W (.real d) v r w tr → MathRun W f ts v r w tr

/-! ### Proofs -/

theorem wp_truncate {n : Nat} {h : Handler} {d : Dbl} {v : Vm} {Q : Int → Vm → List Event → Prop} (hq : ∀ k, IntegralPart d k → Int32 k → Q k v []) :
    Wp W n h (Prog.truncate d) v Q := by
  unfold Prog.truncate
  split
  · rename_i x hx
    split
    · exact wp_fail
    · rename_i he
      refine wp_int32 fun hk => hq _ ⟨he, x, hx, ?_, ?_⟩ hk
      · intro h0
        have hu : (0 : Int) < (Dbl.unit : Int) := by exact_mod_cast Dbl.unit_pos
        rw [Int.tdiv_eq_ediv_of_nonneg h0]
        unfold Dbl.ofInt
        have h1 := Int.emod_add_mul_ediv x (Dbl.unit : Int)
        have h2 := Int.emod_nonneg x (Int.ne_of_gt hu)
        have h3 := Int.emod_lt_of_pos x hu
        rw [Int.mul_comm] at h1
        rw [Int.add_mul, Int.one_mul]
        omega
      · intro h0
        have hu : (0 : Int) < (Dbl.unit : Int) := by exact_mod_cast Dbl.unit_pos
        have e : x.tdiv (Dbl.unit : Int) = -((-x) / (Dbl.unit : Int)) := by
          rw [← Int.tdiv_eq_ediv_of_nonneg (by omega), Int.neg_tdiv, Int.neg_neg]
        rw [e]
        unfold Dbl.ofInt
        have h1 := Int.emod_add_mul_ediv (-x) (Dbl.unit : Int)
        have h2 := Int.emod_nonneg (-x) (Int.ne_of_gt hu)
        have h3 := Int.emod_lt_of_pos (-x) hu
        rw [Int.mul_comm] at h1
        rw [Int.sub_mul, Int.one_mul, Int.neg_mul]
        omega
  · exact wp_fail

/-! #### numbers in texts -/

theorem c61_ascii_aux {p : Nat → Bool} (hp : ∀ c, p c = true → c < 128) : ∀ (t : Text),
    (Dern.Spec.encodeText t).takeWhile p = t.takeWhile p ∧ (Dern.Spec.encodeText t).dropWhile p = Dern.Spec.encodeText (t.dropWhile p) := by
  intro t
  induction t with
  | nil => exact ⟨rfl, rfl⟩
  | cons c t ih =>
    have e : Dern.Spec.encodeText (c :: t) = _root_.Spec.Utf8.encode c ++ Dern.Spec.encodeText t := by simp [Dern.Spec.encodeText]
    by_cases hc : p c = true
    · have : _root_.Spec.Utf8.encode c = [c] := by unfold _root_.Spec.Utf8.encode; rw [if_pos (hp c hc)]
      rw [e, this]
      simp [hc, ih]
    · obtain ⟨d, ds, hd, hpd⟩ : ∃ d ds, _root_.Spec.Utf8.encode c = d :: ds ∧ p d ≠ true := by
        unfold _root_.Spec.Utf8.encode
        split
        · exact ⟨_, _, rfl, hc⟩
        split
        · exact ⟨_, _, rfl, fun h => by have := hp _ h; omega⟩
        split
        · exact ⟨_, _, rfl, fun h => by have := hp _ h; omega⟩
        · exact ⟨_, _, rfl, fun h => by have := hp _ h; omega⟩
      have e2 : (c :: t).dropWhile p = c :: t := by simp [hc]
      rw [e2, e, hd]
      simp [hpd, hc]

theorem c61_digits_aux (t : Text) : ∃ ds rest, t = ds ++ rest ∧ DigitsFront ds rest ∧ Prog.digitsValue (Prog.leadingDigits (Dern.Spec.encodeText t)) = Dern.Spec.Numeral.value 10 ds := by
  obtain ⟨rest, h1, h2, h3⟩ := c53_digits_aux t
  refine ⟨_, rest, h1, ⟨h2, h3⟩, ?_⟩
  have : Prog.leadingDigits (Dern.Spec.encodeText t) = Prog.leadingDigits t := by
    unfold Prog.leadingDigits
    refine (c61_ascii_aux (p := fun c => 48 ≤ c && c ≤ 57) ?_ t).1
    intro c hc; simp at hc; omega
  rw [this]
  exact (c53_value_aux _ 0 h2).symm

theorem c61_space_aux {c : Nat} : Prog.isSpaceOctet c = true ↔ CSpace c := by
  unfold Prog.isSpaceOctet CSpace
  simp only [Bool.or_eq_true, decide_eq_true_eq, Bool.and_eq_true]
  exact Iff.rfl

theorem c61_head_aux {c : Nat} {t : Text} : (∃ o, Dern.Spec.encodeText t = c :: o) → c < 128 → ∃ t', t = c :: t' := by
  rintro ⟨o, ho⟩ hc
  cases t with
  | nil => cases ho
  | cons d t =>
    have e : Dern.Spec.encodeText (d :: t) = _root_.Spec.Utf8.encode d ++ Dern.Spec.encodeText t := by simp [Dern.Spec.encodeText]
    rw [e] at ho
    unfold _root_.Spec.Utf8.encode at ho
    split at ho
    · cases ho; exact ⟨_, rfl⟩
    split at ho
    · cases ho; omega
    split at ho
    · cases ho; omega
    · cases ho; omega

theorem c61_saturate_aux (k : Int) : Prog.toInt32 (Prog.saturate k) = reduced k := by
  unfold Prog.toInt32 Prog.saturate reduced
  congr 1
  split
  · omega
  · split <;> omega

theorem c61_strtoimax_aux (t : Text) : ∃ k, TextNumber t k ∧ Prog.strtoimax (Dern.Spec.encodeText t) = Prog.saturate k := by
  have hs := (c61_ascii_aux (p := Prog.isSpaceOctet) (fun c hc => by
    have := c61_space_aux.mp hc
    rcases this with rfl | ⟨_, h⟩
    · decide
    · exact Nat.lt_of_le_of_lt h (by decide)) t).2
  have hsp : ∀ c ∈ t.takeWhile Prog.isSpaceOctet, CSpace c := fun c hc => c61_space_aux.mp (List.mem_takeWhile_imp hc)
  have ht : t = t.takeWhile Prog.isSpaceOctet ++ t.dropWhile Prog.isSpaceOctet := List.takeWhile_append_dropWhile.symm
  have hhd : ∀ c, (t.dropWhile Prog.isSpaceOctet).head? = some c → ¬ CSpace c := by
    intro c hc hsc
    have := List.head?_dropWhile_not Prog.isSpaceOctet t
    rw [hc] at this
    simp only at this
    rw [c61_space_aux.mpr hsc] at this
    cases this
  generalize t.takeWhile Prog.isSpaceOctet = sp at *
  generalize t.dropWhile Prog.isSpaceOctet = u at *
  subst ht
  unfold Prog.strtoimax
  rw [hs]
  split
  · rename_i ds hds
    obtain ⟨u', rfl⟩ := c61_head_aux ⟨ds, hds⟩ (by decide)
    have e : Dern.Spec.encodeText (45 :: u') = 45 :: Dern.Spec.encodeText u' := by simp [Dern.Spec.encodeText, _root_.Spec.Utf8.encode]
    rw [e] at hds; cases hds
    obtain ⟨ds, rest, rfl, h1, h2⟩ := c61_digits_aux u'
    exact ⟨_, .minus hsp h1, by rw [h2]⟩
  · rename_i ds hds
    obtain ⟨u', rfl⟩ := c61_head_aux ⟨ds, hds⟩ (by decide)
    have e : Dern.Spec.encodeText (43 :: u') = 43 :: Dern.Spec.encodeText u' := by simp [Dern.Spec.encodeText, _root_.Spec.Utf8.encode]
    rw [e] at hds; cases hds
    obtain ⟨ds, rest, rfl, h1, h2⟩ := c61_digits_aux u'
    exact ⟨_, .plus hsp h1, by rw [h2]⟩
  · rename_i hm hp
    obtain ⟨ds, rest, rfl, h1, h2⟩ := c61_digits_aux u
    refine ⟨_, .plain hsp h1 fun c hc => ⟨hhd c hc, ?_, ?_⟩, by rw [h2]⟩
    · rintro rfl
      obtain ⟨u', hu⟩ : ∃ u', ds ++ rest = 45 :: u' := by
        cases hh : ds ++ rest with
        | nil => rw [hh] at hc; cases hc
        | cons a b => rw [hh] at hc; cases hc; exact ⟨b, rfl⟩
      rw [hu] at hm
      exact hm (Dern.Spec.encodeText u') (by simp [Dern.Spec.encodeText, _root_.Spec.Utf8.encode])
    · rintro rfl
      obtain ⟨u', hu⟩ : ∃ u', ds ++ rest = 43 :: u' := by
        cases hh : ds ++ rest with
        | nil => rw [hh] at hc; cases hc
        | cons a b => rw [hh] at hc; cases hc; exact ⟨b, rfl⟩
      rw [hu] at hp
      exact hp (Dern.Spec.encodeText u') (by simp [Dern.Spec.encodeText, _root_.Spec.Utf8.encode])

/-- the number in the text -/
theorem wp_textNumber {n : Nat} {h : Handler} {t : Text} {v : Vm} {Q : List Nat → Vm → List Event → Prop}
    (hq : ∀ o k, (Clean t → TextNumber t k) → Prog.toInt32 (Prog.strtoimax o) = reduced k → Q o v []) :
    Wp W n h (Prog.octetsOf t) v Q := by
  unfold Prog.octetsOf
  split
  · exact wp_fail
  · rename_i o ho
    refine wp_pure ?_
    by_cases hc : Clean t
    · rw [getCString_eq t hc] at ho
      cases ho
      rw [encodeText_octets t hc]
      obtain ⟨k, h1, h2⟩ := c61_strtoimax_aux t
      exact hq _ k (fun _ => h1) (by rw [h2, c61_saturate_aux])
    · have : ∃ k, Prog.toInt32 (Prog.strtoimax (o.map BitVec.toNat)) = reduced k := by
        unfold Prog.strtoimax
        split <;> exact ⟨_, c61_saturate_aux _⟩
      obtain ⟨k, hk⟩ := this
      exact hq _ k (fun h => absurd h hc) hk

/-! #### the functions -/

section
variable {n : Nat} {h : Handler} {args env : Ref} {ts : List Ref} {v : Vm}

theorem c61_toIntegerRun_aux (k : Held W args ts env v) :
    Wp W n h (Prog.biToInteger args env) v fun a u tr => KeepsBuiltins v u ∧ ∀ r w, a = some r → Ends u w → ToIntegerRun W ts v r w tr := by
  unfold Prog.biToInteger
  refine c34_first_aux k ?_
  split
  · rename_i x
    refine wp_bind (wp_read fun c hc => wp_bind ?_)
    have fin : ∀ m, (∀ r w tr, Gives W (.int m) v r w tr → ToIntegerRun W [x] v r w tr) →
        Wp W n h (do let r ← Prog.alloc (.int m); pure (some r)) v fun a u tr => KeepsBuiltins v u ∧ ∀ r w, a = some r → Ends u w → ToIntegerRun W [x] v r w tr :=
      fun m hm => giveMono_aux (give_aux k (o := .int m) (by simp)) (Q := fun v r w tr => ToIntegerRun W [x] v r w tr) hm
    have other : Unconverted c.obj → Wp W n h (pure none) v fun a w t => Wp W n h
        (match a with
          | some n => do
            let r ← Prog.alloc (.int n)
            pure (some r)
          | none => Prog.error "First argument to 'to-integer' is currently unsupported type.") w fun b u t' => KeepsBuiltins v u ∧
            ∀ r w, b = some r → Ends u w → ToIntegerRun W [x] v r w ([] ++ (t ++ t')) := fun hu => by
      refine wp_pure (Wp.mono (giveMono_aux (c34_error_aux k _) (Q := fun v r w tr => ToIntegerRun W [x] v r w tr) fun r w tr g =>
        .other rfl ⟨c, hc, rfl⟩ hu g) fun _ _ _ h => by simpa using h)
    unfold Prog.objToInt
    cases ho : c.obj
    case int m => exact wp_pure (Wp.mono (fin m fun r w tr g => .int rfl ⟨c, hc, ho⟩ g) fun _ _ _ h => by simpa using h)
    case real d =>
      refine wp_bind (wp_truncate fun m h1 h2 => wp_pure ?_)
      exact Wp.mono (fin m fun r w tr g => .real rfl ⟨c, hc, ho⟩ h1 h2 g) fun _ _ _ h => by simpa using h
    case chr t =>
      refine wp_pure (Wp.mono (fin _ fun r w tr g => ?_) fun _ _ _ h => by simpa using h)
      cases t with
      | nil => exact .empty rfl ⟨c, hc, ho⟩ g
      | cons a t => exact .character rfl ⟨c, hc, ho⟩ g
    case str t =>
      refine wp_bind (wp_textNumber fun o m h1 h2 => wp_pure ?_)
      rw [h2]
      exact Wp.mono (fin _ fun r w tr g => .text rfl (.inl ⟨c, hc, ho⟩) h1 g) fun _ _ _ h => by simpa using h
    case sym t =>
      refine wp_bind (wp_textNumber fun o m h1 h2 => wp_pure ?_)
      rw [h2]
      exact Wp.mono (fin _ fun r w tr g => .text rfl (.inr ⟨c, hc, ho⟩) h1 g) fun _ _ _ h => by simpa using h
    all_goals exact other (by rw [ho]; simp [Unconverted])
  · exact giveMono_aux (c34_error_aux k _) (Q := fun v r w tr => ToIntegerRun W [] v r w tr) fun r w tr g => .count (by simp) g
  · rename_i hne _
    exact giveMono_aux (c34_error_aux k _) (Q := fun v r w tr => ToIntegerRun W ts v r w tr) fun r w tr g => .count (c60_notOne_aux hne) g

theorem c61_exact_aux {m : Int} (h : Int32 m) : (Prog.exactDouble m).value = some (Dbl.ofInt m) :=
  (Prog.exactDouble_value (by unfold Int32 at h; omega)).1

theorem c61_toRealRun_aux (k : Held W args ts env v) :
    Wp W n h (Prog.biToReal args env) v fun a u tr => KeepsBuiltins v u ∧ ∀ r w, a = some r → Ends u w → ToRealRun W ts v r w tr := by
  unfold Prog.biToReal
  refine c34_first_aux k ?_
  split
  · rename_i x
    refine wp_bind (wp_read fun c hc => ?_)
    have fin : ∀ d, (∀ r w tr, Gives W (.real d) v r w tr → ToRealRun W [x] v r w tr) →
        Wp W n h (do let r ← Prog.alloc (.real d); pure (some r)) v fun a u tr => KeepsBuiltins v u ∧ ∀ r w, a = some r → Ends u w → ToRealRun W [x] v r w ([] ++ tr) :=
      fun d hm => Wp.mono (giveMono_aux (give_aux k (o := .real d) (by simp)) (Q := fun v r w tr => ToRealRun W [x] v r w tr) hm) fun _ _ _ h => by simpa using h
    have text : ∀ t, (v.HasObj x (.str t) ∨ v.HasObj x (.sym t)) → Wp W n h (do
          let _ ← Prog.octetsOf t
          let d ← Prog.real
          let r ← Prog.alloc (.real d)
          pure (some r)) v fun a u tr => KeepsBuiltins v u ∧ ∀ r w, a = some r → Ends u w → ToRealRun W [x] v r w ([] ++ tr) := by
      intro t ht
      refine wp_bind (wp_textNumber fun o m _ _ => ?_)
      refine Wp.mono (giveMono_aux (giveReal_aux k) (P := fun v r w tr => ∃ d, Gives W (.real d) v r w tr) (Q := fun v r w tr => ToRealRun W [x] v r w tr) ?_) fun _ _ _ h => by simpa using h
      rintro r w tr ⟨d, g⟩
      exact .text rfl ht g
    cases ho : c.obj
    case int m => exact fin _ fun r w tr g => .int rfl ⟨c, hc, ho⟩ c61_exact_aux g
    case real d => exact fin _ fun r w tr g => .real rfl ⟨c, hc, ho⟩ g
    case chr t =>
      refine fin _ fun r w tr g => ?_
      cases t with
      | nil => exact .empty rfl ⟨c, hc, ho⟩ (by decide) g
      | cons a t => exact .character rfl ⟨c, hc, ho⟩ (fun ha => (Prog.exactDouble_value (by simp; omega)).1) g
    case str t => exact text t (.inl ⟨c, hc, ho⟩)
    case sym t => exact text t (.inr ⟨c, hc, ho⟩)
    all_goals
      exact Wp.mono (giveMono_aux (c34_error_aux k _) (Q := fun v r w tr => ToRealRun W [x] v r w tr) fun r w tr g =>
        .other rfl ⟨c, hc, rfl⟩ (by rw [ho]; simp [Unconverted]) g) fun _ _ _ h => by simpa using h
  · rename_i hne
    exact giveMono_aux (c34_error_aux k _) (Q := fun v r w tr => ToRealRun W ts v r w tr) fun r w tr g => .count (c60_notOne_aux hne) g

theorem c61_characterRun_aux (k : Held W args ts env v) :
    Wp W n h (Prog.biCharacter args env) v fun a u tr => KeepsBuiltins v u ∧ ∀ r w, a = some r → Ends u w → CharacterRun W ts v r w tr := by
  unfold Prog.biCharacter
  refine c34_first_aux k ?_
  split
  · rename_i x
    refine wp_bind (wp_read fun c hc => ?_)
    have fin : ∀ t, (∀ r w tr, Gives W (.chr t) v r w tr → CharacterRun W [x] v r w tr) →
        Wp W n h (do let r ← Prog.alloc (.chr t); pure (some r)) v fun a u tr => KeepsBuiltins v u ∧ ∀ r w, a = some r → Ends u w → CharacterRun W [x] v r w ([] ++ tr) :=
      fun t hm => Wp.mono (giveMono_aux (give_aux k (o := .chr t) (by simp)) (Q := fun v r w tr => CharacterRun W [x] v r w tr) hm) fun _ _ _ h => by simpa using h
    have bad : ∀ s, (∀ r w tr, GivesError W v r w tr → CharacterRun W [x] v r w tr) →
        Wp W n h (Prog.error s) v fun a u tr => KeepsBuiltins v u ∧ ∀ r w, a = some r → Ends u w → CharacterRun W [x] v r w ([] ++ tr) :=
      fun s hm => Wp.mono (giveMono_aux (c34_error_aux k _) (Q := fun v r w tr => CharacterRun W [x] v r w tr) hm) fun _ _ _ h => by simpa using h
    have named : ∀ t, HasLetters v x t → Wp W n h
        (if t = txt "copyright sign" then do
          let r ← Prog.alloc (.chr [0xA9])
          pure (some r)
        else if t = txt "greek small letter lambda" then do
          let r ← Prog.alloc (.chr [0x3BB])
          pure (some r)
        else Prog.error "Builtin '%s' does not support character name '%s' that was given as the first argument.") v
        fun a u tr => KeepsBuiltins v u ∧ ∀ r w, a = some r → Ends u w → CharacterRun W [x] v r w ([] ++ tr) := by
      intro t ht
      split
      · rename_i e; subst e; exact fin _ fun r w tr g => .copyright rfl ht g
      · rename_i e1
        split
        · rename_i e; subst e; exact fin _ fun r w tr g => .lambda rfl ht g
        · rename_i e2; exact bad _ fun r w tr g => .unnamed rfl ht e1 e2 g
    have code : ∀ m : Int, HasWhole v x m → Wp W n h
        (if m < 0 then Prog.error "Builtin '%s' expects non-negative number as the first argument."
        else do
          let r ← Prog.alloc (.chr [m.toNat])
          pure (some r)) v fun a u tr => KeepsBuiltins v u ∧ ∀ r w, a = some r → Ends u w → CharacterRun W [x] v r w ([] ++ tr) := by
      intro m hm
      split
      · rename_i hneg; exact bad _ fun r w tr g => .negative rfl hm hneg g
      · rename_i hpos
        refine fin _ fun r w tr g => .code (n := m.toNat) rfl ?_ g
        rw [Int.toNat_of_nonneg (by omega)]; exact hm
    cases ho : c.obj
    case int m =>
      refine wp_bind (wp_pure (Wp.mono (code m (.inl ⟨c, hc, ho⟩)) fun _ _ _ h => by simpa using h))
    case real d =>
      refine wp_bind (wp_truncate fun m h1 h2 => Wp.mono (code m (.inr ⟨d, ⟨c, hc, ho⟩, h1, h2⟩)) fun _ _ _ h => by simpa using h)
    case str t => exact named t (.inl ⟨c, hc, ho⟩)
    case sym t => exact named t (.inr (.inl ⟨c, hc, ho⟩))
    case chr t => exact named t (.inr (.inr ⟨c, hc, ho⟩))
    all_goals exact bad _ fun r w tr g => .other rfl ⟨c, hc, rfl⟩ (by rw [ho]; simp [Unconverted]) g
  · rename_i hne
    exact giveMono_aux (c34_error_aux k _) (Q := fun v r w tr => CharacterRun W ts v r w tr) fun r w tr g => .count (c60_notOne_aux hne) g

theorem c61_isNumber_aux {x : Ref} {c : Cell} (hc : v.mem x = some c) : Prog.isNumber c.obj = true ↔ IsNum v x := by
  constructor
  · intro h
    cases ho : c.obj <;> rw [ho] at h <;> simp [Prog.isNumber] at h
    · exact .inl ⟨_, c, hc, ho⟩
    · exact .inr ⟨_, c, hc, ho⟩
  · rintro (⟨m, d, hd, e⟩ | ⟨m, d, hd, e⟩) <;> obtain rfl := same_cell hc hd <;> rw [e] <;> rfl

theorem c61_isNegative_aux {x : Ref} {c : Cell} (hc : v.mem x = some c) : Prog.isNegative c.obj = true ↔ NegativeNumber v x := by
  constructor
  · intro h
    cases ho : c.obj <;> rw [ho] at h <;> simp [Prog.isNegative] at h
    · exact .inl ⟨_, ⟨c, hc, ho⟩, h⟩
    · rename_i d
      cases hd : d.value with
      | none => rw [hd] at h; cases h
      | some y => rw [hd] at h; exact .inr ⟨d, y, ⟨c, hc, ho⟩, hd, by simpa using h⟩
  · rintro (⟨m, ⟨d, hd, e⟩, hm⟩ | ⟨m, y, ⟨d, hd, e⟩, hm, hy⟩) <;> obtain rfl := same_cell hc hd <;> rw [e]
    · simpa [Prog.isNegative] using hm
    · simpa [Prog.isNegative, hm] using hy

theorem c61_takes_aux {f : MathFn} {m : Nat} : Prog.MathFn.takes f m = true ↔ Suits f m := by
  cases f <;> simp [Prog.MathFn.takes, Suits]

theorem c61_mathRun_aux {f : MathFn} (k : Held W args ts env v) :
    Wp W n h (Prog.biMath f args env) v fun a u tr => KeepsBuiltins v u ∧ ∀ r w, a = some r → Ends u w → MathRun W f ts v r w tr := by
  unfold Prog.biMath
  refine c34_first_aux k ?_
  have bad : ∀ s, (∀ r w tr, GivesError W v r w tr → MathRun W f ts v r w tr) →
      Wp W n h (Prog.error s) v fun a u tr => KeepsBuiltins v u ∧ ∀ r w, a = some r → Ends u w → MathRun W f ts v r w ([] ++ tr) :=
    fun s hm => Wp.mono (giveMono_aux (c34_error_aux k _) (Q := fun v r w tr => MathRun W f ts v r w tr) hm) fun _ _ _ h => by simpa using h
  have good : (∀ d r w tr, Gives W (.real d) v r w tr → MathRun W f ts v r w tr) →
      Wp W n h (do let d ← Prog.real; let r ← Prog.alloc (.real d); pure (some r)) v
        fun a u tr => KeepsBuiltins v u ∧ ∀ r w, a = some r → Ends u w → MathRun W f ts v r w ([] ++ tr) :=
    fun hm => Wp.mono (giveMono_aux (giveReal_aux k) (P := fun v r w tr => ∃ d, Gives W (.real d) v r w tr) (Q := fun v r w tr => MathRun W f ts v r w tr) fun r w tr ⟨d, g⟩ => hm d r w tr g)
      fun _ _ _ h => by simpa using h
  cases ts with
  | nil => exact bad _ fun r w tr g => .count (by cases f <;> simp [Suits]) g
  | cons x xs =>
    by_cases hs : Suits f (x :: xs).length
    · have ht : Prog.MathFn.takes f (x :: xs).length = true := c61_takes_aux.mpr hs
      simp only [ht, if_true]
      refine wp_bind (wp_read fun c hc => ?_)
      by_cases hn : Prog.isNumber c.obj = true
      · have hn' := (c61_isNumber_aux hc).mp hn
        simp only [hn, if_true]
        split
        · split
          · rename_i hneg
            refine bad _ fun r w tr g => .negative rfl ?_ ((c61_isNegative_aux hc).mp hneg) g
            simpa [Suits] using hs
          · rename_i hneg
            refine good fun d r w tr g => .real hs ?_ (by simp) g
            rintro _ ⟨⟩
            exact ⟨hn', fun _ h => hneg ((c61_isNegative_aux hc).mpr h)⟩
        · rename_i y ys
          have : ys = [] := by simpa [Suits] using hs
          subst this
          refine wp_bind (wp_read fun d hd => ?_)
          split
          · rename_i hm
            have hm' := (c61_isNumber_aux hd).mp hm
            refine Wp.mono (good fun d r w tr g => .real hs ?_ ?_ g) fun _ _ _ h => by simpa using h
            · rintro _ ⟨⟩; exact ⟨hn', by simp⟩
            · rintro _ z hz
              simp at hz
              rcases hz with rfl | rfl
              · exact hn'
              · exact hm'
          · rename_i hm
            refine Wp.mono (bad _ fun r w tr g => .unfit (x := y) hs (by simp) (by simp) (fun h => hm ((c61_isNumber_aux hd).mpr h)) g) fun _ _ _ h => by simpa using h
        · rename_i h1 h2
          refine good fun d r w tr g => .real hs ?_ ?_ g
          · rintro _ ⟨⟩; exact ⟨hn', fun e => absurd e h1⟩
          · rintro rfl
            have : xs ≠ [] := by rintro rfl; simp [Suits] at hs
            obtain ⟨y, ys, rfl⟩ := List.exists_cons_of_ne_nil this
            exact absurd rfl (h2 y ys rfl)
      · simp only [hn, if_false]
        exact bad _ fun r w tr g => .unfit (x := x) hs (by simp) (by simp) (fun h => hn ((c61_isNumber_aux hc).mpr h)) g
    · have ht : ¬ Prog.MathFn.takes f (x :: xs).length = true := fun h => hs (c61_takes_aux.mp h)
      simp only [ht, if_false]
      exact bad _ fun r w tr g => .count hs g

end

/-! ### Theorems -/

/-- `to-integer` -/
theorem c61_to_integer (hL : L.Safe) {v w : Vm} (rv : v.Reached W L) {form env op : Ref} {name : Text} {xs : List Ref}
    (nc : NamedCall W v form env name op xs) (hop : v.HasObj op (.builtin .toInteger)) {r : Option Ref} {tr : List Event}
    (ev : Evaluates W L v form env r w tr) :
    NamedOpCall W (ArgumentsFirst W form env (Runs .toInteger op (ToIntegerRun W))) v env op r w tr :=
  namedBuiltin_aux hL (by simp) (fun _ _ _ _ _ _ _ k => c61_toIntegerRun_aux k) rv nc hop ev

/-- `to-real` -/
theorem c61_to_real (hL : L.Safe) {v w : Vm} (rv : v.Reached W L) {form env op : Ref} {name : Text} {xs : List Ref}
    (nc : NamedCall W v form env name op xs) (hop : v.HasObj op (.builtin .toReal)) {r : Option Ref} {tr : List Event}
    (ev : Evaluates W L v form env r w tr) :
    NamedOpCall W (ArgumentsFirst W form env (Runs .toReal op (ToRealRun W))) v env op r w tr :=
  namedBuiltin_aux hL (by simp) (fun _ _ _ _ _ _ _ k => c61_toRealRun_aux k) rv nc hop ev

/-- `character` -/
theorem c61_character (hL : L.Safe) {v w : Vm} (rv : v.Reached W L) {form env op : Ref} {name : Text} {xs : List Ref}
    (nc : NamedCall W v form env name op xs) (hop : v.HasObj op (.builtin .character)) {r : Option Ref} {tr : List Event}
    (ev : Evaluates W L v form env r w tr) :
    NamedOpCall W (ArgumentsFirst W form env (Runs .character op (CharacterRun W))) v env op r w tr :=
  namedBuiltin_aux hL (by simp) (fun _ _ _ _ _ _ _ k => c61_characterRun_aux k) rv nc hop ev

/-- the functions of mathematics -/
theorem c61_math (hL : L.Safe) {v w : Vm} (rv : v.Reached W L) {form env op : Ref} {name : Text} {xs : List Ref} {f : MathFn}
    (nc : NamedCall W v form env name op xs) (hop : v.HasObj op (.builtin (.math f))) {r : Option Ref} {tr : List Event}
    (ev : Evaluates W L v form env r w tr) :
    NamedOpCall W (ArgumentsFirst W form env (Runs (.math f) op (MathRun W f))) v env op r w tr :=
  namedBuiltin_aux hL (by simp) (fun _ _ _ _ _ _ _ k => c61_mathRun_aux k) rv nc hop ev

/-- A number that fits is not changed by reducing it. -/
theorem c61_reduced_fits {n : Int} (h : Int32 n) : reduced n = n := by
  unfold Int32 at h
  unfold reduced
  rw [show max (-2 ^ 63) (min n (2 ^ 63 - 1)) = n by omega]
  exact Int.bmod_eq_of_le_mul_two (by omega) (by omega)

/-- The numeral of an integer stands for that integer. -/
theorem c61_numeral {n : Int} {t : Text} (h : Signed n t) : TextNumber t n := by
  cases h with
  | @pos m s h =>
    have := TextNumber.plain (sp := []) (ds := t) (rest := []) (by simp) ⟨h.digits, by simp⟩ ?_
    · simpa [h.value] using this
    · intro c hc
      have : c ∈ t := by
        rw [List.append_nil] at hc
        exact List.mem_of_mem_head? hc
      have := h.digits c this
      unfold CSpace
      simp only [show '0'.toNat = 48 from rfl, show '9'.toNat = 57 from rfl, show ' '.toNat = 32 from rfl, show '\t'.toNat = 9 from rfl,
        show '\r'.toNat = 13 from rfl, show '-'.toNat = 45 from rfl, show '+'.toNat = 43 from rfl] at this ⊢
      exact (show ∀ d : Nat, 48 ≤ d ∧ d ≤ 57 → ¬(d = 32 ∨ 9 ≤ d ∧ d ≤ 13) ∧ d ≠ 45 ∧ d ≠ 43 by omega) c this
  | @neg m s h0 h =>
    have := TextNumber.minus (sp := []) (ds := s) (rest := []) (by simp) ⟨h.digits, by simp⟩
    simpa [h.value] using this

/-- A real has one integral part only. -/
theorem c61_integral_unique {d : Dbl} {m n : Int} (h : IntegralPart d m) (h' : IntegralPart d n) : m = n := by
  obtain ⟨_, x, hx, p, q⟩ := h
  obtain ⟨_, x', hx', p', q'⟩ := h'
  rw [hx] at hx'; cases hx'
  rcases Int.le_total 0 x with h0 | h0
  · have a := p h0; have b := p' h0
    have h1 := Dbl.ofInt_lt.mp (Int.lt_of_le_of_lt a.1 b.2)
    have h2 := Dbl.ofInt_lt.mp (Int.lt_of_le_of_lt b.1 a.2)
    omega
  · have a := q h0; have b := q' h0
    have h1 := Dbl.ofInt_lt.mp (Int.lt_of_lt_of_le a.1 b.2)
    have h2 := Dbl.ofInt_lt.mp (Int.lt_of_lt_of_le b.1 a.2)
    omega

/-- An integer converted to a real and back is the same integer. -/
theorem c61_back {d : Dbl} {m n : Int} (h : d.value = some (Dbl.ofInt m)) (h' : IntegralPart d n) : n = m := by
  obtain ⟨_, x, hx, p, q⟩ := h'
  rw [h] at hx; cases hx
  rcases Int.le_total 0 (Dbl.ofInt m) with h0 | h0
  · have a := p h0
    have h2 := Dbl.ofInt_lt.mp a.2
    have h1 : ¬ m < n := fun h => by have := Dbl.ofInt_lt.mpr h; omega
    omega
  · have a := q h0
    have h2 := Dbl.ofInt_lt.mp a.1
    have h1 : ¬ n < m := fun h => by have := Dbl.ofInt_lt.mpr h; omega
    omega

/-! ### Examples -/

/-- names for the examples -/
def kit16 : List (String × Obj × Bool) := [("to-integer", .builtin .toInteger, true), ("to-real", .builtin .toReal, true), ("character", .builtin .character, true),
  ("sqrt", .builtin (.math .sqrt), true), ("pow", .builtin (.math .pow), true)]

theorem kit16_plain : ∀ x ∈ kit16, x.2.1.children = [] := by decide

/-- `(to-integer [ -12x])` -/
example : ∃ (v w : Vm) (form op : Ref) (xs : List Ref) (r : Option Ref) (tr : List Event), v.Reached world library ∧
    NamedCall world v form v.globalEnv (txt "to-integer") op xs ∧ v.HasObj op (.builtin .toInteger) ∧
    Evaluates world library v form v.globalEnv r w tr ∧ objAt w r = some (.int (-12)) := by
  obtain ⟨v, form, r, w, tr, hr, of, oe, ev, h⟩ := stage_exists (table := kit16) (forms := []) (fuel := 60)
    (last := .vec [.sym "to-integer", .str " -12x"])
    (P := fun v f r w tr => namedCheck v f "to-integer" (.builtin .toInteger) && decide (objAt w r = some (.int (-12)))) kit16_plain (by decide +kernel)
  simp only [Bool.and_eq_true, decide_eq_true_eq] at h
  obtain ⟨op, xs, h1, h2, h3⟩ := named_of_check h.1 of oe
  exact ⟨v, w, form, op, xs, r, tr, hr, h1, h2, ev, h.2⟩

/-- `(to-integer (character 955))` -/
example : ∃ (v w : Vm) (form op : Ref) (xs : List Ref) (r : Option Ref) (tr : List Event), v.Reached world library ∧
    NamedCall world v form v.globalEnv (txt "to-integer") op xs ∧ v.HasObj op (.builtin .toInteger) ∧
    Evaluates world library v form v.globalEnv r w tr ∧ objAt w r = some (.int 955) := by
  obtain ⟨v, form, r, w, tr, hr, of, oe, ev, h⟩ := stage_exists (table := kit16) (forms := []) (fuel := 60)
    (last := .vec [.sym "to-integer", .vec [.sym "character", .int 955]])
    (P := fun v f r w tr => namedCheck v f "to-integer" (.builtin .toInteger) && decide (objAt w r = some (.int 955))) kit16_plain (by decide +kernel)
  simp only [Bool.and_eq_true, decide_eq_true_eq] at h
  obtain ⟨op, xs, h1, h2, h3⟩ := named_of_check h.1 of oe
  exact ⟨v, w, form, op, xs, r, tr, hr, h1, h2, ev, h.2⟩

/-- `(to-real 3)` -/
example : ∃ (v w : Vm) (form op : Ref) (xs : List Ref) (r : Option Ref) (tr : List Event), v.Reached world library ∧
    NamedCall world v form v.globalEnv (txt "to-real") op xs ∧ v.HasObj op (.builtin .toReal) ∧
    Evaluates world library v form v.globalEnv r w tr ∧ objAt w r = some (.real 0x4008000000000000#64) := by
  obtain ⟨v, form, r, w, tr, hr, of, oe, ev, h⟩ := stage_exists (table := kit16) (forms := []) (fuel := 60)
    (last := .vec [.sym "to-real", .int 3])
    (P := fun v f r w tr => namedCheck v f "to-real" (.builtin .toReal) && decide (objAt w r = some (.real 0x4008000000000000#64))) kit16_plain (by decide +kernel)
  simp only [Bool.and_eq_true, decide_eq_true_eq] at h
  obtain ⟨op, xs, h1, h2, h3⟩ := named_of_check h.1 of oe
  exact ⟨v, w, form, op, xs, r, tr, hr, h1, h2, ev, h.2⟩

/-- `(to-integer (to-real 3))` -/
example : ∃ (v w : Vm) (form op : Ref) (xs : List Ref) (r : Option Ref) (tr : List Event), v.Reached world library ∧
    NamedCall world v form v.globalEnv (txt "to-integer") op xs ∧ v.HasObj op (.builtin .toInteger) ∧
    Evaluates world library v form v.globalEnv r w tr ∧ objAt w r = some (.int 3) := by
  obtain ⟨v, form, r, w, tr, hr, of, oe, ev, h⟩ := stage_exists (table := kit16) (forms := []) (fuel := 60)
    (last := .vec [.sym "to-integer", .vec [.sym "to-real", .int 3]])
    (P := fun v f r w tr => namedCheck v f "to-integer" (.builtin .toInteger) && decide (objAt w r = some (.int 3))) kit16_plain (by decide +kernel)
  simp only [Bool.and_eq_true, decide_eq_true_eq] at h
  obtain ⟨op, xs, h1, h2, h3⟩ := named_of_check h.1 of oe
  exact ⟨v, w, form, op, xs, r, tr, hr, h1, h2, ev, h.2⟩

/-- `(character [greek small letter lambda])` -/
example : ∃ (v w : Vm) (form op : Ref) (xs : List Ref) (r : Option Ref) (tr : List Event), v.Reached world library ∧
    NamedCall world v form v.globalEnv (txt "character") op xs ∧ v.HasObj op (.builtin .character) ∧
    Evaluates world library v form v.globalEnv r w tr ∧ objAt w r = some (.chr [955]) := by
  obtain ⟨v, form, r, w, tr, hr, of, oe, ev, h⟩ := stage_exists (table := kit16) (forms := []) (fuel := 60)
    (last := .vec [.sym "character", .str "greek small letter lambda"])
    (P := fun v f r w tr => namedCheck v f "character" (.builtin .character) && decide (objAt w r = some (.chr [955]))) kit16_plain (by decide +kernel)
  simp only [Bool.and_eq_true, decide_eq_true_eq] at h
  obtain ⟨op, xs, h1, h2, h3⟩ := named_of_check h.1 of oe
  exact ⟨v, w, form, op, xs, r, tr, hr, h1, h2, ev, h.2⟩

/-- `(sqrt 4)` -/
example : ∃ (v w : Vm) (form op : Ref) (xs : List Ref) (r : Option Ref) (tr : List Event), v.Reached world library ∧
    NamedCall world v form v.globalEnv (txt "sqrt") op xs ∧ v.HasObj op (.builtin (.math .sqrt)) ∧
    Evaluates world library v form v.globalEnv r w tr ∧ (match objAt w r with | some (.real _) => true | _ => false) = true := by
  obtain ⟨v, form, r, w, tr, hr, of, oe, ev, h⟩ := stage_exists (table := kit16) (forms := []) (fuel := 60)
    (last := .vec [.sym "sqrt", .int 4])
    (P := fun v f r w tr => namedCheck v f "sqrt" (.builtin (.math .sqrt)) && decide ((match objAt w r with | some (.real _) => true | _ => false) = true)) kit16_plain (by decide +kernel)
  simp only [Bool.and_eq_true, decide_eq_true_eq] at h
  obtain ⟨op, xs, h1, h2, h3⟩ := named_of_check h.1 of oe
  exact ⟨v, w, form, op, xs, r, tr, hr, h1, h2, ev, h.2⟩

/-- `(pow 4)` -/
example : ∃ (v w : Vm) (form op : Ref) (xs : List Ref) (r : Option Ref) (tr : List Event), v.Reached world library ∧
    NamedCall world v form v.globalEnv (txt "pow") op xs ∧ v.HasObj op (.builtin (.math .pow)) ∧
    Evaluates world library v form v.globalEnv r w tr ∧ (match objAt w r with | some (.err _ _) => true | _ => false) = true := by
  obtain ⟨v, form, r, w, tr, hr, of, oe, ev, h⟩ := stage_exists (table := kit16) (forms := []) (fuel := 60)
    (last := .vec [.sym "pow", .int 4])
    (P := fun v f r w tr => namedCheck v f "pow" (.builtin (.math .pow)) && decide ((match objAt w r with | some (.err _ _) => true | _ => false) = true)) kit16_plain (by decide +kernel)
  simp only [Bool.and_eq_true, decide_eq_true_eq] at h
  obtain ⟨op, xs, h1, h2, h3⟩ := named_of_check h.1 of oe
  exact ⟨v, w, form, op, xs, r, tr, hr, h1, h2, ev, h.2⟩

end Dern.Props
