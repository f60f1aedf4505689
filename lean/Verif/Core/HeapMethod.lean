import Mathlib.Logic.Equiv.Basic
import Mathlib.Data.Nat.Factorial.Basic
import Mathlib.Algebra.Group.End
import Mathlib.Data.List.Nodup
/-
Heap's method, as pure combinatorics: the exchanges it makes, and that the arrangements it passes
through are all different.  Helper for C43.
-/
namespace Dern.HeapMethod
open Equiv

/-- the exchange made when digit `k` of the counter is `c` -/
def move (k c : Nat) : Perm Nat := swap (if k % 2 = 0 then 0 else c) k

/-- the exchanges made for the first `c` values of digit `k`, after a start with all of the
exchanges `s` of the lower digits -/
def rounds (k : Nat) (s : List (Perm Nat)) : Nat → List (Perm Nat)
  | 0 => s
  | c + 1 => rounds k s c ++ move k c :: s

/-- all exchanges for the first `k` positions, in order -/
def moves : Nat → List (Perm Nat)
  | 0 => []
  | 1 => []
  | k + 2 => rounds (k + 1) (moves (k + 1)) (k + 1)

/-- the arrangements passed through: all products of initial exchanges -/
def visits (e : Perm Nat) : List (Perm Nat) → List (Perm Nat)
  | [] => [e]
  | m :: ms => e :: visits (e * m) ms

/-- the product of all exchanges -/
def total (s : List (Perm Nat)) : Perm Nat := s.prod

/-- the total effect on `k` positions, written out -/
def effect (k : Nat) (p : Nat) : Nat :=
  if k % 2 = 1 then (if p = 0 then k - 1 else if p = k - 1 then 0 else p)
  else if k = 2 then (if p = 0 then 1 else if p = 1 then 0 else p)
  else if p = 0 then k - 3 else if p = 1 then k - 2 else if p ≤ k - 3 then p - 1
  else if p = k - 2 then k - 1 else if p = k - 1 then 0 else p

theorem visits_append (e : Perm Nat) (s : List (Perm Nat)) (m : Perm Nat) (t : List (Perm Nat)) :
    visits e (s ++ m :: t) = visits e s ++ visits (e * s.prod * m) t := by
  induction s generalizing e with
  | nil => simp [visits]
  | cons a s ih => simp [visits, ih, mul_assoc]

theorem visits_mul (e : Perm Nat) (s : List (Perm Nat)) :
    visits e s = (visits 1 s).map (e * ·) := by
  suffices H : ∀ f, visits (e * f) s = (visits f s).map (e * ·) by simpa using H 1
  induction s with
  | nil => intro f; simp [visits]
  | cons a s ih => intro f; simp [visits, ← ih, mul_assoc]

theorem rounds_length (k : Nat) (s : List (Perm Nat)) (c : Nat) :
    (rounds k s c).length + 1 = (s.length + 1) * (c + 1) := by
  induction c with
  | zero => simp [rounds]
  | succ c ih =>
    simp only [rounds, List.length_append, List.length_cons]
    rw [Nat.mul_succ, ← ih]; omega

theorem moves_length : ∀ k, 1 ≤ k → (moves k).length + 1 = k.factorial := by
  intro k
  induction k with
  | zero => omega
  | succ k ih =>
    intro _
    cases k with
    | zero => simp [moves]
    | succ k =>
      simp only [moves]
      rw [rounds_length, ih (by omega), Nat.factorial_succ (k + 1)]
      exact Nat.mul_comm _ _

theorem visits_length (e : Perm Nat) (s : List (Perm Nat)) : (visits e s).length = s.length + 1 := by
  induction s generalizing e with
  | nil => rfl
  | cons a s ih => simp [visits, ih]

/-- exchanges that do not touch positions from `k` on -/
def Low (k : Nat) (e : Perm Nat) : Prop := ∀ p, k ≤ p → e p = p

theorem move_low {k c : Nat} (h : c < k) : Low (k + 1) (move k c) := by
  intro p hp
  unfold move
  apply swap_apply_of_ne_of_ne
  · split <;> omega
  · omega

theorem low_mul {k : Nat} {e f : Perm Nat} (he : Low k e) (hf : Low k f) : Low k (e * f) := by
  intro p hp; simp [Perm.mul_apply, hf p hp, he p hp]

theorem low_mono {k l : Nat} (h : k ≤ l) {e : Perm Nat} (he : Low k e) : Low l e :=
  fun p hp => he p (by omega)

theorem rounds_low {k : Nat} {s : List (Perm Nat)} (hs : ∀ m ∈ s, Low k m) : ∀ c, c ≤ k →
    ∀ m ∈ rounds k s c, Low (k + 1) m := by
  intro c
  induction c with
  | zero => intro _ m hm; exact low_mono (by omega) (hs m hm)
  | succ c ih =>
    intro hc m hm
    simp only [rounds, List.mem_append, List.mem_cons] at hm
    rcases hm with hm | rfl | hm
    · exact ih (by omega) m hm
    · exact move_low (by omega)
    · exact low_mono (by omega) (hs m hm)

theorem moves_low : ∀ k, ∀ m ∈ moves k, Low k m := by
  intro k
  induction k with
  | zero => simp [moves]
  | succ k ih =>
    cases k with
    | zero => simp [moves]
    | succ k => exact rounds_low ih (k + 1) (by omega)

theorem visits_low {k : Nat} {s : List (Perm Nat)} (hs : ∀ m ∈ s, Low k m) {e : Perm Nat} (he : Low k e) :
    ∀ f ∈ visits e s, Low k f := by
  induction s generalizing e with
  | nil => simp [visits]; exact he
  | cons a s ih =>
    intro f hf
    simp only [visits, List.mem_cons] at hf
    rcases hf with rfl | hf
    · exact he
    · exact ih (fun m hm => hs m (by simp [hm])) (low_mul he (hs a (by simp))) f hf

/-- what is at position `k` at the start of round `c` -/
def lead (k : Nat) (s : List (Perm Nat)) : Nat → Perm Nat
  | 0 => 1
  | c + 1 => lead k s c * s.prod * move k c

theorem rounds_prod (k : Nat) (s : List (Perm Nat)) (c : Nat) :
    (rounds k s c).prod = lead k s c * s.prod := by
  induction c with
  | zero => simp [rounds, lead]
  | succ c ih => simp [rounds, ih, lead, mul_assoc]

/-- Different leads make all arrangements different. -/
theorem rounds_nodup {k : Nat} {s : List (Perm Nat)} (hs : ∀ m ∈ s, Low k m)
    (hn : (visits 1 s).Nodup) : ∀ c, (∀ a b, a ≤ c → b ≤ c → lead k s a k = lead k s b k → a = b) →
    (visits 1 (rounds k s c)).Nodup ∧ ∀ e ∈ visits 1 (rounds k s c), ∃ a ≤ c, e k = lead k s a k := by
  intro c
  induction c with
  | zero =>
    intro _
    refine ⟨hn, fun e he => ⟨0, Nat.le_refl _, ?_⟩⟩
    have := visits_low hs (e := 1) (fun _ _ => rfl) e he k (Nat.le_refl _)
    simp [lead, this]
  | succ c ih =>
    intro hl
    obtain ⟨i1, i2⟩ := ih (fun a b ha hb => hl a b (by omega) (by omega))
    have hlead : 1 * (rounds k s c).prod * move k c = lead k s (c + 1) := by
      rw [one_mul, rounds_prod]; rfl
    have hblock : ∀ e ∈ visits (lead k s (c + 1)) s, e k = lead k s (c + 1) k := by
      intro e he
      rw [visits_mul, List.mem_map] at he
      obtain ⟨f, hf, rfl⟩ := he
      have := visits_low hs (e := 1) (fun _ _ => rfl) f hf k (Nat.le_refl _)
      simp [Perm.mul_apply, this]
    simp only [rounds]
    rw [visits_append, hlead]
    refine ⟨List.nodup_append.mpr ⟨i1, ?_, ?_⟩, ?_⟩
    · rw [visits_mul]
      exact List.Nodup.map (fun x y h => by simpa using h) hn
    · intro e he f hf hef
      subst hef
      obtain ⟨a, ha, h1⟩ := i2 e he
      have h2 := hblock e hf
      have := hl a (c + 1) (by omega) (by omega) (by rw [← h1, h2])
      omega
    · intro e he
      rcases List.mem_append.mp he with he | he
      · obtain ⟨a, ha, h1⟩ := i2 e he
        exact ⟨a, by omega, h1⟩
      · exact ⟨c + 1, Nat.le_refl _, hblock e he⟩

/-! the leads -/

/-- an odd number `k ≥ 3` of lower positions: the arrangement at the start of round `c` -/
def oddLead (k c p : Nat) : Nat :=
  if c = 0 then p
  else if c = k then
    (if p = 0 then k else if p = 1 then k - 1 else if p ≤ k - 1 then p - 1 else if p = k then 0 else p)
  else if p = 0 then (if c % 2 = 1 then k else 0)
  else if p = k - 1 then (if c % 2 = 1 then 0 else k)
  else if p = k then (if c = 1 then k - 1 else c - 1)
  else if p < c then (if p = 1 then k - 1 else p - 1)
  else p

theorem effect_odd {k : Nat} (h : k % 2 = 1) {e : Perm Nat} (he : ∀ p, e p = effect k p) :
    e = swap 0 (k - 1) := by
  ext p
  rw [he p, swap_apply_def]
  simp only [effect, h, if_true]

theorem oddLead_step {k c : Nat} (hk : k % 2 = 1) (h3 : 3 ≤ k) (hc : c < k) (p : Nat) :
    oddLead k (c + 1) p = oddLead k c (swap 0 (k - 1) (swap c k p)) := by
  simp only [swap_apply_def]
  unfold oddLead
  grind

theorem lead_odd {k : Nat} (hk : k % 2 = 1) (h3 : 3 ≤ k) {s : List (Perm Nat)}
    (hs : ∀ p, s.prod p = effect k p) : ∀ c, c ≤ k → ∀ p, lead k s c p = oddLead k c p := by
  have he := effect_odd hk hs
  intro c
  induction c with
  | zero => intro _ p; simp [lead, oddLead]
  | succ c ih =>
    intro hc p
    rw [oddLead_step hk h3 (by omega) p, ← ih (by omega)]
    simp only [lead, he, Perm.mul_apply, move]
    rw [if_neg (by omega)]

/-- what is at position `k` at the start of round `c`, for an even number `k` of lower positions -/
def orbit (k c : Nat) : Nat :=
  if c = 0 then k else if c = k then 0 else if c = k - 1 then k - 1 else if c = k - 2 then k - 2
  else k - 2 - c

theorem orbit_step {k c : Nat} (hk : k % 2 = 0) (h2 : 2 ≤ k) (hc : c < k) :
    orbit k (c + 1) = effect k (swap 0 k (orbit k c)) := by
  have hk1 : ¬ k % 2 = 1 := by omega
  by_cases h22 : k = 2
  · subst h22
    have : c = 0 ∨ c = 1 := by omega
    rcases this with rfl | rfl <;> simp [orbit, effect, swap_apply_def]
  have o0 : orbit k 0 = k := by simp [orbit]
  have ok : orbit k k = 0 := by unfold orbit; rw [if_neg (by omega), if_pos rfl]
  have o1 : orbit k (k - 1) = k - 1 := by
    unfold orbit; rw [if_neg (by omega), if_neg (by omega), if_pos rfl]
  have o2 : orbit k (k - 2) = k - 2 := by
    unfold orbit; rw [if_neg (by omega), if_neg (by omega), if_neg (by omega), if_pos rfl]
  have om : ∀ d, 1 ≤ d → d ≤ k - 3 → orbit k d = k - 2 - d := by
    intro d h1 h3
    unfold orbit; rw [if_neg (by omega), if_neg (by omega), if_neg (by omega), if_neg (by omega)]
  have e0 : effect k 0 = k - 3 := by simp [effect, hk1, h22]
  have ea : effect k 1 = k - 2 := by simp [effect, hk1, h22]
  have em : ∀ p, 2 ≤ p → p ≤ k - 3 → effect k p = p - 1 := by
    intro p h1 h3
    unfold effect
    rw [if_neg hk1, if_neg h22, if_neg (by omega), if_neg (by omega), if_pos h3]
  have e2 : effect k (k - 2) = k - 1 := by
    unfold effect
    rw [if_neg hk1, if_neg h22, if_neg (by omega), if_neg (by omega), if_neg (by omega), if_pos rfl]
  have e1 : effect k (k - 1) = 0 := by
    unfold effect
    rw [if_neg hk1, if_neg h22, if_neg (by omega), if_neg (by omega), if_neg (by omega),
      if_neg (by omega), if_pos rfl]
  by_cases h0 : c = 0
  · rw [h0, o0, swap_apply_right, e0, om 1 (by omega) (by omega)]; omega
  by_cases h1 : c = k - 1
  · rw [h1, o1, swap_apply_of_ne_of_ne (by omega) (by omega), e1,
      show k - 1 + 1 = k by omega, ok]
  by_cases h3 : c = k - 2
  · rw [h3, o2, swap_apply_of_ne_of_ne (by omega) (by omega), e2,
      show k - 2 + 1 = k - 1 by omega, o1]
  by_cases h4 : c = k - 3
  · rw [h4, om (k - 3) (by omega) (by omega), swap_apply_of_ne_of_ne (by omega) (by omega),
      show k - 3 + 1 = k - 2 by omega, o2, show k - 2 - (k - 3) = 1 by omega, ea]
  · rw [om c (by omega) (by omega), om (c + 1) (by omega) (by omega),
      swap_apply_of_ne_of_ne (by omega) (by omega), em _ (by omega) (by omega)]; omega

theorem lead_even {k : Nat} (hk : k % 2 = 0) (s : List (Perm Nat)) : ∀ c,
    lead k s c = (s.prod * swap 0 k) ^ c := by
  intro c
  induction c with
  | zero => rfl
  | succ c ih => rw [lead, ih, pow_succ, move, if_pos hk, mul_assoc]

theorem pow_orbit {k : Nat} (hk : k % 2 = 0) (h2 : 2 ≤ k) {e : Perm Nat}
    (he : ∀ p, e p = effect k p) : ∀ c, c ≤ k → ((e * swap 0 k) ^ c) k = orbit k c := by
  intro c
  induction c with
  | zero => intro _; simp [orbit]
  | succ c ih =>
    intro hc
    rw [pow_succ', Perm.mul_apply, ih (by omega), Perm.mul_apply, he, orbit_step hk h2 (by omega)]

theorem orbit_onto {k : Nat} (h2 : 2 ≤ k) (p : Nat) (hp : p ≤ k) : ∃ c ≤ k, orbit k c = p := by
  unfold orbit
  by_cases h1 : p = k
  · exact ⟨0, by omega, by simp [h1]⟩
  by_cases h0 : p = 0
  · exact ⟨k, Nat.le_refl _, by rw [if_neg (by omega), if_pos rfl, h0]⟩
  by_cases h3 : p = k - 1
  · exact ⟨k - 1, by omega, by rw [if_neg (by omega), if_neg (by omega), if_pos rfl, h3]⟩
  by_cases h4 : p = k - 2
  · exact ⟨k - 2, by omega, by
      rw [if_neg (by omega), if_neg (by omega), if_neg (by omega), if_pos rfl, h4]⟩
  · exact ⟨k - 2 - p, by omega, by
      rw [if_neg (by omega), if_neg (by omega), if_neg (by omega), if_neg (by omega)]; omega⟩

theorem effect_low (k p : Nat) (h : k ≤ p) (hk : 1 ≤ k) : effect k p = p := by
  unfold effect; grind

theorem pow_one {k : Nat} (hk : k % 2 = 0) (h2 : 2 ≤ k) {e : Perm Nat}
    (he : ∀ p, e p = effect k p) : (e * swap 0 k) ^ (k + 1) = 1 := by
  have hkk : ((e * swap 0 k) ^ (k + 1)) k = k := by
    rw [pow_succ', Perm.mul_apply, pow_orbit hk h2 he k (Nat.le_refl _), Perm.mul_apply, he]
    have : orbit k k = 0 := by unfold orbit; rw [if_neg (by omega), if_pos rfl]
    rw [this, swap_apply_left]
    exact effect_low k k (Nat.le_refl _) (by omega)
  ext p
  by_cases hp : p ≤ k
  · obtain ⟨c, hc, rfl⟩ := orbit_onto h2 p hp
    rw [← pow_orbit hk h2 he c hc, ← Perm.mul_apply, ← pow_add, Nat.add_comm, pow_add,
      Perm.mul_apply, hkk]
    rfl
  · have h1 : (e * swap 0 k) p = p := by
      rw [Perm.mul_apply, swap_apply_of_ne_of_ne (by omega) (by omega), he]
      exact effect_low k p (by omega) (by omega)
    have : ∀ n, ((e * swap 0 k) ^ n) p = p := by
      intro n
      induction n with
      | zero => rfl
      | succ n ih => rw [pow_succ', Perm.mul_apply, ih, h1]
    rw [this]; rfl

/-- the total effect of one more position -/
theorem effect_next {k : Nat} (h1 : 1 ≤ k) {s : List (Perm Nat)} (hs : ∀ p, s.prod p = effect k p) :
    ∀ p, (rounds k s k).prod p = effect (k + 1) p := by
  intro p
  rw [rounds_prod, Perm.mul_apply]
  rcases Nat.mod_two_eq_zero_or_one k with hk | hk
  · have h2 : 2 ≤ k := by omega
    have h := pow_one hk h2 hs
    rw [pow_succ, ← mul_assoc] at h
    have h' : (s.prod * swap 0 k) ^ k * s.prod = swap 0 k := by
      have := congrArg (· * swap 0 k) h
      simpa [mul_assoc] using this
    rw [lead_even hk, ← Perm.mul_apply, h', swap_apply_def]
    have : (k + 1) % 2 = 1 := by omega
    simp only [effect, this, if_true, Nat.add_sub_cancel]
  · by_cases h3 : 3 ≤ k
    · rw [lead_odd hk h3 hs k (Nat.le_refl _), effect_odd hk hs, swap_apply_def]
      unfold oddLead effect
      grind
    · have : k = 1 := by omega
      subst this
      rw [effect_odd hk hs]
      have hp : s.prod = 1 := by
        rw [effect_odd hk hs]; exact swap_self _
      have e2 : lead 1 s 1 = swap 0 1 := by simp [lead, hp, move]
      rw [e2]
      simp [effect, swap_apply_def]

theorem moves_effect : ∀ k, 1 ≤ k → ∀ p, (moves k).prod p = effect k p := by
  intro k
  induction k with
  | zero => omega
  | succ k ih =>
    intro _
    cases k with
    | zero => intro p; by_cases h : p = 0 <;> simp [moves, effect, h]
    | succ k => exact effect_next (by omega) (ih (by omega))

theorem lead_injective {k : Nat} (h1 : 1 ≤ k) {s : List (Perm Nat)} (hs : ∀ p, s.prod p = effect k p) :
    ∀ a b, a ≤ k → b ≤ k → lead k s a k = lead k s b k → a = b := by
  intro a b ha hb h
  rcases Nat.mod_two_eq_zero_or_one k with hk | hk
  · have h2 : 2 ≤ k := by omega
    rw [lead_even hk, lead_even hk, pow_orbit hk h2 hs a ha, pow_orbit hk h2 hs b hb] at h
    unfold orbit at h
    grind
  · by_cases h3 : 3 ≤ k
    · rw [lead_odd hk h3 hs a ha, lead_odd hk h3 hs b hb] at h
      unfold oddLead at h
      grind
    · have : k = 1 := by omega
      subst this
      have hp : s.prod = 1 := by
        rw [effect_odd hk hs]; exact swap_self _
      have e1 : lead 1 s 0 1 = 1 := rfl
      have e2 : lead 1 s 1 1 = 0 := by simp [lead, hp, move]
      have ha' : a = 0 ∨ a = 1 := by omega
      have hb' : b = 0 ∨ b = 1 := by omega
      rcases ha' with rfl | rfl <;> rcases hb' with rfl | rfl
      · rfl
      · rw [e1, e2] at h; omega
      · rw [e1, e2] at h; omega
      · rfl

/-- The arrangements passed through are all different. -/
theorem moves_nodup : ∀ k, (visits 1 (moves k)).Nodup := by
  intro k
  induction k with
  | zero => simp [moves, visits]
  | succ k ih =>
    cases k with
    | zero => simp [moves, visits]
    | succ k =>
      have he := moves_effect (k + 1) (by omega)
      exact (rounds_nodup (moves_low (k + 1)) ih (k + 1) (lead_injective (by omega) he)).1

end Dern.HeapMethod
