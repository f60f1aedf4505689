import Verif.Core.Text
import Verif.Core.TextLemmas
import Verif.Spec.Order
/-
octaspire_string comparison (amalgamated.c:6009-6060, 6199-6228).
-/
namespace Dern
open Utf8

/-- strcmp of the C library on the contents of two C strings (without the NUL): the sign of the
difference of the first differing octets, taken as unsigned.  The C library only promises the
sign; every caller only looks at the sign. -/
def strcmp : List Octet → List Octet → Int
  | [], [] => 0
  | [], _ :: _ => -1
  | _ :: _, [] => 1
  | a :: as, b :: bs => if a.toNat < b.toNat then -1 else if b.toNat < a.toNat then 1 else strcmp as bs

/-- octaspire_string_compare, amalgamated.c:6199-6228: `none` is `abort()` (in get_c_string). -/
def stringCompare (s t : Text) : Option Int :=
  match getCString t with
  | none => none
  | some ct =>
    if ensureOctets s = [] then some 0
    else match getCString s with
      | none => none
      | some cs => some (strcmp cs ct)

/-- octaspire_string_is_equal, amalgamated.c:6009-6043: lengths first, then code point by code
point. -/
def stringIsEqual (s t : Text) : Bool :=
  if s.length ≠ t.length then false
  else (List.range s.length).all fun i => s[i]? == t[i]?

/-! ### lemmas -/

theorem strcmp_eq : ∀ a b : List Octet,
    strcmp a b = Spec.sign (Spec.lexCmp (a.map BitVec.toNat) (b.map BitVec.toNat))
  | [], [] => rfl
  | [], _ :: _ => rfl
  | _ :: _, [] => rfl
  | a :: as, b :: bs => by
    simp only [strcmp, List.map_cons, Spec.lexCmp, strcmp_eq as bs]
    split
    · rfl
    · split <;> rfl

theorem lexCmp_step {p q : Nat} {x y : List Nat} (h : p < q ∨ (p = q ∧ Spec.lexCmp x y = .lt)) :
    Spec.lexCmp (p :: x) (q :: y) = .lt := by
  unfold Spec.lexCmp
  rcases h with h | ⟨h, h'⟩
  · rw [if_pos h]
  · rw [if_neg (by omega), if_neg (by omega), h']

theorem lexCmp_append (l x y : List Nat) : Spec.lexCmp (l ++ x) (l ++ y) = Spec.lexCmp x y := by
  induction l with
  | nil => rfl
  | cons a l ih => simp [Spec.lexCmp, ih]

theorem lexCmp_encode_lt (a b : Nat) (hb : b ≤ 0x10FFFF) (hab : a < b) (x y : List Nat) :
    Spec.lexCmp (Spec.Utf8.encode a ++ x) (Spec.Utf8.encode b ++ y) = .lt := by
  unfold Spec.Utf8.encode
  by_cases b1 : b < 0x80
  · rw [if_pos (by omega), if_pos b1]; exact lexCmp_step (.inl hab)
  · rw [if_neg b1]
    by_cases b2 : b < 0x800
    · rw [if_pos b2]
      by_cases a1 : a < 0x80
      · rw [if_pos a1]; exact lexCmp_step (.inl (by omega))
      · rw [if_neg a1, if_pos (by omega)]
        rcases Nat.lt_or_ge (a / 64) (b / 64) with h | h
        · exact lexCmp_step (.inl (by omega))
        · exact lexCmp_step (.inr ⟨by omega, lexCmp_step (.inl (by omega))⟩)
    · rw [if_neg b2]
      by_cases b3 : b < 0x10000
      · rw [if_pos b3]
        by_cases a1 : a < 0x80
        · rw [if_pos a1]; exact lexCmp_step (.inl (by omega))
        · rw [if_neg a1]
          by_cases a2 : a < 0x800
          · rw [if_pos a2]; exact lexCmp_step (.inl (by omega))
          · rw [if_neg a2, if_pos (by omega)]
            rcases Nat.lt_or_ge (a / 4096) (b / 4096) with h | h
            · exact lexCmp_step (.inl (by omega))
            · refine lexCmp_step (.inr ⟨by omega, ?_⟩)
              rcases Nat.lt_or_ge (a / 64) (b / 64) with h | h
              · exact lexCmp_step (.inl (by omega))
              · exact lexCmp_step (.inr ⟨by omega, lexCmp_step (.inl (by omega))⟩)
      · rw [if_neg b3]
        by_cases a1 : a < 0x80
        · rw [if_pos a1]; exact lexCmp_step (.inl (by omega))
        · rw [if_neg a1]
          by_cases a2 : a < 0x800
          · rw [if_pos a2]; exact lexCmp_step (.inl (by omega))
          · rw [if_neg a2]
            by_cases a3 : a < 0x10000
            · rw [if_pos a3]; exact lexCmp_step (.inl (by omega))
            · rw [if_neg a3]
              rcases Nat.lt_or_ge (a / 262144) (b / 262144) with h | h
              · exact lexCmp_step (.inl (by omega))
              · refine lexCmp_step (.inr ⟨by omega, ?_⟩)
                rcases Nat.lt_or_ge (a / 4096) (b / 4096) with h | h
                · exact lexCmp_step (.inl (by omega))
                · refine lexCmp_step (.inr ⟨by omega, ?_⟩)
                  rcases Nat.lt_or_ge (a / 64) (b / 64) with h | h
                  · exact lexCmp_step (.inl (by omega))
                  · exact lexCmp_step (.inr ⟨by omega, lexCmp_step (.inl (by omega))⟩)

/-- UTF-8 keeps the order of code points: the shortest forms of two different characters differ
at an octet that decides in favour of the smaller character. -/
theorem lexCmp_encode (a b : Nat) (ha : a ≤ 0x10FFFF) (hb : b ≤ 0x10FFFF) (x y : List Nat) :
    Spec.lexCmp (Spec.Utf8.encode a ++ x) (Spec.Utf8.encode b ++ y) =
      if a < b then .lt else if b < a then .gt else Spec.lexCmp x y := by
  by_cases h1 : a < b
  · rw [if_pos h1]; exact lexCmp_encode_lt a b hb h1 x y
  · rw [if_neg h1]
    by_cases h2 : b < a
    · rw [if_pos h2, Spec.lexCmp_swap, lexCmp_encode_lt b a ha h2 y x]; rfl
    · rw [if_neg h2, show a = b by omega, lexCmp_append]

theorem octetsOf_map (s : Text) (h : ∀ c ∈ s, PrintCh c) :
    (octetsOf s).map BitVec.toNat = s.flatMap Spec.Utf8.encode := by
  induction s with
  | nil => rfl
  | cons c cs ih =>
    obtain ⟨e, h1, h2, _⟩ := encode_ch (h c (by simp))
    simp only [octetsOf, h1, List.map_append, List.flatMap_cons]
    rw [ih (fun c hc => h c (by simp [hc])), h2]

theorem lexCmp_flatMap_encode : ∀ (s t : Text), (∀ c ∈ s, c ≤ 0x10FFFF) → (∀ c ∈ t, c ≤ 0x10FFFF) →
    Spec.lexCmp (s.flatMap Spec.Utf8.encode) (t.flatMap Spec.Utf8.encode) = Spec.lexCmp s t := by
  intro s
  induction s with
  | nil =>
    intro t _ _
    cases t with
    | nil => rfl
    | cons b t =>
      simp only [List.flatMap_nil, List.flatMap_cons, Spec.lexCmp]
      have := specEncode_pos b
      cases hb : Spec.Utf8.encode b with
      | nil => simp [hb] at this
      | cons _ _ => rfl
  | cons a s ih =>
    intro t hs ht
    cases t with
    | nil =>
      simp only [List.flatMap_nil, List.flatMap_cons, Spec.lexCmp]
      have := specEncode_pos a
      cases hb : Spec.Utf8.encode a with
      | nil => simp [hb] at this
      | cons _ _ => rfl
    | cons b t =>
      simp only [List.flatMap_cons]
      rw [lexCmp_encode a b (hs a (by simp)) (ht b (by simp)),
        ih t (fun c hc => hs c (by simp [hc])) (fun c hc => ht c (by simp [hc]))]
      rfl

theorem stringCompare_eq (s t : Text) (hs : ∀ c ∈ s, PrintCh c) (ht : ∀ c ∈ t, PrintCh c) :
    stringCompare s t = some (Spec.sign (Spec.lexCmp s t)) := by
  unfold stringCompare
  rw [getCString_eq t ht, getCString_eq s hs, ensureOctets_eq s hs]
  simp only
  rw [if_neg (by simp), strcmp_eq, octetsOf_map s hs, octetsOf_map t ht,
    lexCmp_flatMap_encode s t (fun c hc => (hs c hc).1.1) (fun c hc => (ht c hc).1.1)]

theorem stringIsEqual_iff (s t : Text) : stringIsEqual s t = true ↔ s = t := by
  unfold stringIsEqual
  constructor
  · intro h
    split at h
    · cases h
    · rename_i hl
      simp at hl
      apply List.ext_getElem?
      intro i
      rw [List.all_eq_true] at h
      by_cases hi : i < s.length
      · simpa using h i (by simpa using hi)
      · rw [List.getElem?_eq_none (by omega), List.getElem?_eq_none (by omega)]
  · rintro rfl
    simp

end Dern
