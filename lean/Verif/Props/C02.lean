import Verif.Core.TextLemmas
/-
C02  UTF-8 decoding is canonical.

Full statement: if decoding succeeds, the consumed octets are the canonical UTF-8 of the decoded
scalar value; nothing outside of the given octets is read.  The code violates it: it decodes
surrogates and numbers from U+110000 to U+1FFFFF (`c02_surrogate_accepted`,
`c02_above_unicode_accepted`).  What holds: the consumed octets are the *shortest form* of the
decoded number, always, and canonical UTF-8 whenever that number is a scalar value.
-/
namespace Dern.Props
open Dern Dern.Utf8

/-- Missing from the full statement: the decoded number may be no Unicode scalar value. -/
theorem c02_decoding_canonical_partial (text : List Octet) (r : Ucs) (n : Int)
    (h : decodeCharacter text = some ⟨.ok, r, n⟩) :
    0 < r.toNat ∧ r.toNat < 0x200000 ∧
    ∃ k : Nat, n = k ∧ k ≤ text.length ∧
      (text.take k).map BitVec.toNat = Spec.Utf8.encode r.toNat := by
  obtain ⟨k, h1, _, _, h4, h5, h6, _, h8⟩ := decode_sound text r n h
  exact ⟨by omega, by omega, k, h1, h4, h8⟩

/-- Decoding never reads outside of the octets it was given (`none` is an out of bounds read). -/
theorem c02_no_out_of_bounds_read (text : List Octet) : decodeCharacter text ≠ none := by
  obtain ⟨d, h⟩ := decode_total text; simp [h]

/-- Nor does turning a whole buffer into a string; it always ends, and the characters of the
resulting string are never 0. -/
theorem c02_string_from_buffer_total (text : List Octet) :
    ∃ r, fromBuffer text = some r ∧ ∀ c ∈ r.chars, c.toNat ≠ 0 ∧ c.toNat < 0x200000 := by
  obtain ⟨r, h⟩ := fromBufferLoop_total text (text.length + 1) 0 [] (by omega)
  exact ⟨r, h, fromBufferLoop_sound text _ _ _ r (by simp) h⟩

/-- `t` is the longest beginning of the octets that consists of shortest forms of numbers from 1 to 0x1FFFFF, and `rest` is what comes after it -/
structure LongestText (octets t rest : List Nat) : Prop where
  whole : octets = t.flatMap Spec.Utf8.encode ++ rest
  chars : ∀ c ∈ t, 0 < c ∧ c < 0x200000
  longest : ∀ c, 0 < c → c < 0x200000 → ¬ Spec.Utf8.encode c <+: rest

theorem c02_loop_aux (text : List Octet) : ∀ (fuel index : Nat) (acc : List Ucs), index ≤ text.length → text.length - index < fuel →
    (text.take index).map BitVec.toNat = (acc.map BitVec.toNat).flatMap Spec.Utf8.encode → (∀ c ∈ acc.map BitVec.toNat, 0 < c ∧ c < 0x200000) →
    ∃ r rest, fromBufferLoop fuel text index acc = some r ∧ LongestText (text.map BitVec.toNat) (r.chars.map BitVec.toNat) rest ∧
      r.errorAt = if rest = [] then none else some (text.length - rest.length) := by
  intro fuel
  induction fuel with
  | zero => intro i a _ h; omega
  | succ n ih =>
    intro index acc hi hf hp ha
    have hsplit : text.map BitVec.toNat = (acc.map BitVec.toNat).flatMap Spec.Utf8.encode ++ (text.drop index).map BitVec.toNat := by
      rw [← hp, ← List.map_append, List.take_append_drop]
    simp only [fromBufferLoop]
    split
    · next hlt =>
      obtain ⟨d, hd⟩ := decode_total (text.drop index)
      rw [hd]
      simp only [Option.bind_eq_bind, Option.bind_some]
      split
      · next hs =>
        have hne : (text.drop index).map BitVec.toNat ≠ [] := by
          intro h
          have := congrArg List.length h
          simp at this; omega
        refine ⟨_, _, rfl, ⟨hsplit, ha, ?_⟩, ?_⟩
        · intro c h1 h2 hc
          obtain ⟨tl, hc⟩ := hc
          have hcv : (BitVec.ofNat 32 c).toNat = c := by simp; omega
          have hst : StartsWith (text.drop index) (BitVec.ofNat 32 c).toNat (Spec.Utf8.encode c).length := by
            rw [hcv]
            refine ⟨rfl, ?_⟩
            have := congrArg (List.take (Spec.Utf8.encode c).length) hc
            rw [List.take_left, ← List.map_take] at this
            exact this.symm
          have := decode_complete _ _ _ (by rw [hcv]; omega) (by rw [hcv]; omega) hst
          rw [hd] at this
          cases this
          exact hs rfl
        · rw [if_neg hne]; simp; omega
      · next hs =>
        simp only [ne_eq, not_not] at hs
        have hd' : decodeCharacter (text.drop index) = some ⟨.ok, d.result, d.numoctets⟩ := by
          rw [hd, ← hs]
        obtain ⟨k, hk, h1, _, h3, h4, h5, h6⟩ := decode_sound _ _ _ hd'
        rw [if_pos (by omega)]
        rw [List.length_drop] at h3
        have hk' : d.numoctets.toNat = k := by omega
        rw [hk']
        apply ih
        · omega
        · omega
        · rw [List.take_add, List.map_append, hp, h6.2]; simp
        · intro c hc
          rw [List.map_append] at hc
          rcases List.mem_append.mp hc with hc | hc
          · exact ha c hc
          · simp at hc; subst hc; omega
    · next hlt =>
      have hx : text.drop index = [] := List.drop_eq_nil_of_le (by omega)
      rw [hx] at hsplit
      refine ⟨_, [], rfl, ⟨by simpa using hsplit, ha, ?_⟩, rfl⟩
      intro c _ _ hc
      have := List.prefix_nil.mp hc
      unfold Spec.Utf8.encode at this
      repeat' split at this
      all_goals cases this

/-- Any octets become a string that has the longest well-formed text at their beginning, and an error exactly if something is left, at the place of the first octet that
was not used.  Missing from the full statement: well-formed is meant with the shortest forms of all numbers below 0x200000, not only of scalar values. -/
theorem c02_string_longest_partial (text : List Octet) :
    ∃ r rest, fromBuffer text = some r ∧ LongestText (text.map BitVec.toNat) (r.chars.map BitVec.toNat) rest ∧
      r.errorAt = if rest = [] then none else some (text.length - rest.length) :=
  c02_loop_aux text (text.length + 1) 0 [] (by omega) (by omega) rfl (by simp)

theorem c02_free_aux {c d : Nat} {a b : List Nat} (hc : c < 0x200000) (hd : d < 0x200000)
    (h : Spec.Utf8.encode c ++ a = Spec.Utf8.encode d ++ b) : c = d ∧ a = b := by
  unfold Spec.Utf8.encode at h
  split at h <;> split at h <;> (try split at h) <;> (try split at h) <;> (try split at h) <;> (try split at h) <;>
    simp only [List.cons_append, List.nil_append, List.cons.injEq] at h <;>
    first | exact ⟨by omega, h.2⟩ | exact ⟨by omega, h.2.2⟩ | exact ⟨by omega, h.2.2.2⟩ | exact ⟨by omega, h.2.2.2.2⟩ | (exfalso; omega)

/-- There is only one such text, so the string is determined by the octets. -/
theorem c02_longest_unique {os t t' rest rest' : List Nat} (h : LongestText os t rest) (h' : LongestText os t' rest') : t = t' ∧ rest = rest' := by
  obtain ⟨w, cs, l⟩ := h
  obtain ⟨w', cs', l'⟩ := h'
  induction t generalizing os t' with
  | nil =>
    cases t' with
    | nil => exact ⟨rfl, by simpa using w.symm.trans w'⟩
    | cons c cs'' =>
      obtain ⟨h1, h2⟩ := cs' c (by simp)
      refine absurd ?_ (l c h1 h2)
      rw [w] at w'
      simp only [List.flatMap_nil, List.nil_append, List.flatMap_cons, List.append_assoc] at w'
      exact ⟨_, w'.symm⟩
  | cons c t ih =>
    cases t' with
    | nil =>
      obtain ⟨h1, h2⟩ := cs c (by simp)
      refine absurd ?_ (l' c h1 h2)
      rw [w] at w'
      simp only [List.flatMap_nil, List.nil_append, List.flatMap_cons, List.append_assoc] at w'
      exact ⟨_, w'⟩
    | cons d t' =>
      rw [w] at w'
      simp only [List.flatMap_cons, List.append_assoc] at w'
      obtain ⟨rfl, h⟩ := c02_free_aux (cs c (by simp)).2 (cs' d (by simp)).2 w'
      obtain ⟨h1, h2⟩ := ih rfl (fun x hx => cs x (by simp [hx])) h (fun x hx => cs' x (by simp [hx]))
      exact ⟨by rw [h1], h2⟩

/-- Two texts that decode to the same number start with the same octets. -/
theorem c02_decoding_injective (t u : List Octet) (r : Ucs) (n m : Int)
    (ht : decodeCharacter t = some ⟨.ok, r, n⟩) (hu : decodeCharacter u = some ⟨.ok, r, m⟩) :
    n = m ∧ (t.take n.toNat).map BitVec.toNat = (u.take m.toNat).map BitVec.toNat := by
  obtain ⟨k, h1, _, _, _, _, _, h7, h8⟩ := decode_sound t r n ht
  obtain ⟨l, g1, _, _, _, _, _, g7, g8⟩ := decode_sound u r m hu
  refine ⟨by omega, ?_⟩
  rw [h1, g1]; simp only [Int.toNat_natCast]; rw [h8, g8]

/-- The full statement is false: a surrogate is decoded. -/
theorem c02_surrogate_accepted :
    decodeCharacter [0xED, 0xA0, 0x80] = some ⟨.ok, 0xD800, 3⟩ ∧ ¬ Spec.Utf8.IsScalar 0xD800 := by
  decide

/-- The full statement is false: a number above U+10FFFF is decoded. -/
theorem c02_above_unicode_accepted :
    decodeCharacter [0xF4, 0x90, 0x80, 0x80] = some ⟨.ok, 0x110000, 4⟩ ∧
    ¬ Spec.Utf8.IsScalar 0x110000 := by decide

/-- A string holding such a character cannot be turned into a C string: `abort()`. -/
theorem c02_surrogate_text_aborts : recode [0x61, 0xD800] = none := by decide

/-- octaspire_utf8_decode_character_from_buffer ignores the index when decoding: at index 1 of
"ab" it reports 'a'. -/
theorem c02_decode_from_buffer_ignores_index :
    decodeCharacterFromBuffer [0x61, 0x62] 1 = some ⟨.ok, 0x61, 1⟩ := by decide

-- the hypothesis is met; overlong forms are refused
example : decodeCharacter [0xC3, 0xA9, 0x41] = some ⟨.ok, 0xE9, 2⟩ := by decide
example : decodeCharacter [0xC0, 0x80] = some ⟨.overlong, 0, 2⟩ := by decide
example : fromBuffer [0xC3, 0xA9, 0x41, 0xC3, 0x41] = some ⟨[0xE9, 0x41], some 3⟩ := by decide

end Dern.Props
