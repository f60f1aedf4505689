import Verif.Core.Utf8Lemmas
/- decode_character succeeds exactly on shortest form octets. -/
namespace Dern.Utf8

theorem decode1 (a : Octet) (t : List Octet) (h0 : a.toNat ≠ 0) (h : a.toNat < 128) :
    decodeCharacter (a :: t) = some ⟨.ok, orResult 0 0x7F#32 (bitsFrom a 0x7F#8 0), 1⟩ := by
  have ha : a ≠ 0 := by rintro rfl; simp at h0
  simp [decodeCharacter, octetsInNext_nextLen a t ha, nextLen, h, decodeHelper]

def val2 (a b : Octet) : Ucs :=
  orResult (orResult 0 0x7C0#32 (bitsFrom a 0x1F#8 6)) 0x3F#32 (bitsFrom b 0x3F#8 0)
def val3 (a b c : Octet) : Ucs :=
  orResult (orResult (orResult 0 0xF000#32 (bitsFrom a 0xF#8 12)) 0xFC0#32
      (bitsFrom b 0x3F#8 6)) 0x3F#32 (bitsFrom c 0x3F#8 0)
def val4 (a b c d : Octet) : Ucs :=
  orResult (orResult (orResult (orResult 0 0x1C0000#32 (bitsFrom a 0x7#8 18)) 0x3F000#32
      (bitsFrom b 0x3F#8 12)) 0xFC0#32 (bitsFrom c 0x3F#8 6)) 0x3F#32 (bitsFrom d 0x3F#8 0)

theorem decode2 (a b : Octet) (t : List Octet) (h : 192 ≤ a.toNat) (h' : a.toNat < 224)
    (hb : cont b) :
    decodeCharacter (a :: b :: t) =
      some ⟨if (val2 a b).toNat ≤ 0x7F then .overlong else .ok, val2 a b, 2⟩ := by
  have ha : a ≠ 0 := by rintro rfl; simp at h
  have : ¬ ((t.length : Int) + 1 + 1 < 2) := by omega
  simp [decodeCharacter, octetsInNext_nextLen a _ ha, nextLen, h, h', hb, this,
    decodeHelper, show ¬ (a.toNat < 128) by omega, BitVec.le_def, val2]
  congr

theorem decode3 (a b c : Octet) (t : List Octet) (h : 224 ≤ a.toNat) (h' : a.toNat < 240)
    (hb : cont b) (hc : cont c) :
    decodeCharacter (a :: b :: c :: t) =
      some ⟨if (val3 a b c).toNat ≤ 2047 then .overlong else .ok, val3 a b c, 3⟩ := by
  have ha : a ≠ 0 := by rintro rfl; simp at h
  have : ¬ ((t.length : Int) + 1 + 1 + 1 < 3) := by omega
  simp [decodeCharacter, octetsInNext_nextLen a _ ha, nextLen, h, h', hb, hc, this,
    decodeHelper, show ¬ (a.toNat < 128) by omega, show ¬ (a.toNat < 224) by omega, BitVec.le_def,
    val3]
  congr

theorem decode4 (a b c d : Octet) (t : List Octet) (h : 240 ≤ a.toNat) (h' : a.toNat < 248)
    (hb : cont b) (hc : cont c) (hd : cont d) :
    decodeCharacter (a :: b :: c :: d :: t) =
      some ⟨if (val4 a b c d).toNat ≤ 65535 then .overlong else .ok, val4 a b c d, 4⟩ := by
  have ha : a ≠ 0 := by rintro rfl; simp at h
  have : ¬ ((t.length : Int) + 1 + 1 + 1 + 1 < 4) := by omega
  simp [decodeCharacter, octetsInNext_nextLen a _ ha, nextLen, h, h', hb, hc, hd, this,
    decodeHelper, show ¬ (a.toNat < 128) by omega, show ¬ (a.toNat < 224) by omega,
    show ¬ (a.toNat < 240) by omega, BitVec.le_def, val4]
  congr

theorem decode_other (a : Octet) (t : List Octet) (h : a ≠ 0) (hn : nextLen (a :: t) = -1) :
    decodeCharacter (a :: t) = some ⟨.illegalNumberOfOctets, 0, -1⟩ := by
  simp [decodeCharacter, octetsInNext_nextLen a _ h, hn]
  exact h

/-- (completeness) -/
theorem decode_complete (text : List Octet) (r : Ucs) (k : Nat) (h0 : r.toNat ≠ 0)
    (h1 : r.toNat < 2 ^ 21) (h : StartsWith text r.toNat k) :
    decodeCharacter text = some ⟨.ok, r, k⟩ := by
  obtain ⟨hk, h⟩ := h
  unfold Spec.Utf8.encode at hk h
  split at h
  · next hr =>
    rw [if_pos hr] at hk; simp at hk; subst hk
    rcases text with _ | ⟨a, t⟩
    · simp at h
    simp at h
    rw [decode1 a t (by omega) (by omega)]
    have e := dec1 a
    have : orResult 0 0x7F#32 (bitsFrom a 0x7F#8 0) = r := by
      apply BitVec.eq_of_toNat_eq; rw [e]; omega
    rw [this]; rfl
  · next hr =>
    rw [if_neg hr] at hk
    split at h
    · next hr2 =>
      rw [if_pos hr2] at hk; simp at hk; subst hk
      rcases text with _ | ⟨a, _ | ⟨b, t⟩⟩
      · simp at h
      · simp at h
      simp at h
      rw [decode2 a b t (by omega) (by omega) (by unfold cont; omega)]
      have e := dec2 a b
      have e2 : val2 a b = r := by
        apply BitVec.eq_of_toNat_eq; unfold val2; rw [e]; omega
      rw [e2, if_neg (by omega)]; rfl
    · next hr2 =>
      rw [if_neg hr2] at hk
      split at h
      · next hr3 =>
        rw [if_pos hr3] at hk; simp at hk; subst hk
        rcases text with _ | ⟨a, _ | ⟨b, _ | ⟨c, t⟩⟩⟩
        · simp at h
        · simp at h
        · simp at h
        simp at h
        rw [decode3 a b c t (by omega) (by omega) (by unfold cont; omega) (by unfold cont; omega)]
        have e := dec3 a b c
        have e2 : val3 a b c = r := by
          apply BitVec.eq_of_toNat_eq; unfold val3; rw [e]; omega
        rw [e2, if_neg (by omega)]; rfl
      · next hr3 =>
        rw [if_neg hr3] at hk; simp at hk; subst hk
        rcases text with _ | ⟨a, _ | ⟨b, _ | ⟨c, _ | ⟨d, t⟩⟩⟩⟩
        · simp at h
        · simp at h
        · simp at h
        · simp at h
        simp at h
        rw [decode4 a b c d t (by omega) (by omega) (by unfold cont; omega) (by unfold cont; omega)
          (by unfold cont; omega)]
        have e := dec4 a b c d
        have e2 : val4 a b c d = r := by
          apply BitVec.eq_of_toNat_eq; unfold val4; rw [e]; omega
        rw [e2, if_neg (by omega)]; rfl

theorem decode_ok_result (st : DecodeStatus) (r r' : Ucs) (n n' : Int) (p : Prop) [Decidable p]
    (h : (some ⟨if p then .overlong else .ok, r', n'⟩ : Option Decoded) = some ⟨.ok, r, n⟩) :
    ¬ p ∧ r' = r ∧ n' = n := by
  simp at h
  refine ⟨?_, h.2⟩
  intro hp; simp [hp] at h

/-- (soundness) -/
theorem decode_sound (text : List Octet) (r : Ucs) (n : Int)
    (h : decodeCharacter text = some ⟨.ok, r, n⟩) :
    ∃ k : Nat, n = k ∧ 1 ≤ k ∧ k ≤ 4 ∧ k ≤ text.length ∧ r.toNat ≠ 0 ∧ r.toNat < 2 ^ 21 ∧
      StartsWith text r.toNat k := by
  rcases text with _ | ⟨a, t⟩
  · simp [decodeCharacter, octetsInNext] at h
  by_cases ha : a = 0
  · subst ha; rw [decode_nul] at h; simp at h
  have ha' : a.toNat ≠ 0 := fun e => ha (BitVec.eq_of_toNat_eq (by simpa using e))
  by_cases c1 : a.toNat < 128
  · rw [decode1 a t ha' c1] at h
    simp at h
    have e := dec1 a
    simp only [BitVec.ofNat_eq_ofNat] at e
    rw [h.1] at e
    refine ⟨1, by omega, by omega, by omega, by simp, by omega, by omega, ?_⟩
    unfold StartsWith Spec.Utf8.encode
    rw [if_pos (by omega)]
    simp; omega
  by_cases hn : nextLen (a :: t) = -1
  · rw [decode_other a t ha hn] at h; simp at h
  have hn2 := hn
  simp only [nextLen] at hn
  rw [if_neg c1] at hn
  by_cases c2 : 192 ≤ a.toNat ∧ a.toNat < 224
  · rw [if_pos c2] at hn
    rcases t with _ | ⟨b, t⟩
    · simp at hn
    have hb : cont b := by
      by_contra hb; simp [hb] at hn
    rw [decode2 a b t c2.1 c2.2 hb] at h
    obtain ⟨h1, h2, h3⟩ := decode_ok_result .ok _ _ _ _ _ h
    have e := dec2 a b
    have e' : (val2 a b).toNat = _ := e
    rw [h2] at e'
    rw [h2] at h1
    unfold cont at hb
    refine ⟨2, by omega, by omega, by omega, by simp, by omega, by omega, ?_⟩
    unfold StartsWith Spec.Utf8.encode
    rw [if_neg (by omega), if_pos (by omega)]
    simp; omega
  rw [if_neg c2] at hn
  by_cases c3 : 224 ≤ a.toNat ∧ a.toNat < 240
  · rw [if_pos c3] at hn
    rcases t with _ | ⟨b, _ | ⟨c, t⟩⟩
    · simp at hn
    · simp at hn
    have hb : cont b ∧ cont c := by
      by_contra hb; simp [hb] at hn
    obtain ⟨hb, hc⟩ := hb
    rw [decode3 a b c t c3.1 c3.2 hb hc] at h
    obtain ⟨h1, h2, h3⟩ := decode_ok_result .ok _ _ _ _ _ h
    have e := dec3 a b c
    have e' : (val3 a b c).toNat = _ := e
    rw [h2] at e'
    rw [h2] at h1
    unfold cont at hb hc
    refine ⟨3, by omega, by omega, by omega, by simp, by omega, by omega, ?_⟩
    unfold StartsWith Spec.Utf8.encode
    rw [if_neg (by omega), if_neg (by omega), if_pos (by omega)]
    simp; omega
  rw [if_neg c3] at hn
  by_cases c4 : 240 ≤ a.toNat ∧ a.toNat < 248
  · rw [if_pos c4] at hn
    rcases t with _ | ⟨b, _ | ⟨c, _ | ⟨d, t⟩⟩⟩
    · simp at hn
    · simp at hn
    · simp at hn
    have hb : cont b ∧ cont c ∧ cont d := by
      by_contra hb; simp [hb] at hn
    obtain ⟨hb, hc, hd⟩ := hb
    rw [decode4 a b c d t c4.1 c4.2 hb hc hd] at h
    obtain ⟨h1, h2, h3⟩ := decode_ok_result .ok _ _ _ _ _ h
    have e := dec4 a b c d
    have e' : (val4 a b c d).toNat = _ := e
    rw [h2] at e'
    rw [h2] at h1
    unfold cont at hb hc hd
    refine ⟨4, by omega, by omega, by omega, by simp, by omega, by omega, ?_⟩
    unfold StartsWith Spec.Utf8.encode
    rw [if_neg (by omega), if_neg (by omega), if_neg (by omega)]
    simp; omega
  rw [if_neg c4] at hn
  exact absurd rfl hn

end Dern.Utf8
