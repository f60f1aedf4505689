import Verif.Core.TextLemmas
/-
C01  UTF-8 encode/decode round trip.

Full statement: every Unicode scalar value is encoded in 1 to 4 octets and decoding these octets,
followed by anything, gives the value back and consumes exactly those octets; everything else is
refused by the encoder.  This is false for U+0000 only (the decoder treats a NUL octet as the end
of the text): `c01_nul_does_not_round_trip`.  Hence `_partial` below: all scalar values but 0.
-/
namespace Dern.Props
open Dern Dern.Utf8

/-- The encoder produces exactly the UTF-8 octets of the Unicode standard, for every scalar value
(including U+0000). -/
theorem c01_encoder_is_utf8 (c : Ucs) (h : Spec.Utf8.IsScalar c.toNat) :
    ∃ e, encodeCharacter c = some e ∧ e.numoctets = (Spec.Utf8.encode c.toNat).length ∧
      e.toList.map BitVec.toNat = Spec.Utf8.encode c.toNat := by
  obtain ⟨e, h1, _, h3, h4⟩ := encode_spec c h
  exact ⟨e, h1, by rw [h3, ← h4]; simp [octetNats], h4⟩

/-- Surrogates and numbers above U+10FFFF are refused. -/
theorem c01_encoder_refuses (c : Ucs) (h : ¬ Spec.Utf8.IsScalar c.toNat) :
    encodeCharacter c = none := encode_refuses c h

/-- Round trip of one character, with anything after it.  Missing from the full statement: U+0000. -/
theorem c01_round_trip_partial (c : Ucs) (h : Spec.Utf8.IsScalar c.toNat) (h0 : c ≠ 0)
    (rest : List Octet) :
    ∃ e, encodeCharacter c = some e ∧ 1 ≤ e.numoctets ∧ e.numoctets ≤ 4 ∧
      decodeCharacter (e.toList ++ rest) = some ⟨.ok, c, e.numoctets⟩ := by
  obtain ⟨e, h1, h2, h3, h4⟩ := encode_spec c h
  refine ⟨e, h1, ?_, h2, ?_⟩
  · have := specEncode_pos c.toNat
    rw [← h4] at this; simp [octetNats] at this; rw [h3]; exact List.length_pos_iff.mpr this
  · have h0' : c.toNat ≠ 0 := fun e => h0 (BitVec.eq_of_toNat_eq (by simpa using e))
    have hc : c = BitVec.ofNat 32 c.toNat := by simp
    rw [h3]
    have := decode_octets c.toNat ⟨h, h0'⟩ e (by rw [← hc]; exact h1) rest
    rw [← hc] at this; exact this

/-- Round trip of a whole text through a C string (`get_c_string` then `string_new`). -/
theorem c01_text_round_trip_partial (s : Text)
    (h : ∀ c ∈ s, Spec.Utf8.IsScalar c ∧ c ≠ 0) : recode s = some s := recode_eq s h

/-- The full statement is false for U+0000. -/
theorem c01_nul_does_not_round_trip :
    Spec.Utf8.IsScalar 0 ∧
    ∃ e, encodeCharacter 0 = some e ∧ e.toList = [0] ∧
      decodeCharacter e.toList = some ⟨.inputIsNull, 0, 0⟩ :=
  ⟨by decide, _, rfl, by decide, by decide⟩

-- the hypotheses are met by characters of every length
example : Spec.Utf8.IsScalar 0x7A ∧ Spec.Utf8.IsScalar 0xE9 ∧ Spec.Utf8.IsScalar 0x20AC ∧
    Spec.Utf8.IsScalar 0x1F600 ∧ ¬ Spec.Utf8.IsScalar 0xD800 ∧ ¬ Spec.Utf8.IsScalar 0x110000 := by
  decide
example : (encodeCharacter 0x20AC#32).map Encoded.toList = some [0xE2#8, 0x82#8, 0xAC#8] := by decide
example : ∀ c ∈ txt "añ€", Spec.Utf8.IsScalar c ∧ c ≠ 0 := by decide

end Dern.Props
