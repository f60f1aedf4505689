import Verif.Core.Text
import Verif.Core.Utf8Decode
/- Helper lemmas: encoding then decoding a text. -/
namespace Dern
open Utf8

/-- a code point a text can hold so that it survives conversion to a C string and back -/
def PrintCh (c : Ch) : Prop := Spec.Utf8.IsScalar c ∧ c ≠ 0

instance (c : Ch) : Decidable (PrintCh c) := by unfold PrintCh; infer_instance

theorem specEncode_pos (c : Nat) : (Spec.Utf8.encode c).length ≠ 0 := by
  unfold Spec.Utf8.encode; (repeat' split) <;> simp

theorem specEncode_ne_zero (c : Nat) (h : c ≠ 0) : ∀ o ∈ Spec.Utf8.encode c, o ≠ 0 := by
  unfold Spec.Utf8.encode; (repeat' split) <;> simp <;> omega

theorem toNat_ofNat_scalar {c : Ch} (h : Spec.Utf8.IsScalar c) : (BitVec.ofNat 32 c).toNat = c := by
  obtain ⟨h1, _⟩ := h
  simp; omega

theorem encode_ch {c : Ch} (h : PrintCh c) :
    ∃ e, encodeCharacter (BitVec.ofNat 32 c) = some e ∧
      e.toList.map BitVec.toNat = Spec.Utf8.encode c ∧ (∀ o ∈ e.toList, o ≠ 0) ∧ e.toList ≠ [] := by
  have hc := toNat_ofNat_scalar h.1
  obtain ⟨e, h1, _, _, h2⟩ := encode_spec (BitVec.ofNat 32 c) (by rw [hc]; exact h.1)
  rw [hc] at h2
  refine ⟨e, h1, h2, ?_, ?_⟩
  · intro o ho hz
    have : (0:Nat) ∈ octetNats e := by
      unfold octetNats
      rw [List.mem_map]; exact ⟨o, ho, by simp [hz]⟩
    rw [h2] at this
    exact specEncode_ne_zero c h.2 0 this rfl
  · intro hn
    have := specEncode_pos c
    rw [← h2] at this
    simp [octetNats, hn] at this

/-- the UTF-8 octets of a text (without the final NUL) -/
def octetsOf : Text → List Octet
  | [] => []
  | c :: cs =>
    match encodeCharacter (BitVec.ofNat 32 c) with
    | none => []
    | some e => e.toList ++ octetsOf cs

theorem ensureOctets_eq (s : Text) (h : ∀ c ∈ s, PrintCh c) : ensureOctets s = octetsOf s ++ [0] := by
  induction s with
  | nil => rfl
  | cons c cs ih =>
    obtain ⟨e, h1, _⟩ := encode_ch (h c (by simp))
    simp only [ensureOctets, octetsOf, h1]
    rw [ih (fun c hc => h c (by simp [hc]))]; simp

theorem octetsOf_ne_zero (s : Text) (h : ∀ c ∈ s, PrintCh c) : ∀ o ∈ octetsOf s, o ≠ 0 := by
  induction s with
  | nil => simp [octetsOf]
  | cons c cs ih =>
    obtain ⟨e, h1, _, h3, _⟩ := encode_ch (h c (by simp))
    simp only [octetsOf, h1, List.mem_append]
    rintro o (ho | ho)
    · exact h3 o ho
    · exact ih (fun c hc => h c (by simp [hc])) o ho

theorem takeWhile_append_zero (l : List Octet) (h : ∀ o ∈ l, o ≠ 0) :
    (l ++ [0]).takeWhile (· ≠ 0) = l := by
  induction l with
  | nil => simp
  | cons a l ih =>
    have := h a (by simp)
    simp only [List.cons_append]
    rw [List.takeWhile_cons_of_pos (by simpa using this), ih (fun o ho => h o (by simp [ho]))]

theorem getCString_eq (s : Text) (h : ∀ c ∈ s, PrintCh c) : getCString s = some (octetsOf s) := by
  unfold getCString
  rw [ensureOctets_eq s h]
  simp only [List.append_eq_nil_iff, List.cons_ne_self, and_false, if_false,
    List.getLast?_append, List.getLast?_singleton, Option.some_or, if_true]
  rw [takeWhile_append_zero _ (octetsOf_ne_zero s h)]

theorem decode_octets (c : Ch) (h : PrintCh c) (e : Encoded)
    (h1 : encodeCharacter (BitVec.ofNat 32 c) = some e) (t : List Octet) :
    decodeCharacter (e.toList ++ t) = some ⟨.ok, BitVec.ofNat 32 c, e.toList.length⟩ := by
  have hc := toNat_ofNat_scalar h.1
  obtain ⟨e', h1', h2, _⟩ := encode_ch h
  rw [h1] at h1'; cases h1'
  apply decode_complete
  · rw [hc]; exact h.2
  · rw [hc]; have := h.1.1; omega
  · rw [hc]
    refine ⟨?_, ?_⟩
    · rw [← h2]; simp
    · rw [List.take_left]; exact h2

theorem fromBufferLoop_octets (s : Text) : ∀ (fuel : Nat) (pre : List Octet) (acc : List Ucs),
    (∀ c ∈ s, PrintCh c) → s.length < fuel →
    fromBufferLoop fuel (pre ++ octetsOf s) pre.length acc =
      some ⟨acc ++ s.map (BitVec.ofNat 32), none⟩ := by
  induction s with
  | nil =>
    intro fuel pre acc _ hf
    cases fuel with
    | zero => simp at hf
    | succ n => simp [fromBufferLoop, octetsOf]
  | cons c cs ih =>
    intro fuel pre acc h hf
    cases fuel with
    | zero => simp at hf
    | succ n =>
      obtain ⟨e, h1, h2, h3, h4⟩ := encode_ch (h c (by simp))
      have hl : 0 < e.toList.length := List.length_pos_iff.mpr h4
      simp only [fromBufferLoop, octetsOf, h1]
      rw [if_pos (by simp; omega)]
      rw [List.drop_left, decode_octets c (h c (by simp)) e h1]
      simp only [Option.bind_eq_bind, Option.bind_some, ne_eq, not_true_eq_false, if_false]
      rw [if_pos (by simpa using hl)]
      have := ih n (pre ++ e.toList) (acc ++ [BitVec.ofNat 32 c])
        (fun c hc => h c (by simp [hc])) (by simp at hf; omega)
      simp only [List.append_assoc, List.length_append] at this
      simp only [Int.toNat_natCast, this]
      simp

theorem octetsOf_length (s : Text) (h : ∀ c ∈ s, PrintCh c) : s.length ≤ (octetsOf s).length := by
  induction s with
  | nil => simp
  | cons c cs ih =>
    obtain ⟨e, h1, h2, h3, h4⟩ := encode_ch (h c (by simp))
    have hl : 0 < e.toList.length := List.length_pos_iff.mpr h4
    simp only [octetsOf, h1]
    have := ih (fun c hc => h c (by simp [hc]))
    simp; omega

theorem fromBuffer_octets (s : Text) (h : ∀ c ∈ s, PrintCh c) :
    fromBuffer (octetsOf s) = some ⟨s.map (BitVec.ofNat 32), none⟩ := by
  have := fromBufferLoop_octets s ((octetsOf s).length + 1) [] [] h
    (by have := octetsOf_length s h; omega)
  simpa [fromBuffer] using this

theorem map_back (s : Text) (h : ∀ c ∈ s, PrintCh c) :
    (s.map (BitVec.ofNat 32)).map BitVec.toNat = s := by
  rw [List.map_map]
  conv => rhs; rw [← List.map_id s]
  apply List.map_congr_left
  intro c hc
  exact toNat_ofNat_scalar (h c hc).1

theorem recode_eq (s : Text) (h : ∀ c ∈ s, PrintCh c) : recode s = some s := by
  unfold recode stringNewVerified
  rw [getCString_eq s h]
  have h3 := map_back s h
  simp only [Option.bind_eq_bind, Option.bind_some, fromBuffer_octets s h, if_true, h3]

/-! fuel is never exhausted -/

theorem fromBufferLoop_total (text : List Octet) : ∀ (fuel index : Nat) (acc : List Ucs),
    text.length - index < fuel → ∃ r, fromBufferLoop fuel text index acc = some r := by
  intro fuel
  induction fuel with
  | zero => intro i a h; omega
  | succ n ih =>
    intro index acc hf
    simp only [fromBufferLoop]
    split
    · next hi =>
      obtain ⟨d, hd⟩ := decode_total (text.drop index)
      rw [hd]
      simp only [Option.bind_eq_bind, Option.bind_some]
      split
      · exact ⟨_, rfl⟩
      · next hs =>
        simp only [ne_eq, not_not] at hs
        have hd' : decodeCharacter (text.drop index) = some ⟨.ok, d.result, d.numoctets⟩ := by
          rw [hd, ← hs]
        obtain ⟨k, hk, h1, _, h3, _⟩ := decode_sound _ _ _ hd'
        rw [if_pos (by omega)]
        apply ih
        rw [hk]; simp at h3 ⊢; omega
    · exact ⟨_, rfl⟩

theorem fromBufferLoop_sound (text : List Octet) : ∀ (fuel index : Nat) (acc : List Ucs) (r : FromBuffer),
    (∀ c ∈ acc, c.toNat ≠ 0 ∧ c.toNat < 2 ^ 21) →
    fromBufferLoop fuel text index acc = some r → ∀ c ∈ r.chars, c.toNat ≠ 0 ∧ c.toNat < 2 ^ 21 := by
  intro fuel
  induction fuel with
  | zero => intro i a r _ h; simp [fromBufferLoop] at h
  | succ n ih =>
    intro index acc r ha h
    simp only [fromBufferLoop] at h
    split at h
    · obtain ⟨d, hd⟩ := decode_total (text.drop index)
      rw [hd] at h
      simp only [Option.bind_eq_bind, Option.bind_some] at h
      split at h
      · cases h; exact ha
      · next hs =>
        simp only [ne_eq, not_not] at hs
        have hd' : decodeCharacter (text.drop index) = some ⟨.ok, d.result, d.numoctets⟩ := by
          rw [hd, ← hs]
        obtain ⟨k, hk, h1, _, _, h4, h5, _⟩ := decode_sound _ _ _ hd'
        rw [if_pos (by omega)] at h
        refine ih _ _ _ ?_ h
        intro c hc
        rcases List.mem_append.mp hc with hc | hc
        · exact ha c hc
        · simp at hc; subst hc; exact ⟨h4, h5⟩
    · cases h; exact ha

end Dern
