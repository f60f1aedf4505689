import Verif.Core.Utf8
import Verif.Spec.Utf8
import Mathlib.Tactic.IntervalCases
/- Helper lemmas: the masks and shifts of the model as arithmetic. -/
namespace Dern.Utf8

theorem exists_setWidth {c : Ucs} {k : Nat} (h : c.toNat < 2 ^ k) :
    ∃ x : BitVec k, c = x.setWidth 32 := by
  refine ⟨c.setWidth k, ?_⟩
  apply BitVec.eq_of_toNat_eq
  have : c.toNat < 2 ^ 32 := c.isLt
  rw [BitVec.toNat_setWidth, BitVec.toNat_setWidth, Nat.mod_eq_of_lt h, Nat.mod_eq_of_lt this]

macro "bits" : tactic => `(tactic| (
  apply BitVec.eq_of_getLsbD_eq; intro i hi
  interval_cases i <;>
    simp [orMasked, highOrderBits, orResult, bitsFrom]))

/-- a lead/continuation octet: fixed high bits and `k` payload bits -/
theorem or_payload {k : Nat} (p : BitVec 8) (y : BitVec k) (hk : k ≤ 8)
    (h : p &&& y.setWidth 8 = 0#8) : (p ||| y.setWidth 8).toNat = p.toNat + y.toNat := by
  rw [← BitVec.add_eq_or_of_and_eq_zero _ _ h, BitVec.toNat_add_of_and_eq_zero h]
  have := y.isLt
  have h2 : (2:Nat) ^ k ≤ 2 ^ 8 := Nat.pow_le_pow_right (by decide) hk
  rw [BitVec.toNat_setWidth, Nat.mod_eq_of_lt (by omega)]

theorem pay (y : BitVec 6) : (0x80#8 ||| y.setWidth 8).toNat = 0x80 + y.toNat :=
  or_payload _ _ (by decide) (by bits)
theorem pay2 (y : BitVec 5) : (0xC0#8 ||| y.setWidth 8).toNat = 0xC0 + y.toNat :=
  or_payload _ _ (by decide) (by bits)
theorem pay3 (y : BitVec 4) : (0xE0#8 ||| y.setWidth 8).toNat = 0xE0 + y.toNat :=
  or_payload _ _ (by decide) (by bits)
theorem pay4 (y : BitVec 3) : (0xF0#8 ||| y.setWidth 8).toNat = 0xF0 + y.toNat :=
  or_payload _ _ (by decide) (by bits)

theorem enc1 (x : BitVec 7) :
    (orMasked (highOrderBits .first) 0x7F#32 (x.setWidth 32) &&& 0xFF#32).setWidth 8
      = x.setWidth 8 := by bits

theorem enc2 (x : BitVec 11) :
    let c := x.setWidth 32
    let b := orMasked (highOrderBits .second) 0x3F#32 c
    let b := orMasked b 0x1F00#32 ((c &&& 0x7C0#32) <<< 2)
    (b &&& 0xFF#32).setWidth 8 = 0x80#8 ||| (x.extractLsb' 0 6).setWidth 8 ∧
    ((b &&& 0xFF00#32) >>> 8).setWidth 8 = 0xC0#8 ||| (x.extractLsb' 6 5).setWidth 8 := by
  intro c b b'
  simp only [b', b, c]
  constructor <;> bits

theorem enc3 (x : BitVec 16) :
    let c := x.setWidth 32
    let b := orMasked (highOrderBits .third) 0x3F#32 c
    let b := orMasked b 0x3F00#32 ((c &&& 0xFC0#32) <<< 2)
    let b := orMasked b 0xF0000#32 ((c &&& 0xF000#32) <<< 4)
    (b &&& 0xFF#32).setWidth 8 = 0x80#8 ||| (x.extractLsb' 0 6).setWidth 8 ∧
    ((b &&& 0xFF00#32) >>> 8).setWidth 8 = 0x80#8 ||| (x.extractLsb' 6 6).setWidth 8 ∧
    ((b &&& 0xFF0000#32) >>> 16).setWidth 8 = 0xE0#8 ||| (x.extractLsb' 12 4).setWidth 8 := by
  intro c b b' b''
  simp only [b'', b', b, c]
  refine ⟨?_, ?_, ?_⟩ <;> bits

theorem enc4 (x : BitVec 21) :
    let c := x.setWidth 32
    let b := orMasked (highOrderBits .fourth) 0x3F#32 c
    let b := orMasked b 0x3F00#32 ((c &&& 0xFC0#32) <<< 2)
    let b := orMasked b 0x3F0000#32 ((c &&& 0x3F000#32) <<< 4)
    let b := orMasked b 0x7000000#32 ((c &&& 0x1C0000#32) <<< 6)
    (b &&& 0xFF#32).setWidth 8 = 0x80#8 ||| (x.extractLsb' 0 6).setWidth 8 ∧
    ((b &&& 0xFF00#32) >>> 8).setWidth 8 = 0x80#8 ||| (x.extractLsb' 6 6).setWidth 8 ∧
    ((b &&& 0xFF0000#32) >>> 16).setWidth 8 = 0x80#8 ||| (x.extractLsb' 12 6).setWidth 8 ∧
    ((b &&& 0xFF000000#32) >>> 24).setWidth 8 = 0xF0#8 ||| (x.extractLsb' 18 3).setWidth 8 := by
  intro c b b' b'' b'''
  simp only [b''', b'', b', b, c]
  refine ⟨?_, ?_, ?_, ?_⟩ <;> bits

theorem extract_toNat {k : Nat} (x : BitVec k) (s l : Nat) :
    (x.extractLsb' s l).toNat = x.toNat / 2 ^ s % 2 ^ l := by
  simp [BitVec.extractLsb'_toNat, Nat.shiftRight_eq_div_pow]

theorem setWidth_toNat {k : Nat} (x : BitVec k) (h : k ≤ 32) : (x.setWidth 32).toNat = x.toNat := by
  have := x.isLt
  have h2 : (2:Nat) ^ k ≤ 2 ^ 32 := Nat.pow_le_pow_right (by decide) h
  rw [BitVec.toNat_setWidth, Nat.mod_eq_of_lt (by omega)]

/-- the octets the encoder reports, as numbers -/
def octetNats (e : Encoded) : List Nat := e.toList.map BitVec.toNat

theorem rangeof_eq (c : Ucs) : rangeof c =
    if c.toNat ≤ 0x7F then .first else if c.toNat ≤ 0x7FF then .second
    else if c.toNat ≤ 0xFFFF then .third else if c.toNat ≤ 0x10FFFF then .fourth else .illegal := by
  unfold rangeof
  simp only [BitVec.le_def, ge_iff_le, BitVec.toNat_ofNat, Nat.reducePow, Nat.reduceMod]
  (repeat' split) <;> first | rfl | (exfalso; omega)

theorem encode_spec (c : Ucs) (h : Spec.Utf8.IsScalar c.toNat) :
    ∃ e, encodeCharacter c = some e ∧ e.numoctets ≤ 4 ∧ e.numoctets = e.toList.length ∧
      octetNats e = Spec.Utf8.encode c.toNat := by
  obtain ⟨h1, h2⟩ := h
  have hs : ¬ (c ≥ 0xD800#32 ∧ c ≤ 0xDFFF#32) := by
    simpa [BitVec.le_def] using h2
  unfold encodeCharacter
  rw [if_neg hs]
  by_cases r1 : c.toNat < 0x80
  · obtain ⟨x, rfl⟩ := exists_setWidth (k := 7) r1
    have e1 : (x.setWidth 32).toNat = x.toNat := setWidth_toNat x (by decide)
    have hx := x.isLt
    have hr : rangeof (x.setWidth 32) = .first := by
      rw [rangeof_eq, e1, if_pos (by omega)]
    have e := enc1 x
    rw [hr]; simp only [encodeBits]
    refine ⟨_, rfl, by simp, rfl, ?_⟩
    simp only [octetNats, Encoded.toList, e, e1, Spec.Utf8.encode]
    rw [if_pos (by omega)]
    simp only [Nat.reduceSub, List.drop_succ_cons, List.drop_zero, List.map_cons, List.map_nil,
      BitVec.toNat_setWidth, List.cons.injEq, and_true]
    exact Nat.mod_eq_of_lt (by omega)
  by_cases r2 : c.toNat < 0x800
  · obtain ⟨x, rfl⟩ := exists_setWidth (k := 11) r2
    have e1 : (x.setWidth 32).toNat = x.toNat := setWidth_toNat x (by decide)
    have hx := x.isLt
    have hr : rangeof (x.setWidth 32) = .second := by
      rw [rangeof_eq, e1, if_neg (by omega), if_pos (by omega)]
    have e := enc2 x
    rw [hr]; simp only [encodeBits]
    refine ⟨_, rfl, by simp, rfl, ?_⟩
    simp only [octetNats, Encoded.toList, e, e1, Spec.Utf8.encode]
    rw [if_neg (by omega), if_pos (by omega)]
    simp only [Nat.reduceSub, List.drop_succ_cons, List.drop_zero, List.map_cons, List.map_nil,
      pay, pay2, extract_toNat]
    congr 2 <;> try congr 1
    all_goals omega
  by_cases r3 : c.toNat < 0x10000
  · obtain ⟨x, rfl⟩ := exists_setWidth (k := 16) r3
    have e1 : (x.setWidth 32).toNat = x.toNat := setWidth_toNat x (by decide)
    have hx := x.isLt
    have hr : rangeof (x.setWidth 32) = .third := by
      rw [rangeof_eq, e1, if_neg (by omega), if_neg (by omega), if_pos (by omega)]
    have e := enc3 x
    rw [hr]; simp only [encodeBits]
    refine ⟨_, rfl, by simp, rfl, ?_⟩
    simp only [octetNats, Encoded.toList, e, e1, Spec.Utf8.encode]
    rw [if_neg (by omega), if_neg (by omega), if_pos (by omega)]
    simp only [Nat.reduceSub, List.drop_succ_cons, List.drop_zero, List.map_cons, List.map_nil,
      pay, pay3, extract_toNat]
    simp only [List.cons.injEq, and_true]
    omega
  · obtain ⟨x, rfl⟩ := exists_setWidth (k := 21) (c := c) (by omega)
    have e1 : (x.setWidth 32).toNat = x.toNat := setWidth_toNat x (by decide)
    have hx := x.isLt
    have hr : rangeof (x.setWidth 32) = .fourth := by
      rw [rangeof_eq, e1, if_neg (by omega), if_neg (by omega), if_neg (by omega), if_pos (by omega)]
    have e := enc4 x
    rw [hr]; simp only [encodeBits]
    refine ⟨_, rfl, by simp, rfl, ?_⟩
    simp only [octetNats, Encoded.toList, e, e1, Spec.Utf8.encode]
    rw [if_neg (by omega), if_neg (by omega), if_neg (by omega)]
    simp only [Nat.reduceSub, List.drop_zero, List.map_cons, List.map_nil,
      pay, pay4, extract_toNat]
    simp only [List.cons.injEq, and_true]
    omega

theorem encode_refuses (c : Ucs) (h : ¬ Spec.Utf8.IsScalar c.toNat) :
    encodeCharacter c = none := by
  unfold encodeCharacter
  split
  · rfl
  · next hs =>
    have hr : rangeof c = .illegal := by
      unfold Spec.Utf8.IsScalar at h
      simp only [BitVec.le_def, ge_iff_le, BitVec.toNat_ofNat, Nat.reducePow, Nat.reduceMod] at hs
      rw [rangeof_eq, if_neg (by omega), if_neg (by omega), if_neg (by omega), if_neg (by omega)]
    rw [hr]; rfl

/-! ### lead and continuation octets -/

theorem hasBits_iff (o : Octet) (s : Nat) (k : Nat) (v : BitVec 8) (hk : k ≤ 8) :
    hasBits o s (BitVec.ofNat 8 (2 ^ k - 1)) v = true ↔ o.toNat / 2 ^ s % 2 ^ k = v.toNat := by
  unfold hasBits
  rw [beq_iff_eq, ← BitVec.toNat_inj]
  have h2 : (2:Nat) ^ k ≤ 2 ^ 8 := Nat.pow_le_pow_right (by decide) hk
  have h3 : 0 < (2:Nat) ^ k := Nat.pow_pos (by decide)
  rw [BitVec.toNat_and, BitVec.toNat_ofNat, Nat.mod_eq_of_lt (by omega),
    Nat.and_two_pow_sub_one_eq_mod, BitVec.toNat_ushiftRight, Nat.shiftRight_eq_div_pow]

theorem hb7 (o : Octet) : hasBits o 7 1 0 = true ↔ o.toNat < 128 := by
  have := hasBits_iff o 7 1 0 (by decide); have ho := o.isLt
  rw [show (1:BitVec 8) = BitVec.ofNat 8 (2 ^ 1 - 1) by rfl, this]; simp; omega
theorem hb5 (o : Octet) : hasBits o 5 7 6 = true ↔ 192 ≤ o.toNat ∧ o.toNat < 224 := by
  have := hasBits_iff o 5 3 6 (by decide); have ho := o.isLt
  rw [show (7:BitVec 8) = BitVec.ofNat 8 (2 ^ 3 - 1) by rfl, this]; simp; omega
theorem hb4 (o : Octet) : hasBits o 4 15 14 = true ↔ 224 ≤ o.toNat ∧ o.toNat < 240 := by
  have := hasBits_iff o 4 4 14 (by decide); have ho := o.isLt
  rw [show (15:BitVec 8) = BitVec.ofNat 8 (2 ^ 4 - 1) by rfl, this]; simp; omega
theorem hb3 (o : Octet) : hasBits o 3 31 30 = true ↔ 240 ≤ o.toNat ∧ o.toNat < 248 := by
  have := hasBits_iff o 3 5 30 (by decide); have ho := o.isLt
  rw [show (31:BitVec 8) = BitVec.ofNat 8 (2 ^ 5 - 1) by rfl, this]; simp; omega
theorem hb6 (o : Octet) : hasBits o 6 3 2 = true ↔ 128 ≤ o.toNat ∧ o.toNat < 192 := by
  have := hasBits_iff o 6 2 2 (by decide); have ho := o.isLt
  rw [show (3:BitVec 8) = BitVec.ofNat 8 (2 ^ 2 - 1) by rfl, this]; simp; omega

/-! ### decode_helper as arithmetic -/

theorem toNat_or_disj {w} (a b : BitVec w) (h : a &&& b = 0#w) :
    (a ||| b).toNat = a.toNat + b.toNat := by
  rw [← BitVec.add_eq_or_of_and_eq_zero _ _ h, BitVec.toNat_add_of_and_eq_zero h]

theorem dec1 (a : Octet) : (orResult 0 0x7F#32 (bitsFrom a 0x7F#8 0)).toNat = a.toNat % 128 := by
  have h : orResult 0 0x7F#32 (bitsFrom a 0x7F#8 0) = (a.extractLsb' 0 7).setWidth 32 := by bits
  rw [h, setWidth_toNat _ (by decide), extract_toNat]; omega

theorem shl_toNat {k : Nat} (y : BitVec k) (s : Nat) (h : k + s ≤ 32) :
    ((y.setWidth 32) <<< s).toNat = y.toNat * 2 ^ s := by
  rw [BitVec.toNat_shiftLeft, setWidth_toNat _ (by omega), Nat.shiftLeft_eq]
  apply Nat.mod_eq_of_lt
  have h1 : y.toNat * 2 ^ s < 2 ^ k * 2 ^ s := Nat.mul_lt_mul_of_pos_right y.isLt (Nat.pow_pos (by decide))
  rw [← Nat.pow_add] at h1
  have h2 : (2:Nat) ^ (k + s) ≤ 2 ^ 32 := Nat.pow_le_pow_right (by decide) h
  omega

theorem dec2 (a b : Octet) :
    (orResult (orResult 0 0x7C0#32 (bitsFrom a 0x1F#8 6)) 0x3F#32 (bitsFrom b 0x3F#8 0)).toNat
      = a.toNat % 32 * 64 + b.toNat % 64 := by
  have h : orResult (orResult 0 0x7C0#32 (bitsFrom a 0x1F#8 6)) 0x3F#32 (bitsFrom b 0x3F#8 0)
      = ((a.extractLsb' 0 5).setWidth 32) <<< 6 ||| (b.extractLsb' 0 6).setWidth 32 := by bits
  rw [h, toNat_or_disj _ _ (by bits), shl_toNat _ _ (by decide), setWidth_toNat _ (by decide),
    extract_toNat, extract_toNat]
  omega

theorem dec3 (a b c : Octet) :
    (orResult (orResult (orResult 0 0xF000#32 (bitsFrom a 0xF#8 12)) 0xFC0#32
      (bitsFrom b 0x3F#8 6)) 0x3F#32 (bitsFrom c 0x3F#8 0)).toNat
      = a.toNat % 16 * 4096 + b.toNat % 64 * 64 + c.toNat % 64 := by
  have h : orResult (orResult (orResult 0 0xF000#32 (bitsFrom a 0xF#8 12)) 0xFC0#32
      (bitsFrom b 0x3F#8 6)) 0x3F#32 (bitsFrom c 0x3F#8 0)
      = ((a.extractLsb' 0 4).setWidth 32) <<< 12 |||
        (((b.extractLsb' 0 6).setWidth 32) <<< 6 ||| (c.extractLsb' 0 6).setWidth 32) := by bits
  rw [h, toNat_or_disj _ _ (by bits), toNat_or_disj _ _ (by bits), shl_toNat _ _ (by decide),
    shl_toNat _ _ (by decide), setWidth_toNat _ (by decide), extract_toNat, extract_toNat,
    extract_toNat]
  omega

theorem dec4 (a b c d : Octet) :
    (orResult (orResult (orResult (orResult 0 0x1C0000#32 (bitsFrom a 0x7#8 18)) 0x3F000#32
      (bitsFrom b 0x3F#8 12)) 0xFC0#32 (bitsFrom c 0x3F#8 6)) 0x3F#32 (bitsFrom d 0x3F#8 0)).toNat
      = a.toNat % 8 * 262144 + b.toNat % 64 * 4096 + c.toNat % 64 * 64 + d.toNat % 64 := by
  have h : orResult (orResult (orResult (orResult 0 0x1C0000#32 (bitsFrom a 0x7#8 18)) 0x3F000#32
      (bitsFrom b 0x3F#8 12)) 0xFC0#32 (bitsFrom c 0x3F#8 6)) 0x3F#32 (bitsFrom d 0x3F#8 0)
      = ((a.extractLsb' 0 3).setWidth 32) <<< 18 ||| (((b.extractLsb' 0 6).setWidth 32) <<< 12 |||
        (((c.extractLsb' 0 6).setWidth 32) <<< 6 ||| (d.extractLsb' 0 6).setWidth 32)) := by bits
  rw [h, toNat_or_disj _ _ (by bits), toNat_or_disj _ _ (by bits), toNat_or_disj _ _ (by bits),
    shl_toNat _ _ (by decide), shl_toNat _ _ (by decide), shl_toNat _ _ (by decide),
    setWidth_toNat _ (by decide), extract_toNat, extract_toNat, extract_toNat, extract_toNat]
  omega

/-! ### the number of octets of the next character -/

def cont (o : Octet) : Prop := 128 ≤ o.toNat ∧ o.toNat < 192

instance (o : Octet) : Decidable (cont o) := by unfold cont; infer_instance

/-- octets_in_next_from_buffer at index 0, as a function of the list shape -/
def nextLen : List Octet → Int
  | [] => 0
  | a :: t =>
    if a.toNat < 128 then 1
    else if 192 ≤ a.toNat ∧ a.toNat < 224 then
      match t with
      | b :: _ => if cont b then 2 else -1
      | _ => -1
    else if 224 ≤ a.toNat ∧ a.toNat < 240 then
      match t with
      | b :: c :: _ => if cont b ∧ cont c then 3 else -1
      | _ => -1
    else if 240 ≤ a.toNat ∧ a.toNat < 248 then
      match t with
      | b :: c :: d :: _ => if cont b ∧ cont c ∧ cont d then 4 else -1
      | _ => -1
    else -1

theorem fromBuffer_nextLen (l : List Octet) : octetsInNextFromBuffer l 0 = some (nextLen l) := by
  have hc : ∀ o : Octet, (hasBits o 6 3 2 = true) = cont o := fun o => propext (hb6 o)
  simp only [BitVec.ofNat_eq_ofNat] at hc
  cases l with
  | nil => simp [octetsInNextFromBuffer, nextLen]
  | cons a t =>
    simp only [octetsInNextFromBuffer, hb7, hb5, hb4, hb3, nextLen]
    rcases t with _ | ⟨b, _ | ⟨c, _ | ⟨d, t⟩⟩⟩ <;>
      simp [hc, and_assoc, apply_ite (some : Int → Option Int)]
    have h2 : ¬ (t.length + 1 + 1 + 1 + 1 < 2) := by omega
    have h3 : ¬ (t.length + 1 + 1 + 1 + 1 < 3) := by omega
    have h4 : ¬ (t.length + 1 + 1 + 1 + 1 < 4) := by omega
    simp [h2, h3, h4]

theorem octetsInNext_nextLen (a : Octet) (t : List Octet) (ha : a ≠ 0) :
    octetsInNext (a :: t) = some (nextLen (a :: t)) := by
  simp only [octetsInNext, if_neg ha, fromBuffer_nextLen]
  congr 1
  simp only [BitVec.ofNat_eq_ofNat] at ha
  have hz : ∀ o : Octet, o = 0#8 → ¬ cont o := by rintro o rfl; simp [cont]
  rcases t with _ | ⟨b, _ | ⟨c, _ | ⟨d, t⟩⟩⟩
  · simp [countNonNul, ha, nextLen]
  · by_cases hb : b = 0#8
    · simp [countNonNul, ha, nextLen, hb, hz]
    · simp [countNonNul, ha, nextLen, hb]
  · by_cases hb : b = 0#8
    · simp [countNonNul, ha, nextLen, hb, hz]
    · by_cases hcz : c = 0#8
      · simp [countNonNul, ha, nextLen, hb, hcz, hz]
      · simp [countNonNul, ha, nextLen, hb, hcz]
  · by_cases hb : b = 0#8
    · simp [countNonNul, ha, nextLen, hb, hz]
    · by_cases hcz : c = 0#8
      · simp [countNonNul, ha, nextLen, hb, hcz, hz]
      · by_cases hd : d = 0#8
        · simp [countNonNul, ha, nextLen, hb, hcz, hd, hz]
        · simp [countNonNul, ha, nextLen, hb, hcz, hd]

/-! ### decode_character -/

/-- `text` starts with the 1-4 octets `text.take k` and they are the shortest form of `r` -/
def StartsWith (text : List Octet) (r : Nat) (k : Nat) : Prop :=
  k = (Spec.Utf8.encode r).length ∧ (text.take k).map BitVec.toNat = Spec.Utf8.encode r

theorem decode_nul (t : List Octet) :
    decodeCharacter (0 :: t) = some ⟨.inputIsNull, 0, 0⟩ := by
  simp [decodeCharacter, octetsInNext]

theorem decode_total (text : List Octet) : ∃ d, decodeCharacter text = some d := by
  rcases text with _ | ⟨a, t⟩
  · exact ⟨⟨.inputIsNull, 0, 0⟩, by simp [decodeCharacter, octetsInNext]⟩
  by_cases ha : a = 0
  · subst ha; exact ⟨_, decode_nul t⟩
  simp only [decodeCharacter, octetsInNext_nextLen a t ha, nextLen]
  rcases t with _ | ⟨b, _ | ⟨c, _ | ⟨d, t⟩⟩⟩ <;> simp only [Option.bind_eq_bind, Option.bind_some] <;>
    (repeat' split) <;> simp [decodeHelper] <;> (repeat' split) <;> simp

end Dern.Utf8
