import Verif.Core.Format
import Verif.Props.C02
import Verif.Props.C41
/-
C72: formatted texts are complete.

`o` are the octets that the format and its arguments stand for (`Spec.Formats`); the length of the text, the way blocks grow and the answers of the allocator are
arbitrary.
-/
namespace Dern.Props
open Dern Dern.Spec Dern.Utf8

/-- `n` sizes, each twice the one before -/
def doublings : Nat → Nat → List Nat
  | _, 0 => []
  | s, n + 1 => s :: doublings (2 * s) n

/-- the allocator granted all requests -/
def AllGranted (grant : Nat → Bool) (rs : List Nat) : Prop := ∀ n ∈ rs, grant n = true

/-- the allocator refused the last request, and no other -/
def LastRefused (grant : Nat → Bool) (rs : List Nat) : Prop := ∃ init n, rs = init ++ [n] ∧ AllGranted grant init ∧ grant n = false

theorem c72_cstring_aux (o : List Octet) : cStringOf (o ++ [0] ++ [0]) = cStringOf o := by
  induction o with
  | nil => rfl
  | cons x xs ih =>
    by_cases h : x = 0
    · simp [cStringOf, h]
    · have h' : decide (x ≠ 0) = true := by simpa using h
      simp only [cStringOf, List.cons_append, List.takeWhile_cons, h', if_true] at ih ⊢
      rw [ih]

theorem c72_nul_aux {t : List Nat} (h : ∀ c ∈ t, c ≠ 0) : beforeNul t = t := by
  induction t with
  | nil => rfl
  | cons c cs ih =>
    have hc : decide (c ≠ 0) = true := by simpa using h c (by simp)
    have := ih fun x hx => h x (by simp [hx])
    simp only [beforeNul, List.takeWhile_cons, hc, if_true] at this ⊢
    rw [this]

theorem c72_fits_aux {o : List Octet} {print : Printer} (F : Formats o print) (grant : Nat → Bool) (fuel : Nat) {neg : Int}
    {buf : List Octet} (hn : neg ≤ 1000) (hb : o.length < buf.length) :
    ∃ os, formatLoop print grant (fuel + 1) neg buf = some (.made os false, []) ∧ cStringOf (os ++ [0]) = cStringOf o := by
  obtain ⟨h1, h2⟩ := F.fits buf hb
  have hs := F.size buf
  have e1 : ¬ neg > 1000 := by omega
  have e2 : ¬ (print buf).2 < 0 := by omega
  have e3 : ¬ (print buf).2.toNat ≥ buf.length := by omega
  have e5 : (print buf).2.toNat = o.length := by omega
  have h3 : (print buf).1.take o.length = o := by
    have := congrArg (List.take o.length) h2
    rw [List.take_take, Nat.min_eq_left (by omega)] at this
    simpa using this
  by_cases h0 : o = []
  · subst h0
    refine ⟨[], ?_, rfl⟩
    have e4 : ¬ (print buf).2 > 0 := by rw [h1]; simp
    simp only [formatLoop, e1, e2, e3, e4, if_false]
  · have e4 : (print buf).2 > 0 := by
      have := List.length_pos_iff.mpr h0
      omega
    refine ⟨o ++ [0], ?_, c72_cstring_aux o⟩
    have e6 : o.length ≤ (print buf).1.length := by omega
    simp only [formatLoop, e1, e2, e3, e4, if_false, if_true]
    simp only [e5, if_true, readOctets, e6, h3]

/-- a buffer that is too small: a buffer of twice the size is asked for -/
theorem c72_short_aux {o : List Octet} {print : Printer} (F : Formats o print) (grant : Nat → Bool) (fuel : Nat) {neg : Int}
    {buf : List Octet} (hn : neg ≤ 1000) (hb : buf.length ≤ o.length) (hl : o.length < 2 ^ 31) :
    ∃ neg', neg' ≤ neg + 1 ∧ formatLoop print grant (fuel + 1) neg buf =
      if grant (2 * buf.length) then
        (formatLoop print grant fuel neg' (List.replicate (2 * buf.length) 0)).map fun r => (r.1, 2 * buf.length :: r.2)
      else some (.null, [2 * buf.length]) := by
  have e1 : ¬ neg > 1000 := by omega
  have e0 : buf.length * 2 % 2 ^ 64 = 2 * buf.length := by omega
  by_cases e2 : (print buf).2 < 0
  · refine ⟨neg + 1, by omega, ?_⟩
    simp only [formatLoop, e1, e2, e0, if_false, if_true]
  · have h := (F.short buf hb).resolve_right e2
    have e3 : (print buf).2.toNat ≥ buf.length := by omega
    refine ⟨neg, by omega, ?_⟩
    simp only [formatLoop, e1, e2, e3, e0, if_false, if_true]

theorem c72_loop_aux {o : List Octet} {print : Printer} (F : Formats o print) (hl : o.length < 2 ^ 31) (grant : Nat → Bool) :
    ∀ (d j : Nat) (neg : Int) (buf : List Octet) (fuel : Nat), j + d = 28 → buf.length = 8 * 2 ^ j → neg ≤ j → d < fuel →
      ∃ e k, formatLoop print grant fuel neg buf = some (e, doublings (2 * buf.length) k) ∧
        (∀ n ∈ doublings (2 * buf.length) k, n ≤ 2 * o.length) ∧
        ((∃ os, e = .made os false ∧ cStringOf (os ++ [0]) = cStringOf o ∧ AllGranted grant (doublings (2 * buf.length) k)) ∨
          e = .null ∧ LastRefused grant (doublings (2 * buf.length) k)) := by
  intro d
  induction d with
  | zero =>
    intro j neg buf fuel hj hb hn hf
    obtain ⟨fuel, rfl⟩ : ∃ f, fuel = f + 1 := ⟨fuel - 1, by omega⟩
    have hj : j = 28 := by omega
    have hfit : o.length < buf.length := by rw [hb, hj]; omega
    obtain ⟨os, h1, h2⟩ := c72_fits_aux F grant fuel (neg := neg) (by omega) hfit
    exact ⟨_, 0, h1, (by simp [doublings]), .inl ⟨os, rfl, h2, by simp [doublings, AllGranted]⟩⟩
  | succ d ih =>
    intro j neg buf fuel hj hb hn hf
    obtain ⟨fuel, rfl⟩ : ∃ f, fuel = f + 1 := ⟨fuel - 1, by omega⟩
    by_cases hfit : o.length < buf.length
    · obtain ⟨os, h1, h2⟩ := c72_fits_aux F grant fuel (neg := neg) (by omega) hfit
      exact ⟨_, 0, h1, (by simp [doublings]), .inl ⟨os, rfl, h2, by simp [doublings, AllGranted]⟩⟩
    · have hfit : buf.length ≤ o.length := by omega
      obtain ⟨neg', hneg, h1⟩ := c72_short_aux F grant fuel (neg := neg) (by omega) hfit hl
      by_cases hg : grant (2 * buf.length) = true
      · obtain ⟨e, k, i1, i2, i3⟩ := ih (j + 1) neg' (List.replicate (2 * buf.length) 0) fuel (by omega)
          (by rw [List.length_replicate, hb, Nat.pow_succ]; omega) (by omega) (by omega)
        rw [List.length_replicate] at i1 i2 i3
        refine ⟨e, k + 1, by rw [h1, if_pos hg, i1]; rfl, ?_, ?_⟩
        · intro n hn
          rcases List.mem_cons.mp hn with h | h
          · omega
          · exact i2 n h
        · rcases i3 with ⟨os, g1, g2, g3⟩ | ⟨g1, init, n, g2, g3, g4⟩
          · refine .inl ⟨os, g1, g2, fun n hn => ?_⟩
            rcases List.mem_cons.mp hn with h | h
            · rw [h]; exact hg
            · exact g3 n h
          · refine .inr ⟨g1, 2 * buf.length :: init, n, by simp [doublings, g2], fun m hm => ?_, g4⟩
            rcases List.mem_cons.mp hm with h | h
            · rw [h]; exact hg
            · exact g3 m h
      · refine ⟨.null, 1, by rw [h1, if_neg hg]; rfl, ?_, .inr ⟨rfl, [], _, rfl, by simp [AllGranted], by simpa using hg⟩⟩
        intro n hn
        simp only [doublings, List.mem_singleton] at hn
        omega

theorem c72_new_aux (g : Growth) (buf : List Octet) : ∃ s rest, Str.new g buf = some s ∧ LongestText (buf.map BitVec.toNat) s.text rest ∧
    (s.error = none ↔ rest = []) := by
  obtain ⟨r, rest, h1, h2, h3⟩ := c02_string_longest_partial buf
  obtain ⟨w, g1, g2, g3⟩ := c41_pushAll_aux g (r.chars.map BitVec.toNat) (Vec.new (buf.length / 4)) [] (c18_new_aux _)
    (by simp [Vec.elems, Vec.new])
  refine ⟨_, rest, by simp only [Str.new, h1, g1]; rfl, ?_, ?_⟩
  · show LongestText _ (w.elems.map (·.getD 0)) rest
    have e : w.elems.map (·.getD 0) = r.chars.map BitVec.toNat := by
      rw [g3, List.map_map, List.nil_append]
      conv => rhs; rw [← List.map_id (r.chars.map BitVec.toNat)]
      exact List.map_congr_left fun _ _ => rfl
    rw [e]; exact h2
  · show r.errorAt = none ↔ _
    rw [h3]
    split <;> simp_all

/-- printing fails and the block is granted -/
theorem c72_fail_aux {print : Printer} (F : NeverFormats print) (grant : Nat → Bool) (fuel : Nat) {neg : Int} (buf : List Octet) (hn : neg ≤ 1000) :
    formatLoop print grant (fuel + 1) neg buf =
      if grant (buf.length * 2 % 2 ^ 64) then
        (formatLoop print grant fuel (neg + 1) (List.replicate (buf.length * 2 % 2 ^ 64) 0)).map fun r => (r.1, buf.length * 2 % 2 ^ 64 :: r.2)
      else some (.null, [buf.length * 2 % 2 ^ 64]) := by
  have e1 : ¬ neg > 1000 := by omega
  have e2 := F.fails buf
  simp only [formatLoop, e1, e2, if_false, if_true]

theorem c72_refuse_aux {print : Printer} (F : NeverFormats print) {grant : Nat → Bool} (hg : ∀ n, grant n = true → n < 2 ^ 63) :
    ∀ (d j : Nat) (neg : Int) (buf : List Octet) (fuel : Nat), j + d = 59 → buf.length = 8 * 2 ^ j → neg ≤ j → d < fuel →
      ∃ k, formatLoop print grant fuel neg buf = some (.null, doublings (2 * buf.length) k) ∧ LastRefused grant (doublings (2 * buf.length) k) := by
  intro d
  induction d with
  | zero =>
    intro j neg buf fuel hj hb hn hf
    obtain ⟨fuel, rfl⟩ : ∃ f, fuel = f + 1 := ⟨fuel - 1, by omega⟩
    have hj : j = 59 := by omega
    subst hj
    have e : buf.length * 2 % 2 ^ 64 = 2 * buf.length := by omega
    have h := c72_fail_aux F grant fuel (neg := neg) buf (by omega)
    rw [e] at h
    have hr : ¬ grant (2 * buf.length) = true := fun h => by have := hg _ h; omega
    refine ⟨1, by rw [h, if_neg hr]; rfl, [], _, rfl, by simp [AllGranted], by simpa using hr⟩
  | succ d ih =>
    intro j neg buf fuel hj hb hn hf
    obtain ⟨fuel, rfl⟩ : ∃ f, fuel = f + 1 := ⟨fuel - 1, by omega⟩
    have h := c72_fail_aux F grant fuel (neg := neg) buf (by omega)
    have hp : 2 ^ j ≤ 2 ^ 58 := Nat.pow_le_pow_right (by omega) (by omega)
    have e : buf.length * 2 % 2 ^ 64 = 2 * buf.length := by omega
    rw [e] at h
    by_cases hr : grant (2 * buf.length) = true
    · obtain ⟨k, i1, init, n, i2, i3, i4⟩ := ih (j + 1) (neg + 1) (List.replicate (2 * buf.length) 0) fuel (by omega)
        (by rw [List.length_replicate, hb, Nat.pow_succ]; omega) (by omega) (by omega)
      rw [List.length_replicate] at i1 i2
      refine ⟨k + 1, by rw [h, if_pos hr, i1]; rfl, 2 * buf.length :: init, n, by simp [doublings, i2], fun m hm => ?_, i4⟩
      rcases List.mem_cons.mp hm with h | h
      · rw [h]; exact hr
      · exact i3 m h
    · exact ⟨1, by rw [h, if_neg hr]; rfl, [], _, rfl, by simp [AllGranted], by simpa using hr⟩

theorem c72_status_aux {print : Printer} (F : NeverFormats print) {grant : Nat → Bool} (hg : ∀ n, grant n = true) :
    ∀ (m : Nat) (neg : Int) (buf : List Octet) (fuel : Nat), neg + m = 1001 → m < fuel →
      ∃ rs, formatLoop print grant fuel neg buf = some (.made [] true, rs) ∧ rs.length = m := by
  intro m
  induction m with
  | zero =>
    intro neg buf fuel hn hf
    obtain ⟨fuel, rfl⟩ : ∃ f, fuel = f + 1 := ⟨fuel - 1, by omega⟩
    have e1 : neg > 1000 := by omega
    exact ⟨[], by simp only [formatLoop, e1, if_true], rfl⟩
  | succ m ih =>
    intro neg buf fuel hn hf
    obtain ⟨fuel, rfl⟩ : ∃ f, fuel = f + 1 := ⟨fuel - 1, by omega⟩
    obtain ⟨rs, i1, i2⟩ := ih (neg + 1) (List.replicate (buf.length * 2 % 2 ^ 64) 0) fuel (by omega) (by omega)
    refine ⟨buf.length * 2 % 2 ^ 64 :: rs, ?_, by simp [i2]⟩
    rw [c72_fail_aux F grant fuel buf (by omega), if_pos (hg _), i1]; rfl

/-! ### Theorems -/

/-- C72.  Whatever the format and its arguments stand for (`o`, fewer than 2^31 octets), and whether the C library tells the length needed or only that the buffer
was too small: the loop ends after at most 29 turns without reading outside of the buffer; it asks the allocator for blocks of 16, 32, 64, … octets, never for more
than twice the octets to be written; and if the allocator grants them the new string has the text of all the octets up to the first NUL (the longest well-formed one, as in
C02, and an error exactly if there is more).  If one request is refused, no other is made and the null pointer is returned. -/
theorem c72_formatted (g : Growth) {o : List Octet} {print : Printer} (F : Formats o print) (hl : o.length < 2 ^ 31)
    (grant : Nat → Bool) {turns : Nat} (hf : 29 ≤ turns) :
    ∃ r k, newFormat g print grant turns = some (r, doublings 16 k) ∧ (∀ n ∈ doublings 16 k, n ≤ 2 * o.length) ∧
      ((∃ s rest, r = .str s false ∧ LongestText ((cStringOf o).map BitVec.toNat) s.text rest ∧ (s.error = none ↔ rest = []) ∧
          AllGranted grant (doublings 16 k)) ∨
        r = .null ∧ LastRefused grant (doublings 16 k)) := by
  obtain ⟨e, k, h1, h2, h3⟩ := c72_loop_aux F hl grant 28 0 (-1) (List.replicate 8 0) turns (by omega) rfl (by omega) (by omega)
  have h16 : 2 * (List.replicate 8 (0 : Octet)).length = 16 := rfl
  rw [h16] at h1 h2 h3
  rcases h3 with ⟨os, rfl, h4, h5⟩ | ⟨rfl, h4⟩
  · obtain ⟨s, rest, g1, g2, g3⟩ := c72_new_aux g (cStringOf o)
    refine ⟨.str s false, k, ?_, h2, .inl ⟨s, rest, rfl, g2, g3, h5⟩⟩
    simp only [newFormat, h1, h4, g1, Bool.false_and]
  · exact ⟨.null, k, by simp only [newFormat, h1], h2, .inr ⟨rfl, h4⟩⟩

/-- C72, when there is memory: an allocator that grants blocks up to twice the octets to be written gives the whole text. -/
theorem c72_whole (g : Growth) {o : List Octet} {print : Printer} (F : Formats o print) (hl : o.length < 2 ^ 31) {t : List Nat}
    (ht : ∀ c ∈ t, _root_.Spec.Utf8.IsScalar c ∧ c ≠ 0) (ho : cStringOf o = (encodeText t).map (BitVec.ofNat 8))
    {grant : Nat → Bool} (hg : ∀ n ≤ 2 * o.length, grant n = true) :
    ∃ s rs, newFormat g print grant 29 = some (.str s false, rs) ∧ s.text = t ∧ s.error = none := by
  obtain ⟨r, k, h1, h2, h3⟩ := c72_formatted g F hl grant (Nat.le_refl _)
  rcases h3 with ⟨s, rest, rfl, g1, g2, _⟩ | ⟨_, init, n, g2, _, g4⟩
  · have hx : LongestText ((cStringOf o).map BitVec.toNat) t [] := by
      refine ⟨?_, fun c hc => ⟨Nat.pos_of_ne_zero (ht c hc).2, Nat.lt_of_le_of_lt (ht c hc).1.1 (by decide)⟩, ?_⟩
      · rw [ho, List.map_map, List.append_nil]
        show _ = encodeText t
        conv => rhs; rw [← List.map_id (encodeText t)]
        apply List.map_congr_left
        intro x hx
        obtain ⟨c, hc, hco⟩ := List.mem_flatMap.mp hx
        have := c41_encode_lt_aux (ht c hc).1 x hco
        simp; omega
      · intro c _ _ hc
        have := List.prefix_nil.mp hc
        unfold _root_.Spec.Utf8.encode at this
        repeat' split at this
        all_goals cases this
    obtain ⟨e1, e2⟩ := c02_longest_unique g1 hx
    exact ⟨s, _, h1, e1, g2.mpr e2⟩
  · have := hg n (h2 n (by rw [g2]; simp))
    rw [this] at g4; cases g4

/-- C72, adding to a string: after any history of operations (C41) the formatted text is added at the end, and what was cached before never shows; if memory is refused
the string is as it was and the answer is false. -/
theorem c72_concatenated (g : Growth) (T : Nat → List Nat) (hT : ∀ x, ∀ c ∈ T x, _root_.Spec.Utf8.IsScalar c ∧ c ≠ 0) (S : Nat → Str)
    (hS : ∀ x, Str.new g ((encodeText (T x)).map (BitVec.ofNat 8)) = some (S x)) (ops : List TextOp) (ha : AllAllowed T ops) (a : Nat)
    {o : List Octet} {print : Printer} (F : Formats o print) (hl : o.length < 2 ^ 31) {t : List Nat}
    (ht : ∀ c ∈ t, _root_.Spec.Utf8.IsScalar c ∧ c ≠ 0) (ho : cStringOf o = (encodeText t).map (BitVec.ofNat 8))
    (grant : Nat → Bool) {turns : Nat} (hf : 29 ≤ turns) :
    ∃ S' s ok, runStrings g S ops = some (S', (runTexts T ops).2) ∧ concatenateFormat g print grant turns (S' a) = some (s, ok) ∧
      (ok = true → s.text = (runTexts T ops).1 a ++ t ∧
        ∃ s', s.cString g = some (s', (encodeText (beforeNul ((runTexts T ops).1 a ++ t))).map (BitVec.ofNat 8))) ∧
      (ok = false → s = S' a ∧ ∃ n ≤ 2 * o.length, grant n = false) := by
  have h0 : AllStrHold S T := by
    intro x
    obtain ⟨s, h1, h2, _⟩ := c41_new_aux g (T x) (hT x)
    rw [hS x] at h1; cases h1
    exact ⟨h2, fun c hc => (hT x c hc).1⟩
  obtain ⟨S', h1, h2⟩ := c41_run_aux g ops S T h0 ha
  obtain ⟨e, k, l1, l2, l3⟩ := c72_loop_aux F hl grant 28 0 (-1) (List.replicate 8 0) turns (by omega) rfl (by omega) (by omega)
  rcases l3 with ⟨os, rfl, l4, _⟩ | ⟨rfl, init, n, l4, _, l6⟩
  · obtain ⟨s, g1, g2, g3⟩ := c41_new_aux g t ht
    obtain ⟨v, v1, v2, v3⟩ := c41_clearOctets_aux (h2 a).1
    obtain ⟨s1, c1, c2⟩ := c41_cString_aux g g2 (fun c hc => (ht c hc).1)
    have hb : beforeNul t = t := c72_nul_aux fun c hc => (ht c hc).2
    rw [hb] at c1
    obtain ⟨s2, d1, d2⟩ := c41_concatenateC_aux g (s := { S' a with octets := v }) ⟨(h2 a).1.ci, (h2 a).1.ce, v2, .inl v3⟩ ht
    have hx : ∀ c ∈ (runTexts T ops).1 a ++ t, _root_.Spec.Utf8.IsScalar c := fun c hc =>
      (List.mem_append.mp hc).elim (fun h => (h2 a).2 c h) (fun h => (ht c h).1)
    obtain ⟨s3, f1, _⟩ := c41_cString_aux g d2 hx
    refine ⟨S', s2, true, h1, ?_, fun _ => ⟨c41_text_aux d2, s3, f1⟩, (by intro h; cases h)⟩
    simp only [concatenateFormat, newFormat, l1, l4, ho, g1, v1, c1, d1]
  · refine ⟨S', S' a, false, h1, by simp only [concatenateFormat, newFormat, l1], (by intro h; cases h), fun _ => ⟨rfl, n, l2 n ?_, l6⟩⟩
    rw [l4]; simp

/-- C72, what does not hold: if the arguments cannot be formatted the buffer is doubled until the allocator refuses, and the null pointer is returned (which the callers
do not check); the status ENCODING_ERROR is never set with an allocator that has less than 2^63 octets to give. -/
theorem c72_unformatted (g : Growth) {print : Printer} (F : NeverFormats print) {grant : Nat → Bool} (hg : ∀ n, grant n = true → n < 2 ^ 63)
    {turns : Nat} (hf : 60 ≤ turns) :
    ∃ k, newFormat g print grant turns = some (.null, doublings 16 k) ∧ LastRefused grant (doublings 16 k) := by
  obtain ⟨k, h1, h2⟩ := c72_refuse_aux F hg 59 0 (-1) (List.replicate 8 0) turns (by omega) rfl (by omega) (by omega)
  exact ⟨k, by simp only [newFormat, h1]; rfl, h2⟩

/-- C72: only if every request were granted, 2^63 octets and then no octets at all included, the status would be set, after 1002 attempts and on an empty string. -/
theorem c72_status (g : Growth) {print : Printer} (F : NeverFormats print) {grant : Nat → Bool} (hg : ∀ n, grant n = true)
    {turns : Nat} (hf : 1003 ≤ turns) :
    ∃ s rs, newFormat g print grant turns = some (.str s true, rs) ∧ rs.length = 1002 ∧ s.text = [] := by
  obtain ⟨rs, h1, h2⟩ := c72_status_aux F hg 1002 (-1) (List.replicate 8 0) turns (by omega) (by omega)
  obtain ⟨s, g1, g2, g3⟩ := c41_new_aux g [] (by simp)
  have g1' : Str.new g (cStringOf ([] ++ [0])) = some s := g1
  exact ⟨s, rs, by simp only [newFormat, h1, g1', g3]; rfl, h2, c41_text_aux g2⟩

/-! ### Examples -/

/-- `vsnprintf` as C11 has it -/
def printC11 (o : List Octet) : Printer := fun buf =>
  if o.length < buf.length then (o ++ [0] ++ buf.drop (o.length + 1), o.length)
  else (if buf = [] then [] else o.take (buf.length - 1) ++ [0], o.length)

/-- `vsnprintf` of an older library: it tells only that there was not enough room -/
def printOld (o : List Octet) : Printer := fun buf =>
  if o.length < buf.length then (o ++ [0] ++ buf.drop (o.length + 1), o.length) else (buf, -1)

/-- a format that cannot be written -/
def printNever : Printer := fun buf => (buf, -1)

theorem printOld_formats (o : List Octet) : Formats o (printOld o) where
  size buf := by unfold printOld; split <;> simp <;> omega
  fits buf h := by
    simp only [printOld, h, if_true, true_and]
    rw [List.take_append_of_le_length (by simp), List.take_of_length_le (by simp)]
  short buf h := by
    have h : ¬ o.length < buf.length := by omega
    simp only [printOld, h, if_false]; exact .inr (by decide)

theorem printC11_formats (o : List Octet) : Formats o (printC11 o) where
  size buf := by
    unfold printC11
    split
    · simp; omega
    · cases buf with
      | nil => rfl
      | cons b bs => simp at *; omega
  fits buf h := by
    simp only [printC11, h, if_true, true_and]
    rw [List.take_append_of_le_length (by simp), List.take_of_length_le (by simp)]
  short buf h := by
    have h : ¬ o.length < buf.length := by omega
    simp only [printC11, h, if_false]; exact .inl trivial

theorem printNever_never : NeverFormats printNever := ⟨fun _ => rfl, fun _ => by show (-1 : Int) < 0; decide⟩

-- "é: 5 ≤ 7" takes 12 octets and two attempts, and is complete with both kinds of libraries; blocks of at most 8 octets are not enough
def exOctets : List Octet := [0xC3, 0xA9, 58, 32, 53, 32, 0xE2, 0x89, 0xA4, 32, 55]
example : cStringOf exOctets = (encodeText [0xE9, 58, 32, 53, 32, 0x2264, 32, 55]).map (BitVec.ofNat 8) := by decide +kernel
example : ((newFormat Growth.exact (printOld exOctets) (fun _ => true) 29).map fun r =>
    match r with | (.str s e, rs) => some (s.text, s.error, e, rs) | _ => none) =
    some (some ([0xE9, 58, 32, 53, 32, 0x2264, 32, 55], none, false, [16])) := by decide +kernel
example : ((newFormat Growth.exact (printC11 exOctets) (fun _ => true) 29).map fun r =>
    match r with | (.str s e, rs) => some (s.text, s.error, e, rs) | _ => none) =
    some (some ([0xE9, 58, 32, 53, 32, 0x2264, 32, 55], none, false, [16])) := by decide +kernel
example : ((newFormat Growth.exact (printC11 exOctets) (fun n => n < 16) 29).map fun r =>
    match r with | (.null, rs) => some rs | _ => none) = some (some [16]) := by decide +kernel
-- exactly 8 octets do not fit into the first block: the NUL needs its place
example : ((newFormat Growth.exact (printC11 (List.replicate 8 65)) (fun _ => true) 29).map fun r =>
    match r with | (.str s _, rs) => some (s.text, rs) | _ => none) = some (some (List.replicate 8 65, [16])) := by decide +kernel
example : ((newFormat Growth.exact (printC11 (List.replicate 7 65)) (fun _ => true) 29).map fun r =>
    match r with | (.str s _, rs) => some (s.text, rs) | _ => none) = some (some (List.replicate 7 65, [])) := by decide +kernel

end Dern.Props
