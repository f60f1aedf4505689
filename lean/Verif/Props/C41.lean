import Verif.Core.Strings
import Verif.Core.TextLemmas
import Verif.Props.C18
/-
C41: strings behave like texts, whatever the history of operations.
-/
namespace Dern.Props
open Dern Dern.Spec Dern.Utf8

/-- the octets of a text as the implementation stores them -/
def octs (t : Text) : List Octet := (encodeText t).map (BitVec.ofNat 8)

theorem c41_encode_lt_aux {c : Nat} (h : _root_.Spec.Utf8.IsScalar c) :
    ∀ o ∈ _root_.Spec.Utf8.encode c, o < 256 := by
  obtain ⟨h1, _⟩ := h
  unfold _root_.Spec.Utf8.encode
  (repeat' split) <;> simp <;> omega

theorem c41_encodeCh_aux {c : Ch} (h : _root_.Spec.Utf8.IsScalar c) :
    ∃ e, encodeCharacter (BitVec.ofNat 32 c) = some e ∧
      e.toList = (_root_.Spec.Utf8.encode c).map (BitVec.ofNat 8) := by
  have hc := toNat_ofNat_scalar h
  obtain ⟨e, h1, _, _, h2⟩ := encode_spec (BitVec.ofNat 32 c) (by rw [hc]; exact h)
  rw [hc] at h2
  refine ⟨e, h1, ?_⟩
  rw [← h2, octetNats, List.map_map]
  conv => lhs; rw [← List.map_id e.toList]
  apply List.map_congr_left
  intro o _
  simp

theorem c41_octetsOf_aux {t : Text} (h : ∀ c ∈ t, _root_.Spec.Utf8.IsScalar c) : octetsOf t = octs t := by
  induction t with
  | nil => rfl
  | cons c cs ih =>
    obtain ⟨e, h1, h2⟩ := c41_encodeCh_aux (h c (by simp))
    have := ih (fun c hc => h c (by simp [hc]))
    simp only [octetsOf, h1, h2, this, octs, encodeText, List.flatMap_cons, List.map_append]

/-- what it means that a string object holds a text: the characters are those of the text, and
the octets are either not there or those of the text -/
structure StrHolds (s : Str) (t : Text) : Prop where
  ci : s.chars.Inv
  ce : s.chars.elems = t.map some
  oi : s.octets.Inv
  oe : s.octets.num = 0 ∨ s.octets.elems = (octs t ++ [0]).map some

theorem c41_len_aux {s : Str} {t : Text} (h : StrHolds s t) : s.length = t.length := by
  rw [Str.length, ← Vec.elems_length h.ci, h.ce]; simp

theorem c41_text_aux {s : Str} {t : Text} (h : StrHolds s t) : s.text = t := by
  rw [Str.text, h.ce]; simp

theorem c41_index_aux {s : Str} {t : Text} (h : StrHolds s t) (i : Int) :
    s.index i = position t.length i := by
  have := Vec.index_eq s.chars i
  have hl := c41_len_aux h
  rw [← hl]
  exact this

theorem c41_clearOctets_aux {s : Str} {t : Text} (h : StrHolds s t) :
    ∃ v, s.clearOctets = some ({ s with octets := v }, true) ∧ v.Inv ∧ v.num = 0 := by
  have hx : ∃ l : List Octet, s.octets.elems = l.map some := by
    rcases h.oe with h0 | h1
    · exact ⟨[], by
        have := Vec.elems_length h.oi; rw [h0] at this
        simpa using List.length_eq_zero_iff.mp this⟩
    · exact ⟨_, h1⟩
  obtain ⟨l, hl⟩ := hx
  obtain ⟨w, h1, h2, h3, _⟩ := c18_step_aux Growth.exact s.octets l .clear h.oi hl
  simp only [Vec.apply, SeqOp.apply] at h1 h3
  refine ⟨w, by simp [Str.clearOctets, h1], h2, ?_⟩
  rw [← Vec.elems_length h2, h3]; rfl

/-- after its octets are cleared a string can be given any characters -/
theorem c41_blank_aux {s : Str} {t' : Text} {v : Vec Octet} {w : Vec Ch} {e : Option Nat}
    (hv : v.Inv) (h0 : v.num = 0) (hw : w.Inv) (he : w.elems = t'.map some) :
    StrHolds { s with chars := w, octets := v, error := e } t' :=
  ⟨hw, he, hv, .inl h0⟩

theorem c41_pushAll_aux {α : Type} (g : Growth) : ∀ (xs : List α) (v : Vec α) (l : List α), v.Inv →
    v.elems = l.map some → ∃ w, Str.pushAll g v xs = some (w, true) ∧ w.Inv ∧
      w.elems = (l ++ xs).map some := by
  intro xs
  induction xs with
  | nil => intro v l h hl; exact ⟨v, rfl, h, by simpa using hl⟩
  | cons x xs ih =>
    intro v l h hl
    obtain ⟨w, h1, h2, h3, _⟩ := c18_step_aux g v l (.pushBack x) h hl
    simp only [Vec.apply, SeqOp.apply] at h1 h3
    obtain ⟨u, g1, g2, g3⟩ := ih w _ h2 h3
    exact ⟨u, by simp [Str.pushAll, h1, g1], g2, by simpa using g3⟩

theorem c41_ensureLoop_aux (g : Growth) : ∀ (t : Text) (v : Vec Octet) (l : List Octet), v.Inv →
    v.elems = l.map some → (∀ c ∈ t, _root_.Spec.Utf8.IsScalar c) →
    ∃ w, Str.ensureLoop g v t = some (w, true) ∧ w.Inv ∧ w.elems = (l ++ octs t ++ [0]).map some := by
  intro t
  induction t with
  | nil =>
    intro v l h hl _
    obtain ⟨w, h1, h2, h3, _⟩ := c18_step_aux g v l (.pushBack 0) h hl
    simp only [Vec.apply, SeqOp.apply] at h1 h3
    exact ⟨w, by rw [Str.ensureLoop, h1], h2, by simpa [octs, encodeText] using h3⟩
  | cons c cs ih =>
    intro v l h hl hs
    obtain ⟨e, h1, h2⟩ := c41_encodeCh_aux (hs c (by simp))
    obtain ⟨w, g1, g2, g3⟩ := c41_pushAll_aux g e.toList v l h hl
    obtain ⟨u, f1, f2, f3⟩ := ih w _ g2 g3 (fun c hc => hs c (by simp [hc]))
    refine ⟨u, by simp [Str.ensureLoop, h1, g1, f1], f2, ?_⟩
    rw [f3, h2]
    simp [octs, encodeText]

theorem c41_ensure_aux (g : Growth) {s : Str} {t : Text} (h : StrHolds s t)
    (hs : ∀ c ∈ t, _root_.Spec.Utf8.IsScalar c) :
    ∃ s', s.ensureOctets g = some (s', true) ∧ StrHolds s' t ∧
      s'.octets.elems = (octs t ++ [0]).map some := by
  by_cases h0 : s.octets.num = 0
  · have he : s.octets.elems = ([] : List Octet).map some := by
      have := Vec.elems_length h.oi; rw [h0] at this
      simpa using List.length_eq_zero_iff.mp this
    obtain ⟨w, h1, h2, h3⟩ := c41_ensureLoop_aux g t s.octets [] h.oi he hs
    rw [List.nil_append] at h3
    refine ⟨{ s with octets := w }, ?_, ⟨h.ci, h.ce, h2, .inr h3⟩, h3⟩
    simp [Str.ensureOctets, h0, c41_text_aux h, h1]
  · refine ⟨s, by simp [Str.ensureOctets, h0], h, ?_⟩
    rcases h.oe with h1 | h1
    · exact absurd h1 h0
    · exact h1

/-- the last octet is the NUL -/
theorem c41_last_aux {s : Str} {t : Text} (h : StrHolds s t)
    (he : s.octets.elems = (octs t ++ [0]).map some) :
    s.octets.num = (octs t).length + 1 ∧
      s.octets.getAt (s.octets.num - 1 : Nat) = some (some (some 0)) := by
  have hl : s.octets.num = (octs t).length + 1 := by
    rw [← Vec.elems_length h.oi, he]; simp
  refine ⟨hl, ?_⟩
  have hi : s.octets.index (s.octets.num - 1 : Nat) = some (octs t).length := by
    rw [Vec.index_eq, hl]; simp [position]
  have e := Vec.elems_get (v := s.octets) (octs t).length
  rw [if_pos (by omega), he] at e
  simp only [Vec.getAt, hi, ← e]
  simp

theorem c41_cut_aux : ∀ (t : Text), (∀ c ∈ t, _root_.Spec.Utf8.IsScalar c) →
    (octs t ++ [0]).takeWhile (· ≠ 0) = octs (beforeNul t) := by
  intro t
  induction t with
  | nil => intro _; simp [octs, encodeText, beforeNul]
  | cons c cs ih =>
    intro h
    have hc := h c (by simp)
    have ih := ih (fun c hc => h c (by simp [hc]))
    by_cases h0 : c = 0
    · subst h0
      simp [octs, encodeText, beforeNul, _root_.Spec.Utf8.encode]
    · have e1 : octs (c :: cs) = (_root_.Spec.Utf8.encode c).map (BitVec.ofNat 8) ++ octs cs := by
        simp [octs, encodeText]
      have e2 : octs (beforeNul (c :: cs)) =
          (_root_.Spec.Utf8.encode c).map (BitVec.ofNat 8) ++ octs (beforeNul cs) := by
        simp [octs, encodeText, beforeNul, h0]
      have hz : ∀ o ∈ (_root_.Spec.Utf8.encode c).map (BitVec.ofNat 8), decide (o ≠ (0 : Octet)) = true := by
        intro o ho
        obtain ⟨x, hx, rfl⟩ := List.mem_map.mp ho
        have h1 := specEncode_ne_zero c h0 x hx
        have h2 := c41_encode_lt_aux hc x hx
        simp only [ne_eq, decide_eq_true_eq]
        intro e
        have := congrArg BitVec.toNat e
        simp at this; omega
      rw [e1, e2, List.append_assoc, List.takeWhile_append_of_pos hz, ih]

theorem c41_cString_aux (g : Growth) {s : Str} {t : Text} (h : StrHolds s t)
    (hs : ∀ c ∈ t, _root_.Spec.Utf8.IsScalar c) :
    ∃ s', s.cString g = some (s', octs (beforeNul t)) ∧ StrHolds s' t := by
  obtain ⟨s', h1, h2, h3⟩ := c41_ensure_aux g h hs
  obtain ⟨h4, h5⟩ := c41_last_aux h2 h3
  refine ⟨s', ?_, h2⟩
  have hn : s'.octets.num ≠ 0 := by omega
  simp only [Str.cString, h1, hn, if_false, h5, h3]
  rw [← c41_cut_aux t hs]
  simp

theorem c41_lengthInOctets_aux (g : Growth) {s : Str} {t : Text} (h : StrHolds s t)
    (hs : ∀ c ∈ t, _root_.Spec.Utf8.IsScalar c) :
    ∃ s', s.lengthInOctets g = some (s', (encodeText t).length) ∧ StrHolds s' t := by
  obtain ⟨s', h1, h2, h3⟩ := c41_ensure_aux g h hs
  obtain ⟨h4, h5⟩ := c41_last_aux h2 h3
  refine ⟨s', ?_, h2⟩
  have hn : s'.octets.num ≠ 0 := by omega
  have hc : s'.octets.num - 1 = (encodeText t).length := by rw [h4]; simp [octs]
  simp only [Str.lengthInOctets, h1, hn, if_false, h5]
  rw [hc]
  rfl

theorem c41_decode_aux {t : Text} (h : ∀ c ∈ t, _root_.Spec.Utf8.IsScalar c ∧ c ≠ 0) :
    fromBuffer (octs t) = some ⟨t.map (BitVec.ofNat 32), none⟩ ∧
      (t.map (BitVec.ofNat 32)).map BitVec.toNat = t := by
  rw [← c41_octetsOf_aux (fun c hc => (h c hc).1)]
  exact ⟨fromBuffer_octets t h, map_back t h⟩

theorem c41_concatenateC_aux (g : Growth) {s : Str} {t u : Text} (h : StrHolds s t)
    (hu : ∀ c ∈ u, _root_.Spec.Utf8.IsScalar c ∧ c ≠ 0) :
    ∃ s', s.concatenateC g (octs u) = some (s', true) ∧ StrHolds s' (t ++ u) := by
  have hh : StrHolds { s with error := none } t := ⟨h.ci, h.ce, h.oi, h.oe⟩
  by_cases h0 : octs u = []
  · have : u = [] := by
      cases u with
      | nil => rfl
      | cons c cs =>
        have := specEncode_pos c
        simp [octs, encodeText] at h0
        simp [h0.1] at this
    subst this
    exact ⟨{ s with error := none }, by simp only [Str.concatenateC, h0, if_true], by simpa using hh⟩
  · obtain ⟨v, h1, h2, h3⟩ := c41_clearOctets_aux hh
    obtain ⟨d1, d2⟩ := c41_decode_aux hu
    obtain ⟨w, g1, g2, g3⟩ := c41_pushAll_aux g u s.chars t h.ci h.ce
    refine ⟨{ chars := w, octets := v, error := none }, ?_, ⟨g2, g3, h2, .inl h3⟩⟩
    simp only [Str.concatenateC, h0, if_false, h1, d1, d2, g1]

theorem c41_clear_aux {s : Str} {t : Text} (h : StrHolds s t) :
    ∃ s', s.clear = some (s', true) ∧ StrHolds s' [] := by
  have hh : StrHolds { s with error := none } t := ⟨h.ci, h.ce, h.oi, h.oe⟩
  obtain ⟨v, h1, h2, h3⟩ := c41_clearOctets_aux hh
  obtain ⟨w, g1, g2, g3, _⟩ := c18_step_aux Growth.exact s.chars t .clear h.ci h.ce
  simp only [Vec.apply, SeqOp.apply] at g1 g3
  exact ⟨{ chars := w, octets := v, error := none }, by simp [Str.clear, h1, g1], ⟨g2, g3, h2, .inl h3⟩⟩

theorem c41_pushBack_aux (g : Growth) {s : Str} {t : Text} (h : StrHolds s t) (c : Ch) :
    ∃ s', s.pushBack g c = some (s', true) ∧ StrHolds s' (t ++ [c]) := by
  obtain ⟨v, h1, h2, h3⟩ := c41_clearOctets_aux h
  obtain ⟨w, g1, g2, g3, _⟩ := c18_step_aux g s.chars t (.pushBack c) h.ci h.ce
  simp only [Vec.apply, SeqOp.apply] at g1 g3
  have h1' : s.octets.clear = some (v, true) := by
    simp only [Str.clearOctets] at h1
    split at h1
    · cases h1
    · rename_i h
      rw [h]
      simp only [Option.some.injEq, Prod.mk.injEq, Str.mk.injEq] at h1
      rw [h1.1.2.1, h1.2]
  exact ⟨{ s with chars := w, octets := v }, by simp [Str.pushBack, g1, Str.clearOctets, h1'],
    ⟨g2, g3, h2, .inl h3⟩⟩

theorem c41_removeAt_aux {s : Str} {t : Text} (h : StrHolds s t) (i : Int) :
    (∃ k, position t.length i = some k ∧ ∃ s', s.removeAt i = some (s', true) ∧
      StrHolds s' (t.take k ++ t.drop (k + 1))) ∨
    (position t.length i = none ∧ s.removeAt i = some (s, false)) := by
  have hi := c41_index_aux h i
  cases hp : position t.length i with
  | none => exact .inr ⟨rfl, by simp [Str.removeAt, hi, hp]⟩
  | some k =>
    refine .inl ⟨k, rfl, ?_⟩
    have hk := Vec.position_lt hp
    obtain ⟨v, h1, h2, h3⟩ := c41_clearOctets_aux h
    obtain ⟨w, g1, g2, g3, _⟩ := c18_step_aux Growth.exact s.chars t (.removeAt k) h.ci h.ce
    have hp' : position t.length (k : Int) = some k := by simp [position, hk]
    simp only [Vec.apply, SeqOp.apply, hp'] at g1 g3
    exact ⟨{ s with chars := w, octets := v }, by simp [Str.removeAt, hi, hp, h1, g1],
      ⟨g2, g3, h2, .inl h3⟩⟩

theorem c41_removeLoop_aux : ∀ (n : Nat) (s : Str) (t : Text) (k count : Nat), StrHolds s t → k ≤ t.length →
    ∃ s', Str.removeLoop s k n count = some (s', count + min n (t.length - k)) ∧
      StrHolds s' (t.take k ++ t.drop (k + n)) := by
  intro n
  induction n with
  | zero =>
    intro s t k count h _
    exact ⟨s, by simp [Str.removeLoop], by simpa using h⟩
  | succ n ih =>
    intro s t k count h hk
    rcases c41_removeAt_aux h ((k + n : Nat) : Int) with ⟨j, hj, s', h1, h2⟩ | ⟨hj, h1⟩
    · have hlt : k + n < t.length ∧ j = k + n := by
        simp only [position] at hj
        split at hj
        · split at hj
          · simp at hj; omega
          · cases hj
        · omega
      obtain ⟨hlt, rfl⟩ := hlt
      obtain ⟨s'', g1, g2⟩ := ih s' _ k (count + 1) h2 (by simp; omega)
      refine ⟨s'', ?_, ?_⟩
      · simp only [Str.removeLoop, h1, if_true, g1]
        simp only [Option.some.injEq, Prod.mk.injEq, true_and]
        simp; omega
      · rw [List.take_append_of_le_length (by simp; omega), List.take_take,
          List.drop_append, List.drop_eq_nil_of_le (by simp)] at g2
        have e : k + n - (t.take (k + n)).length = 0 := by simp; omega
        rw [e, Nat.min_eq_left (by omega)] at g2
        simpa [Nat.add_assoc] using g2
    · have hge : t.length ≤ k + n := by
        simp only [position] at hj
        split at hj
        · split at hj
          · cases hj
          · omega
        · omega
      obtain ⟨s'', g1, g2⟩ := ih s t k count h hk
      refine ⟨s'', ?_, ?_⟩
      · simp only [Str.removeLoop, h1, Bool.false_eq_true, if_false, g1]
        simp only [Option.some.injEq, Prod.mk.injEq, true_and]
        omega
      · rw [List.drop_eq_nil_of_le hge] at g2
        rw [List.drop_eq_nil_of_le (by omega)]
        exact g2

theorem c41_insertLoop_aux (g : Growth) : ∀ (cs : Text) (v : Vec Ch) (t : Text) (k : Nat), v.Inv →
    v.elems = t.map some → k < t.length →
    ∃ w, Str.insertLoop g v k cs = some (w, true) ∧ w.Inv ∧
      w.elems = (t.take k ++ cs ++ t.drop k).map some := by
  intro cs
  induction cs with
  | nil => intro v t k h hl _; exact ⟨v, rfl, h, by simp [hl]⟩
  | cons c cs ih =>
    intro v t k h hl hk
    obtain ⟨w, h1, h2, h3, _⟩ := c18_step_aux g v t (.insertBefore c k) h hl
    have hp : position t.length (k : Int) = some k := by simp [position, hk]
    simp only [Vec.apply, SeqOp.apply, hp] at h1 h3
    obtain ⟨u, g1, g2, g3⟩ := ih w _ (k + 1) h2 h3 (by simp; omega)
    refine ⟨u, by simp [Str.insertLoop, h1, g1], g2, ?_⟩
    rw [g3]
    have e1 : (t.take k ++ c :: t.drop k).take (k + 1) = t.take k ++ [c] := by
      have : k + 1 = (t.take k ++ [c]).length := by simp; omega
      rw [this, show t.take k ++ c :: t.drop k = (t.take k ++ [c]) ++ t.drop k by simp]
      exact List.take_left
    have e2 : (t.take k ++ c :: t.drop k).drop (k + 1) = t.drop k := by
      have : k + 1 = (t.take k ++ [c]).length := by simp; omega
      rw [this, show t.take k ++ c :: t.drop k = (t.take k ++ [c]) ++ t.drop k by simp]
      exact List.drop_left
    rw [e1, e2]; simp

theorem c41_overwriteLoop_aux (g : Growth) : ∀ (cs : Text) (v : Vec Ch) (t : Text) (k : Nat), v.Inv →
    v.elems = t.map some →
    ∃ w, Str.overwriteLoop g v k cs = some (w, true) ∧ w.Inv ∧
      w.elems = (t.take k ++ cs ++ t.drop (k + cs.length)).map some := by
  intro cs
  induction cs with
  | nil => intro v t k h hl; exact ⟨v, rfl, h, by simp [hl]⟩
  | cons c cs ih =>
    intro v t k h hl
    obtain ⟨w, h1, h2, h3, _⟩ := c18_step_aux g v t (.replaceOrPushBack c k) h hl
    by_cases hk : k < t.length
    · have hp : position t.length (k : Int) = some k := by simp [position, hk]
      simp only [Vec.apply, SeqOp.apply, hp] at h1 h3
      obtain ⟨u, g1, g2, g3⟩ := ih w _ (k + 1) h2 h3
      refine ⟨u, by simp [Str.overwriteLoop, h1, g1], g2, ?_⟩
      rw [g3]
      have e0 : (t.take k ++ [c]).length = k + 1 := by simp; omega
      have e1 : (t.take k ++ c :: t.drop (k + 1)).take (k + 1) = t.take k ++ [c] := by
        rw [show t.take k ++ c :: t.drop (k + 1) = (t.take k ++ [c]) ++ t.drop (k + 1) by simp, ← e0]
        exact List.take_left
      have e2 : (t.take k ++ c :: t.drop (k + 1)).drop (k + 1 + cs.length) =
          t.drop (k + (c :: cs).length) := by
        rw [show t.take k ++ c :: t.drop (k + 1) = (t.take k ++ [c]) ++ t.drop (k + 1) by simp,
          ← List.drop_drop, show k + 1 = (t.take k ++ [c]).length from e0.symm, List.drop_left, e0,
          List.drop_drop]
        congr 1; simp; omega
      rw [e1, e2]; simp
    · have hp : position t.length (k : Int) = none := by simp [position, hk]
      simp only [Vec.apply, SeqOp.apply, hp] at h1 h3
      obtain ⟨u, g1, g2, g3⟩ := ih w _ (k + 1) h2 h3
      refine ⟨u, by simp [Str.overwriteLoop, h1, g1], g2, ?_⟩
      rw [g3]
      rw [List.take_of_length_le (l := t ++ [c]) (by simp; omega), List.take_of_length_le (by omega),
        List.drop_eq_nil_of_le (by simp; omega), List.drop_eq_nil_of_le (by simp; omega)]
      simp

theorem c41_charAt_aux {s : Str} {t : Text} (h : StrHolds s t) {i : Int} {k : Nat}
    (hp : position t.length i = some k) : s.charAt i = some (t.getD k 0) := by
  have hk := Vec.position_lt hp
  have hl := c41_len_aux h
  have hi : s.chars.index (k : Int) = some k := by
    rw [Vec.index_eq]; simp only [Str.length] at hl; rw [hl]; simp [position, hk]
  have e := Vec.elems_get (v := s.chars) k
  rw [if_pos (by simp only [Str.length] at hl; omega), h.ce] at e
  simp only [Str.charAt, c41_index_aux h, hp, Vec.getAt, hi, ← e]
  simp [hk]

theorem c41_equalFrom_aux : ∀ (a b : Text), a.length = b.length → Str.equalFrom a b = decide (a = b) := by
  intro a
  induction a with
  | nil => intro b h; cases b with
    | nil => simp [Str.equalFrom]
    | cons _ _ => simp at h
  | cons x xs ih =>
    intro b h
    cases b with
    | nil => simp at h
    | cons y ys =>
      simp only [Str.equalFrom]
      by_cases e : x = y
      · subst e
        simp [ih ys (by simpa using h)]
      · simp [e]

theorem c41_equal_aux {s s' : Str} {t t' : Text} (h : StrHolds s t) (h' : StrHolds s' t') :
    s.isEqual s' = decide (t = t') := by
  simp only [Str.isEqual, c41_len_aux h, c41_len_aux h', c41_text_aux h, c41_text_aux h']
  by_cases e : t.length = t'.length
  · simp [e, c41_equalFrom_aux t t' e]
  · simp only [ne_eq, e, not_false_eq_true, if_true]
    symm; simp only [decide_eq_false_iff_not]
    intro h; exact e (by rw [h])

theorem c41_shallow_aux {α : Type} {v : Vec α} (h : v.Inv) :
    v.shallowCopy.elems = v.elems ∧ v.shallowCopy.Inv ∧ v.shallowCopy.num = v.num := by
  refine ⟨?_, ?_, rfl⟩
  · simp only [Vec.shallowCopy, Vec.elems]
    split
    · rename_i h0; simp [h0]
    · rw [List.take_take, Nat.min_self]
  · have := h.num_le
    constructor <;> simp only [Vec.shallowCopy] <;> split <;> simp <;> omega

theorem c41_copy_aux {s : Str} {t : Text} (h : StrHolds s t) : StrHolds s.copy t := by
  obtain ⟨c1, c2, c3⟩ := c41_shallow_aux h.ci
  obtain ⟨o1, o2, o3⟩ := c41_shallow_aux h.oi
  exact ⟨c2, by rw [Str.copy, c1, h.ce], o2, by
    simp only [Str.copy]; rw [o3, o1]; exact h.oe⟩

/-- all strings of a family hold their texts -/
def AllStrHold (S : Nat → Str) (T : Nat → Text) : Prop :=
  ∀ x, StrHolds (S x) (T x) ∧ ∀ c ∈ T x, _root_.Spec.Utf8.IsScalar c

theorem c41_set_aux {S : Nat → Str} {T : Nat → Text} (h : AllStrHold S T) {a : Nat} {s : Str} {t : Text}
    (hs : StrHolds s t) (ht : ∀ c ∈ t, _root_.Spec.Utf8.IsScalar c) :
    AllStrHold (setStr S a s) (setText T a t) := by
  intro x
  by_cases e : x = a
  · simp [setStr, setText, e]; exact ⟨hs, ht⟩
  · simp [setStr, setText, e]; exact h x

theorem c41_same_aux {S : Nat → Str} {T : Nat → Text} (h : AllStrHold S T) {a : Nat} {s : Str}
    (hs : StrHolds s (T a)) : AllStrHold (setStr S a s) T := by
  intro x
  by_cases e : x = a
  · subst e; simp [setStr]; exact ⟨hs, (h x).2⟩
  · simp [setStr, e]; exact h x

theorem c41_step_aux (g : Growth) {S : Nat → Str} {T : Nat → Text} (h : AllStrHold S T) (op : TextOp)
    (ha : op.Allowed T) :
    ∃ S', stringOp g S op = some (S', (op.apply T).2) ∧ AllStrHold S' (op.apply T).1 := by
  cases op with
  | push a c =>
    obtain ⟨s', h1, h2⟩ := c41_pushBack_aux g (h a).1 c
    refine ⟨_, by simp [stringOp, h1, onStr, TextOp.apply]; rfl, ?_⟩
    refine c41_set_aux h h2 ?_
    intro x hx
    rcases List.mem_append.mp hx with hx | hx
    · exact (h a).2 x hx
    · simp at hx; subst hx; exact ha
  | popFront a =>
    have hl := c41_len_aux (h a).1
    cases ht : T a with
    | nil =>
      refine ⟨_, by simp [stringOp, Str.popFront, hl, ht, onStr, TextOp.apply]; rfl, ?_⟩
      have := c41_set_aux h (a := a) (h a).1 (h a).2
      simpa [TextOp.apply, ht] using this
    | cons c cs =>
      obtain ⟨v, h1, h2, h3⟩ := c41_clearOctets_aux (h a).1
      have hh : StrHolds { S a with octets := v } (T a) := ⟨(h a).1.ci, (h a).1.ce, h2, .inl h3⟩
      rcases c41_removeAt_aux hh 0 with ⟨k, hk, s', g1, g2⟩ | ⟨hk, _⟩
      · have : k = 0 := by simp [position, ht] at hk; exact hk.symm
        subst this
        refine ⟨_, by simp [stringOp, Str.popFront, hl, ht, h1, g1, onStr, TextOp.apply]; rfl, ?_⟩
        refine c41_set_aux h (by simpa [ht] using g2) ?_
        intro x hx
        exact (h a).2 x (by rw [ht]; rw [ht] at hx; simp at hx; simp [hx])
      · simp [position, ht] at hk
  | popBack a =>
    have hl := c41_len_aux (h a).1
    by_cases ht : T a = []
    · refine ⟨_, by simp [stringOp, Str.popBack, hl, ht, onStr, TextOp.apply]; rfl, ?_⟩
      have := c41_set_aux h (a := a) (h a).1 (h a).2
      simpa [TextOp.apply, ht] using this
    · obtain ⟨v, h1, h2, h3⟩ := c41_clearOctets_aux (h a).1
      have hpos := List.length_pos_iff.mpr ht
      have hh : StrHolds { S a with octets := v } (T a) := ⟨(h a).1.ci, (h a).1.ce, h2, .inl h3⟩
      have hl' : ({ S a with octets := v } : Str).length = (T a).length := c41_len_aux hh
      have hne : (T a).length ≠ 0 := by omega
      rcases c41_removeAt_aux hh (((T a).length - 1 : Nat) : Int) with ⟨k, hk, s', g1, g2⟩ | ⟨hk, _⟩
      · have : k = (T a).length - 1 := by
          simp only [position] at hk
          split at hk
          · split at hk
            · simp only [Option.some.injEq] at hk; omega
            · cases hk
          · omega
        subst this
        refine ⟨setStr S a s', ?_, ?_⟩
        · simp only [stringOp, Str.popBack, hl, hne, if_false, h1, hl', g1, onStr, TextOp.apply]
          simp [ht]
        · refine c41_set_aux h ?_ ?_
          · rw [List.drop_eq_nil_of_le (by omega), List.append_nil, ← List.dropLast_eq_take] at g2
            exact g2
          · intro x hx; exact (h a).2 x ((List.dropLast_subset _) hx)
      · simp only [position] at hk
        split at hk
        · split at hk
          · cases hk
          · omega
        · omega
  | removeAt a i =>
    rcases c41_removeAt_aux (h a).1 i with ⟨k, hk, s', g1, g2⟩ | ⟨hk, g1⟩
    · refine ⟨_, by simp [stringOp, g1, onStr, TextOp.apply, hk]; rfl, ?_⟩
      simp only [TextOp.apply, hk]
      refine c41_set_aux h g2 ?_
      intro x hx
      rcases List.mem_append.mp hx with hx | hx
      · exact (h a).2 x (List.mem_of_mem_take hx)
      · exact (h a).2 x (List.mem_of_mem_drop hx)
    · refine ⟨_, by simp [stringOp, g1, onStr, TextOp.apply, hk]; rfl, ?_⟩
      simp only [TextOp.apply, hk]
      exact c41_same_aux h (h a).1
  | removeRun a i n =>
    have hi := c41_index_aux (h a).1 i
    cases hp : position (T a).length i with
    | none =>
      refine ⟨_, by simp [stringOp, Str.removeRun, hi, hp, onStrNum, TextOp.apply]; rfl, ?_⟩
      simp only [TextOp.apply, hp]
      exact c41_same_aux h (h a).1
    | some k =>
      have hk := Vec.position_lt hp
      by_cases hn : n = 0
      · subst hn
        refine ⟨_, by simp [stringOp, Str.removeRun, onStrNum, TextOp.apply, hp]; rfl, ?_⟩
        have := c41_set_aux h (a := a) (h a).1 (h a).2
        simpa [TextOp.apply, hp] using this
      · obtain ⟨v, h1, h2, h3⟩ := c41_clearOctets_aux (h a).1
        have hh : StrHolds { S a with octets := v } (T a) := ⟨(h a).1.ci, (h a).1.ce, h2, .inl h3⟩
        obtain ⟨s', g1, g2⟩ := c41_removeLoop_aux n _ _ k 0 hh (by omega)
        refine ⟨setStr S a s', ?_, ?_⟩
        · simp [stringOp, Str.removeRun, hn, hi, hp, h1, g1, onStrNum, TextOp.apply]
        · simp only [TextOp.apply, hp]
          refine c41_set_aux h g2 ?_
          intro x hx
          rcases List.mem_append.mp hx with hx | hx
          · exact (h a).2 x (List.mem_of_mem_take hx)
          · exact (h a).2 x (List.mem_of_mem_drop hx)
  | insert a b i =>
    have hi := c41_index_aux (h a).1 i
    cases hp : position (T a).length i with
    | none =>
      refine ⟨_, by simp [stringOp, Str.insert, hi, hp, onStr, TextOp.apply]; rfl, ?_⟩
      simp only [TextOp.apply, hp]
      exact c41_same_aux h (h a).1
    | some k =>
      have hk := Vec.position_lt hp
      obtain ⟨v, h1, h2, h3⟩ := c41_clearOctets_aux (h a).1
      obtain ⟨w, g1, g2, g3⟩ := c41_insertLoop_aux g (T b) (S a).chars (T a) k (h a).1.ci (h a).1.ce hk
      refine ⟨setStr S a { S a with chars := w, octets := v }, ?_, ?_⟩
      · simp [stringOp, Str.insert, hi, hp, h1, c41_text_aux (h b).1, g1, onStr, TextOp.apply]
      · simp only [TextOp.apply, hp]
        refine c41_set_aux h ⟨g2, g3, h2, .inl h3⟩ ?_
        intro x hx
        simp only [List.mem_append] at hx
        rcases hx with (hx | hx) | hx
        · exact (h a).2 x (List.mem_of_mem_take hx)
        · exact (h b).2 x hx
        · exact (h a).2 x (List.mem_of_mem_drop hx)
  | overwrite a b i =>
    have hi := c41_index_aux (h a).1 i
    obtain ⟨v, h1, h2, h3⟩ := c41_clearOctets_aux (h a).1
    cases hp : position (T a).length i with
    | none =>
      by_cases hneg : i < 0
      · refine ⟨_, by simp [stringOp, Str.overwrite, hi, hp, hneg, onStr, TextOp.apply]; rfl, ?_⟩
        simp only [TextOp.apply, hp, hneg, if_true]
        exact c41_same_aux h (h a).1
      · have hge : (T a).length ≤ i.toNat := by
          simp only [position] at hp
          split at hp
          · split at hp
            · cases hp
            · omega
          · omega
        obtain ⟨w, g1, g2, g3⟩ := c41_overwriteLoop_aux g (T b) (S a).chars (T a) i.toNat (h a).1.ci (h a).1.ce
        refine ⟨setStr S a { S a with chars := w, octets := v }, ?_, ?_⟩
        · simp [stringOp, Str.overwrite, hi, hp, hneg, h1, c41_text_aux (h b).1, g1, onStr, TextOp.apply]
        · simp only [TextOp.apply, hp, hneg, if_false]
          rw [List.take_of_length_le hge, List.drop_eq_nil_of_le (by omega), List.append_nil] at g3
          refine c41_set_aux h ⟨g2, g3, h2, .inl h3⟩ ?_
          intro x hx
          rcases List.mem_append.mp hx with hx | hx
          · exact (h a).2 x hx
          · exact (h b).2 x hx
    | some k =>
      obtain ⟨w, g1, g2, g3⟩ := c41_overwriteLoop_aux g (T b) (S a).chars (T a) k (h a).1.ci (h a).1.ce
      refine ⟨setStr S a { S a with chars := w, octets := v }, ?_, ?_⟩
      · simp [stringOp, Str.overwrite, hi, hp, h1, c41_text_aux (h b).1, g1, onStr, TextOp.apply]
      · simp only [TextOp.apply, hp]
        refine c41_set_aux h ⟨g2, g3, h2, .inl h3⟩ ?_
        intro x hx
        simp only [List.mem_append] at hx
        rcases hx with (hx | hx) | hx
        · exact (h a).2 x (List.mem_of_mem_take hx)
        · exact (h b).2 x hx
        · exact (h a).2 x (List.mem_of_mem_drop hx)
  | append a b =>
    have hab : a ≠ b := ha
    obtain ⟨s1, h1, h2⟩ := c41_cString_aux g (h b).1 (h b).2
    have hsame := c41_same_aux h h2
    have hnul : ∀ c ∈ beforeNul (T b), _root_.Spec.Utf8.IsScalar c ∧ c ≠ 0 := by
      intro c hc
      refine ⟨(h b).2 c (List.takeWhile_subset _ hc), ?_⟩
      have := List.all_takeWhile (p := fun c : Nat => decide (c ≠ 0)) (l := T b)
      have := List.all_eq_true.mp this c hc
      simpa using this
    obtain ⟨s2, g1, g2⟩ := c41_concatenateC_aux g (hsame a).1 hnul
    refine ⟨setStr (setStr S b s1) a s2, ?_, ?_⟩
    · simp [stringOp, h1, g1, onStr, TextOp.apply]
    · refine c41_set_aux hsame g2 ?_
      intro x hx
      rcases List.mem_append.mp hx with hx | hx
      · exact (h a).2 x hx
      · exact (hnul x hx).1
  | appendC a t =>
    obtain ⟨s2, g1, g2⟩ := c41_concatenateC_aux g (h a).1 (u := t) ha
    refine ⟨setStr S a s2, ?_, ?_⟩
    · simp only [stringOp]; rw [show (encodeText t).map (BitVec.ofNat 8) = octs t from rfl, g1]; rfl
    · refine c41_set_aux h g2 ?_
      intro x hx
      rcases List.mem_append.mp hx with hx | hx
      · exact (h a).2 x hx
      · exact (ha x hx).1
  | setC a t =>
    obtain ⟨s1, h1, h2⟩ := c41_clear_aux (h a).1
    obtain ⟨s2, g1, g2⟩ := c41_concatenateC_aux g h2 (u := t) ha
    refine ⟨setStr S a s2, ?_, ?_⟩
    · simp only [stringOp, Str.setC, h1]
      rw [show (encodeText t).map (BitVec.ofNat 8) = octs t from rfl, g1]; rfl
    · exact c41_set_aux h (by simpa using g2) (fun x hx => (ha x hx).1)
  | clear a =>
    obtain ⟨s1, h1, h2⟩ := c41_clear_aux (h a).1
    exact ⟨setStr S a s1, by simp [stringOp, h1, onStr, TextOp.apply], c41_set_aux h h2 (by simp)⟩
  | copy a b =>
    exact ⟨_, rfl, c41_set_aux h (c41_copy_aux (h b).1) (h b).2⟩
  | length a => exact ⟨S, by simp [stringOp, TextOp.apply, c41_len_aux (h a).1], h⟩
  | valid a i => exact ⟨S, by simp [stringOp, TextOp.apply, c41_index_aux (h a).1], h⟩
  | get a i =>
    cases hp : position (T a).length i with
    | none => exact absurd hp ha
    | some k =>
      exact ⟨S, by simp [stringOp, TextOp.apply, c41_charAt_aux (h a).1 hp, hp], h⟩
  | equal a b => exact ⟨S, by simp [stringOp, TextOp.apply, c41_equal_aux (h a).1 (h b).1], h⟩
  | octets a =>
    obtain ⟨s1, h1, h2⟩ := c41_cString_aux g (h a).1 (h a).2
    refine ⟨setStr S a s1, ?_, c41_same_aux h h2⟩
    simp only [stringOp, h1, TextOp.apply]
    have : (octs (beforeNul (T a))).map BitVec.toNat = encodeText (beforeNul (T a)) := by
      rw [octs, List.map_map]
      conv => rhs; rw [← List.map_id (encodeText _)]
      apply List.map_congr_left
      intro o ho
      obtain ⟨c, hc, hco⟩ := List.mem_flatMap.mp ho
      have := c41_encode_lt_aux ((h a).2 c (List.takeWhile_subset _ hc)) o hco
      simp; omega
    rw [this]
  | octetCount a =>
    obtain ⟨s1, h1, h2⟩ := c41_lengthInOctets_aux g (h a).1 (h a).2
    exact ⟨setStr S a s1, by simp [stringOp, h1, TextOp.apply], c41_same_aux h h2⟩

theorem c41_run_aux (g : Growth) : ∀ (ops : List TextOp) (S : Nat → Str) (T : Nat → Text), AllStrHold S T →
    AllAllowed T ops →
    ∃ S', runStrings g S ops = some (S', (runTexts T ops).2) ∧ AllStrHold S' (runTexts T ops).1 := by
  intro ops
  induction ops with
  | nil => intro S T h _; exact ⟨S, rfl, h⟩
  | cons op ops ih =>
    intro S T h ha
    obtain ⟨S1, h1, h2⟩ := c41_step_aux g h op ha.1
    obtain ⟨S2, g1, g2⟩ := ih S1 _ h2 ha.2
    exact ⟨S2, by simp [runStrings, h1, g1, runTexts], g2⟩

theorem c41_new_aux (g : Growth) (t : Text) (ht : ∀ c ∈ t, _root_.Spec.Utf8.IsScalar c ∧ c ≠ 0) :
    ∃ s, Str.new g ((encodeText t).map (BitVec.ofNat 8)) = some s ∧ StrHolds s t ∧ s.error = none := by
  obtain ⟨d1, d2⟩ := c41_decode_aux ht
  obtain ⟨w, g1, g2, g3⟩ := c41_pushAll_aux g t (Vec.new ((octs t).length / 4)) [] (c18_new_aux _)
    (by simp [Vec.elems, Vec.new])
  refine ⟨_, by
    rw [show (encodeText t).map (BitVec.ofNat 8) = octs t from rfl]
    simp only [Str.new, d1, d2, g1]; rfl, ⟨g2, by simpa using g3, c18_new_aux _, .inl rfl⟩, rfl⟩

/-- C41.  Take any family of strings made from UTF-8 C strings and any history of allowed
operations on them, with any way of growing the blocks: the program neither aborts nor leaves a
block, every answer (refusals, counts, characters, lengths, equality, and the C strings handed
out) is the one given by plain texts, and at the end every string has the characters of its text.
In particular a C string handed out always shows the present text, whatever was cached before, and
an operation on one string never shows in another. -/
theorem c41_strings_are_texts (g : Growth) (T : Nat → List Nat)
    (hT : ∀ x, ∀ c ∈ T x, _root_.Spec.Utf8.IsScalar c ∧ c ≠ 0) (S : Nat → Str)
    (hS : ∀ x, Str.new g ((encodeText (T x)).map (BitVec.ofNat 8)) = some (S x))
    (ops : List TextOp) (ha : AllAllowed T ops) :
    ∃ S', runStrings g S ops = some (S', (runTexts T ops).2) ∧
      ∀ x, (S' x).text = (runTexts T ops).1 x := by
  have h0 : AllStrHold S T := by
    intro x
    obtain ⟨s, h1, h2, _⟩ := c41_new_aux g (T x) (hT x)
    rw [hS x] at h1; cases h1
    exact ⟨h2, fun c hc => (hT x c hc).1⟩
  obtain ⟨S', h1, h2⟩ := c41_run_aux g ops S T h0 ha
  exact ⟨S', h1, fun x => c41_text_aux (h2 x).1⟩

/-- The family exists: every text without U+0000 can be made into a string, without an error. -/
theorem c41_new_text (g : Growth) (t : List Nat)
    (ht : ∀ c ∈ t, _root_.Spec.Utf8.IsScalar c ∧ c ≠ 0) :
    ∃ s, Str.new g ((encodeText t).map (BitVec.ofNat 8)) = some s ∧ s.text = t ∧ s.error = none := by
  obtain ⟨s, h1, h2, h3⟩ := c41_new_aux g t ht
  exact ⟨s, h1, c41_text_aux h2, h3⟩

-- a history that meets the hypotheses: caches are filled and become stale in between
def c41_ops : List TextOp :=
  [.appendC 0 (txt "kissa"), .octets 0, .insert 0 1 (-2), .octets 0, .overwrite 0 1 20, .octetCount 0,
   .removeRun 0 2 3, .copy 2 0, .push 2 0, .push 2 0x20AC, .octets 2, .octetCount 2, .append 0 2,
   .popFront 0, .popBack 0, .get 0 (-1), .removeAt 0 100, .equal 0 2, .octets 0]
example : AllAllowed (fun x => if x = 1 then [0xE9, 0x41] else []) c41_ops := by
  simp only [c41_ops, AllAllowed, TextOp.Allowed]
  decide +kernel
example : (runTexts (fun x => if x = 1 then [0xE9, 0x41] else []) c41_ops).2.drop 12 =
    [.bool true, .bool true, .bool true, .number 0xE9, .bool false, .bool false,
      .octets [105, 115, 97, 195, 169, 65, 107, 105, 115, 97, 195, 169]] := by decide +kernel
example : (runStrings Growth.exact (fun x => if x = 1 then
      (Str.new Growth.exact [0xC3, 0xA9, 0x41]).getD ⟨Vec.new 1, Vec.new 1, none⟩
    else ⟨Vec.new 1, Vec.new 1, none⟩) c41_ops).map (·.2.drop 12) =
    some [.bool true, .bool true, .bool true, .number 0xE9, .bool false, .bool false,
      .octets [105, 115, 97, 195, 169, 65, 107, 105, 115, 97, 195, 169]] := by decide +kernel

end Dern.Props
