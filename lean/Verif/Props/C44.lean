import Verif.Core.Search
import Verif.Core.VectorLemmas
import Verif.Spec.Search
/-
C44: searching, comparing ends, removing substrings and splitting.
-/
namespace Dern.Props
open Dern Dern.Spec

theorem c44_index_aux (s : Text) (i : Int) : textIndex s i = position s.length i := by
  unfold textIndex position
  generalize s.length = n
  by_cases h : i < 0
  · have h0 : ¬ 0 ≤ i := by omega
    simp only [h, h0, if_true, if_false]
    by_cases h2 : -(n : Int) ≤ i
    · have h3 : (n : Int) + i ≥ 0 ∧ (n : Int) + i < n := by omega
      simp only [h2, h3, if_true, and_self]
    · have h3 : ¬ ((n : Int) + i ≥ 0 ∧ (n : Int) + i < n) := by omega
      simp only [h2, h3, if_false]
  · have h0 : 0 ≤ i := by omega
    simp only [h, h0, if_true, if_false]
    by_cases h2 : i < n
    · have h3 : i.toNat < n := by omega
      simp only [h2, h3, if_true]
    · have h3 : ¬ i.toNat < n := by omega
      simp only [h2, h3, if_false]

theorem c44_occurs_aux {sub s : Text} {k : Nat} :
    OccursAt sub s k ↔ k ≤ s.length ∧ sub <+: s.drop k := by
  constructor
  · rintro ⟨a, b, rfl, rfl⟩
    refine ⟨by simp, b, ?_⟩
    simp
  · rintro ⟨h, b, hb⟩
    refine ⟨s.take k, b, ?_, by simp [h]⟩
    rw [List.append_assoc, hb, List.take_append_drop]

theorem c44_occurs_take_aux {sub s : Text} {k : Nat} :
    OccursAt sub s k ↔ k + sub.length ≤ s.length ∧ (s.drop k).take sub.length = sub := by
  rw [c44_occurs_aux, List.prefix_iff_eq_take]
  constructor
  · rintro ⟨h1, h2⟩
    refine ⟨?_, h2.symm⟩
    have := congrArg List.length h2
    simp at this; omega
  · rintro ⟨h1, h2⟩
    exact ⟨by omega, h2.symm⟩

theorem c44_match_aux (s : Text) : ∀ (sub : Text) (k : Nat), matchFrom s k sub = true ↔ sub <+: s.drop k := by
  intro sub
  induction sub with
  | nil => intro k; simp [matchFrom]
  | cons c cs ih =>
    intro k
    simp only [matchFrom]
    by_cases hk : k < s.length
    · rw [List.getElem?_eq_getElem hk, List.drop_eq_getElem_cons hk, List.cons_prefix_cons]
      by_cases e : s[k] = c
      · simp [e, ih]
      · simp only [ne_eq, e, not_false_eq_true, if_true, Bool.false_eq_true, false_iff]
        rintro ⟨h, _⟩; exact e h.symm
    · rw [List.getElem?_eq_none (by omega), List.drop_eq_nil_of_le (by omega)]
      simp

theorem c44_loop_aux (s sub : Text) : ∀ (n i : Nat),
    (findLoop s sub n i = -1 ∧ ∀ k, i ≤ k → k < i + n → ¬ sub <+: s.drop k) ∨
    ∃ k : Nat, findLoop s sub n i = k ∧ i ≤ k ∧ k < i + n ∧ sub <+: s.drop k ∧
      ∀ j, i ≤ j → j < k → ¬ sub <+: s.drop j := by
  intro n
  induction n with
  | zero => intro i; exact .inl ⟨rfl, by omega⟩
  | succ n ih =>
    intro i
    by_cases h : matchFrom s i sub = true
    · exact .inr ⟨i, by simp [findLoop, h], by omega, by omega, (c44_match_aux s sub i).mp h, by omega⟩
    · have hn : ¬ sub <+: s.drop i := fun hp => h ((c44_match_aux s sub i).mpr hp)
      rcases ih (i + 1) with ⟨h1, h2⟩ | ⟨k, h1, h2, h3, h4, h5⟩
      · refine .inl ⟨by simp [findLoop, h, h1], ?_⟩
        intro k hk hk2
        by_cases e : k = i
        · subst e; exact hn
        · exact h2 k (by omega) (by omega)
      · refine .inr ⟨k, by simp [findLoop, h, h1], by omega, by omega, h4, ?_⟩
        intro j hj hj2
        by_cases e : j = i
        · subst e; exact hn
        · exact h5 j (by omega) hj2

/-- C44, finding.  From a valid position the first occurrence at or after it is reported, and -1
exactly if there is none; from a position that is not valid, -1. -/
theorem c44_find_first (s sub : Text) (start : Int) :
    match position s.length start with
    | none => findFirst s start sub = -1
    | some r =>
      (∃ k : Nat, findFirst s start sub = k ∧ r ≤ k ∧ OccursAt sub s k ∧
        ∀ j, r ≤ j → OccursAt sub s j → k ≤ j) ∨
      (findFirst s start sub = -1 ∧ ∀ j, r ≤ j → ¬ OccursAt sub s j) := by
  cases hp : position s.length start with
  | none => simp [findFirst, c44_index_aux, hp]
  | some r =>
    have hr := Vec.position_lt hp
    simp only [findFirst, c44_index_aux, hp]
    rcases c44_loop_aux s sub s.length r with ⟨h1, h2⟩ | ⟨k, h1, h2, h3, h4, h5⟩
    · refine .inr ⟨h1, ?_⟩
      intro j hj ho
      have ho' := c44_occurs_aux.mp ho
      by_cases hs : sub = []
      · subst hs
        exact h2 r (Nat.le_refl _) (by omega) (by simp)
      · have hl := (c44_occurs_take_aux.mp ho).1
        have := List.length_pos_iff.mpr hs
        exact h2 j hj (by omega) ho'.2
    · refine .inl ⟨k, h1, h2, ?_, ?_⟩
      · refine c44_occurs_aux.mpr ⟨?_, h4⟩
        by_cases hs : sub = []
        · subst hs
          by_cases hk : k = r
          · omega
          · exact absurd (by simp) (h5 r (Nat.le_refl _) (by omega))
        · have := List.length_pos_iff.mpr hs
          have h6 := h4.length_le
          simp at h6; omega
      · intro j hj ho
        exact Nat.le_of_not_lt fun hc => h5 j hj hc (c44_occurs_aux.mp ho).2

theorem c44_removeAll_aux (sub : Text) (hs : sub ≠ []) : ∀ (fuel : Nat) (s : Text) (count : Nat), s.length < fuel →
    ∃ r n, removeAll fuel s sub count = some (r, count + n) ∧ Stripped sub s r n ∧
      s.length = r.length + n * sub.length := by
  have hpos := List.length_pos_iff.mpr hs
  intro fuel
  induction fuel with
  | zero => intro s count h; omega
  | succ fuel ih =>
    intro s count h
    by_cases h0 : s = []
    · refine ⟨s, 0, by simp [removeAll, h0], .done ?_, by simp⟩
      rintro ⟨k, hk⟩
      have := (c44_occurs_take_aux.mp hk).1
      rw [h0] at this
      exact absurd this (Nat.not_le.mpr (by show 0 < k + sub.length; omega))
    · have hl := List.length_pos_iff.mpr h0
      have hp : position s.length 0 = some 0 := by simp [position, hl]
      have := c44_find_first s sub 0
      rw [hp] at this
      rcases this with ⟨k, h1, _, h3, h4⟩ | ⟨h1, h2⟩
      · obtain ⟨a, b, hab, hak⟩ := h3
        have hk : k + sub.length ≤ s.length := by
          rw [hab, ← hak]; simp
        have hpk : position s.length (k : Int) = some k := by
          simp [position]; omega
        have hrem : removeRun s k sub.length = (a ++ b, sub.length) := by
          simp only [removeRun, c44_index_aux, hpk]
          rw [if_neg (by omega)]
          have e1 : s.take k = a := by rw [hab, ← hak]; simp
          have e2 : s.drop (k + sub.length) = b := by
            rw [hab, ← hak, ← List.length_append, List.drop_left]
          rw [e1, e2, Nat.min_eq_left (by omega)]
        have hlen : (a ++ b).length + sub.length = s.length := by rw [hab]; simp; omega
        obtain ⟨r, n, g1, g2, g3⟩ := ih (a ++ b) (count + 1) (by omega)
        refine ⟨r, n + 1, ?_, .more ⟨hab, ?_⟩ g2, ?_⟩
        · simp only [removeAll, h0, if_false, h1]
          rw [if_neg (by omega), hrem]
          simp only [ne_eq, show ¬ sub.length = 0 by omega, not_false_eq_true, if_true, g1]
          congr 2; omega
        · intro j hj; rw [hak]; exact h4 j (by omega) hj
        · rw [Nat.add_mul]; omega
      · refine ⟨s, 0, by simp [removeAll, h0, h1], .done ?_, by simp⟩
        rintro ⟨k, hk⟩
        exact h2 k (by omega) hk

theorem c44_stripped_aux {sub s r : Text} {n : Nat} (h : Stripped sub s r n) : ¬ Occurs sub r := by
  induction h with
  | done h => exact h
  | more _ _ ih => exact ih

/-- C44, removing.  Removing all occurrences of a text that is not empty always ends: what is left
is the text with its first occurrence taken out again and again until there is none, so no
occurrence is left (not even one made by the removals), and the count told is the number taken
out. -/
theorem c44_remove_all (s sub : Text) (hs : sub ≠ []) :
    ∃ r n, (∀ fuel, s.length < fuel → removeAll fuel s sub 0 = some (r, n)) ∧ Stripped sub s r n ∧
      ¬ Occurs sub r ∧ s.length = r.length + n * sub.length := by
  obtain ⟨r, n, h1, h2, h3⟩ := c44_removeAll_aux sub hs (s.length + 1) s 0 (by omega)
  refine ⟨r, n, ?_, h2, c44_stripped_aux h2, h3⟩
  have det : ∀ {s r r' : Text} {n n' : Nat}, Stripped sub s r n → Stripped sub s r' n' → r = r' ∧ n = n' := by
    intro s r r' n n' h
    induction h generalizing r' n' with
    | done h =>
      intro h'
      cases h' with
      | done _ => exact ⟨rfl, rfl⟩
      | more hc _ => exact absurd ⟨_, _, _, hc.1, rfl⟩ h
    | @more s a b _ _ hc _ ih =>
      intro h'
      cases h' with
      | done h => exact absurd ⟨_, _, _, hc.1, rfl⟩ h
      | @more _ a' b' _ _ hc' h2 =>
        have e1 := hc.2 _ ⟨a', b', hc'.1, rfl⟩
        have e2 := hc'.2 _ ⟨a, b, hc.1, rfl⟩
        have e := hc.1.symm.trans hc'.1
        rw [List.append_assoc, List.append_assoc] at e
        obtain ⟨rfl, e3⟩ := List.append_inj e (by omega)
        have e4 := List.append_cancel_left e3
        subst e4
        obtain ⟨rfl, rfl⟩ := ih h2
        exact ⟨rfl, rfl⟩
  intro fuel hf
  obtain ⟨r', n', g1, g2, _⟩ := c44_removeAll_aux sub hs fuel s 0 hf
  obtain ⟨rfl, rfl⟩ := det h2 g2
  simpa using g1

/-- Removing the empty text from a text that is not empty never ends. -/
theorem c44_remove_empty_hangs (s : Text) (hs : s ≠ []) : ∀ fuel count, removeAll fuel s [] count = none := by
  have hl := List.length_pos_iff.mpr hs
  have hp : position s.length 0 = some 0 := by simp [position, hl]
  intro fuel
  induction fuel with
  | zero => intro _; rfl
  | succ fuel ih =>
    intro count
    have hf : findFirst s 0 [] = 0 := by
      simp only [findFirst, c44_index_aux, hp]
      obtain ⟨n, hn⟩ : ∃ n, s.length = n + 1 := ⟨s.length - 1, by omega⟩
      rw [hn]
      simp [findLoop, matchFrom]
    simp [removeAll, hs, hf, removeRun, ih]

theorem c44_same_aux (s : Text) : ∀ (t : Text) (k : Nat), k + t.length ≤ s.length →
    sameFrom s k t = some (decide ((s.drop k).take t.length = t)) := by
  intro t
  induction t with
  | nil => intro k _; simp [sameFrom]
  | cons c cs ih =>
    intro k h
    simp only [List.length_cons] at h
    have hk : k < s.length := by omega
    simp only [sameFrom, List.getElem?_eq_getElem hk]
    rw [List.drop_eq_getElem_cons hk]
    by_cases e : s[k] = c
    · simp [e, ih (k + 1) (by omega)]
    · have e' : ¬ (s[k] :: s.drop (k + 1)).take (cs.length + 1) = c :: cs := by
        rw [List.take_succ_cons]; intro h; exact e (List.cons.inj h).1
      simp only [ne_eq, e, not_false_eq_true, if_true, List.length_cons, e', decide_false]

/-- C44, beginnings: exactly the texts that begin with the other. -/
theorem c44_starts_with (s t : Text) : ∃ b, startsWith s t = some b ∧ (b = true ↔ ∃ r, s = t ++ r) := by
  unfold startsWith
  by_cases h : s.length < t.length
  · refine ⟨false, if_pos h, by simp, ?_⟩
    rintro ⟨r, rfl⟩; simp at h; omega
  · refine ⟨_, by rw [if_neg h, c44_same_aux s t 0 (by omega)], ?_⟩
    simp only [List.drop_zero, decide_eq_true_eq]
    constructor
    · intro e; exact ⟨s.drop t.length, by conv => lhs; rw [← List.take_append_drop t.length s, e]⟩
    · rintro ⟨r, rfl⟩; simp

/-- C44, ends: exactly the texts that end with the other. -/
theorem c44_ends_with (s t : Text) : ∃ b, endsWith s t = some b ∧ (b = true ↔ ∃ r, s = r ++ t) := by
  unfold endsWith
  by_cases h : s.length < t.length
  · refine ⟨false, if_pos h, by simp, ?_⟩
    rintro ⟨r, rfl⟩; simp at h; omega
  · refine ⟨_, by rw [if_neg h, c44_same_aux s t _ (by omega)], ?_⟩
    rw [List.take_of_length_le (by simp; omega)]
    simp only [decide_eq_true_eq]
    constructor
    · intro e
      exact ⟨s.take (s.length - t.length), by
        conv => lhs; rw [← List.take_append_drop (s.length - t.length) s, e]⟩
    · rintro ⟨r, rfl⟩; simp

/-- C44, characters: membership, and being made of given characters only. -/
theorem c44_contains (s : Text) (c : Ch) : containsChar s c = decide (c ∈ s) := by
  induction s with
  | nil => simp [containsChar]
  | cons d ds ih =>
    simp only [containsChar, ih]
    by_cases e : d = c
    · simp [e]
    · have : ¬ c = d := fun h => e h.symm
      simp [e, this]

theorem c44_contains_only (s chars : Text) : containsOnly s chars = decide (∀ c ∈ s, c ∈ chars) := by
  induction s with
  | nil => simp [containsOnly]
  | cons d ds ih =>
    simp only [containsOnly, ih, c44_contains]
    by_cases e : d ∈ chars
    · simp [e]
    · simp [e]

theorem c44_findChar_aux (c : Ch) : ∀ (s : Text) (i : Nat),
    (findCharLoop c i s).Pairwise (· < ·) ∧ ∀ k, k ∈ findCharLoop c i s ↔ i ≤ k ∧ s[k - i]? = some c := by
  intro s
  induction s with
  | nil => intro i; simp [findCharLoop]
  | cons d ds ih =>
    intro i
    obtain ⟨h1, h2⟩ := ih (i + 1)
    have hmem : ∀ k, i + 1 ≤ k → (d :: ds)[k - i]? = ds[k - (i + 1)]? := by
      intro k hk
      rw [show k - i = (k - (i + 1)) + 1 by omega, List.getElem?_cons_succ]
    by_cases e : d = c
    · subst e
      simp only [findCharLoop, if_true]
      refine ⟨List.pairwise_cons.mpr ⟨fun k hk => ?_, h1⟩, fun k => ?_⟩
      · have := (h2 k).mp hk; omega
      · rw [List.mem_cons, h2]
        constructor
        · rintro (rfl | ⟨ha, hb⟩)
          · simp
          · exact ⟨by omega, by rw [hmem k ha]; exact hb⟩
        · rintro ⟨ha, hb⟩
          by_cases hk : k = i
          · exact .inl hk
          · exact .inr ⟨by omega, by rw [← hmem k (by omega)]; exact hb⟩
    · simp only [findCharLoop, e, if_false]
      refine ⟨h1, fun k => ?_⟩
      rw [h2]
      constructor
      · rintro ⟨ha, hb⟩; exact ⟨by omega, by rw [hmem k ha]; exact hb⟩
      · rintro ⟨ha, hb⟩
        by_cases hk : k = i
        · subst hk; simp at hb; exact absurd hb e
        · exact ⟨by omega, by rw [← hmem k (by omega)]; exact hb⟩

/-- C44, all positions of a character: ascending, exactly where it is; nothing only if no
character is named. -/
theorem c44_find_char (s character : Text) (i : Int) :
    match position character.length i with
    | none => findChar s character i = none
    | some r => ∃ l, findChar s character i = some l ∧ l.Pairwise (· < ·) ∧
        ∀ k, k ∈ l ↔ k < s.length ∧ s[k]? = character[r]? := by
  cases hp : position character.length i with
  | none => simp [findChar, c44_index_aux, hp]
  | some r =>
    have hr := Vec.position_lt hp
    obtain ⟨h1, h2⟩ := c44_findChar_aux character[r] s 0
    refine ⟨_, by simp [findChar, c44_index_aux, hp, List.getElem?_eq_getElem hr], h1, fun k => ?_⟩
    rw [h2, List.getElem?_eq_getElem hr]
    constructor
    · rintro ⟨_, hb⟩
      rw [Nat.sub_zero] at hb
      refine ⟨Nat.lt_of_not_le fun hc => ?_, hb⟩
      rw [List.getElem?_eq_none (by omega)] at hb
      cases hb
    · rintro ⟨_, hb⟩; exact ⟨by omega, hb⟩

theorem c44_isStringAt_aux (s : Text) : ∀ (t : Text) (k : Nat), isStringAt s k t = matchFrom s k t := by
  intro t
  induction t with
  | nil => intro k; rfl
  | cons c cs ih =>
    intro k
    simp only [isStringAt, matchFrom, ih]
    by_cases h : k < s.length
    · simp [List.getElem?_eq_getElem h, show ¬ k ≥ s.length by omega]
    · rw [if_pos (by omega), List.getElem?_eq_none (by omega)]

/-- C44, all positions of a text: the part of `str` from `start` of `n` characters is looked for;
its positions come in ascending order and overlapping ones are all there. -/
theorem c44_find_string (s str : Text) (start : Int) (n : Nat) :
    match position str.length start with
    | none => findString s str start n = none
    | some r =>
      if 1 ≤ n ∧ r + n ≤ str.length then
        ∃ l, findString s str start n = some l ∧ l.Pairwise (· < ·) ∧
          ∀ k, k ∈ l ↔ OccursAt ((str.drop r).take n) s k
      else findString s str start n = none := by
  cases hp : position str.length start with
  | none => simp [findString, c44_index_aux, hp]
  | some r =>
    simp only
    split
    · rename_i h
      refine ⟨_, by
        simp only [findString, c44_index_aux, hp]
        rw [if_neg (by omega), if_neg (by omega)], List.Pairwise.filter _ List.pairwise_lt_range, fun k => ?_⟩
      rw [List.mem_filter, List.mem_range, c44_isStringAt_aux, c44_match_aux, c44_occurs_aux]
      have hlen : ((str.drop r).take n).length = n := by simp; omega
      constructor
      · rintro ⟨h1, h2⟩; exact ⟨by omega, h2⟩
      · rintro ⟨h1, h2⟩
        refine ⟨?_, h2⟩
        have := h2.length_le
        rw [hlen] at this; simp at this; omega
    · rename_i h
      by_cases hn : n = 0
      · simp [findString, hn]
      · simp only [findString, c44_index_aux, hp]
        rw [if_neg hn, if_pos (by omega)]

theorem c44_turn_aux {d : Text} (hd : d ≠ []) (c : Text) (res : List Text) :
    (c = d ∧ splitTurn d c res = some ([], res)) ∨
    (∃ a, a ≠ [] ∧ c = a ++ d ∧ splitTurn d c res = some ([], res ++ [a])) ∨
    ((¬ ∃ r, c = r ++ d) ∧ splitTurn d c res = some (c, res)) := by
  have hpos := List.length_pos_iff.mpr hd
  by_cases h1 : c = d
  · exact .inl ⟨h1, by simp [splitTurn, h1]⟩
  · by_cases h2 : ∃ r, c = r ++ d
    · obtain ⟨a, rfl⟩ := h2
      refine .inr (.inl ⟨a, fun e => h1 (by simp [e]), rfl, ?_⟩)
      have hw : endsWith (a ++ d) d = some true := by
        obtain ⟨b, h, hb⟩ := c44_ends_with (a ++ d) d
        rw [h, hb.mpr ⟨a, rfl⟩]
      have hsub : newSubstring (a ++ d) 0 ((a ++ d).length - d.length) = some a := by
        unfold newSubstring
        rw [if_neg (by simp; omega)]
        simp
      simp only [splitTurn, h1, if_false, hw, hsub]
    · have hw : endsWith c d = some false := by
        obtain ⟨b, h, hb⟩ := c44_ends_with c d
        rw [h, Bool.eq_false_iff.mpr fun e => h2 (hb.mp e)]
      exact .inr (.inr ⟨h2, by simp only [splitTurn, h1, if_false, hw]⟩)

theorem c44_not_nil_aux {d : Text} (hd : d ≠ []) : ¬ Occurs d [] := by
  rintro ⟨k, hk⟩
  have h := (c44_occurs_take_aux.mp hk).1
  have hp := List.length_pos_iff.mpr hd
  exact absurd h (Nat.not_le.mpr (by show 0 < k + d.length; omega))

/-- an occurrence in a text is one in a longer text -/
theorem c44_short_aux {d c x : Text} {k : Nat} (h : OccursAt d (c ++ x) k) (hk : k + d.length ≤ c.length) :
    OccursAt d c k := by
  rw [c44_occurs_take_aux] at *
  refine ⟨hk, ?_⟩
  have := h.2
  rw [List.drop_append_of_le_length (by omega), List.take_append_of_le_length (by simp; omega)] at this
  exact this

theorem c44_split_aux {d : Text} (hd : d ≠ []) : ∀ (cs c : Text) (res : List Text), ¬ Occurs d c →
    ∃ c' res' ps, splitLoop d cs c res = some (c', res') ∧ Pieces d (c ++ cs) ps ∧ ¬ Occurs d c' ∧
      res' ++ (if c' = [] then [] else [c']) = res ++ ps.filter (· ≠ []) := by
  have hpos := List.length_pos_iff.mpr hd
  intro cs
  induction cs with
  | nil =>
    intro c res h
    refine ⟨c, res, [c], rfl, by simpa using Pieces.last h, h, ?_⟩
    by_cases e : c = []
    · simp [e]
    · simp [e]
  | cons x xs ih =>
    intro c res h
    have happ : c ++ x :: xs = c ++ [x] ++ xs := by simp
    rcases c44_turn_aux hd (c ++ [x]) res with ⟨h1, h2⟩ | ⟨a, ha, h1, h2⟩ | ⟨h1, h2⟩
    · obtain ⟨c', res', ps, g1, g2, g3, g4⟩ := ih [] res (c44_not_nil_aux hd)
      refine ⟨c', res', [] :: ps, by simp only [splitLoop, h2, g1], ?_, g3, by simpa using g4⟩
      refine .cut (b := xs) ⟨by rw [happ, h1]; rfl, fun k _ => by simp⟩ (by simpa using g2)
    · obtain ⟨c', res', ps, g1, g2, g3, g4⟩ := ih [] (res ++ [a]) (c44_not_nil_aux hd)
      refine ⟨c', res', a :: ps, by simp only [splitLoop, h2, g1], ?_, g3, ?_⟩
      · refine .cut (b := xs) ⟨by rw [happ, h1], fun k hk => ?_⟩ (by simpa using g2)
        refine Nat.le_of_not_lt fun hc => ?_
        have hl := congrArg List.length h1
        simp at hl
        exact h ⟨k, c44_short_aux hk (by omega)⟩
      · rw [g4]; simp [ha]
    · have hno : ¬ Occurs d (c ++ [x]) := by
        rintro ⟨k, hk⟩
        have hkl := (c44_occurs_take_aux.mp hk)
        by_cases e : k + d.length ≤ c.length
        · exact h ⟨k, c44_short_aux hk e⟩
        · obtain ⟨a, b, hab, hak⟩ := hk
          have hl := congrArg List.length hab
          simp at hl
          have : b = [] := List.length_eq_zero_iff.mp (by omega)
          subst this
          exact h1 ⟨a, by simpa using hab⟩
      obtain ⟨c', res', ps, g1, g2, g3, g4⟩ := ih (c ++ [x]) res hno
      exact ⟨c', res', ps, by simp only [splitLoop, h2, g1], by rw [happ]; exact g2, g3, g4⟩

/-- C44, splitting by a delimiter that is not empty: the pieces between the occurrences of the
delimiter, taken from the left, without the empty ones. -/
theorem c44_split (s d : Text) (hd : d ≠ []) :
    ∃ ps, Pieces d s ps ∧ split s d = some (ps.filter (· ≠ [])) := by
  obtain ⟨c, res, ps, h1, h2, h3, h4⟩ := c44_split_aux hd s [] [] (c44_not_nil_aux hd)
  refine ⟨ps, by simpa using h2, ?_⟩
  rw [List.nil_append] at h4
  simp only [split, h1]
  by_cases e : c = []
  · simpa [e] using h4
  · simp only [e, if_false] at h4 ⊢
    rcases c44_turn_aux hd c res with ⟨g1, _⟩ | ⟨a, _, g1, _⟩ | ⟨_, g2⟩
    · exact absurd ⟨0, [], [], by simp [g1], rfl⟩ h3
    · exact absurd ⟨a.length, a, [], by simp [g1], rfl⟩ h3
    · rw [g2, ← h4]
      cases c with
      | nil => exact absurd rfl e
      | cons _ _ => rfl

/-- The pieces put together again with the delimiter give the text, and no piece has the delimiter
in it: nothing is lost but delimiters and empty pieces. -/
theorem c44_pieces (d s : Text) (ps : List Text) (h : Pieces d s ps) :
    d.intercalate ps = s ∧ ps ≠ [] ∧ (d ≠ [] → ∀ p ∈ ps, ¬ Occurs d p) := by
  induction h with
  | last h => simp [List.intercalate, h]
  | cut hc hp ih =>
    rename_i s a b ps
    obtain ⟨i1, i2, i3⟩ := ih
    refine ⟨?_, by simp, ?_⟩
    · obtain ⟨p, ps, rfl⟩ := List.exists_cons_of_ne_nil i2
      have : d.intercalate (a :: p :: ps) = a ++ d ++ d.intercalate (p :: ps) := by
        simp [List.intercalate]
      rw [this, i1, ← hc.1]
    · intro hd p hp
      rcases List.mem_cons.mp hp with rfl | hp
      · rintro ⟨k, x, y, hxy, hk⟩
        have h1 := hc.2 k ⟨x, y ++ d ++ b, by rw [hc.1, hxy]; simp, hk⟩
        have h2 := congrArg List.length hxy
        have := List.length_pos_iff.mpr hd
        simp at h2; omega
      · exact i3 hd p hp

/-- Splitting a text that is not empty by the empty text fails (an assertion). -/
theorem c44_split_empty_aborts (c : Ch) (cs : Text) : split (c :: cs) [] = none := by
  have hw : endsWith [c] [] = some true := by
    obtain ⟨b, h, hb⟩ := c44_ends_with [c] []
    rw [h, hb.mpr ⟨[c], by simp⟩]
  simp [split, splitLoop, splitTurn, hw, newSubstring]

-- examples
example : findFirst (txt "abcabc") (-3) (txt "bc") = 4 ∧ findFirst (txt "abcabc") 0 (txt "cb") = -1 := by decide
example : removeAll 20 (txt "xaabbx") (txt "ab") 0 = some (txt "xx", 2) := by decide
example : split (txt "--ab--c----d--") (txt "--") = some [txt "ab", txt "c", txt "d"] := by decide
example : findString (txt "aaaa") (txt "xaa") 1 2 = some [0, 1, 2] := by decide

end Dern.Props
