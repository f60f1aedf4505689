import Verif.Core.Base64
import Verif.Spec.Base64
/-
C68: base64.  What octaspire_helpers_base64_encode writes is the base64 of RFC 4648, whatever the line length, and octaspire_helpers_base64_decode reads it
back.
-/
namespace Dern.Props
open Dern Dern.Base64
open Dern.Spec (base64 b64Char lined isB64 blank)

/-- `isspace`, on ASCII -/
def SpaceOk (sp : Nat → Bool) : Prop := ∀ c < 128, sp c = blank c

/-! ### Proofs -/

theorem c68_four_aux {a b c : Nat} (ha : a < 256) (hb : b < 256) (hc : c < 256) :
    fourNumbers a b c = [a / 4, a % 4 * 16 + b / 16, b % 16 * 4 + c / 64, c % 64] := by
  have h63 : ∀ x : Nat, x &&& 63 = x % 64 := fun x => Nat.and_two_pow_sub_one_eq_mod x 6
  simp only [fourNumbers, h63, Nat.shiftLeft_eq, Nat.shiftRight_eq_div_pow, Nat.reduceSub, Nat.reduceMul, Nat.reducePow, List.cons.injEq, and_true]
  omega

theorem c68_three_aux {a b c : Nat} (ha : a < 256) (hb : b < 256) (hc : c < 256) :
    threeOctets (a / 4) (a % 4 * 16 + b / 16) (b % 16 * 4 + c / 64) (c % 64) = [a, b, c] := by
  have h63 : ∀ x : Nat, x &&& 63 = x % 64 := fun x => Nat.and_two_pow_sub_one_eq_mod x 6
  have h255 : ∀ x : Nat, x &&& 255 = x % 256 := fun x => Nat.and_two_pow_sub_one_eq_mod x 8
  simp only [threeOctets, h63, h255, Nat.shiftLeft_eq, Nat.shiftRight_eq_div_pow, Nat.reduceSub, Nat.reduceMul, Nat.reducePow, List.cons.injEq, and_true]
  omega

theorem c68_back_aux {i j k l : Nat} (hi : i < 64) (hj : j < 64) (hk : k < 64) (hl : l < 64) : ∃ a b c, a < 256 ∧ b < 256 ∧ c < 256 ∧
    threeOctets i j k l = [a, b, c] ∧ a / 4 = i ∧ a % 4 * 16 + b / 16 = j ∧ b % 16 * 4 + c / 64 = k ∧ c % 64 = l := by
  refine ⟨i * 4 + j / 16, j % 16 * 16 + k / 4, k % 4 * 64 + l, by omega, by omega, by omega, ?_, by omega, by omega, by omega, by omega⟩
  have := c68_three_aux (a := i * 4 + j / 16) (b := j % 16 * 16 + k / 4) (c := k % 4 * 64 + l) (by omega) (by omega) (by omega)
  rw [← this]
  congr 1 <;> omega

theorem c68_chars_aux {n : Nat} (h : n < 64) : base64chars.getD n 0 = b64Char n := by
  have : ∀ n : Fin 64, base64chars.getD n 0 = b64Char n := by decide +kernel
  exact this ⟨n, h⟩

theorem c68_num_aux {n : Nat} (h : n < 64) : charIntoNum (b64Char n) = n := by
  have : ∀ n : Fin 64, charIntoNum (b64Char n) = n := by decide
  exact this ⟨n, h⟩

theorem c68_plain_aux {n : Nat} (h : n < 64) : b64Char n < 128 ∧ blank (b64Char n) = false ∧ b64Char n ≠ 61 ∧ b64Char n ≠ 10 ∧ isB64 (b64Char n) = true := by
  have : ∀ n : Fin 64, b64Char n < 128 ∧ blank (b64Char n) = false ∧ b64Char n ≠ 61 ∧ b64Char n ≠ 10 ∧ isB64 (b64Char n) = true := by decide
  exact this ⟨n, h⟩

theorem c68_isB64_aux {c : Nat} : charIntoNum c = 64 ↔ isB64 c = false := by
  unfold charIntoNum isB64
  simp only [Bool.or_eq_false_iff, Bool.and_eq_false_iff, decide_eq_false_iff_not]
  repeat' split
  all_goals omega

theorem c68_char_aux {c : Nat} (h : charIntoNum c ≠ 64) : charIntoNum c < 64 ∧ b64Char (charIntoNum c) = c := by
  unfold charIntoNum b64Char at *
  repeat' split at h
  all_goals (repeat' split)
  all_goals omega

/-- the characters before the last ones are replaced by paddings -/
def c68Digits : List Nat → List Nat
  | [] => []
  | [a] => [b64Char (a / 4), b64Char (a % 4 * 16), b64Char 0, b64Char 0]
  | [a, b] => [b64Char (a / 4), b64Char (a % 4 * 16 + b / 16), b64Char (b % 16 * 4), b64Char 0]
  | a :: b :: c :: xs => b64Char (a / 4) :: b64Char (a % 4 * 16 + b / 16) :: b64Char (b % 16 * 4 + c / 64) :: b64Char (c % 64) :: c68Digits xs

theorem c68_group_aux {a b c : Nat} (ha : a < 256) (hb : b < 256) (hc : c < 256) : (fourNumbers a b c).map (fun n => base64chars.getD n 0) =
    [b64Char (a / 4), b64Char (a % 4 * 16 + b / 16), b64Char (b % 16 * 4 + c / 64), b64Char (c % 64)] := by
  rw [c68_four_aux ha hb hc]
  simp only [List.map_cons, List.map_nil]
  rw [c68_chars_aux (by omega), c68_chars_aux (by omega), c68_chars_aux (by omega), c68_chars_aux (by omega)]

theorem c68_loop_aux (l : Nat) : ∀ (x : List Nat) (s : List Nat × Nat), (∀ o ∈ x, o < 256) → encodeLoop l x s = (c68Digits x).foldl (put l) s
  | [], s, _ => by rw [encodeLoop]; rfl
  | [a], s, h => by
    rw [encodeLoop, c68_group_aux (h a (by simp)) (by decide) (by decide)]
    simp [c68Digits]
  | [a, b], s, h => by
    rw [encodeLoop, c68_group_aux (h a (by simp)) (h b (by simp)) (by decide)]
    simp [c68Digits]
  | a :: b :: c :: xs, s, h => by
    rw [encodeLoop, c68_loop_aux l xs _ fun o ho => h o (by simp [ho]), c68_group_aux (h a (by simp)) (h b (by simp)) (h c (by simp))]
    simp [c68Digits]

theorem c68_put_aux (l : Nat) : ∀ (ds : List Nat) (r : List Nat) (k : Nat), l = 0 ∨ k < l → (ds.foldl (put l) (r, k)).1 = r ++ lined l k ds
  | [], r, k, _ => by simp [lined]
  | d :: ds, r, k, h => by
    rw [List.foldl_cons, put, lined]
    by_cases hk : k + 1 = l
    · rw [if_pos ⟨by omega, by simp only; omega⟩, if_pos hk, c68_put_aux l ds _ _ (by omega)]
      simp
    · rw [if_neg (by simp only; omega), if_neg hk, c68_put_aux l ds _ _ (by omega)]
      simp

theorem c68_linedZero_aux : ∀ (ds : List Nat) (k : Nat), lined 0 k ds = ds
  | [], _ => rfl
  | d :: ds, k => by rw [lined, if_neg (by omega), c68_linedZero_aux ds]

theorem c68_append_aux (l : Nat) (ys : List Nat) : ∀ (xs : List Nat) (k : Nat), l = 0 ∨ k < l → ∃ k', (l = 0 ∨ k' < l) ∧
    lined l k (xs ++ ys) = lined l k xs ++ lined l k' ys
  | [], k, h => ⟨k, h, by simp [lined]⟩
  | x :: xs, k, h => by
    rw [List.cons_append, lined, lined]
    by_cases hk : k + 1 = l
    · rw [if_pos hk, if_pos hk]
      obtain ⟨k', h1, h2⟩ := c68_append_aux l ys xs 0 (by omega)
      exact ⟨k', h1, by rw [h2]; rfl⟩
    · rw [if_neg hk, if_neg hk]
      obtain ⟨k', h1, h2⟩ := c68_append_aux l ys xs (k + 1) (by omega)
      exact ⟨k', h1, by rw [h2]; rfl⟩

theorem c68_filter_aux (l : Nat) : ∀ (ds : List Nat) (k : Nat), (∀ d ∈ ds, d ≠ 10) → (lined l k ds).filter (· ≠ 10) = ds
  | [], _, _ => rfl
  | d :: ds, k, h => by
    have hd := h d (by simp)
    rw [lined]
    split
    · rw [List.filter_cons_of_pos (by simpa using hd), List.filter_cons_of_neg (by simp), c68_filter_aux l ds _ fun d hd => h d (by simp [hd])]
    · rw [List.filter_cons_of_pos (by simpa using hd), c68_filter_aux l ds _ fun d hd => h d (by simp [hd])]

theorem c68_remove_aux {l k cur d1 d2 d3 d4 : Nat} (P : List Nat) (hk : l = 0 ∨ k < l) (h1 : d1 ≠ 10) (h2 : d2 ≠ 10) (h3 : d3 ≠ 10) (h4 : d4 ≠ 10) :
    (removeLoop 1 (P ++ lined l k [d1, d2, d3, d4]).reverse 0 0 cur).1.reverse.filter (· ≠ 10) = P.filter (· ≠ 10) ++ [d1, d2, d3] ∧
    (removeLoop 2 (P ++ lined l k [d1, d2, d3, d4]).reverse 0 0 cur).1.reverse.filter (· ≠ 10) = P.filter (· ≠ 10) ++ [d1, d2] := by
  simp only [lined]
  repeat' split
  all_goals
    first
    | omega
    | simp [removeLoop, h1, h2, h3, h4]

theorem c68_digitsPlain_aux : ∀ (x : List Nat), (∀ o ∈ x, o < 256) → ∀ d ∈ c68Digits x, d ≠ 10
  | [], _, d, hd => by cases hd
  | [a], h, d, hd => by
    have := h a (by simp)
    simp only [c68Digits, List.mem_cons, List.not_mem_nil, or_false] at hd
    rcases hd with rfl | rfl | rfl | rfl <;> exact (c68_plain_aux (by omega)).2.2.2.1
  | [a, b], h, d, hd => by
    have := h a (by simp)
    have := h b (by simp)
    simp only [c68Digits, List.mem_cons, List.not_mem_nil, or_false] at hd
    rcases hd with rfl | rfl | rfl | rfl <;> exact (c68_plain_aux (by omega)).2.2.2.1
  | a :: b :: c :: xs, h, d, hd => by
    have := h a (by simp)
    have := h b (by simp)
    have := h c (by simp)
    simp only [c68Digits, List.mem_cons] at hd
    rcases hd with rfl | rfl | rfl | rfl | hd
    · exact (c68_plain_aux (by omega)).2.2.2.1
    · exact (c68_plain_aux (by omega)).2.2.2.1
    · exact (c68_plain_aux (by omega)).2.2.2.1
    · exact (c68_plain_aux (by omega)).2.2.2.1
    · exact c68_digitsPlain_aux xs (fun o ho => h o (by simp [ho])) d hd

/-- the last group -/
theorem c68_split_aux : ∀ (x : List Nat), (x.length % 3 = 0 → c68Digits x = base64 x) ∧
    (x.length % 3 = 1 → ∃ D d1 d2 d3 d4, c68Digits x = D ++ [d1, d2, d3, d4] ∧ base64 x = D ++ [d1, d2, 61, 61]) ∧
    (x.length % 3 = 2 → ∃ D d1 d2 d3 d4, c68Digits x = D ++ [d1, d2, d3, d4] ∧ base64 x = D ++ [d1, d2, d3, 61])
  | [] => by simp [c68Digits, base64]
  | [a] => by
    refine ⟨by simp, fun _ => ⟨[], _, _, _, _, rfl, rfl⟩, by simp⟩
  | [a, b] => by
    refine ⟨by simp, by simp, fun _ => ⟨[], _, _, _, _, rfl, rfl⟩⟩
  | a :: b :: c :: xs => by
    obtain ⟨h0, h1, h2⟩ := c68_split_aux xs
    have e : (a :: b :: c :: xs).length % 3 = xs.length % 3 := by simp only [List.length_cons]; omega
    rw [e]
    refine ⟨fun h => by simp only [c68Digits, base64, h0 h], fun h => ?_, fun h => ?_⟩
    · obtain ⟨D, d1, d2, d3, d4, e1, e2⟩ := h1 h
      exact ⟨_ :: _ :: _ :: _ :: D, d1, d2, d3, d4, by rw [c68Digits, e1]; rfl, by rw [base64, e2]; rfl⟩
    · obtain ⟨D, d1, d2, d3, d4, e1, e2⟩ := h2 h
      exact ⟨_ :: _ :: _ :: _ :: D, d1, d2, d3, d4, by rw [c68Digits, e1]; rfl, by rw [base64, e2]; rfl⟩

theorem c68_pad_aux (l : Nat) : ∀ (n : Nat) (s : List Nat × Nat), (padLoop l n s).1.filter (· ≠ 10) = s.1.filter (· ≠ 10) ++ List.replicate n 61
  | 0, s => by simp [padLoop]
  | n + 1, s => by
    rw [padLoop, c68_pad_aux l n]
    split <;> simp [List.replicate_succ]

theorem c68_encode_aux {x : List Nat} (hx : ∀ o ∈ x, o < 256) (l : Nat) : (encode x l).filter (· ≠ 10) = base64 x := by
  have hl : (encodeLoop l x ([], 0)).1 = lined l 0 (c68Digits x) := by
    rw [c68_loop_aux l x _ hx, c68_put_aux l _ _ _ (by omega)]; rfl
  obtain ⟨h0, h1, h2⟩ := c68_split_aux x
  have plain := c68_digitsPlain_aux x hx
  have h3 : x.length % 3 = 0 ∨ x.length % 3 = 1 ∨ x.length % 3 = 2 := by omega
  unfold encode
  rcases h3 with h | h | h
  · simp only [h]
    rw [if_neg (by simp), if_neg (by simp), padLoop, hl, c68_filter_aux l _ _ plain, h0 h]
  · simp only [h]
    rw [if_pos (by simp), if_pos (by simp), c68_pad_aux, hl]
    obtain ⟨D, d1, d2, d3, d4, e1, e2⟩ := h1 h
    rw [e1] at plain ⊢
    obtain ⟨k', hk', e3⟩ := c68_append_aux l [d1, d2, d3, d4] D 0 (by omega)
    have := (c68_remove_aux (cur := (encodeLoop l x ([], 0)).2) (lined l 0 D) hk' (plain d1 (by simp)) (plain d2 (by simp)) (plain d3 (by simp)) (plain d4 (by simp))).2
    rw [e3]
    simp only at this ⊢
    rw [this, c68_filter_aux l _ _ fun d hd => plain d (by simp [hd]), e2]
    simp [List.replicate]
  · simp only [h]
    rw [if_pos (by simp), if_pos (by simp), c68_pad_aux, hl]
    obtain ⟨D, d1, d2, d3, d4, e1, e2⟩ := h2 h
    rw [e1] at plain ⊢
    obtain ⟨k', hk', e3⟩ := c68_append_aux l [d1, d2, d3, d4] D 0 (by omega)
    have := (c68_remove_aux (cur := (encodeLoop l x ([], 0)).2) (lined l 0 D) hk' (plain d1 (by simp)) (plain d2 (by simp)) (plain d3 (by simp)) (plain d4 (by simp))).1
    rw [e3]
    simp only at this ⊢
    rw [this, c68_filter_aux l _ _ fun d hd => plain d (by simp [hd]), e2]
    simp [List.replicate]

theorem c68_suffix_aux (p : Nat) : ∀ (s : List Nat) (i r cur c : Nat), c ∈ (removeLoop p s i r cur).1 → c ∈ s
  | [], _, _, _, c, h => by simpa [removeLoop] using h
  | d :: ds, i, r, cur, c, h => by
    rw [removeLoop] at h
    simp only at h
    repeat' split at h
    all_goals first | exact h | exact List.mem_cons_of_mem _ h | exact List.mem_cons_of_mem _ (c68_suffix_aux p ds _ _ _ c h)

theorem c68_padZero_aux : ∀ (n : Nat) (s : List Nat × Nat) (c : Nat), c ∈ (padLoop 0 n s).1 → c ∈ s.1 ∨ c = 61
  | 0, s, c, h => .inl h
  | n + 1, s, c, h => by
    rw [padLoop, if_neg (by simp)] at h
    rcases c68_padZero_aux n _ c h with h | h
    · simpa using h
    · exact .inr h

theorem c68_zero_aux {x : List Nat} (hx : ∀ o ∈ x, o < 256) : ∀ c ∈ encode x 0, c ≠ 10 := by
  have hl : (encodeLoop 0 x ([], 0)).1 = c68Digits x := by
    rw [c68_loop_aux 0 x _ hx, c68_put_aux 0 _ _ _ (by omega), c68_linedZero_aux]; rfl
  intro c hc
  unfold encode at hc
  rcases c68_padZero_aux _ _ c hc with h | rfl
  · generalize (if x.length % 3 ≠ 0 then 3 - x.length % 3 else 0) = q at h
    by_cases hq : q ≠ 0
    · rw [if_pos hq] at h
      have h := c68_suffix_aux _ _ _ _ _ c (List.mem_reverse.mp h)
      rw [List.mem_reverse, hl] at h
      exact c68_digitsPlain_aux x hx c h
    · rw [if_neg hq, hl] at h
      exact c68_digitsPlain_aux x hx c h
  · decide

/-! #### decoding -/

theorem c68_flush_aux (i r : List Nat) : flush (flush i r).1 (flush i r).2 = flush i r := by
  match i with
  | [] => rfl
  | [_] => rfl
  | [_, _] => rfl
  | [_, _, _] => rfl
  | [_, _, _, _] => rfl
  | _ :: _ :: _ :: _ :: _ :: _ => rfl

theorem c68_flushed_aux (sp : Nat → Bool) (t i r : List Nat) (p : Nat) : decodeLoop sp t (flush i r).1 (flush i r).2 p = decodeLoop sp t i r p := by
  cases t with
  | nil => simp only [decodeLoop, c68_flush_aux]
  | cons c cs => simp only [decodeLoop, c68_flush_aux]

theorem c68_skip_aux (sp : Nat → Bool) : ∀ (t i r : List Nat) (p : Nat), decodeLoop sp t i r p = decodeLoop sp (t.filter fun c => !sp c) i r p
  | [], _, _, _ => rfl
  | c :: cs, i, r, p => by
    by_cases h : sp c = true
    · rw [List.filter_cons_of_neg (by simp [h]), decodeLoop]
      simp only [h, if_true]
      rw [c68_flushed_aux, c68_skip_aux sp cs]
    · rw [List.filter_cons_of_pos (by simpa using h), decodeLoop, decodeLoop]
      simp only [h]
      simp only [c68_skip_aux sp cs]

/-- the number of a character or of a padding -/
def c68Num (c : Nat) : Nat := if c = 61 then 0 else charIntoNum c

theorem c68_step_aux {sp : Nat → Bool} {c : Nat} (cs i r : List Nat) (p : Nat) (hs : sp c = false) (hc : c68Num c ≠ 64) (hi : i.length < 4) :
    decodeLoop sp (c :: cs) i r p = decodeLoop sp cs (i ++ [c68Num c]) r (if c = 61 then p + 1 else p) := by
  have hf : flush i r = (i, r) := by
    match i, hi with
    | [], _ => rfl
    | [_], _ => rfl
    | [_, _], _ => rfl
    | [_, _, _], _ => rfl
  rw [decodeLoop, hf]
  simp only [hs]
  unfold c68Num at *
  by_cases h : c = 61
  · subst h
    simp [charIntoNum]
  · simp only [if_neg h] at *
    simp [hc]

theorem c68_decodeGroup_aux {sp : Nat → Bool} {c0 c1 c2 c3 : Nat} (cs r : List Nat) (p : Nat) (hs : ∀ c ∈ [c0, c1, c2, c3], sp c = false ∧ c68Num c ≠ 64) :
    decodeLoop sp (c0 :: c1 :: c2 :: c3 :: cs) [] r p =
      decodeLoop sp cs [] (r ++ threeOctets (c68Num c0) (c68Num c1) (c68Num c2) (c68Num c3)) (p + [c0, c1, c2, c3].count 61) := by
  have h0 := hs c0 (by simp)
  have h1 := hs c1 (by simp)
  have h2 := hs c2 (by simp)
  have h3 := hs c3 (by simp)
  rw [c68_step_aux _ _ _ _ h0.1 h0.2 (by simp), c68_step_aux _ _ _ _ h1.1 h1.2 (by simp), c68_step_aux _ _ _ _ h2.1 h2.2 (by simp),
    c68_step_aux _ _ _ _ h3.1 h3.2 (by simp)]
  rw [← c68_flushed_aux]
  simp only [List.nil_append, List.cons_append, flush]
  congr 1
  simp only [List.count_cons, List.count_nil]
  repeat' split
  all_goals simp_all <;> omega

theorem c68_sig_aux {sp : Nat → Bool} (hsp : SpaceOk sp) {n : Nat} (h : n < 64) : sp (b64Char n) = false ∧ c68Num (b64Char n) ≠ 64 ∧ c68Num (b64Char n) = n := by
  obtain ⟨h1, h2, h3, _, _⟩ := c68_plain_aux h
  refine ⟨by rw [hsp _ h1, h2], ?_, ?_⟩
  · rw [c68Num, if_neg h3, c68_num_aux h]; omega
  · rw [c68Num, if_neg h3, c68_num_aux h]

theorem c68_padSig_aux {sp : Nat → Bool} (hsp : SpaceOk sp) : sp 61 = false ∧ c68Num 61 ≠ 64 ∧ c68Num 61 = 0 :=
  ⟨by rw [hsp 61 (by decide)]; decide, by decide, by decide⟩

theorem c68_decodeAll_aux {sp : Nat → Bool} (hsp : SpaceOk sp) : ∀ (x : List Nat), (∀ o ∈ x, o < 256) → ∀ r, ∃ q, q < 3 ∧ (x = [] → q = 0) ∧
    decodeLoop sp (base64 x) [] r 0 = some ([], r ++ x ++ List.replicate q 0, q)
  | [], _, r => ⟨0, by omega, fun _ => rfl, by simp [base64, decodeLoop, flush]⟩
  | [a], h, r => by
    have ha := h a (by simp)
    have p1 := c68_sig_aux hsp (n := a / 4) (by omega)
    have p2 := c68_sig_aux hsp (n := a % 4 * 16) (by omega)
    have p3 := c68_padSig_aux hsp
    refine ⟨2, by omega, by simp, ?_⟩
    rw [base64, c68_decodeGroup_aux _ _ _ (by simp only [List.mem_cons, List.not_mem_nil, or_false]; rintro c (rfl | rfl | rfl | rfl) <;> first | exact ⟨p1.1, p1.2.1⟩ | exact ⟨p2.1, p2.2.1⟩ | exact ⟨p3.1, p3.2.1⟩ | exact ⟨p4.1, p4.2.1⟩)]
    rw [p1.2.2, p2.2.2, p3.2.2]
    have := c68_three_aux ha (b := 0) (c := 0) (by decide) (by decide)
    simp only [Nat.zero_div, Nat.zero_mod, Nat.add_zero, Nat.zero_mul] at this
    rw [this]
    have q1 := (c68_plain_aux (n := a / 4) (by omega)).2.2.1
    have q2 := (c68_plain_aux (n := a % 4 * 16) (by omega)).2.2.1
    simp [decodeLoop, flush, List.count_cons, q1, q2, List.replicate]
  | [a, b], h, r => by
    have ha := h a (by simp)
    have hb := h b (by simp)
    have p1 := c68_sig_aux hsp (n := a / 4) (by omega)
    have p2 := c68_sig_aux hsp (n := a % 4 * 16 + b / 16) (by omega)
    have p4 := c68_sig_aux hsp (n := b % 16 * 4) (by omega)
    have p3 := c68_padSig_aux hsp
    refine ⟨1, by omega, by simp, ?_⟩
    rw [base64, c68_decodeGroup_aux _ _ _ (by simp only [List.mem_cons, List.not_mem_nil, or_false]; rintro c (rfl | rfl | rfl | rfl) <;> first | exact ⟨p1.1, p1.2.1⟩ | exact ⟨p2.1, p2.2.1⟩ | exact ⟨p3.1, p3.2.1⟩ | exact ⟨p4.1, p4.2.1⟩)]
    rw [p1.2.2, p2.2.2, p3.2.2, p4.2.2]
    have := c68_three_aux ha hb (c := 0) (by decide)
    simp only [Nat.zero_div, Nat.zero_mod, Nat.add_zero] at this
    rw [this]
    have q1 := (c68_plain_aux (n := a / 4) (by omega)).2.2.1
    have q2 := (c68_plain_aux (n := a % 4 * 16 + b / 16) (by omega)).2.2.1
    have q3 := (c68_plain_aux (n := b % 16 * 4) (by omega)).2.2.1
    simp [decodeLoop, flush, List.count_cons, q1, q2, q3, List.replicate]
  | a :: b :: c :: xs, h, r => by
    have ha := h a (by simp)
    have hb := h b (by simp)
    have hc := h c (by simp)
    have p1 := c68_sig_aux hsp (n := a / 4) (by omega)
    have p2 := c68_sig_aux hsp (n := a % 4 * 16 + b / 16) (by omega)
    have p3 := c68_sig_aux hsp (n := b % 16 * 4 + c / 64) (by omega)
    have p4 := c68_sig_aux hsp (n := c % 64) (by omega)
    obtain ⟨q, hq, _, e⟩ := c68_decodeAll_aux hsp xs (fun o ho => h o (by simp [ho])) (r ++ [a, b, c])
    refine ⟨q, hq, by simp, ?_⟩
    rw [base64, c68_decodeGroup_aux _ _ _ (by simp only [List.mem_cons, List.not_mem_nil, or_false]; rintro c (rfl | rfl | rfl | rfl) <;> first | exact ⟨p1.1, p1.2.1⟩ | exact ⟨p2.1, p2.2.1⟩ | exact ⟨p3.1, p3.2.1⟩ | exact ⟨p4.1, p4.2.1⟩)]
    rw [p1.2.2, p2.2.2, p3.2.2, p4.2.2, c68_three_aux ha hb hc]
    have q1 := (c68_plain_aux (n := a / 4) (by omega)).2.2.1
    have q2 := (c68_plain_aux (n := a % 4 * 16 + b / 16) (by omega)).2.2.1
    have q3 := (c68_plain_aux (n := b % 16 * 4 + c / 64) (by omega)).2.2.1
    have q4 := (c68_plain_aux (n := c % 64) (by omega)).2.2.1
    simp only [List.count_cons, List.count_nil, beq_iff_eq, q1, q2, q3, q4, if_false, Nat.add_zero]
    rw [e]
    simp

theorem c68_drop_aux {sp : Nat → Bool} (hsp : SpaceOk sp) : ∀ (q : Nat) (os : List Nat), dropPadding sp q (List.replicate q 0 ++ os) = .ok os
  | 0, os => rfl
  | q + 1, os => by
    have h : sp 0 = false := by rw [hsp 0 (by decide)]; decide
    rw [List.replicate_succ, List.cons_append, dropPadding, dropBlanks, if_neg (by simp [h])]
    exact c68_drop_aux hsp q os

theorem c68_decode_aux {sp : Nat → Bool} (hsp : SpaceOk sp) {x input : List Nat} {len : Int} (hx : ∀ o ∈ x, o < 256) (hne : x ≠ [])
    (ht : (input.take len.toNat).filter (fun c => !sp c) = base64 x) : decode sp input len = .ok (some x) := by
  have hlen : 4 ≤ (base64 x).length := by
    match x, hne with
    | [a], _ => simp [base64]
    | [a, b], _ => simp [base64]
    | a :: b :: c :: xs, _ => simp [base64]
  have h2 : ¬ len < 2 := by
    have h1 := List.length_filter_le (fun c => !sp c) (input.take len.toNat)
    rw [ht, List.length_take] at h1
    omega
  obtain ⟨q, hq, _, e⟩ := c68_decodeAll_aux hsp x hx []
  rw [decode, if_neg h2, c68_skip_aux, ht, e]
  have hxl : 0 < x.length := List.length_pos_iff.mpr hne
  simp only [List.nil_append]
  rw [if_neg (by simp only [List.length_nil, List.length_append, List.length_replicate]; omega)]
  rw [List.reverse_append, List.reverse_replicate, c68_drop_aux hsp]
  simp [bind, Except.bind]

theorem c68_exact_aux {sp : Nat → Bool} : ∀ (n : Nat) (t : List Nat), t.length ≤ n → (∀ c ∈ t, sp c = false ∧ c ≠ 61) → ∀ (r r' : List Nat) (p p' : Nat),
    decodeLoop sp t [] r p = some ([], r', p') → ∃ y, r' = r ++ y ∧ p' = p ∧ t = base64 y ∧ ∀ o ∈ y, o < 256 := by
  intro n
  induction n with
  | zero => intro t ht _ r r' p p' h; obtain rfl := List.length_eq_zero_iff.mp (Nat.le_zero.mp ht); simp [decodeLoop, flush] at h; exact ⟨[], by simp [h.1], h.2.symm, rfl, by simp⟩
  | succ n ih =>
    intro t ht hs r r' p p' h
    have good : ∀ {c : Nat} {cs i : List Nat}, (∀ c' ∈ c :: cs, sp c' = false ∧ c' ≠ 61) → i.length < 4 → ∀ {R}, decodeLoop sp (c :: cs) i r p = some R →
        c68Num c ≠ 64 ∧ decodeLoop sp cs (i ++ [c68Num c]) r p = some R := by
      intro c cs i hs hi R h
      have hc := hs c (by simp)
      by_cases e : c68Num c = 64
      · exfalso
        unfold c68Num at e
        rw [if_neg hc.2] at e
        rw [decodeLoop] at h
        simp [hc.1, hc.2, e] at h
      · rw [c68_step_aux _ _ _ _ hc.1 e hi, if_neg hc.2] at h
        exact ⟨e, h⟩
    match t, hs, ht, h with
    | [], hs, ht, h => simp [decodeLoop, flush] at h; exact ⟨[], by simp [h.1], h.2.symm, rfl, by simp⟩
    | [a], hs, ht, h => 
      obtain ⟨_, h⟩ := good hs (by simp) h
      simp [decodeLoop, flush] at h
    | [a, b], hs, ht, h =>
      obtain ⟨_, h⟩ := good hs (by simp) h
      obtain ⟨_, h⟩ := good (fun c hc => hs c (List.mem_cons_of_mem _ hc)) (by simp) h
      simp [decodeLoop, flush] at h
    | [a, b, c], hs, ht, h =>
      obtain ⟨_, h⟩ := good hs (by simp) h
      obtain ⟨_, h⟩ := good (fun c hc => hs c (List.mem_cons_of_mem _ hc)) (by simp) h
      obtain ⟨_, h⟩ := good (fun c hc => hs c (List.mem_cons_of_mem _ (List.mem_cons_of_mem _ hc))) (by simp) h
      simp [decodeLoop, flush] at h
    | a :: b :: c :: d :: cs, hs, ht, h =>
      obtain ⟨ha, h1⟩ := good hs (by simp) h
      obtain ⟨hb, h1⟩ := good (fun c hc => hs c (List.mem_cons_of_mem _ hc)) (by simp) h1
      obtain ⟨hc, h1⟩ := good (fun c hc => hs c (List.mem_cons_of_mem _ (List.mem_cons_of_mem _ hc))) (by simp) h1
      obtain ⟨hd, _⟩ := good (fun c hc => hs c (List.mem_cons_of_mem _ (List.mem_cons_of_mem _ (List.mem_cons_of_mem _ hc)))) (by simp) h1
      have na := (hs a (by simp)).2
      have nb := (hs b (by simp)).2
      have nc := (hs c (by simp)).2
      have nd := (hs d (by simp)).2
      rw [c68_decodeGroup_aux _ _ _ (by
        simp only [List.mem_cons, List.not_mem_nil, or_false]
        rintro c' (rfl | rfl | rfl | rfl)
        · exact ⟨(hs _ (by simp)).1, ha⟩
        · exact ⟨(hs _ (by simp)).1, hb⟩
        · exact ⟨(hs _ (by simp)).1, hc⟩
        · exact ⟨(hs _ (by simp)).1, hd⟩)] at h
      simp only [List.count_cons, List.count_nil, beq_iff_eq, na, nb, nc, nd, if_false, Nat.add_zero] at h
      unfold c68Num at ha hb hc hd h
      simp only [if_neg na, if_neg nb, if_neg nc, if_neg nd] at ha hb hc hd h
      obtain ⟨ia, ea⟩ := c68_char_aux ha
      obtain ⟨ib, eb⟩ := c68_char_aux hb
      obtain ⟨ic, ec⟩ := c68_char_aux hc
      obtain ⟨id', ed⟩ := c68_char_aux hd
      obtain ⟨o1, o2, o3, l1, l2, l3, e, e1, e2, e3, e4⟩ := c68_back_aux ia ib ic id'
      rw [e] at h
      obtain ⟨y, h1, h2, h3, h4⟩ := ih cs (by simp only [List.length_cons] at ht; omega) (fun c' hc' => hs c' (by simp [hc'])) _ _ _ _ h
      refine ⟨o1 :: o2 :: o3 :: y, by rw [h1]; simp, h2, ?_, ?_⟩
      · rw [base64, e1, e2, e3, e4, ea, eb, ec, ed, ← h3]
      · simp only [List.mem_cons]
        rintro o (rfl | rfl | rfl | ho)
        · exact l1
        · exact l2
        · exact l3
        · exact h4 o ho

theorem c68_bad_aux {sp : Nat → Bool} {c : Nat} (hs : sp c = false) (h6 : c ≠ 61) (hb : isB64 c = false) : ∀ (t i r : List Nat) (p : Nat), c ∈ t →
    decodeLoop sp t i r p = none
  | [], _, _, _, h => by cases h
  | d :: ds, i, r, p, h => by
    rw [decodeLoop]
    rcases List.mem_cons.mp h with rfl | h
    · simp [hs, h6, c68_isB64_aux.mpr hb]
    · have ih := fun i r p => c68_bad_aux hs h6 hb ds i r p h
      simp only [ih, ite_self]

theorem c68_count_aux {sp : Nat → Bool} : ∀ (t i r : List Nat) (p : Nat), i.length ≤ 4 → ∀ {i' r' : List Nat} {p' : Nat}, decodeLoop sp t i r p = some (i', r', p') →
    i'.length % 4 = (i.length + (t.filter fun c => !sp c).length) % 4
  | [], i, r, p, hi, i', r', p', h => by
    simp only [decodeLoop, Option.some.injEq, Prod.mk.injEq] at h
    obtain ⟨rfl, _, _⟩ := h
    unfold flush
    split <;> simp
  | c :: cs, i, r, p, hi, i', r', p', h => by
    have hf : (flush i r).1.length < 4 ∧ (flush i r).1.length % 4 = i.length % 4 := by
      unfold flush
      split
      · simp
      · rename_i hno
        simp only
        refine ⟨?_, trivial⟩
        rcases Nat.lt_or_ge i.length 4 with h | h
        · exact h
        · exfalso
          match i, Nat.le_antisymm hi h with
          | [a, b, c, d], _ => exact hno a b c d rfl
    rw [decodeLoop] at h
    simp only at h
    split at h
    · rename_i hc
      have := c68_count_aux cs _ _ _ (by omega) h
      rw [List.filter_cons_of_neg (by simp [hc])]
      omega
    · rename_i hc
      rw [List.filter_cons_of_pos (by simpa using hc)]
      repeat' split at h
      all_goals first
        | cases h; done
        | have := c68_count_aux cs _ _ _ (by simp only [List.length_append, List.length_cons, List.length_nil]; omega) h
          simp only [List.length_append, List.length_cons, List.length_nil] at this ⊢
          omega

theorem c68_visible_aux {sp : Nat → Bool} (hsp : SpaceOk sp) : ∀ (x : List Nat), (∀ o ∈ x, o < 256) → ∀ c ∈ base64 x, sp c = false
  | [], _, c, hc => by cases hc
  | [a], h, c, hc => by
    have := h a (by simp)
    simp only [base64, List.mem_cons, List.not_mem_nil, or_false] at hc
    rcases hc with rfl | rfl | rfl | rfl
    · exact (c68_sig_aux hsp (by omega)).1
    · exact (c68_sig_aux hsp (by omega)).1
    · exact (c68_padSig_aux hsp).1
    · exact (c68_padSig_aux hsp).1
  | [a, b], h, c, hc => by
    have := h a (by simp)
    have := h b (by simp)
    simp only [base64, List.mem_cons, List.not_mem_nil, or_false] at hc
    rcases hc with rfl | rfl | rfl | rfl
    · exact (c68_sig_aux hsp (by omega)).1
    · exact (c68_sig_aux hsp (by omega)).1
    · exact (c68_sig_aux hsp (by omega)).1
    · exact (c68_padSig_aux hsp).1
  | a :: b :: d :: xs, h, c, hc => by
    have := h a (by simp)
    have := h b (by simp)
    have := h d (by simp)
    simp only [base64, List.mem_cons] at hc
    rcases hc with rfl | rfl | rfl | rfl | hc
    · exact (c68_sig_aux hsp (by omega)).1
    · exact (c68_sig_aux hsp (by omega)).1
    · exact (c68_sig_aux hsp (by omega)).1
    · exact (c68_sig_aux hsp (by omega)).1
    · exact c68_visible_aux hsp xs (fun o ho => h o (by simp [ho])) c hc

/-! ### Theorems -/

/-- encoding without line length -/
theorem c68_encode {x : List Nat} (hx : ∀ o ∈ x, o < 256) : encode x 0 = base64 x := by
  rw [← c68_encode_aux hx 0]
  exact (List.filter_eq_self.mpr fun c hc => by simpa using c68_zero_aux hx c hc).symm

/-- with any line length, only newlines are added -/
theorem c68_encode_lines {x : List Nat} (hx : ∀ o ∈ x, o < 256) (l : Nat) : (encode x l).filter (· ≠ 10) = base64 x := c68_encode_aux hx l

/-- if there are no paddings, a newline comes after each `l` characters, and nowhere else -/
theorem c68_encode_full_lines {x : List Nat} (hx : ∀ o ∈ x, o < 256) (h3 : x.length % 3 = 0) (l : Nat) : encode x l = lined l 0 (base64 x) := by
  have hl : (encodeLoop l x ([], 0)).1 = lined l 0 (c68Digits x) := by
    rw [c68_loop_aux l x _ hx, c68_put_aux l _ _ _ (by omega)]; rfl
  unfold encode
  simp only [h3]
  rw [if_neg (by simp), if_neg (by simp), padLoop, hl, (c68_split_aux x).1 h3]

/-- decoding: the base64 of octets gives them back, with whitespace anywhere in it -/
theorem c68_decode {sp : Nat → Bool} (hsp : SpaceOk sp) {x input : List Nat} {len : Int} (hx : ∀ o ∈ x, o < 256) (hne : x ≠ [])
    (ht : (input.take len.toNat).filter (fun c => !sp c) = base64 x) : decode sp input len = .ok (some x) := c68_decode_aux hsp hx hne ht

/-- whatever is encoded with any line length is decoded again -/
theorem c68_round_trip {sp : Nat → Bool} (hsp : SpaceOk sp) {x : List Nat} (hx : ∀ o ∈ x, o < 256) (hne : x ≠ []) (l : Nat) :
    decode sp (encode x l) (encode x l).length = .ok (some x) := by
  refine c68_decode hsp hx hne ?_
  rw [Int.toNat_natCast, List.take_length]
  have h10 : sp 10 = true := by rw [hsp 10 (by decide)]; decide
  have e : (encode x l).filter (fun c => !sp c) = ((encode x l).filter (· ≠ 10)).filter (fun c => !sp c) := by
    rw [List.filter_filter]
    refine List.filter_congr fun c _ => ?_
    by_cases hc : c = 10
    · subst hc; simp [h10]
    · simp [hc]
  rw [e, c68_encode_aux hx l]
  refine List.filter_eq_self.mpr fun c hc => ?_
  simp [c68_visible_aux hsp x hx c hc]

/-- a text without paddings that is decoded is the base64 of the result, apart from whitespace -/
theorem c68_decode_exact {sp : Nat → Bool} {x input : List Nat} {len : Int} (hp : 61 ∉ input.take len.toNat) (h : decode sp input len = .ok (some x)) :
    (input.take len.toNat).filter (fun c => !sp c) = base64 x ∧ x ≠ [] ∧ ∀ o ∈ x, o < 256 := by
  rw [decode] at h
  split at h
  · cases h
  · rw [c68_skip_aux] at h
    split at h
    · cases h
    · rename_i i r p e
      split at h
      · cases h
      · rename_i hno
        have hi : i = [] := List.length_eq_zero_iff.mp (by omega)
        subst hi
        obtain ⟨y, h1, h2, h3, h4⟩ := c68_exact_aux _ _ (Nat.le_refl _) (fun c hc => by
          obtain ⟨h1, h2⟩ := List.mem_filter.mp hc
          exact ⟨by simpa using h2, fun e => hp (e ▸ h1)⟩) _ _ _ _ e
        subst h1 h2
        simp only [dropPadding, bind, Except.bind, List.nil_append, List.reverse_reverse] at h
        cases h
        refine ⟨h3, ?_, h4⟩
        rintro rfl
        simp at hno

/-- null for a character that is not whitespace, a padding or one of the 64 characters -/
theorem c68_decode_bad {sp : Nat → Bool} {input : List Nat} {len : Int} {c : Nat} (hc : c ∈ input.take len.toNat) (hs : sp c = false) (h6 : c ≠ 61)
    (hb : isB64 c = false) : decode sp input len = .ok none := by
  rw [decode, c68_bad_aux hs h6 hb _ _ _ _ hc]
  split <;> rfl

/-- null if the number of characters, without whitespace, is not a multiple of four -/
theorem c68_decode_count {sp : Nat → Bool} {input : List Nat} {len : Int} (h : ((input.take len.toNat).filter fun c => !sp c).length % 4 ≠ 0) :
    decode sp input len = .ok none := by
  rw [decode]
  split
  · rfl
  · split
    · rfl
    · rename_i i r p e
      have := c68_count_aux _ _ _ _ (by simp) e
      simp only [List.length_nil, Nat.zero_add] at this
      rw [if_pos (.inl fun hi => h (by rw [← this, hi]))]

/-! ### Negative results -/

/-- the empty text is not decoded, although it is the base64 of no octets -/
theorem c68_empty_not_decoded (sp : Nat → Bool) (l : Nat) : encode [] l = [] ∧ decode sp [] 0 = .ok none := ⟨rfl, rfl⟩

/-- a negative length, which is meant to have the length measured, always gives null -/
theorem c68_measuring_fails (sp : Nat → Bool) (input : List Nat) {len : Int} (h : len < 0) : decode sp input len = .ok none := by
  rw [decode, if_pos (by omega)]

/-- a line can become longer than the given length: "QQ==" with line length 3 -/
theorem c68_long_line : encode [65] 3 = [81, 81, 61, 61] := by decide

/-- paddings in the middle are accepted, and then octets are missing at the end: "QQ==QUFB" -/
theorem c68_misplaced_padding {sp : Nat → Bool} (hsp : SpaceOk sp) : decode sp [81, 81, 61, 61, 81, 85, 70, 66] 8 = .ok (some [65, 0, 0, 65]) := by
  have h : ∀ c < 128, sp c = blank c := hsp
  simp [decode, decodeLoop, flush, h, blank, charIntoNum, threeOctets, dropPadding, dropBlanks, bind, Except.bind]

/-- a null pointer is dereferenced for "CS==" (a tab, with bits that are not zero after it) -/
theorem c68_decode_crash {sp : Nat → Bool} (hsp : SpaceOk sp) : decode sp [67, 83, 61, 61] 4 = .error .null := by
  have h : ∀ c < 128, sp c = blank c := hsp
  simp [decode, decodeLoop, flush, h, blank, charIntoNum, threeOctets, dropPadding, dropBlanks, bind, Except.bind]

/-! ### Examples -/

/-- "foobar" with line length 3 -/
example : encode [102, 111, 111, 98, 97, 114] 3 = [90, 109, 57, 10, 118, 89, 109, 10, 70, 121] := by decide

/-- "foob", "fooba" -/
example : base64 [102, 111, 111, 98] = [90, 109, 57, 118, 89, 103, 61, 61] ∧ base64 [102, 111, 111, 98, 97] = [90, 109, 57, 118, 89, 109, 69, 61] := by decide

/-- octets of any value, and a line length that needs newlines between the characters that are replaced -/
example : decode blank (encode [0, 255, 32, 10] 1) (encode [0, 255, 32, 10] 1).length = .ok (some [0, 255, 32, 10]) :=
  c68_round_trip (fun _ _ => rfl) (by decide) (by decide) 1

/-- whitespace between the characters -/
example : decode blank [81, 32, 81, 9, 61, 10, 61] 7 = .ok (some [65]) := c68_decode (fun _ _ => rfl) (by decide) (by decide) (by decide)

/-- without paddings -/
example : ∃ x, decode blank [81, 85, 70, 66] 4 = .ok (some x) ∧ base64 x = [81, 85, 70, 66] := ⟨[65, 65, 65], by rfl, by decide⟩

end Dern.Props
