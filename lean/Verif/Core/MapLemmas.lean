import Verif.Core.Map
namespace Dern
namespace HMap
variable {κ ν : Type}

/-- the compare function is an equivalence that respects the hash function -/
structure _root_.Dern.KeyFns.Lawful {κ : Type} (F : KeyFns κ) : Prop where
  refl : ∀ a, F.eqv a a = true
  symm : ∀ a b, F.eqv a b = true → F.eqv b a = true
  trans : ∀ a b c, F.eqv a b = true → F.eqv b c = true → F.eqv a c = true
  hash : ∀ a b, F.eqv a b = true → F.hash a = F.hash b

/-- number of buckets that hold something -/
def full (bs : List (List (MapElem κ ν))) : Nat := bs.countP fun b => !b.isEmpty

structure Inv (F : KeyFns κ) (m : HMap κ ν) : Prop where
  pos : 0 < m.buckets.length
  four : m.buckets.length % 4 = 0
  place : ∀ (i : Nat) (b : List (MapElem κ ν)), m.buckets[i]? = some b → ∀ e ∈ b, e.hash % m.buckets.length = i
  hash : ∀ e ∈ m.buckets.flatten, e.hash = F.hash e.key
  distinct : m.buckets.flatten.Pairwise fun a b => F.eqv a.key b.key = false
  num : m.num = m.buckets.flatten.length
  used : full m.buckets ≤ m.inUse
  load : 4 * m.inUse < 3 * m.buckets.length

theorem findIn_eq (F : KeyFns κ) (b : List (MapElem κ ν)) (k : κ) :
    findIn F b k = b.findIdx? fun e => F.eqv k e.key := by
  match b with
  | [] => rfl
  | [e] => simp [findIn, List.findIdx?_cons]
  | _ :: _ :: _ => rfl

theorem flatten_modify_perm (e : MapElem κ ν) : ∀ (bs : List (List (MapElem κ ν))) (i : Nat),
    i < bs.length → (bs.modify i (· ++ [e])).flatten.Perm (e :: bs.flatten) := by
  intro bs
  induction bs with
  | nil => intro i h; simp at h
  | cons b bs ih =>
    intro i h
    cases i with
    | zero =>
      simp only [List.modify_zero_cons, List.flatten_cons, List.append_assoc, List.singleton_append]
      exact List.perm_middle
    | succ i =>
      simp only [List.modify_succ_cons, List.flatten_cons]
      refine ((ih i (by simpa using h)).append_left b).trans ?_
      exact List.perm_middle

theorem full_modify (e : MapElem κ ν) : ∀ (bs : List (List (MapElem κ ν))) (i : Nat) (b),
    bs[i]? = some b → full (bs.modify i (· ++ [e])) = full bs + (if b.isEmpty then 1 else 0) := by
  intro bs
  induction bs with
  | nil => intro i b h; simp at h
  | cons c bs ih =>
    intro i b h
    cases i with
    | zero =>
      simp at h; subst h
      cases c <;> simp [full]
    | succ i =>
      have := ih i b (by simpa using h)
      unfold full at *
      simp only [List.modify_succ_cons, List.countP_cons, this]
      omega

theorem place_modify {n : Nat} {x : MapElem κ ν} {bs : List (List (MapElem κ ν))} {j : Nat}
    (hj : x.hash % n = j) (h : ∀ (i : Nat) (b : List (MapElem κ ν)), bs[i]? = some b → ∀ e ∈ b, e.hash % n = i) :
    ∀ (i : Nat) (b : List (MapElem κ ν)), (bs.modify j (· ++ [x]))[i]? = some b → ∀ e ∈ b, e.hash % n = i := by
  intro i b hb e he
  rw [List.getElem?_modify] at hb
  cases hbi : bs[i]? with
  | none => rw [hbi] at hb; simp at hb
  | some c =>
    rw [hbi] at hb
    by_cases hi : j = i
    · simp [hi] at hb
      subst hb
      rcases List.mem_append.mp he with he | he
      · exact h i c hbi e he
      · simp at he; subst he; rw [hj, hi]
    · simp [hi] at hb
      subst hb
      exact h i c hbi e he

/-- the state of the rehash loop -/
theorem rehash_fold (n : Nat) (hn : 0 < n) : ∀ (es : List (MapElem κ ν)) (m : HMap κ ν),
    m.buckets.length = n →
    (∀ (i : Nat) (b : List (MapElem κ ν)), m.buckets[i]? = some b → ∀ e ∈ b, e.hash % n = i) →
    m.num = m.buckets.flatten.length → m.inUse = full m.buckets →
    let m' := es.foldl (rehashOne n) m
    m'.buckets.length = n ∧
    (∀ (i : Nat) (b : List (MapElem κ ν)), m'.buckets[i]? = some b → ∀ e ∈ b, e.hash % n = i) ∧
    m'.num = m'.buckets.flatten.length ∧ m'.inUse = full m'.buckets ∧
    m'.buckets.flatten.Perm (m.buckets.flatten ++ es) := by
  intro es
  induction es with
  | nil => intro m h1 h2 h3 h4; exact ⟨h1, h2, h3, h4, by simp⟩
  | cons x es ih =>
    intro m h1 h2 h3 h4
    have hlt : x.hash % n < m.buckets.length := by rw [h1]; exact Nat.mod_lt _ hn
    have hget : m.buckets[x.hash % n]? = some m.buckets[x.hash % n] := List.getElem?_eq_getElem hlt
    have hperm := flatten_modify_perm x m.buckets _ hlt
    have := ih (rehashOne n m x) (by simp [rehashOne, h1]) ?_ ?_ ?_
    · obtain ⟨g1, g2, g3, g4, g5⟩ := this
      refine ⟨g1, g2, g3, g4, g5.trans ?_⟩
      simp only [rehashOne]
      refine (hperm.append_right es).trans ?_
      exact List.perm_middle.symm
    · exact place_modify rfl h2
    · simp only [rehashOne]
      rw [hperm.length_eq, h3]; simp
    · simp only [rehashOne]
      rw [full_modify x _ _ _ hget, hget, h4]
      simp only [Option.getD_some]
      split <;> simp_all

/-- pointwise comparison of the numbers of non-empty buckets -/
theorem full_le : ∀ (as bs : List (List (MapElem κ ν))), as.length = bs.length →
    (∀ (i : Nat) (a b : List (MapElem κ ν)), as[i]? = some a → bs[i]? = some b → a ≠ [] → b ≠ []) → full as ≤ full bs := by
  intro as
  induction as with
  | nil => intro bs _ _; simp [full]
  | cons a as ih =>
    intro bs hl h
    cases bs with
    | nil => simp at hl
    | cons b bs =>
      have h1 := ih bs (by simpa using hl) (fun i x y hx hy => h (i+1) x y (by simpa using hx) (by simpa using hy))
      have h2 := h 0 a b (by simp) (by simp)
      unfold full at *
      simp only [List.countP_cons]
      cases a <;> cases b <;> simp at h2 ⊢ <;> omega

theorem full_lt : ∀ (as bs : List (List (MapElem κ ν))), as.length = bs.length →
    (∀ (i : Nat) (a b : List (MapElem κ ν)), as[i]? = some a → bs[i]? = some b → a ≠ [] → b ≠ []) →
    (∃ (i : Nat) (b : List (MapElem κ ν)), as[i]? = some [] ∧ bs[i]? = some b ∧ b ≠ []) → full as + 1 ≤ full bs := by
  intro as
  induction as with
  | nil => intro bs _ _ ⟨i, b, h, _⟩; simp at h
  | cons a as ih =>
    intro bs hl h ⟨i, c, hi1, hi2, hi3⟩
    cases bs with
    | nil => simp at hl
    | cons b bs =>
      have hp : ∀ (i : Nat) (x y : List (MapElem κ ν)), as[i]? = some x → bs[i]? = some y → x ≠ [] → y ≠ [] :=
        fun i x y hx hy => h (i+1) x y (by simpa using hx) (by simpa using hy)
      have hl' : as.length = bs.length := by simpa using hl
      have h2 := h 0 a b (by simp) (by simp)
      cases i with
      | zero =>
        have h1 := full_le as bs hl' hp
        simp at hi1 hi2
        subst hi1 hi2
        unfold full at *
        simp only [List.countP_cons]
        cases b <;> simp at hi3 ⊢; omega
      | succ i =>
        have h1 := ih bs hl' hp ⟨i, c, by simpa using hi1, by simpa using hi2, hi3⟩
        unfold full at *
        simp only [List.countP_cons]
        cases a <;> cases b <;> simp at h2 ⊢ <;> omega

/-- Doubling the number of buckets gives at most twice as many non-empty buckets less one, if some
bucket holds a single element. -/
theorem full_double (old new : List (List (MapElem κ ν))) (hn : 0 < old.length)
    (hlen : new.length = old.length * 2)
    (hold : ∀ (i : Nat) (b : List (MapElem κ ν)), old[i]? = some b → ∀ e ∈ b, e.hash % old.length = i)
    (hnew : ∀ (i : Nat) (b : List (MapElem κ ν)), new[i]? = some b → ∀ e ∈ b, e.hash % (old.length * 2) = i)
    (hmem : ∀ e, e ∈ new.flatten → e ∈ old.flatten)
    (i0 : Nat) (e0 : MapElem κ ν) (h0 : old[i0]? = some [e0]) :
    full new + 1 ≤ 2 * full old := by
  have hi0 : i0 < old.length := (List.getElem?_eq_some_iff.mp h0).1
  have hsplit : full new = full (new.take old.length) + full (new.drop old.length) := by
    conv => lhs; rw [← List.take_append_drop old.length new]
    simp only [full, List.countP_append]
  -- an element of `old.flatten` is in the bucket its hash says
  have hin : ∀ e, e ∈ old.flatten → ∀ b, old[e.hash % old.length]? = some b → e ∈ b := by
    intro e he b hb
    obtain ⟨c, hc, hec⟩ := List.mem_flatten.mp he
    obtain ⟨j, hj⟩ := List.getElem?_of_mem hc
    have := hold j c hj e hec
    rw [this, hj] at hb
    simp at hb; subst hb; exact hec
  have hA : ∀ (i : Nat) (a b : List (MapElem κ ν)), (new.take old.length)[i]? = some a → old[i]? = some b → ∀ e ∈ a, e ∈ b := by
    intro i a b ha hb e he
    have hi : i < old.length := (List.getElem?_eq_some_iff.mp hb).1
    rw [List.getElem?_take, if_pos hi] at ha
    have h1 := hnew i a ha e he
    have h2 := hmem e (List.mem_flatten.mpr ⟨a, List.mem_of_getElem? ha, he⟩)
    apply hin e h2 b
    have : e.hash % old.length = i := by
      rw [← Nat.mod_mod_of_dvd e.hash (⟨2, rfl⟩ : old.length ∣ old.length * 2), h1]
      exact Nat.mod_eq_of_lt hi
    rw [this]; exact hb
  have hB : ∀ (i : Nat) (a b : List (MapElem κ ν)), (new.drop old.length)[i]? = some a → old[i]? = some b → ∀ e ∈ a, e ∈ b := by
    intro i a b ha hb e he
    have hi : i < old.length := (List.getElem?_eq_some_iff.mp hb).1
    rw [List.getElem?_drop] at ha
    have h1 := hnew _ a ha e he
    have h2 := hmem e (List.mem_flatten.mpr ⟨a, List.mem_of_getElem? ha, he⟩)
    apply hin e h2 b
    have : e.hash % old.length = i := by
      rw [← Nat.mod_mod_of_dvd e.hash (⟨2, rfl⟩ : old.length ∣ old.length * 2), h1]
      rw [Nat.add_mod_left]; exact Nat.mod_eq_of_lt hi
    rw [this]; exact hb
  have ne : ∀ {a b : List (MapElem κ ν)}, (∀ e ∈ a, e ∈ b) → a ≠ [] → b ≠ [] := by
    intro a b h ha hb
    cases a with
    | nil => exact ha rfl
    | cons x t => have := h x (by simp); rw [hb] at this; simp at this
  have lA : (new.take old.length).length = old.length := by simp; omega
  have lB : (new.drop old.length).length = old.length := by simp; omega
  have fA := full_le _ _ lA fun i a b ha hb => ne (hA i a b ha hb)
  have fB := full_le _ _ lB fun i a b ha hb => ne (hB i a b ha hb)
  -- the single element is in one half only
  obtain ⟨a, ha⟩ : ∃ a, (new.take old.length)[i0]? = some a :=
    ⟨_, List.getElem?_eq_getElem (by omega)⟩
  obtain ⟨c, hc⟩ : ∃ a, (new.drop old.length)[i0]? = some a :=
    ⟨_, List.getElem?_eq_getElem (by omega)⟩
  by_cases hae : a = []
  · subst hae
    have := full_lt _ _ lA (fun i a b ha hb => ne (hA i a b ha hb)) ⟨i0, [e0], ha, h0, by simp⟩
    omega
  · by_cases hce : c = []
    · subst hce
      have := full_lt _ _ lB (fun i a b ha hb => ne (hB i a b ha hb)) ⟨i0, [e0], hc, h0, by simp⟩
      omega
    · exfalso
      obtain ⟨x, hx⟩ := List.exists_mem_of_ne_nil a hae
      obtain ⟨y, hy⟩ := List.exists_mem_of_ne_nil c hce
      have hx0 := hA i0 a _ ha h0 x hx
      have hy0 := hB i0 c _ hc h0 y hy
      simp at hx0 hy0
      subst hx0 hy0
      rw [List.getElem?_take, if_pos hi0] at ha
      rw [List.getElem?_drop] at hc
      have h1 := hnew i0 a ha _ hx
      have h2 := hnew _ c hc _ hy
      omega

/-! ### searching -/

theorem symm_false {F : KeyFns κ} (L : F.Lawful) {a b : κ} (h : F.eqv a b = false) :
    F.eqv b a = false := by
  cases hb : F.eqv b a with
  | false => rfl
  | true => rw [L.symm _ _ hb] at h; cases h

/-- in a list of elements with distinct keys, removing the first match removes all matches -/
theorem eraseIdx_eq_filter {F : KeyFns κ} (L : F.Lawful) (k : κ) : ∀ (b : List (MapElem κ ν)) (i : Nat),
    b.Pairwise (fun x y => F.eqv x.key y.key = false) →
    b.findIdx? (fun e => F.eqv k e.key) = some i →
    b.eraseIdx i = b.filter fun e => !F.eqv k e.key := by
  intro b
  induction b with
  | nil => intro i _ h; simp at h
  | cons x b ih =>
    intro i hp h
    rw [List.findIdx?_cons] at h
    obtain ⟨h1, h2⟩ := List.pairwise_cons.mp hp
    cases hx : F.eqv k x.key with
    | true =>
      simp [hx] at h; subst h
      simp [hx]
      rw [List.filter_eq_self.mpr]
      intro e he
      have := h1 e he
      cases hk : F.eqv k e.key with
      | false => rfl
      | true => rw [L.trans _ _ _ (L.symm _ _ hx) hk] at this; cases this
    | false =>
      simp [hx] at h
      obtain ⟨j, hj, rfl⟩ := h
      simp [hx, ih j h2 hj]

theorem modify_eq_map {F : KeyFns κ} (L : F.Lawful) (k : κ) (f : MapElem κ ν → MapElem κ ν) :
    ∀ (b : List (MapElem κ ν)) (i : Nat),
    b.Pairwise (fun x y => F.eqv x.key y.key = false) →
    b.findIdx? (fun e => F.eqv k e.key) = some i →
    b.modify i f = b.map fun e => if F.eqv k e.key then f e else e := by
  intro b
  induction b with
  | nil => intro i _ h; simp at h
  | cons x b ih =>
    intro i hp h
    rw [List.findIdx?_cons] at h
    obtain ⟨h1, h2⟩ := List.pairwise_cons.mp hp
    cases hx : F.eqv k x.key with
    | true =>
      simp [hx] at h; subst h
      simp [hx]
      conv => lhs; rw [← List.map_id b]
      apply List.map_congr_left
      intro e he
      have := h1 e he
      cases hk : F.eqv k e.key with
      | false => simp
      | true => rw [L.trans _ _ _ (L.symm _ _ hx) hk] at this; cases this
    | false =>
      simp [hx] at h
      obtain ⟨j, hj, rfl⟩ := h
      simp [hx, ih j h2 hj]

theorem bucket_distinct {F : KeyFns κ} {m : HMap κ ν} (h : m.Inv F) {i : Nat} {b : List (MapElem κ ν)}
    (hb : m.buckets[i]? = some b) : b.Pairwise (fun x y => F.eqv x.key y.key = false) :=
  (List.pairwise_flatten.mp h.distinct).1 b (List.mem_of_getElem? hb)

/-- an element with an equal key can only be in the bucket of the hash -/
theorem match_bucket {F : KeyFns κ} (L : F.Lawful) {m : HMap κ ν} (h : m.Inv F) {i : Nat} {b : List (MapElem κ ν)} {k : κ}
    (hb : m.buckets[i]? = some b) {e : MapElem κ ν} (he : e ∈ b) (hk : F.eqv k e.key = true) :
    F.hash k % m.buckets.length = i := by
  have h1 := h.place i b hb e he
  have h2 := h.hash e (List.mem_flatten.mpr ⟨b, List.mem_of_getElem? hb, he⟩)
  rw [L.hash _ _ hk, ← h2]; exact h1

theorem modify_bucket {F : KeyFns κ} (L : F.Lawful) {m : HMap κ ν} (h : m.Inv F) {k : κ}
    (f g : List (MapElem κ ν) → List (MapElem κ ν))
    (hb : ∀ b, m.buckets[F.hash k % m.buckets.length]? = some b → f b = g b)
    (hg : ∀ b : List (MapElem κ ν), (∀ e ∈ b, F.eqv k e.key = false) → g b = b) :
    m.buckets.modify (F.hash k % m.buckets.length) f = m.buckets.map g := by
  apply List.ext_getElem?
  intro i
  rw [List.getElem?_modify, List.getElem?_map]
  cases hi : m.buckets[i]? with
  | none => rfl
  | some b =>
    by_cases hik : F.hash k % m.buckets.length = i
    · simp only [if_pos hik]
      rw [hik] at hb
      show some (f b) = some (g b)
      rw [hb b hi]
    · simp only [if_neg hik]
      show some b = some (g b)
      rw [hg b]
      intro e he
      cases hk : F.eqv k e.key with
      | false => rfl
      | true => exact absurd (match_bucket L h hi he hk) hik

theorem get_spec {F : KeyFns κ} (L : F.Lawful) {m : HMap κ ν} (h : m.Inv F) (k : κ) :
    (m.get F k = some none ∧ (∀ e ∈ m.buckets.flatten, F.eqv k e.key = false) ∧
      ∃ b, m.buckets[F.hash k % m.buckets.length]? = some b) ∨
    ∃ (i : Nat) (e : MapElem κ ν) (b : List (MapElem κ ν)), m.get F k = some (some (F.hash k % m.buckets.length, i, e)) ∧
      m.buckets[F.hash k % m.buckets.length]? = some b ∧
      b.findIdx? (fun e => F.eqv k e.key) = some i ∧ b[i]? = some e ∧ F.eqv k e.key = true := by
  have hpos := h.pos
  have hlt : F.hash k % m.buckets.length < m.buckets.length := Nat.mod_lt _ hpos
  have hb : m.buckets[F.hash k % m.buckets.length]? = some m.buckets[F.hash k % m.buckets.length] :=
    List.getElem?_eq_getElem hlt
  generalize m.buckets[F.hash k % m.buckets.length] = b at hb
  unfold get
  rw [if_neg (by omega)]
  simp only [hb, findIn_eq]
  cases hf : b.findIdx? fun e => F.eqv k e.key with
  | none =>
    left
    refine ⟨rfl, ?_, b, rfl⟩
    intro e he
    obtain ⟨c, hc, hec⟩ := List.mem_flatten.mp he
    obtain ⟨j, hj⟩ := List.getElem?_of_mem hc
    cases hk : F.eqv k e.key with
    | false => rfl
    | true =>
      have := match_bucket L h hj hec hk
      rw [this, hj] at hb
      simp at hb; subst hb
      rw [List.findIdx?_eq_none_iff] at hf
      rw [← hk]; exact hf e hec
  | some i =>
    right
    rw [List.findIdx?_eq_some_iff_getElem] at hf
    obtain ⟨hi, h1, h2⟩ := hf
    refine ⟨i, b[i], b, by simp [hi], rfl, ?_, List.getElem?_eq_getElem hi, h1⟩
    rw [List.findIdx?_eq_some_iff_getElem]
    exact ⟨hi, h1, h2⟩

/-! ### the operations -/

def entry (e : MapElem κ ν) : κ × List ν := (e.key, e.values)

theorem full_map (bs : List (List (MapElem κ ν))) (g : List (MapElem κ ν) → List (MapElem κ ν))
    (hg : ∀ b, g b ≠ [] → b ≠ []) : full (bs.map g) ≤ full bs := by
  apply full_le _ _ (by simp)
  intro i a b ha hb
  rw [List.getElem?_map, hb] at ha
  simp at ha
  rw [← ha]; exact hg b

theorem rehash_ok {F : KeyFns κ} {m : HMap κ ν} (hpos : 0 < m.buckets.length)
    (hfour : m.buckets.length % 4 = 0)
    (hplace : ∀ (i : Nat) (b : List (MapElem κ ν)), m.buckets[i]? = some b → ∀ e ∈ b, e.hash % m.buckets.length = i)
    (hhash : ∀ e ∈ m.buckets.flatten, e.hash = F.hash e.key)
    (hd : m.buckets.flatten.Pairwise fun a b => F.eqv a.key b.key = false)
    (hL : F.Lawful)
    (hused : 4 * full m.buckets ≤ 3 * m.buckets.length)
    (i0 : Nat) (e0 : MapElem κ ν) (h0 : m.buckets[i0]? = some [e0]) :
    ∃ m', m.rehash = some m' ∧ m'.Inv F ∧ m'.buckets.flatten.Perm m.buckets.flatten := by
  have hz : ∀ (n : Nat), (List.replicate n ([] : List (MapElem κ ν))).flatten = [] := by
    intro n; induction n with
    | zero => rfl
    | succ n ih => simp [List.replicate_succ]
  have hf := rehash_fold (m.buckets.length * 2) (by omega) m.buckets.flatten
    ⟨List.replicate (m.buckets.length * 2) [], 0, 0⟩ (by simp) (by
      intro i b hb e he
      have := List.mem_of_getElem? hb
      simp at this; simp [this.2] at he) (by rw [hz]; rfl) (by simp [full, List.countP_replicate])
  simp only at hf
  generalize hm' : List.foldl (rehashOne (m.buckets.length * 2))
    ⟨List.replicate (m.buckets.length * 2) [], 0, 0⟩ m.buckets.flatten = m' at hf
  obtain ⟨g1, g2, g3, g4, g5⟩ := hf
  rw [hz] at g5
  simp only [List.nil_append] at g5
  have hfd := full_double m.buckets m'.buckets hpos (by omega) hplace (by rw [g1] at *; exact g2)
    (fun e he => g5.mem_iff.mp he) i0 e0 h0
  have hload : 4 * m'.inUse < 3 * m'.buckets.length := by rw [g4, g1]; omega
  refine ⟨m', ?_, ⟨by omega, by omega, by rw [g1]; exact g2, ?_, ?_, g3, by omega, hload⟩, g5⟩
  · unfold rehash
    simp only [hm']
    rw [if_neg]
    simp [overloaded]; omega
  · intro e he; exact hhash e (g5.mem_iff.mp he)
  · exact (g5.pairwise_iff (fun {a b} h => symm_false hL h)).mpr hd

theorem put_new {F : KeyFns κ} (L : F.Lawful) {m : HMap κ ν} (h : m.Inv F) (k : κ) (v : ν)
    (hnone : ∀ e ∈ m.buckets.flatten, F.eqv k e.key = false) (hg : m.get F k = some none) :
    ∃ m', m.put F k v = some m' ∧ m'.Inv F ∧
      m'.buckets.flatten.Perm (⟨F.hash k, k, [v]⟩ :: m.buckets.flatten) := by
  have hpos := h.pos
  have hlt : F.hash k % m.buckets.length < m.buckets.length := Nat.mod_lt _ hpos
  have hb : m.buckets[F.hash k % m.buckets.length]? = some m.buckets[F.hash k % m.buckets.length] :=
    List.getElem?_eq_getElem hlt
  generalize m.buckets[F.hash k % m.buckets.length] = b at hb
  have hperm := flatten_modify_perm (⟨F.hash k, k, [v]⟩ : MapElem κ ν) m.buckets _ hlt
  have hfull := full_modify (⟨F.hash k, k, [v]⟩ : MapElem κ ν) m.buckets _ _ hb
  have hplace := place_modify (n := m.buckets.length) (x := (⟨F.hash k, k, [v]⟩ : MapElem κ ν)) rfl h.place
  have hhash : ∀ e ∈ (m.buckets.modify (F.hash k % m.buckets.length)
      (· ++ [(⟨F.hash k, k, [v]⟩ : MapElem κ ν)])).flatten, e.hash = F.hash e.key := by
    intro e he
    rcases List.mem_cons.mp (hperm.mem_iff.mp he) with rfl | he
    · rfl
    · exact h.hash e he
  have hd : (m.buckets.modify (F.hash k % m.buckets.length)
      (· ++ [(⟨F.hash k, k, [v]⟩ : MapElem κ ν)])).flatten.Pairwise
      fun a b => F.eqv a.key b.key = false := by
    refine (hperm.pairwise_iff (fun {a b} h => symm_false L h)).mpr ?_
    exact List.pairwise_cons.mpr ⟨hnone, h.distinct⟩
  unfold put
  simp only [hg, hb]
  generalize hM : (⟨m.buckets.modify (F.hash k % m.buckets.length)
      (· ++ [(⟨F.hash k, k, [v]⟩ : MapElem κ ν)]),
      if b.isEmpty then m.inUse + 1 else m.inUse, m.num + 1⟩ : HMap κ ν) = M
  have hMb : M.buckets = m.buckets.modify (F.hash k % m.buckets.length)
      (· ++ [(⟨F.hash k, k, [v]⟩ : MapElem κ ν)]) := by rw [← hM]
  have hMu : M.inUse = if b.isEmpty then m.inUse + 1 else m.inUse := by rw [← hM]
  have hMn : M.num = m.num + 1 := by rw [← hM]
  have hMl : M.buckets.length = m.buckets.length := by rw [hMb]; simp
  have hload := h.load
  have hused := h.used
  have hfour := h.four
  rw [← hMb] at hperm hfull hplace hhash hd
  by_cases ho : M.overloaded = true
  · rw [if_pos ho]
    simp [overloaded] at ho
    have hbe : b.isEmpty = true := by
      cases hbe : b.isEmpty with
      | true => rfl
      | false => rw [hbe] at hMu; simp at hMu; omega
    rw [hbe] at hMu hfull
    simp at hMu hfull
    have h0 : M.buckets[F.hash k % m.buckets.length]? = some [⟨F.hash k, k, [v]⟩] := by
      rw [hMb, List.getElem?_modify, hb]
      have : b = [] := by simpa using hbe
      simp [this]
    obtain ⟨m', g1, g2, g3⟩ := rehash_ok (F := F) (m := M) (by omega) (by omega)
      (by rw [hMl]; exact hplace) hhash hd L (by omega) _ _ h0
    exact ⟨m', g1, g2, g3.trans hperm⟩
  · rw [if_neg ho]
    simp [overloaded] at ho
    refine ⟨M, rfl, ⟨by omega, by omega, by rw [hMl]; exact hplace, hhash, hd, ?_, ?_, by omega⟩, hperm⟩
    · rw [hMn, h.num, hperm.length_eq]; simp
    · rw [hfull, hMu]; split <;> omega

theorem put_old {F : KeyFns κ} (L : F.Lawful) {m : HMap κ ν} (h : m.Inv F) (k : κ) (v : ν) {i : Nat} {e : MapElem κ ν}
    {b : List (MapElem κ ν)}
    (hg : m.get F k = some (some (F.hash k % m.buckets.length, i, e)))
    (hb : m.buckets[F.hash k % m.buckets.length]? = some b)
    (hi : b.findIdx? (fun e => F.eqv k e.key) = some i) :
    ∃ m', m.put F k v = some m' ∧ m'.Inv F ∧
      m'.buckets.flatten = m.buckets.flatten.map fun e =>
        if F.eqv k e.key then { e with values := e.values ++ [v] } else e := by
  let f : MapElem κ ν → MapElem κ ν := fun e => { e with values := e.values ++ [v] }
  have hm := modify_bucket L h (k := k) (fun bucket => bucket.modify i f)
    (fun b => b.map fun e => if F.eqv k e.key then f e else e)
    (by
      intro c hc
      rw [hb] at hc; simp at hc; subst hc
      exact modify_eq_map L k f b i (bucket_distinct h hb) hi)
    (by
      intro c hc
      conv => rhs; rw [← List.map_id c]
      apply List.map_congr_left
      intro e he; simp [hc e he])
  have hkey : ∀ e : MapElem κ ν, (if F.eqv k e.key then f e else e).key = e.key ∧
      (if F.eqv k e.key then f e else e).hash = e.hash := by
    intro e; split <;> exact ⟨rfl, rfl⟩
  unfold put
  simp only [hg]
  refine ⟨_, rfl, ?_, ?_⟩
  · have hfl : (m.buckets.map fun b => b.map fun e => if F.eqv k e.key then f e else e).flatten =
        m.buckets.flatten.map fun e => if F.eqv k e.key then f e else e := by
      rw [List.map_flatten]
    show Inv F { m with buckets := m.buckets.modify _ fun bucket => bucket.modify i f }
    rw [hm]
    refine ⟨by simpa using h.pos, by simpa using h.four, ?_, ?_, ?_, ?_, ?_, by simpa using h.load⟩
    · intro j c hc x hx
      simp only [List.getElem?_map] at hc
      cases hcj : m.buckets[j]? with
      | none => rw [hcj] at hc; simp at hc
      | some d =>
        rw [hcj] at hc; simp at hc; subst hc
        obtain ⟨y, hy, rfl⟩ := List.mem_map.mp hx
        rw [(hkey y).2]
        simpa using h.place j d hcj y hy
    · intro x hx
      simp only [hfl] at hx
      obtain ⟨y, hy, rfl⟩ := List.mem_map.mp hx
      rw [(hkey y).1, (hkey y).2]
      exact h.hash y hy
    · simp only [hfl, List.pairwise_map, hkey]
      exact h.distinct
    · simp only [hfl, List.length_map]; exact h.num
    · exact Nat.le_trans (full_map _ _ (by intro b hb e; apply hb; simp [e])) h.used
  · show (m.buckets.modify _ fun bucket => bucket.modify i f).flatten = _
    rw [hm, ← List.map_flatten]

theorem remove_ok {F : KeyFns κ} (L : F.Lawful) {m : HMap κ ν} (h : m.Inv F) (k : κ) :
    ∃ m', m.remove F k = some (m', m.buckets.flatten.any fun e => F.eqv k e.key) ∧ m'.Inv F ∧
      m'.buckets.flatten = m.buckets.flatten.filter fun e => !F.eqv k e.key := by
  have hpos := h.pos
  unfold remove
  rw [if_neg (by omega)]
  rcases get_spec L h k with ⟨_, hno, b, hb⟩ | ⟨i, e, b, _, hb, hi, hbi, hk⟩
  · simp only [hb]
    have hf : b.findIdx? (fun e => F.eqv k e.key) = none := by
      rw [List.findIdx?_eq_none_iff]
      intro e he
      exact hno e (List.mem_flatten.mpr ⟨b, List.mem_of_getElem? hb, he⟩)
    rw [hf]
    refine ⟨m, ?_, h, ?_⟩
    · have : (m.buckets.flatten.any fun e => F.eqv k e.key) = false := by
        rw [List.any_eq_false]
        intro e he; rw [hno e he]; simp
      rw [this]
    · rw [List.filter_eq_self.mpr]
      intro e he; simp [hno e he]
  · simp only [hb, hi]
    have hmem : e ∈ m.buckets.flatten :=
      List.mem_flatten.mpr ⟨b, List.mem_of_getElem? hb, List.mem_of_getElem? hbi⟩
    have hne : m.num ≠ 0 := by
      rw [h.num]; exact Nat.ne_of_gt (List.length_pos_of_mem hmem)
    rw [if_neg hne]
    have hm := modify_bucket L h (k := k) (fun bucket => bucket.eraseIdx i)
      (fun b => b.filter fun e => !F.eqv k e.key)
      (by
        intro c hc
        rw [hb] at hc; simp at hc; subst hc
        exact eraseIdx_eq_filter L k b i (bucket_distinct h hb) hi)
      (by intro c hc; rw [List.filter_eq_self]; intro e he; simp [hc e he])
    have hfl : (m.buckets.map fun b => b.filter fun e => !F.eqv k e.key).flatten =
        m.buckets.flatten.filter fun e => !F.eqv k e.key := by
      rw [List.filter_flatten]
    refine ⟨{ m with buckets := m.buckets.map fun b => b.filter fun e => !F.eqv k e.key,
                     num := m.num - 1 }, ?_, ?_, hfl⟩
    · have : (m.buckets.flatten.any fun e => F.eqv k e.key) = true := by
        rw [List.any_eq_true]; exact ⟨e, hmem, hk⟩
      rw [this, hm]
    · refine ⟨by simpa using h.pos, by simpa using h.four, ?_, ?_, ?_, ?_, ?_, by simpa using h.load⟩
      · intro j c hc x hx
        simp only [List.getElem?_map] at hc
        cases hcj : m.buckets[j]? with
        | none => rw [hcj] at hc; simp at hc
        | some d =>
          rw [hcj] at hc; simp at hc; subst hc
          simpa using h.place j d hcj x (List.mem_filter.mp hx).1
      · intro x hx
        simp only [hfl] at hx
        exact h.hash x (List.mem_filter.mp hx).1
      · simp only [hfl]; exact h.distinct.filter _
      · -- exactly one element leaves
        simp only [hfl]
        have : (m.buckets.flatten.filter fun e => !F.eqv k e.key).length + 1 =
            m.buckets.flatten.length := by
          obtain ⟨s, t, hst⟩ := List.append_of_mem hmem
          have hd := h.distinct
          rw [hst] at hd ⊢
          have hkeep : ∀ x, x ∈ s ∨ x ∈ t → (!F.eqv k x.key) = true := by
            intro x hx
            cases hkx : F.eqv k x.key with
            | false => rfl
            | true =>
              exfalso
              have hex := L.trans _ _ _ (L.symm _ _ hk) hkx
              have hxe := L.symm _ _ hex
              rw [List.pairwise_append] at hd
              rcases hx with hx | hx
              · have := hd.2.2 x hx e (by simp); rw [hxe] at this; cases this
              · have := (List.pairwise_cons.mp hd.2.1).1 x hx; rw [hex] at this; cases this
          rw [List.filter_append, List.filter_cons, List.filter_eq_self.mpr fun x hx => hkeep x (.inl hx),
            List.filter_eq_self.mpr fun x hx => hkeep x (.inr hx)]
          simp [hk]; omega
        have := h.num
        omega
      · exact Nat.le_trans (full_map _ _ (by intro b hb e; apply hb; simp [e])) h.used

theorem new_inv (F : KeyFns κ) : (new : HMap κ ν).Inv F := by
  have hz : ∀ (n : Nat), (List.replicate n ([] : List (MapElem κ ν))).flatten = [] := by
    intro n; induction n with
    | zero => rfl
    | succ n ih => simp [List.replicate_succ]
  refine ⟨by simp [new], by simp [new], ?_, ?_, ?_, ?_, ?_, by simp [new]⟩
  · intro i b hb e he
    have := List.mem_of_getElem? hb
    simp [new] at this; simp [this] at he
  · simp only [new, hz]; simp
  · simp only [new, hz]; simp
  · simp only [new, hz]; simp
  · simp [new, full]

end HMap
end Dern
