import Verif.Core.MapLemmas
/-
C17: a hash map behaves like a finite map.

Positive: for every lawful pair of compare and hash functions and every history of put, remove and
clear operations, no assertion fails (in particular the load factor assertion after rehashing), the
stored entries are those of the specification, every lookup finds what the specification finds, the
count is the number of keys, and iteration and indices visit every entry exactly once.  A history
that assigns by removing first (as environments and `=` on hash maps do) is last-write-wins.

Negative: octaspire_map_put alone is not last-write-wins: a second put under an equal key keeps the
first value in front and makes the value accessor's assertion fail; and index -1 is not the last
element.
-/
namespace Dern.Props
open Dern Dern.Spec

variable {κ ν : Type}

/-- the key-values pairs an iteration over the map yields, in order -/
def entries (m : HMap κ ν) : List (κ × List ν) := m.iterate.map fun e => (e.key, e.values)

/-! ### iteration and indices -/

def c17_rest (bs : List (List (MapElem κ ν))) (b e : Nat) : List (MapElem κ ν) :=
  match bs.drop b with
  | [] => []
  | c :: cs => c.drop e ++ cs.flatten

theorem c17_seek_aux (m : HMap κ ν) : ∀ (fuel b e : Nat), m.buckets.length + 1 ≤ fuel + b →
    match m.seek fuel b e with
    | none => c17_rest m.buckets b e = []
    | some (b', e', x) => c17_rest m.buckets b e = x :: c17_rest m.buckets b' (e' + 1) := by
  intro fuel
  induction fuel with
  | zero =>
    intro b e h
    simp only [HMap.seek, c17_rest]
    rw [List.drop_eq_nil_of_le (by omega)]
  | succ fuel ih =>
    intro b e h
    simp only [HMap.seek]
    cases hb : m.buckets[b]? with
    | none =>
      simp only [c17_rest]
      rw [List.drop_eq_nil_of_le (by rwa [List.getElem?_eq_none_iff] at hb)]
    | some bucket =>
      simp only
      have hbl : b < m.buckets.length := (List.getElem?_eq_some_iff.mp hb).1
      have hbe : m.buckets[b] = bucket := (List.getElem?_eq_some_iff.mp hb).2
      have hd : m.buckets.drop b = bucket :: m.buckets.drop (b + 1) := by
        rw [List.drop_eq_getElem_cons hbl, hbe]
      have hr : ∀ j, c17_rest m.buckets b j = bucket.drop j ++ (m.buckets.drop (b + 1)).flatten := by
        intro j; simp only [c17_rest, hd]
      have hr1 : c17_rest m.buckets (b + 1) 0 = (m.buckets.drop (b + 1)).flatten := by
        simp only [c17_rest]
        cases m.buckets.drop (b + 1) <;> simp
      cases he : bucket[e]? with
      | some x =>
        simp only [hr]
        have hel : e < bucket.length := (List.getElem?_eq_some_iff.mp he).1
        rw [List.drop_eq_getElem_cons hel, (List.getElem?_eq_some_iff.mp he).2]
        rfl
      | none =>
        simp only [hr, ← hr1]
        rw [List.drop_eq_nil_of_le (by rwa [List.getElem?_eq_none_iff] at he)]
        simpa using ih (b + 1) 0 (by omega)

theorem c17_iterateFrom_aux (m : HMap κ ν) : ∀ (fuel b e : Nat),
    (c17_rest m.buckets b e).length < fuel → m.iterateFrom fuel b e = c17_rest m.buckets b e := by
  intro fuel
  induction fuel with
  | zero => intro b e h; omega
  | succ fuel ih =>
    intro b e h
    have hs := c17_seek_aux m (m.buckets.length + 1 - b) b e (by omega)
    simp only [HMap.iterateFrom]
    cases hk : m.seek (m.buckets.length + 1 - b) b e with
    | none => rw [hk] at hs; simpa using hs.symm
    | some p =>
      obtain ⟨b', e', x⟩ := p
      rw [hk] at hs
      simp only at hs ⊢
      rw [hs] at h ⊢
      rw [ih b' (e' + 1) (by simpa using h)]

theorem c17_iterate_aux {F : KeyFns κ} {m : HMap κ ν} (h : m.Inv F) :
    m.iterate = m.buckets.flatten := by
  have hr : c17_rest m.buckets 0 0 = m.buckets.flatten := by
    unfold c17_rest
    cases m.buckets <;> simp
  unfold HMap.iterate
  rw [c17_iterateFrom_aux m _ 0 0 (by rw [hr, h.num]; omega), hr]

theorem c17_atIndexLoop_aux (idx : Nat) : ∀ (bs : List (List (MapElem κ ν))) (c : Nat), c ≤ idx →
    HMap.atIndexLoop idx bs c = bs.flatten[idx - c]? := by
  intro bs
  induction bs with
  | nil => intro c _; simp [HMap.atIndexLoop]
  | cons b bs ih =>
    intro c hc
    simp only [HMap.atIndexLoop, List.flatten_cons, List.getElem?_append]
    by_cases h0 : b.length ≠ 0
    · rw [if_pos h0]
      by_cases h1 : idx ≤ c + b.length - 1
      · rw [if_pos h1, if_pos (by omega)]
      · rw [if_neg h1, if_neg (by omega), ih _ (by omega)]
        congr 1; omega
    · rw [if_neg h0, if_neg (by omega), ih _ hc]
      congr 1; omega

/-- the order in which negative indices address a bucket: the first element, then backwards from
the last one -/
def c17_back (b : List (MapElem κ ν)) : List (MapElem κ ν) := b.take 1 ++ (b.drop 1).reverse

theorem c17_atNegIndexLoop_aux (idx : Nat) : ∀ (bs : List (List (MapElem κ ν))) (c : Nat), c ≤ idx →
    HMap.atNegIndexLoop idx bs c = (bs.map c17_back).flatten[idx - c]? := by
  have hlen : ∀ b : List (MapElem κ ν), (c17_back b).length = b.length := by
    intro b; cases b <;> simp [c17_back]
  intro bs
  induction bs with
  | nil => intro c _; simp [HMap.atNegIndexLoop]
  | cons b bs ih =>
    intro c hc
    simp only [HMap.atNegIndexLoop, List.map_cons, List.flatten_cons, List.getElem?_append, hlen]
    by_cases h0 : b.length ≠ 0
    · rw [if_pos h0]
      by_cases h1 : idx ≤ c + b.length - 1
      · have h1' : idx - c < b.length := by omega
        rw [if_pos h1, if_pos h1']
        unfold c17_back
        cases b with
        | nil => simp at h0
        | cons x t =>
          by_cases h2 : idx - c = 0
          · rw [if_pos h2, h2]; simp
          · rw [if_neg h2]
            simp only [List.length_cons] at h1
            obtain ⟨j, hj⟩ : ∃ j, idx - c = j + 1 := ⟨idx - c - 1, by omega⟩
            have h3 : j < t.length := by omega
            simp only [hj, List.length_cons, List.take_succ_cons, List.take_zero, List.drop_succ_cons,
              List.drop_zero, List.cons_append, List.nil_append, List.getElem?_cons_succ]
            rw [List.getElem?_reverse h3, show t.length + 1 - (j + 1) = (t.length - 1 - j) + 1 by omega]
            simp
      · rw [if_neg h1, if_neg (by omega), ih _ (by omega)]
        congr 1; omega
    · rw [if_neg h0, if_neg (by omega), ih _ hc]
      congr 1; omega

theorem c17_back_perm_aux (b : List (MapElem κ ν)) : (c17_back b).Perm b := by
  cases b with
  | nil => simp [c17_back]
  | cons x t => simpa [c17_back] using List.reverse_perm t

theorem c17_flatten_perm_aux : ∀ (bs : List (List (MapElem κ ν))),
    (bs.map c17_back).flatten.Perm bs.flatten := by
  intro bs
  induction bs with
  | nil => simp
  | cons b bs ih => simpa using (c17_back_perm_aux b).append ih

theorem c17_reverse_perm_aux : ∀ (bs : List (List (MapElem κ ν))),
    bs.reverse.flatten.Perm bs.flatten := by
  intro bs
  exact List.Perm.flatten (List.reverse_perm bs)

/-! ### one step -/

theorem c17_filter_map_aux (p : κ → Bool) (es : List (MapElem κ ν)) :
    (es.filter fun e => p e.key).map HMap.entry = (es.map HMap.entry).filter fun e => p e.1 := by
  induction es with
  | nil => rfl
  | cons e es ih => simp only [List.filter_cons, List.map_cons, HMap.entry]; split <;> simp [ih, HMap.entry]

theorem c17_step_aux {F : KeyFns κ} (L : F.Lawful) {m : HMap κ ν} (h : m.Inv F) (s : Entries κ ν)
    (hs : (m.buckets.flatten.map HMap.entry).Perm s) (op : MapOp κ ν) :
    ∃ m', m.apply F op = some m' ∧ m'.Inv F ∧
      (m'.buckets.flatten.map HMap.entry).Perm (op.apply F.eqv s) := by
  have hany : ∀ k, (s.any fun e => F.eqv k e.1) = m.buckets.flatten.any fun e => F.eqv k e.key := by
    intro k
    rw [← List.Perm.any_eq hs, List.any_map]
    rfl
  cases op with
  | put k v =>
    simp only [HMap.apply, MapOp.apply, hany]
    rcases HMap.get_spec L h k with ⟨hg, hno, b, hb⟩ | ⟨i, e, b, hg, hb, hi, hbi, hk⟩
    · obtain ⟨m', g1, g2, g3⟩ := HMap.put_new L h k v hno hg
      refine ⟨m', g1, g2, ?_⟩
      have : (m.buckets.flatten.any fun e => F.eqv k e.key) = false := by
        rw [List.any_eq_false]; intro e he; rw [hno e he]; simp
      rw [this]
      refine (g3.map _).trans ?_
      simp only [List.map_cons]
      refine ((hs.cons _)).trans ?_
      exact (List.perm_append_comm (l₁ := [_]) (l₂ := s))
    · obtain ⟨m', g1, g2, g3⟩ := HMap.put_old L h k v hg hb hi
      refine ⟨m', g1, g2, ?_⟩
      have : (m.buckets.flatten.any fun e => F.eqv k e.key) = true := by
        rw [List.any_eq_true]
        exact ⟨e, List.mem_flatten.mpr ⟨b, List.mem_of_getElem? hb, List.mem_of_getElem? hbi⟩, hk⟩
      rw [this, g3]
      simp only [if_true, List.map_map]
      refine List.Perm.trans (List.Perm.of_eq ?_) (hs.map _)
      rw [List.map_map]
      apply List.map_congr_left
      intro x _
      cases hx : F.eqv k x.key <;> simp [HMap.entry, hx]
  | remove k =>
    obtain ⟨m', g1, g2, g3⟩ := HMap.remove_ok L h k
    refine ⟨m', by simp [HMap.apply, g1], g2, ?_⟩
    simp only [MapOp.apply]
    rw [g3, c17_filter_map_aux (fun x => !F.eqv k x)]
    exact hs.filter _
  | clear =>
    refine ⟨HMap.new, rfl, HMap.new_inv F, ?_⟩
    simp [MapOp.apply, HMap.new]

theorem c17_run_aux {F : KeyFns κ} (L : F.Lawful) : ∀ (ops : List (MapOp κ ν)) {m : HMap κ ν}
    (_ : m.Inv F) (s : Entries κ ν) (_ : (m.buckets.flatten.map HMap.entry).Perm s),
    ∃ m', m.run F ops = some m' ∧ m'.Inv F ∧
      (m'.buckets.flatten.map HMap.entry).Perm (ops.foldl (fun s op => op.apply F.eqv s) s) := by
  intro ops
  induction ops with
  | nil => intro m h s hs; exact ⟨m, rfl, h, hs⟩
  | cons op ops ih =>
    intro m h s hs
    obtain ⟨m1, g1, g2, g3⟩ := c17_step_aux L h s hs op
    obtain ⟨m2, k1, k2, k3⟩ := ih g2 _ g3
    exact ⟨m2, by simp [HMap.run, g1, k1], k2, k3⟩

/-- finding by key does not depend on the order when keys are distinct -/
theorem c17_find_perm_aux {F : KeyFns κ} (L : F.Lawful) (k : κ) {s t : Entries κ ν} (h : s.Perm t)
    (hd : s.Pairwise fun a b => F.eqv a.1 b.1 = false) :
    Entries.lookup F.eqv s k = Entries.lookup F.eqv t k := by
  unfold Entries.lookup
  have hdt : t.Pairwise fun a b => F.eqv a.1 b.1 = false :=
    (h.pairwise_iff fun {a b} h => HMap.symm_false L h).mp hd
  have uniq : ∀ {u : Entries κ ν}, (u.Pairwise fun a b => F.eqv a.1 b.1 = false) → ∀ {x y},
      x ∈ u → y ∈ u → F.eqv k x.1 = true → F.eqv k y.1 = true → x = y := by
    intro u
    induction u with
    | nil => intro _ x y hx; simp at hx
    | cons a u ih =>
      intro hp x y hx hy kx ky
      obtain ⟨h1, h2⟩ := List.pairwise_cons.mp hp
      have hc : ∀ {b}, b ∈ u → F.eqv k a.1 = true → F.eqv k b.1 = true → False := by
        intro b hb ka kb
        have := h1 b hb
        rw [L.trans _ _ _ (L.symm _ _ ka) kb] at this; cases this
      rcases List.mem_cons.mp hx with hxa | hx' <;> rcases List.mem_cons.mp hy with hya | hy'
      · rw [hxa, hya]
      · exact (hc hy' (hxa ▸ kx) ky).elim
      · exact (hc hx' (hya ▸ ky) kx).elim
      · exact ih h2 hx' hy' kx ky
  cases hf : s.find? fun e => F.eqv k e.1 with
  | none =>
    symm
    rw [List.find?_eq_none] at hf ⊢
    intro x hx; exact hf x (h.mem_iff.mpr hx)
  | some x =>
    have hx := List.mem_of_find?_eq_some hf
    have hkx := List.find?_some hf
    cases hg : t.find? fun e => F.eqv k e.1 with
    | none =>
      rw [List.find?_eq_none] at hg
      exact absurd hkx (hg x (h.mem_iff.mp hx))
    | some y =>
      have hy := List.mem_of_find?_eq_some hg
      have hky := List.find?_some hg
      rw [uniq hdt (h.mem_iff.mp hx) hy hkx hky]

theorem c17_get_aux {F : KeyFns κ} (L : F.Lawful) {m : HMap κ ν} (h : m.Inv F) (k : κ) :
    ∃ r, m.get F k = some r ∧
      r.map (fun x => (x.2.2.key, x.2.2.values)) =
        Entries.lookup F.eqv (m.buckets.flatten.map HMap.entry) k := by
  unfold Entries.lookup
  rcases HMap.get_spec L h k with ⟨hg, hno, b, hb⟩ | ⟨i, e, b, hg, hb, hi, hbi, hk⟩
  · refine ⟨none, hg, ?_⟩
    symm
    simp only [Option.map_none, List.find?_eq_none, List.mem_map]
    rintro x ⟨e, he, rfl⟩
    have := hno e he
    simp [HMap.entry, this]
  · refine ⟨_, hg, ?_⟩
    have hmem : e ∈ m.buckets.flatten :=
      List.mem_flatten.mpr ⟨b, List.mem_of_getElem? hb, List.mem_of_getElem? hbi⟩
    simp only [Option.map_some]
    obtain ⟨s, t, hst⟩ := List.append_of_mem hmem
    have hd := h.distinct
    rw [hst] at hd ⊢
    have hs : ∀ x ∈ s, F.eqv k x.key = false := by
      intro x hx
      cases hkx : F.eqv k x.key with
      | false => rfl
      | true =>
        have := (List.pairwise_append.mp hd).2.2 x hx e (by simp)
        rw [L.trans _ _ _ (L.symm _ _ hkx) hk] at this; cases this
    simp only [List.map_append, List.map_cons, List.find?_append]
    have : List.find? (fun e => F.eqv k e.1) (s.map HMap.entry) = none := by
      rw [List.find?_eq_none]
      intro y hy
      obtain ⟨x, hx, rfl⟩ := List.mem_map.mp hy
      simp [HMap.entry, hs x hx]
    rw [this]
    simp [HMap.entry, hk]

/-! ### the theorems -/

/-- For every equivalence used as key comparison, every hash function that respects it and every
history of operations: the map never fails, iterating it yields exactly the entries of the
specification, and the count is the number of distinct keys. -/
theorem c17_history {F : KeyFns κ} (L : F.Lawful) (ops : List (MapOp κ ν)) :
    ∃ m, HMap.new.run F ops = some m ∧ (entries m).Perm (runEntries F.eqv ops) ∧
      m.num = (runEntries F.eqv ops).length := by
  obtain ⟨m, h1, h2, h3⟩ := c17_run_aux L ops (HMap.new_inv F) [] (by simp [HMap.new])
  have he : entries m = m.buckets.flatten.map HMap.entry := by
    unfold entries; rw [c17_iterate_aux h2]; rfl
  refine ⟨m, h1, by rw [he]; exact h3, ?_⟩
  have := h3.length_eq
  simp only [List.length_map] at this
  rw [h2.num, this]; rfl

/-- After every history, looking up any key gives what the specification finds: the values put
under an equal key and not removed since, in order. -/
theorem c17_lookup {F : KeyFns κ} (L : F.Lawful) (ops : List (MapOp κ ν)) (k : κ) :
    ∃ m r, HMap.new.run F ops = some m ∧ m.get F k = some r ∧
      r.map (fun x => (x.2.2.key, x.2.2.values)) = (runEntries F.eqv ops).lookup F.eqv k := by
  obtain ⟨m, h1, h2, h3⟩ := c17_run_aux L ops (HMap.new_inv F) [] (by simp [HMap.new])
  obtain ⟨r, g1, g2⟩ := c17_get_aux L h2 k
  refine ⟨m, r, h1, g1, ?_⟩
  rw [g2]
  apply c17_find_perm_aux L k h3
  have := h2.distinct
  rw [List.pairwise_map]
  exact this

/-- Removing reports whether an equal key was present. -/
theorem c17_remove_reports {F : KeyFns κ} (L : F.Lawful) (ops : List (MapOp κ ν)) (k : κ) :
    ∃ m m', HMap.new.run F ops = some m ∧
      m.remove F k = some (m', ((runEntries F.eqv ops).lookup F.eqv k).isSome) := by
  obtain ⟨m, h1, h2, h3⟩ := c17_run_aux L ops (HMap.new_inv F) [] (by simp [HMap.new])
  obtain ⟨m', g1, _⟩ := HMap.remove_ok L h2 k
  refine ⟨m, m', h1, ?_⟩
  rw [g1]
  have : ((runEntries F.eqv ops).lookup F.eqv k).isSome =
      m.buckets.flatten.any fun e => F.eqv k e.key := by
    unfold Entries.lookup
    rw [Bool.eq_iff_iff, List.find?_isSome]
    simp only [List.any_eq_true]
    constructor
    · rintro ⟨x, hx, hk⟩
      obtain ⟨e, he, rfl⟩ := List.mem_map.mp (h3.mem_iff.mpr hx)
      exact ⟨e, he, hk⟩
    · rintro ⟨e, he, hk⟩
      exact ⟨_, h3.mem_iff.mp (List.mem_map_of_mem he), hk⟩
  rw [this]

/-- After every history, indices 0, 1, 2, … address the elements in iteration order. -/
theorem c17_index {F : KeyFns κ} (L : F.Lawful) (ops : List (MapOp κ ν)) :
    ∃ m, HMap.new.run F ops = some m ∧ ∀ i : Nat, m.atIndex i = m.iterate[i]? := by
  obtain ⟨m, h1, h2, h3⟩ := c17_run_aux L ops (HMap.new_inv F) [] (by simp [HMap.new])
  refine ⟨m, h1, ?_⟩
  intro i
  unfold HMap.atIndex
  rw [if_neg (by omega), c17_atIndexLoop_aux _ _ 0 (by omega), c17_iterate_aux h2]
  simp

/-- After every history, the negative indices -1, …, -n address every element exactly once too (in
an order that is not the reverse of the iteration order: see `c17_minus_one_is_not_last`). -/
theorem c17_negative_index {F : KeyFns κ} (L : F.Lawful) (ops : List (MapOp κ ν)) :
    ∃ m, HMap.new.run F ops = some m ∧
      ((List.range m.num).map fun i : Nat => m.atIndex (-1 - (i : Int))).Perm (m.iterate.map some) := by
  obtain ⟨m, h1, h2, h3⟩ := c17_run_aux L ops (HMap.new_inv F) [] (by simp [HMap.new])
  refine ⟨m, h1, ?_⟩
  have hp : (m.buckets.reverse.map c17_back).flatten.Perm m.buckets.flatten :=
    (c17_flatten_perm_aux _).trans (c17_reverse_perm_aux _)
  have : ((List.range m.num).map fun i : Nat => m.atIndex (-1 - (i : Int))) =
      (m.buckets.reverse.map c17_back).flatten.map some := by
    apply List.ext_getElem?
    intro i
    rw [List.getElem?_map, List.getElem?_map]
    have hl : (m.buckets.reverse.map c17_back).flatten.length = m.num := by
      rw [hp.length_eq, h2.num]
    by_cases hi : i < m.num
    · rw [List.getElem?_range hi]
      simp only [Option.map_some, HMap.atIndex]
      rw [if_pos (by omega), c17_atNegIndexLoop_aux _ _ 0 (by omega),
        show (-(-1 - (i : Int) + 1)).toNat - 0 = i by omega,
        List.getElem?_eq_getElem (by omega)]
      rfl
    · rw [List.getElem?_eq_none (by simp; omega), List.getElem?_eq_none (by omega)]
      rfl
  rw [this, c17_iterate_aux h2]
  exact hp.map _

/-! ### histories of assignments -/

theorem c17_lookup_remove_aux {F : KeyFns κ} (L : F.Lawful) (s : Entries κ ν) (k k' : κ) :
    Entries.lookup F.eqv (s.filter fun e => !F.eqv k e.1) k' =
      if F.eqv k k' then none else Entries.lookup F.eqv s k' := by
  unfold Entries.lookup
  rw [List.find?_filter]
  cases hk : F.eqv k k' with
  | true =>
    simp only [if_true, List.find?_eq_none]
    intro x hx hc
    simp at hc
    rw [L.trans _ _ _ hk hc.2] at hc; simp at hc
  | false =>
    simp only [Bool.false_eq_true, if_false]
    congr 1
    funext e
    cases hke : F.eqv k' e.1 with
    | false => simp
    | true =>
      have : F.eqv k e.1 = false := by
        cases h : F.eqv k e.1 with
        | false => rfl
        | true => rw [L.trans _ _ _ h (L.symm _ _ hke)] at hk; cases hk
      simp [this]

theorem c17_assign_step_aux {F : KeyFns κ} (L : F.Lawful) (s : Entries κ ν) (f : κ → Option ν)
    (h : ∀ k, (s.lookup F.eqv k).map (·.2) = (f k).map fun v => [v]) (op : AssignOp κ ν) :
    ∀ k, ((op.toMapOps.foldl (fun s op => op.apply F.eqv s) s).lookup F.eqv k).map (·.2) =
      (op.apply F.eqv f k).map fun v => [v] := by
  intro k'
  cases op with
  | remove k =>
    simp only [AssignOp.toMapOps, List.foldl_cons, List.foldl_nil, MapOp.apply, AssignOp.apply]
    rw [c17_lookup_remove_aux L]
    split
    · rfl
    · exact h k'
  | clear => rfl
  | set k v =>
    simp only [AssignOp.toMapOps, List.foldl_cons, List.foldl_nil, MapOp.apply, AssignOp.apply]
    have hno : ((s.filter fun e => !F.eqv k e.1).any fun e => F.eqv k e.1) = false := by
      rw [List.any_eq_false]
      intro x hx hc
      have := (List.mem_filter.mp hx).2
      rw [hc] at this; simp at this
    rw [hno]
    simp only [Bool.false_eq_true, if_false]
    have hrem := c17_lookup_remove_aux L s k k'
    unfold Entries.lookup at hrem h ⊢
    rw [List.find?_append, hrem]
    cases hk : F.eqv k k' with
    | true => simp [L.symm _ _ hk]
    | false =>
      have : F.eqv k' k = false := HMap.symm_false L hk
      simp only [Bool.false_eq_true, if_false, List.find?_cons, this, List.find?_nil]
      rw [← h k']
      simp

/-- the value a lookup yields to the caller: the accessor of the element found, if any; `none` if
the accessor's assertion fails -/
def valueOf (r : Option (Nat × Nat × MapElem κ ν)) : Option (Option ν) :=
  match r with
  | none => some none
  | some (_, _, e) => HMap.elemValue e

/-- Histories in which every assignment removes the key first are last-write-wins: the map never
fails and every lookup yields the value of the plain partial function the history describes. -/
theorem c17_assignments_partial {F : KeyFns κ} (L : F.Lawful) (ops : List (AssignOp κ ν)) :
    ∃ m, HMap.new.run F (ops.flatMap AssignOp.toMapOps) = some m ∧
      ∀ k, (m.get F k).bind valueOf = some (runAssign F.eqv ops k) := by
  have key : ∀ (ops : List (AssignOp κ ν)) (s : Entries κ ν) (f : κ → Option ν),
      (∀ k, (s.lookup F.eqv k).map (·.2) = (f k).map fun v => [v]) →
      ∀ k, (((ops.flatMap AssignOp.toMapOps).foldl (fun s op => op.apply F.eqv s) s).lookup
        F.eqv k).map (·.2) = (ops.foldl (fun f op => op.apply F.eqv f) f k).map fun v => [v] := by
    intro ops
    induction ops with
    | nil => intro s f h; exact h
    | cons op ops ih =>
      intro s f h
      rw [List.flatMap_cons, List.foldl_append, List.foldl_cons]
      exact ih _ _ (c17_assign_step_aux L s f h op)
  obtain ⟨m, h1, h2, h3⟩ := c17_run_aux L (ops.flatMap AssignOp.toMapOps) (HMap.new_inv F) []
    (by simp [HMap.new])
  refine ⟨m, h1, ?_⟩
  intro k
  obtain ⟨r, g1, g2⟩ := c17_get_aux L h2 k
  rw [c17_find_perm_aux L k h3 (by rw [List.pairwise_map]; exact h2.distinct)] at g2
  have hk := key ops [] (fun _ => none) (by intro k; rfl) k
  rw [← g2] at hk
  rw [g1]
  show valueOf r = _
  unfold runAssign
  cases r with
  | none =>
    simp only [Option.map_none] at hk
    cases hf : List.foldl (fun f op => AssignOp.apply F.eqv f op) (fun _ => none) ops k with
    | none => rfl
    | some v => rw [hf] at hk; simp at hk
  | some x =>
    obtain ⟨b, i, e⟩ := x
    simp only [Option.map_some] at hk
    cases hf : List.foldl (fun f op => AssignOp.apply F.eqv f op) (fun _ => none) ops k with
    | none => rw [hf] at hk; simp at hk
    | some v =>
      rw [hf] at hk
      simp at hk
      simp [valueOf, HMap.elemValue, hk]

/-! ### negative results -/

/-- keys are numbers, hashed to themselves -/
def c17_numKeys : KeyFns Nat := ⟨id, fun a b => a == b⟩

theorem c17_numKeys_lawful_aux : c17_numKeys.Lawful where
  refl := by simp [c17_numKeys]
  symm := by simp [c17_numKeys]
  trans := by simp [c17_numKeys]
  hash := by simp [c17_numKeys]

/-- Put alone is not last-write-wins: putting twice under one key makes the accessor of the stored
element fail its assertion.  (`(hash-map k 'a k 'b)` does this, dern_value.c:2047, 4545.) -/
theorem c17_put_twice_not_a_map :
    ∃ m, HMap.new.run c17_numKeys [.put 7 'a', .put 7 'b'] = some m ∧
      (m.get c17_numKeys 7).bind valueOf = none := by
  obtain ⟨m, r, h1, h2, h3⟩ := c17_lookup c17_numKeys_lawful_aux [.put 7 'a', .put 7 'b'] 7
  refine ⟨m, h1, ?_⟩
  rw [h2]
  rw [show Entries.lookup c17_numKeys.eqv (runEntries c17_numKeys.eqv [.put 7 'a', .put 7 'b']) 7 =
    some (7, ['a', 'b']) from rfl] at h3
  cases r with
  | none => simp at h3
  | some x =>
    obtain ⟨b, i, e⟩ := x
    simp at h3
    simp [valueOf, HMap.elemValue, h3.2]

set_option maxRecDepth 20000 in
/-- Index -1 does not address the last element: with two keys in one bucket it is the first. -/
theorem c17_minus_one_is_not_last :
    ∃ m, HMap.new.run c17_numKeys [.put 0 'a', .put 128 'b'] = some m ∧
      m.atIndex (-1) = m.iterate.head? ∧ m.atIndex (-1) ≠ m.iterate.getLast? := by
  refine ⟨⟨[⟨0, 0, ['a']⟩, ⟨128, 128, ['b']⟩] :: List.replicate 127 [], 1, 2⟩, rfl, rfl, ?_⟩
  decide

set_option maxRecDepth 20000 in
/-- a history with colliding keys, overwriting and removal -/
example : ∃ m, HMap.new.run c17_numKeys
      ([.set 0 'a', .set 128 'b', .set 0 'c', .remove 128, .set 256 'd'].flatMap AssignOp.toMapOps) = some m ∧
      m.num = 2 ∧ (m.get c17_numKeys 0).bind valueOf = some (some 'c') ∧
      (m.get c17_numKeys 128).bind valueOf = some none := by
  refine ⟨⟨[⟨0, 0, ['c']⟩, ⟨256, 256, ['d']⟩] :: List.replicate 127 [], 1, 2⟩, rfl, rfl, rfl, rfl⟩

set_option maxRecDepth 20000 in
/-- a history that grows the table: 96 distinct keys reach the load factor -/
example : ((HMap.new (κ := Nat) (ν := Nat)).run c17_numKeys
    ((List.range 96).map fun i => .put i i)).map (fun m => (m.buckets.length, m.num)) =
    some (256, 96) := by rfl

end Dern.Props
