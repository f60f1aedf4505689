import Verif.Core.List
namespace Dern
namespace DList
variable {α : Type}

@[simp] theorem ok_bind {β γ : Type} (a : β) (f : β → R γ) : ((Except.ok a : R β) >>= f) = f a := rfl
@[simp] theorem error_bind {β γ : Type} (e : ListFault) (f : β → R γ) :
    ((Except.error e : R β) >>= f) = .error e := rfl
@[simp] theorem pure_ok {β : Type} (a : β) : (pure a : R β) = .ok a := rfl
@[simp] theorem map_ok {β γ : Type} (a : β) (f : β → γ) : f <$> (Except.ok a : R β) = .ok (f a) := rfl

/-- `as` are the addresses of the nodes in order, `s` their elements -/
structure Inv (l : DList α) (as : List Nat) (s : List α) : Prop where
  len : as.length = s.length
  nodup : as.Nodup
  fresh : ∀ a ∈ as, a < l.fresh
  links : ∀ i a, as[i]? = some a →
    l.mem a = s[i]?.map fun x => ⟨x, as[i+1]?, if i = 0 then none else as[i-1]?⟩
  only : ∀ a, l.mem a ≠ none → a ∈ as
  front : l.front = as[0]?
  back : l.back = as[as.length - 1]?
  num : l.num = as.length

theorem new_inv : (new : DList α).Inv [] [] := by
  constructor <;> simp [new]

theorem idx_inj {as : List Nat} (h : as.Nodup) {i j a : Nat} (hi : as[i]? = some a)
    (hj : as[j]? = some a) : i = j := by
  have h1 := (List.getElem?_eq_some_iff.mp hi)
  have h2 := (List.getElem?_eq_some_iff.mp hj)
  obtain ⟨l1, e1⟩ := h1
  obtain ⟨l2, e2⟩ := h2
  exact (List.getElem_inj h).mp (e1.trans e2.symm)

theorem pushFront_ok {l : DList α} {as s} (h : l.Inv as s) (x : α) :
    ∃ l', l.pushFront x = .ok l' ∧ l'.Inv (l.fresh :: as) (x :: s) ∧ l'.released = l.released := by
  have hf : l.fresh ∉ as := fun hm => absurd (h.fresh _ hm) (by omega)
  have hlen := h.len
  have only := h.only
  cases as with
  | nil =>
    have hs : s = [] := by simpa using hlen.symm
    subst hs
    have hfr : l.front = none := by simpa using h.front
    have hn : l.num = 0 := by simpa using h.num
    refine ⟨⟨fun b => if b = l.fresh then some ⟨x, none, none⟩ else l.mem b, l.fresh + 1,
      some l.fresh, some l.fresh, 1, l.released⟩, by simp [pushFront, alloc, hfr, hn], ?_, rfl⟩
    constructor <;> simp
    · intro i a hi; cases i <;> simp at hi ⊢; simp [hi]
    · intro a ha
      have := only a; grind
  | cons b as =>
    obtain ⟨y, s, rfl⟩ : ∃ y t, s = y :: t := by
      cases s with
      | nil => simp at hlen
      | cons y t => exact ⟨y, t, rfl⟩
    have hfr : l.front = some b := by simpa using h.front
    have hn : l.num = as.length + 1 := by simpa using h.num
    have hb : l.mem b = some ⟨y, as[0]?, none⟩ := by simpa using h.links 0 b (by simp)
    have hbf : b ≠ l.fresh := by intro e; exact hf (by simp [e])
    refine ⟨⟨fun c => if c = b then some ⟨y, as[0]?, some l.fresh⟩ else
        if c = l.fresh then some ⟨x, some b, none⟩ else l.mem c, l.fresh + 1,
        some l.fresh, l.back, as.length + 2, l.released⟩, ?_, ?_, rfl⟩
    · simp [pushFront, alloc, hfr, hn, setPrev, hb, hbf]
    refine ⟨by simp at hlen ⊢; omega, List.nodup_cons.mpr ⟨hf, h.nodup⟩, ?_, ?_, ?_, ?_, ?_, ?_⟩
    · intro a ha
      rcases List.mem_cons.mp ha with rfl | ha
      · simp
      · have := h.fresh a ha; simp; omega
    · intro i a hi
      simp only
      rcases i with _ | _ | i
      · simp at hi; subst hi; simp [hbf.symm]
      · simp at hi; subst hi; simp
      · have hi' : (b :: as)[i+1]? = some a := by simpa using hi
        have hl := h.links (i+1) a hi'
        have hab : a ≠ b := by
          intro e; subst e
          have := idx_inj h.nodup (i := i+1) (j := 0) hi' (by simp)
          omega
        have haf : a ≠ l.fresh := by
          intro e; subst e; exact hf (List.mem_of_getElem? hi')
        rw [if_neg hab, if_neg haf, hl]
        simp
    · intro a ha
      simp only at ha
      have := only a
      grind
    · simp
    · have := h.back; simpa using this
    · simp

theorem pushBack_ok {l : DList α} {as s} (h : l.Inv as s) (x : α) :
    ∃ l', l.pushBack x = .ok l' ∧ l'.Inv (as ++ [l.fresh]) (s ++ [x]) ∧ l'.released = l.released := by
  have hf : l.fresh ∉ as := fun hm => absurd (h.fresh _ hm) (by omega)
  have hlen := h.len
  have only := h.only
  by_cases h0 : as = []
  · subst h0
    have hs : s = [] := by simpa using hlen.symm
    subst hs
    have hfr : l.back = none := by simpa using h.back
    have hn : l.num = 0 := by simpa using h.num
    refine ⟨⟨fun b => if b = l.fresh then some ⟨x, none, none⟩ else l.mem b, l.fresh + 1,
      some l.fresh, some l.fresh, 1, l.released⟩, ?_, ?_, rfl⟩
    · simp [pushBack, alloc, hfr, hn, node, verify]
    constructor <;> simp
    · intro i a hi; cases i <;> simp at hi ⊢; simp [hi]
    · intro a ha
      have := only a; grind
  · have hpos : 0 < as.length := List.length_pos_iff.mpr h0
    obtain ⟨b, hb⟩ : ∃ b, as[as.length - 1]? = some b :=
      ⟨as[as.length - 1], List.getElem?_eq_getElem (by omega)⟩
    obtain ⟨y, hy⟩ : ∃ y, s[as.length - 1]? = some y :=
      ⟨s[as.length - 1], List.getElem?_eq_getElem (by omega)⟩
    have hbk : l.back = some b := by rw [h.back, hb]
    have hn := h.num
    have hmb := h.links _ b hb
    rw [hy, Nat.sub_add_cancel hpos, List.getElem?_eq_none (i := as.length) (by omega)] at hmb
    simp only [Option.map_some] at hmb
    have hbm : b ∈ as := List.mem_of_getElem? hb
    have hbf : b ≠ l.fresh := by intro e; exact hf (e ▸ hbm)
    refine ⟨⟨fun c => if c = b then
          some ⟨y, some l.fresh, if as.length - 1 = 0 then none else as[as.length - 1 - 1]?⟩ else
        if c = l.fresh then some ⟨x, none, some b⟩ else l.mem c, l.fresh + 1,
        l.front, some l.fresh, as.length + 1, l.released⟩, ?_, ?_, rfl⟩
    · simp [pushBack, alloc, hbk, hn, setNext, hmb, hbf, Ne.symm hbf, h0, node, verify, hpos]
    refine ⟨by simp [hlen], ?_, ?_, ?_, ?_, ?_, ?_, ?_⟩
    · rw [List.nodup_append]
      refine ⟨h.nodup, by simp, ?_⟩
      intro a ha b hb
      simp at hb; subst hb
      intro e; subst e; exact hf ha
    · intro a ha
      rcases List.mem_append.mp ha with ha | ha
      · have := h.fresh a ha; simp; omega
      · simp at ha; simp [ha]
    · intro i a hi
      simp only
      by_cases hi1 : i = as.length
      · subst hi1
        have : a = l.fresh := by simpa using hi.symm
        subst this
        have e1 : (as ++ [l.fresh])[as.length + 1]? = none := by simp
        have e2 : (as ++ [l.fresh])[as.length - 1]? = some b := by
          rw [List.getElem?_append_left (by omega)]; exact hb
        have e3 : (s ++ [x])[as.length]? = some x := by rw [hlen]; simp
        rw [if_neg hbf.symm, if_pos rfl, e1, e2, e3, if_neg (by omega)]; rfl
      · have hi2 : i < as.length := by
          have := (List.getElem?_eq_some_iff.mp hi).1
          simp at this; omega
        have hi' : as[i]? = some a := by rwa [List.getElem?_append_left hi2] at hi
        have hl := h.links i a hi'
        have haf : a ≠ l.fresh := by
          intro e; subst e; exact hf (List.mem_of_getElem? hi')
        by_cases hi3 : i = as.length - 1
        · subst hi3
          have : a = b := by rw [hb] at hi'; exact (Option.some.inj hi').symm
          subst this
          have e1 : (as ++ [l.fresh])[as.length]? = some l.fresh := by simp
          have e2 : (as ++ [l.fresh])[as.length - 1 - 1]? = as[as.length - 1 - 1]? := by
            rw [List.getElem?_append_left (by omega)]
          have e3 : (s ++ [x])[as.length - 1]? = some y := by
            rw [List.getElem?_append_left (by omega)]; exact hy
          rw [if_pos rfl, e3, Nat.sub_add_cancel hpos, e1, e2]; rfl
        · have hab : a ≠ b := by
            intro e; subst e
            exact hi3 (idx_inj h.nodup hi' hb)
          have e1 : (as ++ [l.fresh])[i+1]? = as[i+1]? := List.getElem?_append_left (by omega)
          have e2 : (as ++ [l.fresh])[i-1]? = as[i-1]? := List.getElem?_append_left (by omega)
          have e3 : (s ++ [x])[i]? = s[i]? := List.getElem?_append_left (by omega)
          rw [if_neg hab, if_neg haf, hl, e1, e2, e3]
    · intro a ha
      simp only at ha
      have := only a
      grind
    · rw [List.getElem?_append_left hpos]; exact h.front
    · simp
    · simp

/-- taking one node out of the chain -/
theorem unlink_inv {l l' : DList α} {as s} (h : l.Inv as s) {k a : Nat} (hk : as[k]? = some a)
    (hmem : ∀ c, l'.mem c = if c = a then none
      else if k ≠ 0 ∧ as[k-1]? = some c then (l.mem c).map fun n => { n with next := as[k+1]? }
      else if as[k+1]? = some c then
        (l.mem c).map fun n => { n with prev := if k = 0 then none else as[k-1]? }
      else l.mem c)
    (hfresh : l'.fresh = l.fresh)
    (hfront : l'.front = if k = 0 then as[1]? else l.front)
    (hback : l'.back = if k + 1 = as.length then (if k = 0 then none else as[k-1]?) else l.back)
    (hnum : l'.num + 1 = l.num) :
    l'.Inv (as.eraseIdx k) (s.eraseIdx k) := by
  have hkl : k < as.length := (List.getElem?_eq_some_iff.mp hk).1
  have hlen := h.len
  have hidx : ∀ i, (as.eraseIdx k)[i]? = if i < k then as[i]? else as[i+1]? := by
    intro i; rw [List.getElem?_eraseIdx]
  have hsub : (as.eraseIdx k).Sublist as := List.eraseIdx_sublist ..
  refine ⟨?_, hsub.nodup h.nodup, ?_, ?_, ?_, ?_, ?_, ?_⟩
  · rw [List.length_eraseIdx_of_lt hkl, List.length_eraseIdx_of_lt (by omega)]; omega
  · intro b hb
    rw [hfresh]; exact h.fresh b (hsub.subset hb)
  · intro i b hi
    rw [hidx] at hi
    have key : ∀ j, as[j]? = some b → j = (if i < k then i else i + 1) := by
      intro j hj
      split at hi <;> rename_i hc
      · rw [if_pos hc]; exact idx_inj h.nodup hj hi
      · rw [if_neg hc]; exact idx_inj h.nodup hj hi
    have hba : b ≠ a := by
      intro e; subst e
      have := key k hk
      split at this <;> omega
    rw [hmem, if_neg hba]
    have hjl := h.links (if i < k then i else i + 1) b (by split <;> simp_all)
    have hids : (s.eraseIdx k)[i]? = if i < k then s[i]? else s[i+1]? := by
      rw [List.getElem?_eraseIdx]
    rw [hidx, hidx, hids]
    by_cases hp : k ≠ 0 ∧ as[k-1]? = some b
    · rw [if_pos hp]
      have e := key (k-1) hp.2
      have : i + 1 = k := by split at e <;> omega
      subst this
      simp only [show i < i + 1 by omega, if_true] at hjl
      rw [hjl]
      simp
      cases hsi : s[i]? with
      | none => rfl
      | some y =>
        simp only [Option.map_some, Node.mk.injEq, Option.some.injEq, true_and]
        by_cases h0 : i = 0
        · simp [h0]
        · simp [h0]; intro hh; omega
    · rw [if_neg hp]
      by_cases hq : as[k+1]? = some b
      · rw [if_pos hq]
        have e := key (k+1) hq
        have : i = k := by split at e <;> omega
        subst this
        simp only [show ¬ i < i by omega, if_false] at hjl
        rw [hjl]
        simp
        cases hsi : s[i+1]? with
        | none => rfl
        | some y =>
          simp only [Option.map_some, Node.mk.injEq, Option.some.injEq, true_and]
          by_cases h0 : i = 0
          · simp [h0]
          · simp [h0]; constructor <;> intro hh <;> omega
      · rw [if_neg hq, hjl]
        by_cases hik : i < k
        · have hne : i + 1 ≠ k := by
            intro e
            apply hp
            rw [if_pos hik] at hi
            have : k - 1 = i := by omega
            rw [this]; exact ⟨by omega, hi⟩
          have : i + 1 < k := by omega
          have h2 : i - 1 < k := by omega
          simp only [if_pos hik, if_pos this, if_pos h2]
        · have hne : i ≠ k := by
            intro e
            apply hq
            rw [if_neg hik] at hi
            rw [← e]; exact hi
          rw [if_neg hik, if_neg (by omega)]
          have h1 : ¬ i = 0 := by omega
          have h2 : ¬ i - 1 < k := by omega
          have h3 : i - 1 + 1 = i := by omega
          have h4 : ¬ i + 1 < k := by omega
          simp [h1, h2, h3, h4, hik]
  · intro c hc
    rw [hmem] at hc
    have hca : c ≠ a := by intro e; rw [if_pos e] at hc; exact hc rfl
    rw [if_neg hca] at hc
    have : c ∈ as := by
      apply h.only
      intro e
      simp [e] at hc
    obtain ⟨j, hj⟩ := List.getElem?_of_mem this
    have hjk : j ≠ k := by
      intro e; subst e; rw [hk] at hj; exact hca (Option.some.inj hj).symm
    by_cases hlt : j < k
    · exact List.mem_of_getElem? (i := j) (by rw [hidx, if_pos hlt]; exact hj)
    · refine List.mem_of_getElem? (i := j - 1) ?_
      rw [hidx, if_neg (by omega), show j - 1 + 1 = j by omega]; exact hj
  · rw [hfront, hidx, h.front]
    by_cases hk0 : k = 0
    · simp [hk0]
    · simp [hk0, show 0 < k by omega]
  · rw [hback, hidx, List.length_eraseIdx_of_lt hkl, h.back]
    by_cases hkn : k + 1 = as.length
    · rw [if_pos hkn]
      by_cases hk0 : k = 0
      · subst hk0; simp [← hkn]
      · rw [if_neg hk0, if_pos (by omega)]; congr 1; omega
    · rw [if_neg hkn, if_neg (by omega)]; congr 1; omega
  · rw [List.length_eraseIdx_of_lt hkl]; have := h.num; omega

theorem popFront_ok {l : DList α} {as s} (h : l.Inv as s) :
    ∃ l', l.popFront = .ok l' ∧ l'.Inv as.tail s.tail ∧ l'.released = l.released ++ s.take 1 := by
  have hlen := h.len
  cases as with
  | nil =>
    have hs : s = [] := by simpa using hlen.symm
    subst hs
    have hfr : l.front = none := by simpa using h.front
    exact ⟨l, by simp [popFront, hfr], h, by simp⟩
  | cons b as =>
    obtain ⟨y, s, rfl⟩ : ∃ y t, s = y :: t := by
      cases s with
      | nil => simp at hlen
      | cons y t => exact ⟨y, t, rfl⟩
    have hfr : l.front = some b := by simpa using h.front
    have hn : l.num = as.length + 1 := by simpa using h.num
    have hb : l.mem b = some ⟨y, as[0]?, none⟩ := by simpa using h.links 0 b (by simp)
    have hlen' : as.length = s.length := by simpa using hlen
    rcases as with _ | ⟨c, as⟩
    · refine ⟨⟨fun d => if d = b then none else l.mem d, l.fresh, none, none, 0,
        l.released ++ [y]⟩, ?_, ?_, rfl⟩
      · simp [popFront, hfr, node, hb, setNext, verify, hn, release]
        funext d; split <;> simp_all
      · have := unlink_inv (l' := ⟨fun d => if d = b then none else l.mem d, l.fresh, none, none, 0,
          l.released ++ [y]⟩) h (k := 0) (a := b) (by simp) (by intro c; simp) rfl (by simp)
          (by simp) (by simp [hn])
        simpa using this
    · obtain ⟨z, s, rfl⟩ : ∃ y t, s = y :: t := by
        cases s with
        | nil => simp at hlen'
        | cons y t => exact ⟨y, t, rfl⟩
      have hcb : c ≠ b := by
        intro e; subst e
        have := idx_inj h.nodup (i := 0) (j := 1) (a := c) (by simp) (by simp)
        omega
      have hc : l.mem c = some ⟨z, as[0]?, some b⟩ := by simpa using h.links 1 c (by simp)
      refine ⟨⟨fun d => if d = b then none else if d = c then some ⟨z, as[0]?, none⟩ else l.mem d,
        l.fresh, some c, l.back, as.length + 1, l.released ++ [y]⟩, ?_, ?_, rfl⟩
      · simp [popFront, hfr, node, hb, setNext, setPrev, verify, hn, release, hc, hcb, Ne.symm hcb]
        funext d; split <;> simp_all
      · have := unlink_inv (l' := ⟨fun d => if d = b then none else if d = c then some ⟨z, as[0]?, none⟩
          else l.mem d, l.fresh, some c, l.back, as.length + 1, l.released ++ [y]⟩) h (k := 0) (a := b)
          (by simp) (by
            intro d; simp
            by_cases e1 : d = b
            · simp [e1]
            · by_cases e2 : d = c
              · subst e2; simp [e1, hc]
              · simp [e1, e2]; intro e; exact absurd e.symm e2) rfl (by simp) (by simp) (by simp [hn])
        simpa using this

theorem popBack_ok {l : DList α} {as s} (h : l.Inv as s) :
    ∃ l', l.popBack = .ok l' ∧ l'.Inv as.dropLast s.dropLast ∧
      l'.released = l.released ++ s.drop (s.length - 1) := by
  have hlen := h.len
  by_cases h0 : as = []
  · subst h0
    have hs : s = [] := by simpa using hlen.symm
    subst hs
    have hfr : l.back = none := by simpa using h.back
    exact ⟨l, by simp [popBack, hfr], h, by simp⟩
  · have hpos : 0 < as.length := List.length_pos_iff.mpr h0
    obtain ⟨b, hb⟩ : ∃ b, as[as.length - 1]? = some b :=
      ⟨as[as.length - 1], List.getElem?_eq_getElem (by omega)⟩
    obtain ⟨y, hy⟩ : ∃ y, s[as.length - 1]? = some y :=
      ⟨s[as.length - 1], List.getElem?_eq_getElem (by omega)⟩
    have hbk : l.back = some b := by rw [h.back, hb]
    have hn := h.num
    have hmb := h.links _ b hb
    rw [hy, Nat.sub_add_cancel hpos, List.getElem?_eq_none (i := as.length) (by omega)] at hmb
    simp only [Option.map_some] at hmb
    have hrel : s.drop (s.length - 1) = [y] := by
      rw [← hlen]
      have hl : as.length - 1 < s.length := by omega
      rw [List.drop_eq_getElem_cons hl, List.drop_of_length_le (by omega)]
      have := List.getElem?_eq_getElem hl
      rw [hy] at this
      rw [← Option.some.inj this]
    have hd1 : as.dropLast = as.eraseIdx (as.length - 1) := by
      rw [List.eraseIdx_eq_take_drop_succ, List.drop_of_length_le (by omega), List.dropLast_eq_take]
      simp
    have hd2 : s.dropLast = s.eraseIdx (as.length - 1) := by
      rw [List.eraseIdx_eq_take_drop_succ, List.drop_of_length_le (by omega), List.dropLast_eq_take, hlen]
      simp
    rw [hrel, hd1, hd2]
    by_cases h1 : as.length = 1
    · rw [h1] at hmb
      simp only [Nat.sub_self, if_true] at hmb
      refine ⟨⟨fun d => if d = b then none else l.mem d, l.fresh, none, none, 0,
        l.released ++ [y]⟩, ?_, ?_, rfl⟩
      · simp [popBack, hbk, node, hmb, setPrev, verify, hn, h1, release]
        funext d; by_cases e : d = b <;> simp [e]
      · have k0 : as.length - 1 = 0 := by omega
        have e1 : as[1]? = none := List.getElem?_eq_none (by omega)
        refine unlink_inv h hb ?_ rfl ?_ ?_ ?_
        · intro c; simp only [k0]; simp [e1]
        · simp only [k0]; simp [e1]
        · simp only [k0]; simp [h1]
        · simp [hn, h1]
    · obtain ⟨c, hc⟩ : ∃ c, as[as.length - 1 - 1]? = some c :=
        ⟨as[as.length - 1 - 1], List.getElem?_eq_getElem (by omega)⟩
      obtain ⟨z, hz⟩ : ∃ z, s[as.length - 1 - 1]? = some z :=
        ⟨s[as.length - 1 - 1], List.getElem?_eq_getElem (by omega)⟩
      rw [if_neg (by omega), hc] at hmb
      have hmc := h.links _ c hc
      rw [hz, Nat.sub_add_cancel (by omega), hb] at hmc
      simp only [Option.map_some] at hmc
      have hcb : c ≠ b := by
        intro e; subst e
        have := idx_inj h.nodup hb hc
        omega
      have hnn : ¬ as.length - 1 = 0 := by omega
      refine ⟨⟨fun d => if d = b then none else if d = c then some ⟨z, none,
          if as.length - 1 - 1 = 0 then none else as[as.length - 1 - 1 - 1]?⟩ else l.mem d,
        l.fresh, l.front, some c, as.length - 1, l.released ++ [y]⟩, ?_, ?_, rfl⟩
      · simp [popBack, hbk, node, hmb, setNext, setPrev, verify, hn, release, hmc, hcb, Ne.symm hcb, hpos, hnn]
        funext d; split <;> simp_all
      · have e1 : as[as.length - 1 + 1]? = none := List.getElem?_eq_none (by omega)
        refine unlink_inv h hb ?_ rfl ?_ ?_ ?_
        · intro d
          simp only [e1, hc]
          by_cases e1 : d = b
          · simp [e1]
          · by_cases e2 : d = c
            · subst e2; simp [e1, hmc, hnn]
            · simp [e1, e2, Ne.symm e2]
        · simp [hnn]
        · have e2 : as.length - 1 + 1 = as.length := by omega
          simp [e2, hnn, hc]
        · simp [hn]; omega

theorem remove_ok {l : DList α} {as s} (h : l.Inv as s) {k a : Nat} (hk : as[k]? = some a) :
    ∃ l', l.remove (some a) = .ok l' ∧ l'.Inv (as.eraseIdx k) (s.eraseIdx k) ∧
      l'.released = l.released ++ (s.drop k).take 1 := by
  have hlen := h.len
  have hkl : k < as.length := (List.getElem?_eq_some_iff.mp hk).1
  have hn := h.num
  unfold remove
  by_cases hk0 : k = 0
  · subst hk0
    rw [if_pos (by rw [h.front, hk])]
    obtain ⟨l', h1, h2, h3⟩ := popFront_ok h
    exact ⟨l', h1, by simpa [List.eraseIdx_zero] using h2, by simpa using h3⟩
  · rw [if_neg (by
      rw [h.front]; intro e
      have := idx_inj h.nodup (i := k) (j := 0) hk e.symm
      omega)]
    by_cases hkn : k = as.length - 1
    · subst hkn
      rw [if_pos (by rw [h.back, hk])]
      obtain ⟨l', h1, h2, h3⟩ := popBack_ok h
      refine ⟨l', h1, ?_, ?_⟩
      · have hd1 : as.dropLast = as.eraseIdx (as.length - 1) := by
          rw [List.eraseIdx_eq_take_drop_succ, List.drop_of_length_le (by omega), List.dropLast_eq_take]
          simp
        have hd2 : s.dropLast = s.eraseIdx (as.length - 1) := by
          rw [List.eraseIdx_eq_take_drop_succ, List.drop_of_length_le (by omega), List.dropLast_eq_take, hlen]
          simp
        rw [← hd1, ← hd2]; exact h2
      · rw [h3, hlen, List.take_of_length_le]; simp; omega
    · rw [if_neg (by
        rw [h.back]; intro e
        have := idx_inj h.nodup (i := k) hk e.symm
        omega)]
      obtain ⟨p, hp⟩ : ∃ p, as[k-1]? = some p := ⟨as[k-1], List.getElem?_eq_getElem (by omega)⟩
      obtain ⟨q, hq⟩ : ∃ q, as[k+1]? = some q := ⟨as[k+1], List.getElem?_eq_getElem (by omega)⟩
      obtain ⟨x, hx⟩ : ∃ x, s[k]? = some x := ⟨s[k], List.getElem?_eq_getElem (by omega)⟩
      obtain ⟨y, hy⟩ : ∃ x, s[k-1]? = some x := ⟨s[k-1], List.getElem?_eq_getElem (by omega)⟩
      obtain ⟨z, hz⟩ : ∃ x, s[k+1]? = some x := ⟨s[k+1], List.getElem?_eq_getElem (by omega)⟩
      have ha := h.links k a hk
      have hmp := h.links _ p hp
      have hmq := h.links _ q hq
      rw [hx, hq, hp, if_neg hk0] at ha
      rw [hy, Nat.sub_add_cancel (by omega), hk] at hmp
      rw [hz, if_neg (by omega), Nat.add_sub_cancel, hk] at hmq
      simp only [Option.map_some] at ha hmp hmq
      have hpa : p ≠ a := by intro e; subst e; have := idx_inj h.nodup hp hk; omega
      have hqa : q ≠ a := by intro e; subst e; have := idx_inj h.nodup hq hk; omega
      have hpq : p ≠ q := by intro e; subst e; have := idx_inj h.nodup hp hq; omega
      have hrel : (s.drop k).take 1 = [x] := by
        have hl : k < s.length := by omega
        rw [List.drop_eq_getElem_cons hl]
        have := List.getElem?_eq_getElem hl
        rw [hx] at this
        rw [Option.some.inj this]; rfl
      rw [hrel]
      have hnpos : 0 < as.length := by omega
      have hnn : ¬ as.length - 1 = 0 := by omega
      refine ⟨⟨fun d => if d = a then none
          else if d = p then some ⟨y, some q, if k - 1 = 0 then none else as[k-1-1]?⟩
          else if d = q then some ⟨z, as[k+1+1]?, some p⟩
          else l.mem d,
        l.fresh, l.front, l.back, as.length - 1, l.released ++ [x]⟩, ?_, ?_, rfl⟩
      · simp [node, ha, setNext, setPrev, verify, hn, release, hmp, hmq, hpa, hqa, hpq, Ne.symm hpa,
          Ne.symm hqa, Ne.symm hpq, hnpos, hnn]
        funext d; grind
      · refine unlink_inv h hk ?_ rfl ?_ ?_ ?_
        · intro d
          simp only [hp, hq]
          by_cases e1 : d = a
          · simp [e1]
          · by_cases e2 : d = p
            · subst e2; simp [e1, hmp, hk0]
            · by_cases e3 : d = q
              · subst e3; simp [e1, e2, Ne.symm e2, hmq, hk0]
              · simp [e1, e2, e3, Ne.symm e2, Ne.symm e3]
        · simp [hk0]
        · have e2 : ¬ k + 1 = as.length := by omega
          simp [e2]
        · simp [hn]; omega

theorem clearLoop_ok : ∀ (n : Nat) {l : DList α} {as s}, l.Inv as s → as.length = n →
    ∃ l', clearLoop n l = .ok l' ∧ l'.Inv [] [] ∧ l'.released = l.released ++ s := by
  intro n
  induction n with
  | zero =>
    intro l as s h hn
    have : as = [] := List.length_eq_zero_iff.mp hn
    subst this
    have hs : s = [] := by simpa using h.len.symm
    subst hs
    have hfr : l.front = none := by simpa using h.front
    exact ⟨l, by simp [clearLoop, hfr], h, by simp⟩
  | succ n ih =>
    intro l as s h hn
    have hf : l.front ≠ none := by
      rw [h.front, List.getElem?_eq_getElem (by omega)]; simp
    obtain ⟨l', h1, h2, h3⟩ := popFront_ok h
    obtain ⟨l'', g1, g2, g3⟩ := ih h2 (by simp; omega)
    refine ⟨l'', by simp [clearLoop, hf, h1, g1], g2, ?_⟩
    rw [g3, h3, List.append_assoc]
    congr 1
    cases s <;> simp

theorem walkNext_ok {l : DList α} {as s} (h : l.Inv as s) : ∀ (i j : Nat), j < as.length →
    l.walkNext i as[j]? = .ok as[j+i]? := by
  intro i
  induction i with
  | zero => intro j hj; simp [walkNext]
  | succ i ih =>
    intro j hj
    have hx : as[j]? = some as[j] := List.getElem?_eq_getElem hj
    have hl := h.links j _ hx
    have hs : s[j]? = some (s[j]'(by have := h.len; omega)) :=
      List.getElem?_eq_getElem (by have := h.len; omega)
    rw [hs] at hl
    simp only [Option.map_some] at hl
    rw [hx]
    simp only [walkNext, node, hl]
    by_cases hj' : j + 1 < as.length
    · rw [List.getElem?_eq_getElem hj']
      have := ih (j+1) hj'
      rw [List.getElem?_eq_getElem hj'] at this
      simp only [this]; congr 2; omega
    · rw [List.getElem?_eq_none (by omega), List.getElem?_eq_none (by omega)]

theorem walkPrev_ok {l : DList α} {as s} (h : l.Inv as s) : ∀ (i j : Nat), j < as.length →
    l.walkPrev i as[j]? = .ok (if i ≤ j then as[j-i]? else none) := by
  intro i
  induction i with
  | zero => intro j hj; simp [walkPrev]
  | succ i ih =>
    intro j hj
    have hx : as[j]? = some as[j] := List.getElem?_eq_getElem hj
    have hl := h.links j _ hx
    have hs : s[j]? = some (s[j]'(by have := h.len; omega)) :=
      List.getElem?_eq_getElem (by have := h.len; omega)
    rw [hs] at hl
    simp only [Option.map_some] at hl
    rw [hx]
    simp only [walkPrev, node, hl]
    by_cases hj0 : j = 0
    · simp [hj0]
    · have hj' : j - 1 < as.length := by omega
      rw [if_neg hj0, List.getElem?_eq_getElem hj']
      have := ih (j-1) hj'
      rw [List.getElem?_eq_getElem hj'] at this
      simp only [this]
      by_cases hi : i + 1 ≤ j
      · rw [if_pos hi, if_pos (by omega)]; congr 2; omega
      · rw [if_neg hi, if_neg (by omega)]

/-- finding a node: on a non-empty list every index is fine, on the empty one only 0 and -1 -/
theorem getAt_ok {l : DList α} {as s} (h : l.Inv as s) (i : Int) (hsafe : s ≠ [] ∨ i = 0 ∨ i = -1) :
    l.getAt i = .ok (match Spec.position s.length i with | some k => as[k]? | none => none) := by
  have hlen := h.len
  by_cases h0 : s = []
  · subst h0
    have has : as = [] := List.length_eq_zero_iff.mp (by simpa using hlen)
    subst has
    have hfr : l.front = none := by simpa using h.front
    have hbk : l.back = none := by simpa using h.back
    rcases hsafe with hs | hs | hs
    · exact absurd rfl hs
    · subst hs; simp [getAt, hfr, walkNext, Spec.position]
    · subst hs; simp [getAt, hbk, walkPrev, Spec.position]
  · have hpos : 0 < s.length := List.length_pos_iff.mpr h0
    unfold getAt Spec.position
    by_cases hi : i < 0
    · rw [if_pos hi, if_neg (by omega), h.back, walkPrev_ok h _ _ (by omega)]
      by_cases hin : -(s.length : Int) ≤ i
      · rw [if_pos hin, if_pos (by omega)]
        simp only
        congr 2; omega
      · rw [if_neg hin, if_neg (by omega)]
    · rw [if_neg hi, if_pos (by omega), h.front, walkNext_ok h _ 0 (by omega)]
      by_cases hin : i < s.length
      · rw [if_pos hin]; simp
      · rw [if_neg hin, List.getElem?_eq_none (by omega)]

end DList
end Dern
