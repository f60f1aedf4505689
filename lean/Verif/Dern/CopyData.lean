import Verif.Dern.Copy
import Verif.Dern.CompareTotal
import Verif.Spec.Reorder
import Mathlib.Data.List.Forall2
import Mathlib.Data.List.Perm.Basic
/-
What a copy denotes.
-/
namespace Dern
open Spec (Data Reach)

theorem forall₂_iff {α β : Type} {R : α → β → Prop} : ∀ {as : List α} {bs : List β},
    List.Forall₂ R as bs ↔ as.length = bs.length ∧ ∀ (i : Nat) a b, as[i]? = some a → bs[i]? = some b → R a b := by
  intro as bs
  constructor
  · intro h
    induction h with
    | nil => simp
    | cons h _ ih =>
      refine ⟨by simp [ih.1], ?_⟩
      rintro (_ | i) a b ha hb
      · simp at ha hb; subst ha hb; exact h
      · simp at ha hb; exact ih.2 i a b ha hb
  · rintro ⟨hl, h⟩
    induction as generalizing bs with
    | nil =>
      cases bs with
      | nil => exact .nil
      | cons _ _ => simp at hl
    | cons a as ih =>
      cases bs with
      | nil => simp at hl
      | cons b bs => exact .cons (h 0 a b rfl rfl) (ih (by simpa using hl) fun i a b ha hb => h (i + 1) a b ha hb)

/-- choosing an element for each position -/
theorem forall₂_choose {α β γ : Type} {R : α → β → γ → Prop} {as : List α} {bs : List β}
    (hl : as.length = bs.length) (h : ∀ (i : Nat) a b, as[i]? = some a → bs[i]? = some b → ∃ c, R a b c) :
    ∃ cs : List γ, cs.length = as.length ∧
      ∀ (i : Nat) a b c, as[i]? = some a → bs[i]? = some b → cs[i]? = some c → R a b c := by
  induction as generalizing bs with
  | nil => exact ⟨[], rfl, by simp⟩
  | cons a as ih =>
    cases bs with
    | nil => simp at hl
    | cons b bs =>
      obtain ⟨c, hc⟩ := h 0 a b rfl rfl
      obtain ⟨cs, h1, h2⟩ := ih (bs := bs) (by simpa using hl) fun i a b ha hb => h (i + 1) a b ha hb
      refine ⟨c :: cs, by simp [h1], ?_⟩
      rintro (_ | i) a' b' c' ha hb hc'
      · simp at ha hb hc'; subst ha hb hc'; exact hc
      · simp at ha hb hc'; exact h2 i a' b' c' ha hb hc'

theorem get_map {α β : Type} {f : α → β} {l : List α} {i : Nat} {y : β} (h : (l.map f)[i]? = some y) :
    ∃ x, l[i]? = some x ∧ f x = y := by
  rw [List.getElem?_map] at h
  cases hx : l[i]? with
  | none => rw [hx] at h; cases h
  | some x => rw [hx] at h; exact ⟨x, rfl, by simpa using h⟩

theorem get_some {α β : Type} {as : List α} {bs : List β} (hl : as.length = bs.length) {i : Nat} {b : β}
    (hb : bs[i]? = some b) : ∃ a, as[i]? = some a := by
  have := (List.getElem?_eq_some_iff.mp hb).1
  exact ⟨as[i]'(by omega), by simp [hl, this]⟩

variable {Fr : Ref → Prop} {m m' : Mem} {x r : Ref} {d : Data}

/-- what denotes an atom -/
theorem atom_same {o : Obj} (hs : atomData x o = some d) (hp : d.Plainly) : atomData r o = some d := by
  cases o <;> simp [atomData] at hs ⊢ <;> first | exact hs | (subst hs; cases hp)

theorem copied_seq_aux {ps : List (Ref × Ref)} {rs : List Ref} {ds : List Data}
    (hrs : rs = ps.map (·.1)) (hl : rs.length = ds.length) (hp : ∀ e ∈ ds, e.Plainly)
    (hd : ∀ (i : Nat) (x : Ref) (d : Data), rs[i]? = some x → ds[i]? = some d → Denotes m x d)
    (ih : ∀ p ∈ ps, ∀ d, Denotes m p.1 d → d.Plainly → ∃ d', Denotes m' p.2 d' ∧ d.Reordered d') :
    ∃ ds' : List Data, (ps.map (·.2)).length = ds'.length ∧
      (∀ (i : Nat) (x : Ref) (d : Data), (ps.map (·.2))[i]? = some x → ds'[i]? = some d → Denotes m' x d) ∧
      ds.length = ds'.length ∧ ∀ (i : Nat) (a b : Data), ds[i]? = some a → ds'[i]? = some b → a.Reordered b := by
  subst hrs
  have hl' : ps.length = ds.length := by simpa using hl
  obtain ⟨ds', h1, h2⟩ := forall₂_choose (R := fun (p : Ref × Ref) (d d' : Data) => Denotes m' p.2 d' ∧ d.Reordered d')
    hl' (by
      intro i p d hpi hdi
      exact ih p (List.mem_of_getElem? hpi) d (hd i p.1 d (by simp [hpi]) hdi) (hp _ (List.mem_of_getElem? hdi)))
  refine ⟨ds', by simp [h1], ?_, by omega, ?_⟩
  · intro i y e hy he
    obtain ⟨p, hpi, rfl⟩ := get_map hy
    obtain ⟨d, hdi⟩ := get_some hl'.symm hpi
    exact (h2 i p d e hpi hdi he).1
  · intro i a b ha hb
    obtain ⟨p, hpi⟩ := get_some hl' ha
    exact (h2 i p a b hpi ha hb).2

/-- the copy denotes the same data -/
theorem Copied.denotes (h : Copied Fr m m' x r) : ∀ d, Denotes m x d → d.Plainly → ∃ d', Denotes m' r d' ∧ d.Reordered d' := by
  induction h with
  | @simple x r c c' h1 h2 h3 h4 h5 =>
    intro d hd hp
    have ad : atomData x c.obj = some d := by
      cases hd with
      | atom h a => obtain rfl := same_cell h1 h; exact a
      | vec h o => obtain rfl := same_cell h1 h; rw [o] at h4; cases h4
      | queue h o => obtain rfl := same_cell h1 h; rw [o] at h4; cases h4
      | list h o => obtain rfl := same_cell h1 h; rw [o] at h4; cases h4
      | hmap h o => obtain rfl := same_cell h1 h; rw [o] at h4; cases h4
    exact ⟨d, .atom h2 (by rw [h5]; exact atom_same ad hp), .refl⟩
  | @seq x r c c' ps h1 h2 h3 h4 h5 _ ih =>
    intro d hd hp
    cases hd with
    | atom h a =>
      obtain rfl := same_cell h1 h
      cases ho : c.obj <;> rw [ho] at h4 a <;> first | (simp [Obj.elems] at h4; done) | (simp [atomData] at a; done)
    | @vec _ _ rs ds h o hl hd =>
      obtain rfl := same_cell h1 h
      rw [o] at h4 h5
      cases hp with | vec hp =>
      obtain ⟨ds', a1, a2, a3, a4⟩ := copied_seq_aux (m' := m') (ps := ps) (Option.some.inj h4) hl hp hd ih
      exact ⟨.vec ds', .vec h2 h5 a1 a2, .vec a3 a4⟩
    | @queue _ _ rs ds mx h o hl hd =>
      obtain rfl := same_cell h1 h
      rw [o] at h4 h5
      cases hp with | queue hp =>
      obtain ⟨ds', a1, a2, a3, a4⟩ := copied_seq_aux (m' := m') (ps := ps) (Option.some.inj h4) hl hp hd ih
      exact ⟨.queue ds', .queue h2 h5 a1 a2, .queue a3 a4⟩
    | @list _ _ rs ds h o hl hd =>
      obtain rfl := same_cell h1 h
      rw [o] at h4 h5
      cases hp with | list hp =>
      obtain ⟨ds', a1, a2, a3, a4⟩ := copied_seq_aux (m' := m') (ps := ps) (Option.some.inj h4) hl hp hd ih
      exact ⟨.list ds', .list h2 h5 a1 a2, .list a3 a4⟩
    | hmap h o =>
      obtain rfl := same_cell h1 h
      rw [o] at h4; cases h4
  | @hmap x r c c' k k' es' qs h1 h2 h3 h4 h5 h6 _ _ ih1 ih2 =>
    intro d hd hp
    cases hd with
    | atom h a => obtain rfl := same_cell h1 h; rw [h4] at a; cases a
    | vec h o => obtain rfl := same_cell h1 h; rw [h4] at o; cases o
    | queue h o => obtain rfl := same_cell h1 h; rw [h4] at o; cases o
    | list h o => obtain rfl := same_cell h1 h; rw [h4] at o; cases o
    | @hmap _ _ nb es ds h o hl hk hv =>
      obtain rfl := same_cell h1 h
      rw [h4] at o
      cases o
      cases hp with | hmap hpk hpv =>
      have hl' : qs.length = ds.length := by simpa using hl
      obtain ⟨ds', b1, b2⟩ := forall₂_choose (R := fun (q : (Ref × Ref) × (Ref × Ref)) (d d' : Data × Data) =>
        (Denotes m' q.2.1 d'.1 ∧ Denotes m' q.2.2 d'.2) ∧ d.1.Reordered d'.1 ∧ d.2.Reordered d'.2) hl' (by
          intro i q d hq hd
          have mq := List.mem_of_getElem? hq
          have md := List.mem_of_getElem? hd
          obtain ⟨k', hk1, hk2⟩ := ih1 q mq d.1 (hk i q.1 d (by simp [hq]) hd) (hpk d md)
          obtain ⟨v', hv1, hv2⟩ := ih2 q mq d.2 (hv i q.1 d (by simp [hq]) hd) (hpv d md)
          exact ⟨(k', v'), ⟨hk1, hv1⟩, hk2, hv2⟩)
      have f2 : List.Forall₂ (fun (e : Ref × Ref) (d : Data × Data) => Denotes m' e.1 d.1 ∧ Denotes m' e.2 d.2) (qs.map (·.2)) ds' := by
        refine forall₂_iff.mpr ⟨by simp [b1], ?_⟩
        intro i e d he hd
        obtain ⟨q, hq, rfl⟩ := get_map he
        obtain ⟨a, ha⟩ := get_some hl'.symm hq
        exact (b2 i q a d hq ha hd).1
      obtain ⟨ds'', g1, g2⟩ := List.perm_comp_forall₂ h6 f2
      rw [forall₂_iff] at g1
      refine ⟨.hmap ds'', .hmap h2 h5 g1.1 (fun i e d he hd => (g1.2 i e d he hd).1) (fun i e d he hd => (g1.2 i e d he hd).2), ?_⟩
      refine .hmap (bs := ds') (by omega) ?_ ?_ g2.symm
      · intro i a b ha hb
        obtain ⟨q, hq⟩ := get_some hl' ha
        exact (b2 i q a b hq ha hb).2.1
      · intro i a b ha hb
        obtain ⟨q, hq⟩ := get_some hl' ha
        exact (b2 i q a b hq ha hb).2.2

theorem Reordered.leaf {a b : Data} (h : a.Reordered b) (hl : Leaf a) : a = b := by
  cases h with
  | refl => rfl
  | vec => exact absurd rfl hl.1
  | queue => exact absurd rfl hl.2.2.1
  | list => exact absurd rfl hl.2.2.2
  | hmap => exact absurd rfl hl.2.1

theorem reordered_mem {as bs : List Data} (hl : as.length = bs.length) {P : Data → Data → Prop}
    (h : ∀ (i : Nat) (a b : Data), as[i]? = some a → bs[i]? = some b → P a b) {b : Data} (hb : b ∈ bs) : ∃ a ∈ as, P a b := by
  obtain ⟨i, hi⟩ := List.mem_iff_getElem?.mp hb
  obtain ⟨a, ha⟩ := get_some hl hi
  exact ⟨a, List.mem_of_getElem? ha, h i a b ha hi⟩

theorem reordered_keys {as bs : List (Data × Data)} (hl : as.length = bs.length)
    (h1 : ∀ (i : Nat) (a b : Data × Data), as[i]? = some a → bs[i]? = some b → a.1.Reordered b.1)
    (hk : ∀ e ∈ as, KeyData e.1) : as.map (·.1) = bs.map (·.1) := by
  refine List.ext_getElem? fun i => ?_
  rw [List.getElem?_map, List.getElem?_map]
  cases ha : as[i]? with
  | none =>
    have : bs[i]? = none := by rw [List.getElem?_eq_none_iff] at ha ⊢; omega
    rw [this]
  | some a =>
    obtain ⟨b, hb⟩ := get_some hl.symm ha
    rw [hb]
    exact congrArg some (Reordered.leaf (h1 i a b ha hb) (hk a (List.mem_of_getElem? ha)).leaf)

/-- reordering keeps data regular, the same, and within the same window -/
theorem Reordered.regular {a b : Data} (h : a.Reordered b) : Regular a → Regular b ∧ a.Same b := by
  induction h with
  | refl => exact fun h => ⟨h, same_refl h⟩
  | @vec as bs hl h ih =>
    intro hr
    have ⟨h1, h2⟩ := hr.vec_inv
    refine ⟨.vec (by omega) fun b hb => ?_, .vec hl fun i a b ha hb => (ih i a b ha hb (h2 _ (List.mem_of_getElem? ha))).2⟩
    obtain ⟨a, ha, hab⟩ := reordered_mem hl ih hb
    exact (hab (h2 a ha)).1
  | @queue as bs hl h ih =>
    intro hr
    have ⟨h1, h2⟩ := hr.queue_inv
    refine ⟨.queue (by omega) fun b hb => ?_, .queue hl fun i a b ha hb => (ih i a b ha hb (h2 _ (List.mem_of_getElem? ha))).2⟩
    obtain ⟨a, ha, hab⟩ := reordered_mem hl ih hb
    exact (hab (h2 a ha)).1
  | @list as bs hl h ih =>
    intro hr
    have ⟨h1, h2⟩ := hr.list_inv
    refine ⟨.list (by omega) fun b hb => ?_, .list hl fun i a b ha hb => (ih i a b ha hb (h2 _ (List.mem_of_getElem? ha))).2⟩
    obtain ⟨a, ha, hab⟩ := reordered_mem hl ih hb
    exact (hab (h2 a ha)).1
  | @hmap as bs cs hl h1 h2 pm ih1 ih2 =>
    intro hr
    have ⟨k1, k2, k3, k4⟩ := hr.hmap_inv
    have keys := reordered_keys hl h1 k3
    have kn : (cs.map Prod.fst).Nodup := by
      rw [← (pm.map Prod.fst).nodup_iff, ← keys]; exact k2
    have src : ∀ e ∈ cs, ∃ (i : Nat) (a : Data × Data), as[i]? = some a ∧ bs[i]? = some e ∧ a.1 = e.1 := by
      intro e he
      obtain ⟨i, hi⟩ := List.mem_iff_getElem?.mp (pm.mem_iff.mpr he)
      obtain ⟨a, ha⟩ := get_some hl hi
      exact ⟨i, a, ha, hi, Reordered.leaf (h1 i a e ha hi) (k3 a (List.mem_of_getElem? ha)).leaf⟩
    refine ⟨.hmap (by rw [← pm.length_eq]; omega) kn ?_ ?_, .hmap (by rw [← pm.length_eq]; exact hl) ?_ ?_⟩
    · intro e he
      obtain ⟨i, a, ha, hi, hk⟩ := src e he
      rw [← hk]; exact k3 a (List.mem_of_getElem? ha)
    · intro e he
      obtain ⟨i, a, ha, hi, hk⟩ := src e he
      exact (ih2 i a e ha hi (k4 a (List.mem_of_getElem? ha))).1
    · intro k v hkv
      obtain ⟨i, hi⟩ := List.mem_iff_getElem?.mp hkv
      obtain ⟨b, hb⟩ := get_some hl.symm hi
      have := Reordered.leaf (h1 i (k, v) b hi hb) (k3 _ hkv).leaf
      refine ⟨b.2, pm.mem_iff.mp ?_⟩
      have e : (k, b.2) = b := by simp only at this; rw [this]
      rw [e]; exact List.mem_of_getElem? hb
    · intro k v w hkv hkw
      obtain ⟨i, a, ha, hi, hk⟩ := src (k, w) hkw
      have : a = (k, v) := by
        have hm : (k, a.2) ∈ as := by
          have e : (k, a.2) = a := by simp only at hk; rw [← hk]
          rw [e]; exact List.mem_of_getElem? ha
        have := unique_entry as k2 k a.2 v hm hkv
        simp only at hk
        rw [← this, ← hk]
      subst this
      exact (ih2 i _ _ ha hi (k4 _ hkv)).2

theorem Reordered.window {lo : Int} {a b : Data} (h : a.Reordered b) : InWindow lo a → InWindow lo b := by
  induction h with
  | refl => exact id
  | @vec as bs hl h ih =>
    intro hr
    refine .vec fun b hb => ?_
    obtain ⟨a, ha, hab⟩ := reordered_mem hl ih hb
    exact hab (hr.vec_inv a ha)
  | @queue as bs hl h ih =>
    intro hr
    refine .queue fun b hb => ?_
    obtain ⟨a, ha, hab⟩ := reordered_mem hl ih hb
    exact hab (hr.queue_inv a ha)
  | @list as bs hl h ih =>
    intro hr
    refine .list fun b hb => ?_
    obtain ⟨a, ha, hab⟩ := reordered_mem hl ih hb
    exact hab (hr.list_inv a ha)
  | @hmap as bs cs hl h1 h2 pm ih1 ih2 =>
    intro hr
    have src : ∀ e ∈ cs, ∃ (i : Nat) (a : Data × Data), as[i]? = some a ∧ bs[i]? = some e := by
      intro e he
      obtain ⟨i, hi⟩ := List.mem_iff_getElem?.mp (pm.mem_iff.mpr he)
      obtain ⟨a, ha⟩ := get_some hl hi
      exact ⟨i, a, ha, hi⟩
    refine .hmap ?_ ?_ <;> intro e he <;> obtain ⟨i, a, ha, hi⟩ := src e he
    · exact ih1 i a e ha hi (hr.hmap_inv.1 a (List.mem_of_getElem? ha))
    · exact ih2 i a e ha hi (hr.hmap_inv.2 a (List.mem_of_getElem? ha))

/-- a value refers to another as one of its parts -/
def Mem.Part (m : Mem) (x y : Ref) : Prop := ∃ c, m x = some c ∧ y ∈ c.obj.children

/-- all parts of a copy are new -/
theorem Copied.parts (h : Copied Fr m m' x r) : ∀ z, Reach m'.Part (· = r) z → Fr z := by
  have gen : ∀ z, Reach m'.Part (· = r) z → ∃ y, Copied Fr m m' y z := by
    intro z hz
    induction hz with
    | root e => cases e; exact ⟨x, h⟩
    | @step a b _ he ih =>
      obtain ⟨y, hy⟩ := ih
      obtain ⟨c, hc, hb⟩ := he
      cases hy with
      | simple h1 h2 h3 h4 h5 =>
        obtain rfl := same_cell hc h2
        rw [h5] at hb
        rename_i c0
        cases ho : c0.obj <;> rw [ho] at hb h4 <;> first | (simp [Obj.children] at hb; done) | (cases h4)
      | @seq _ _ c0 c' ps h1 h2 h3 h4 h5 hp =>
        obtain rfl := same_cell hc h2
        rw [h5, refill_children h4] at hb
        obtain ⟨p, hp1, rfl⟩ := List.mem_map.mp hb
        exact ⟨_, hp p hp1⟩
      | @hmap _ _ c0 c' k k' es' qs h1 h2 h3 h4 h5 h6 g1 g2 =>
        obtain rfl := same_cell hc h2
        rw [h5] at hb
        simp only [Obj.children, List.mem_flatMap] at hb
        obtain ⟨e, he, hb⟩ := hb
        obtain ⟨q, hq, rfl⟩ := List.mem_map.mp (h6.mem_iff.mp he)
        simp at hb
        rcases hb with rfl | rfl
        · exact ⟨_, g1 q hq⟩
        · exact ⟨_, g2 q hq⟩
  intro z hz
  obtain ⟨y, hy⟩ := gen z hz
  exact hy.fresh

/-- what a value denotes only depends on its parts -/
theorem Denotes.parts {m m' : Mem} {r : Ref} {d : Data} (h : Denotes m r d) :
    (∀ z, Reach m.Part (· = r) z → m' z = m z) → Denotes m' r d := by
  induction h with
  | atom h1 h2 => exact fun hm => .atom (by rw [hm _ (.root rfl)]; exact h1) h2
  | @vec r c rs ds h1 h2 h3 h4 ih =>
    refine fun hm => .vec (by rw [hm _ (.root rfl)]; exact h1) h2 h3 fun i x d hx hd => ih i x d hx hd fun z hz => hm z (hz.mono ?_)
    rintro y rfl
    exact .step (.root rfl) ⟨c, h1, by rw [h2]; exact List.mem_of_getElem? hx⟩
  | @queue r c rs ds mx h1 h2 h3 h4 ih =>
    refine fun hm => .queue (by rw [hm _ (.root rfl)]; exact h1) h2 h3 fun i x d hx hd => ih i x d hx hd fun z hz => hm z (hz.mono ?_)
    rintro y rfl
    exact .step (.root rfl) ⟨c, h1, by rw [h2]; exact List.mem_of_getElem? hx⟩
  | @list r c rs ds h1 h2 h3 h4 ih =>
    refine fun hm => .list (by rw [hm _ (.root rfl)]; exact h1) h2 h3 fun i x d hx hd => ih i x d hx hd fun z hz => hm z (hz.mono ?_)
    rintro y rfl
    exact .step (.root rfl) ⟨c, h1, by rw [h2]; exact List.mem_of_getElem? hx⟩
  | @hmap r c nb es ds h1 h2 h3 h4 h5 ih1 ih2 =>
    intro hm
    refine .hmap (by rw [hm _ (.root rfl)]; exact h1) h2 h3 (fun i x d hx hd => ih1 i x d hx hd fun z hz => hm z (hz.mono ?_))
      fun i x d hx hd => ih2 i x d hx hd fun z hz => hm z (hz.mono ?_)
    · rintro y rfl
      refine .step (.root rfl) ⟨c, h1, ?_⟩
      rw [h2]; simp only [Obj.children, List.mem_flatMap]
      exact ⟨x, List.mem_of_getElem? hx, by simp⟩
    · rintro y rfl
      refine .step (.root rfl) ⟨c, h1, ?_⟩
      rw [h2]; simp only [Obj.children, List.mem_flatMap]
      exact ⟨x, List.mem_of_getElem? hx, by simp⟩

end Dern
