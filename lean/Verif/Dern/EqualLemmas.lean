import Verif.Dern.CompareLemmas
/-
When the program's comparison returns 0, also for hash maps.
-/
namespace Dern
open Spec (Version Dbl Data lexCmp sign)

/-- data that may be keys of a hash map: the kinds for which equal values have equal hashes -/
inductive KeyData : Data → Prop
  | nil : KeyData .nil
  | bool {b} : KeyData (.bool b)
  | int {n} : KeyData (.int n)
  | str {s} : Printable s → KeyData (.str s)
  | chr {s} : Printable s → KeyData (.chr s)
  | sym {s} : Printable s → KeyData (.sym s)

theorem KeyData.plain {d : Data} (h : KeyData d) : Plain d := by
  cases h
  · exact .nil
  · exact .bool
  · exact .int
  · exact .str ‹_›
  · exact .chr ‹_›
  · exact .sym ‹_›

/-- Data on which equality is an equivalence: as `Plain`, and hash maps with different keys of the
kinds of `KeyData`. -/
inductive Regular : Data → Prop
  | plain {d} : Plain d → Regular d
  | vec {es} : es.length < 2 ^ 31 → (∀ d ∈ es, Regular d) → Regular (.vec es)
  | queue {es} : es.length < 2 ^ 31 → (∀ d ∈ es, Regular d) → Regular (.queue es)
  | list {es} : es.length < 2 ^ 31 → (∀ d ∈ es, Regular d) → Regular (.list es)
  | hmap {es} : es.length < 2 ^ 31 → (es.map Prod.fst).Nodup → (∀ e ∈ es, KeyData e.1) →
      (∀ e ∈ es, Regular e.2) → Regular (.hmap es)

theorem Regular.vec_inv {es} (h : Regular (.vec es)) : es.length < 2 ^ 31 ∧ ∀ d ∈ es, Regular d := by
  cases h with
  | plain p => cases p with | vec h1 h2 => exact ⟨h1, fun d hd => .plain (h2 d hd)⟩
  | vec h1 h2 => exact ⟨h1, h2⟩
theorem Regular.queue_inv {es} (h : Regular (.queue es)) :
    es.length < 2 ^ 31 ∧ ∀ d ∈ es, Regular d := by
  cases h with
  | plain p => cases p with | queue h1 h2 => exact ⟨h1, fun d hd => .plain (h2 d hd)⟩
  | queue h1 h2 => exact ⟨h1, h2⟩
theorem Regular.list_inv {es} (h : Regular (.list es)) : es.length < 2 ^ 31 ∧ ∀ d ∈ es, Regular d := by
  cases h with
  | plain p => cases p with | list h1 h2 => exact ⟨h1, fun d hd => .plain (h2 d hd)⟩
  | list h1 h2 => exact ⟨h1, h2⟩
theorem Regular.hmap_inv {es} (h : Regular (.hmap es)) : es.length < 2 ^ 31 ∧
    (es.map Prod.fst).Nodup ∧ (∀ e ∈ es, KeyData e.1) ∧ (∀ e ∈ es, Regular e.2) := by
  cases h with
  | plain p => cases p
  | hmap h1 h2 h3 h4 => exact ⟨h1, h2, h3, h4⟩

/-! ### `Same` is an equivalence on regular data -/

theorem same_self {es : List Data} (ih : ∀ d ∈ es, d.Same d) (i : Nat) (a b : Data)
    (ha : es[i]? = some a) (hb : es[i]? = some b) : a.Same b := by
  rw [ha] at hb; cases hb; exact ih _ (List.mem_of_getElem? ha)

theorem unique_entry {α β : Type} : ∀ (l : List (α × β)), (l.map Prod.fst).Nodup →
    ∀ (a : α) (v w : β), (a, v) ∈ l → (a, w) ∈ l → v = w := by
  intro l
  induction l with
  | nil => intro _ a v w h; simp at h
  | cons x l ih =>
    intro nd a v w h1 h2
    rw [List.map_cons, List.nodup_cons] at nd
    rcases List.mem_cons.mp h1 with e1 | e1 <;> rcases List.mem_cons.mp h2 with e2 | e2
    · rw [← e1] at e2; exact (Prod.mk.inj e2).2.symm
    · exact absurd (List.mem_map.mpr ⟨_, e2, by rw [← e1]⟩) nd.1
    · exact absurd (List.mem_map.mpr ⟨_, e1, by rw [← e2]⟩) nd.1
    · exact ih nd.2 a v w e1 e2

theorem same_refl {d : Data} (h : Regular d) : d.Same d := by
  induction h with
  | plain p =>
    induction p with
    | nil => exact .nil
    | bool => exact .bool
    | int => exact .number rfl rfl
    | real h => obtain ⟨x, hx⟩ := plain_number (.real h) (Or.inr rfl); exact .number hx hx
    | str => exact .str
    | chr => exact .chr
    | sym => exact .sym
    | err => exact .err
    | vec _ _ ih => exact .vec rfl (same_self ih)
    | queue _ _ ih => exact .queue rfl (same_self ih)
    | list _ _ ih => exact .list rfl (same_self ih)
    | special => exact .special
    | builtin => exact .builtin
    | port => exact .port
    | semver => exact .semver ⟨rfl, rfl, rfl, rfl⟩
  | vec _ _ ih => exact .vec rfl (same_self ih)
  | queue _ _ ih => exact .queue rfl (same_self ih)
  | list _ _ ih => exact .list rfl (same_self ih)
  | hmap _ nd _ _ ih =>
    refine .hmap rfl (fun k v h => ⟨v, h⟩) fun k v w h1 h2 => ?_
    have : v = w := unique_entry _ nd k v w h1 h2
    subst this
    exact ih _ h1

open Classical in
theorem pigeon {α : Type} : ∀ (l1 l2 : List α), l1.Nodup → (∀ x ∈ l1, x ∈ l2) →
    l2.length ≤ l1.length → ∀ x ∈ l2, x ∈ l1 := by
  intro l1
  induction l1 with
  | nil => intro l2 _ _ hl x hx; simp at hl; subst hl; simp at hx
  | cons a l1 ih =>
    intro l2 nd hs hl x hx
    have ha := hs a (by simp)
    by_cases e : x = a
    · simp [e]
    · refine List.mem_cons_of_mem _ (ih (l2.erase a) (List.nodup_cons.mp nd).2 ?_ ?_ x ?_)
      · intro y hy
        have : y ≠ a := fun h => (List.nodup_cons.mp nd).1 (h ▸ hy)
        exact (List.mem_erase_of_ne this).mpr (hs y (by simp [hy]))
      · rw [List.length_erase_of_mem ha]; simp only [List.length_cons] at hl; omega
      · exact (List.mem_erase_of_ne e).mpr hx

theorem same_symm {a b : Data} (h : a.Same b) : Regular a → Regular b → b.Same a := by
  induction h with
  | nil => intros; exact .nil
  | bool => intros; exact .bool
  | number h1 h2 => intros; exact .number h2 h1
  | str => intros; exact .str
  | chr => intros; exact .chr
  | sym => intros; exact .sym
  | err => intros; exact .err
  | vec l h ih =>
    intro ra rb
    exact .vec l.symm fun i x y hx hy => ih i y x hy hx (ra.vec_inv.2 _ (List.mem_of_getElem? hy))
      (rb.vec_inv.2 _ (List.mem_of_getElem? hx))
  | queue l h ih =>
    intro ra rb
    exact .queue l.symm fun i x y hx hy => ih i y x hy hx (ra.queue_inv.2 _ (List.mem_of_getElem? hy))
      (rb.queue_inv.2 _ (List.mem_of_getElem? hx))
  | list l h ih =>
    intro ra rb
    exact .list l.symm fun i x y hx hy => ih i y x hy hx (ra.list_inv.2 _ (List.mem_of_getElem? hy))
      (rb.list_inv.2 _ (List.mem_of_getElem? hx))
  | @hmap as bs l h1 h2 ih =>
    intro ra rb
    obtain ⟨_, nda, _, rva⟩ := ra.hmap_inv
    obtain ⟨_, ndb, _, rvb⟩ := rb.hmap_inv
    refine .hmap l.symm ?_ fun k v w hv hw => ih k w v hw hv (rva _ hw) (rvb _ hv)
    intro k v hv
    have := pigeon (as.map Prod.fst) (bs.map Prod.fst) nda ?_ (by simp [l]) k
      (List.mem_map.mpr ⟨_, hv, rfl⟩)
    · obtain ⟨⟨k', w⟩, hw, rfl⟩ := List.mem_map.mp this
      exact ⟨w, hw⟩
    · intro x hx
      obtain ⟨⟨k', w⟩, hw, rfl⟩ := List.mem_map.mp hx
      obtain ⟨w', hw'⟩ := h1 _ _ hw
      exact List.mem_map.mpr ⟨_, hw', rfl⟩
  | special => intros; exact .special
  | builtin => intros; exact .builtin
  | port => intros; exact .port
  | semver h => intros; exact .semver ⟨h.1.symm, h.2.1.symm, h.2.2.1.symm, h.2.2.2.symm⟩

theorem same_trans {a b : Data} (h : a.Same b) : ∀ c, b.Same c → a.Same c := by
  induction h with
  | nil => intro c h; exact h
  | bool => intro c h; exact h
  | number h1 h2 =>
    intro c h
    cases h with
    | number h3 h4 => rw [h2] at h3; cases h3; exact .number h1 h4
    | _ => simp [Data.number] at h2
  | str => intro c h; exact h
  | chr => intro c h; exact h
  | sym => intro c h; exact h
  | err => intro c h; exact h
  | @vec as bs l h ih =>
    intro c h
    cases h with
    | number h3 h4 => simp [Data.number] at h3
    | @vec _ cs l' h' =>
      refine .vec (l.trans l') fun i x z hx hz => ?_
      have hi : i < bs.length := by
        have := (List.getElem?_eq_some_iff.mp hx).1; omega
      have hy := List.getElem?_eq_getElem hi
      exact ih i x _ hx hy z (h' i _ z hy hz)
  | @queue as bs l h ih =>
    intro c h
    cases h with
    | number h3 h4 => simp [Data.number] at h3
    | @queue _ cs l' h' =>
      refine .queue (l.trans l') fun i x z hx hz => ?_
      have hi : i < bs.length := by
        have := (List.getElem?_eq_some_iff.mp hx).1; omega
      have hy := List.getElem?_eq_getElem hi
      exact ih i x _ hx hy z (h' i _ z hy hz)
  | @list as bs l h ih =>
    intro c h
    cases h with
    | number h3 h4 => simp [Data.number] at h3
    | @list _ cs l' h' =>
      refine .list (l.trans l') fun i x z hx hz => ?_
      have hi : i < bs.length := by
        have := (List.getElem?_eq_some_iff.mp hx).1; omega
      have hy := List.getElem?_eq_getElem hi
      exact ih i x _ hx hy z (h' i _ z hy hz)
  | @hmap as bs l h1 h2 ih =>
    intro c h
    cases h with
    | number h3 h4 => simp [Data.number] at h3
    | @hmap _ cs l' h1' h2' =>
      refine .hmap (l.trans l') ?_ ?_
      · intro k v hv
        obtain ⟨w, hw⟩ := h1 k v hv
        exact h1' k w hw
      · intro k v w hv hw
        obtain ⟨u, hu⟩ := h1 k v hv
        exact ih k v u hv hu w (h2' k u w hu hw)
  | special => intro c h; exact h
  | builtin => intro c h; exact h
  | port => intro c h; exact h
  | semver h =>
    intro c h'
    cases h' with
    | number h3 h4 => simp [Data.number] at h3
    | semver h' => exact .semver ⟨h.1.trans h'.1, h.2.1.trans h'.2.1, h.2.2.1.trans h'.2.2.1,
        h.2.2.2.trans h'.2.2.2⟩

/-! ### the program's comparison -/

theorem same_kind {a b : Data} (h : a.Same b) : kind a = kind b := by
  cases h with
  | number h1 h2 => cases a <;> simp [Data.number] at h1 <;> cases b <;> simp [Data.number] at h2 <;> rfl
  | _ => rfl

theorem then_eq_iff (x y : Ordering) : x.then y = .eq ↔ x = .eq ∧ y = .eq := by
  cases x <;> simp

theorem lexCmp_eq_iff (s t : List Nat) : lexCmp s t = .eq ↔ s = t :=
  ⟨Spec.lexCmp_eq s t, fun h => h ▸ Spec.lexCmp_refl s⟩

/-- a datum without elements or entries -/
def Leaf (d : Data) : Prop := dataTag d ≠ 9 ∧ dataTag d ≠ 10 ∧ dataTag d ≠ 11 ∧ dataTag d ≠ 12

theorem Regular.leaf {d : Data} (h : Regular d) (hl : Leaf d) : Plain d := by
  obtain ⟨h1, h2, h3, h4⟩ := hl
  cases h with
  | plain p => exact p
  | vec => simp [dataTag] at h1
  | queue => simp [dataTag] at h3
  | list => simp [dataTag] at h4
  | hmap => simp [dataTag] at h2

theorem leaf_cmp {a b : Data} (hl : Leaf a) (pa : Plain a) (pb : Plain b) :
    dataCmp a b = .eq ↔ a.Same b := by
  rw [dataCmp_eq, then_eq_iff]
  have ea : elems a = [] := by
    obtain ⟨h1, h2, h3, h4⟩ := hl
    cases a <;> simp [dataTag] at h1 h2 h3 h4 <;> rfl
  rw [ea, dataCmps_nil, top, then_eq_iff, intCmp_eq]
  simp only [and_true]
  constructor
  · intro ⟨hk, hw⟩
    cases a <;> cases b <;> simp [kind] at hk <;> simp only [within, intCmp_eq, then_eq_iff, lexCmp_eq_iff] at hw
    case nil.nil => exact .nil
    case bool.bool p q => cases p <;> cases q <;> simp at hw <;> exact .bool
    case int.int =>
      rw [Data.number, Data.number] at hw
      exact .number rfl (by rw [Data.number, Option.some.injEq]; exact hw.symm)
    case int.real =>
      obtain ⟨y, hy⟩ := plain_number pb (Or.inr rfl)
      rw [hy, Data.number] at hw
      simp only [Option.getD_some] at hw
      exact .number rfl (hy.trans (by rw [hw]))
    case real.int =>
      obtain ⟨y, hy⟩ := plain_number pa (Or.inr rfl)
      rw [hy, Data.number] at hw
      simp only [Option.getD_some] at hw
      exact .number hy (by rw [hw]; rfl)
    case real.real =>
      obtain ⟨x, hx⟩ := plain_number pa (Or.inr rfl)
      obtain ⟨y, hy⟩ := plain_number pb (Or.inr rfl)
      rw [hx, hy] at hw
      simp only [Option.getD_some] at hw
      exact .number hx (by rw [hw]; exact hy)
    case str.str => rw [hw]; exact .str
    case chr.chr => rw [hw]; exact .chr
    case sym.sym => rw [hw]; exact .sym
    case err.err => obtain ⟨h1, h2⟩ := hw; rw [h1, Int.ofNat_inj.mp h2]; exact .err
    case vec.vec => exact absurd rfl hl.1
    case hmap.hmap => exact absurd rfl hl.2.1
    case queue.queue => exact absurd rfl hl.2.2.1
    case list.list => exact absurd rfl hl.2.2.2
    case special.special => rw [Int.ofNat_inj.mp hw]; exact .special
    case builtin.builtin => rw [Int.ofNat_inj.mp hw]; exact .builtin
    case port.port => rw [Int.ofNat_inj.mp hw]; exact .port
    case semver.semver => exact .semver ((Props.c21_cmp_eq_aux _ _).mp hw)
  · intro h
    refine ⟨by rw [same_kind h], ?_⟩
    cases h with
    | number h1 h2 =>
      cases a <;> simp [Data.number] at h1 <;> cases b <;> simp [Data.number] at h2 <;>
        simp [within, intCmp_eq, Data.number, h1, h2]
    | vec => exact absurd rfl hl.1
    | hmap => exact absurd rfl hl.2.1
    | queue => exact absurd rfl hl.2.2.1
    | list => exact absurd rfl hl.2.2.2
    | semver h => exact (Props.c21_cmp_eq_aux _ _).mpr h
    | _ => simp [within, intCmp_eq, lexCmp_eq_iff, then_eq_iff, Data.number]

theorem KeyData.leaf {d : Data} (h : KeyData d) : Leaf d := by
  cases h <;> simp [Leaf, dataTag]

theorem key_same {a b : Data} (ha : KeyData a) (hb : KeyData b) : a.Same b ↔ a = b := by
  constructor
  · intro h
    cases ha <;> cases h <;> first
      | rfl
      | (cases hb <;> simp_all [Data.number, Dbl.ofInt_inj])
    exact Dbl.ofInt_inj.mp (Eq.trans ‹Dbl.ofInt _ = _› (Eq.symm ‹Dbl.ofInt _ = _›))
  · rintro rfl; exact same_refl (.plain ha.plain)

/-- the hash of a key, a function of its data -/
def keyHash : Data → BitVec 32
  | .nil => jenkins [0]
  | .bool b => jenkins [if b then 1 else 0]
  | .int n => jenkins (leBytes 4 (n.emod (2 ^ 32)).toNat)
  | .str s | .chr s | .sym s => stringHash s
  | _ => 0

theorem hashRef_key {m : Mem} {r : Ref} {d : Data} (h : Denotes m r d) (hk : KeyData d) :
    hashRef m r = .ok (keyHash d) := by
  obtain ⟨c, hc, _⟩ := h.cell
  unfold hashRef
  simp only [Mem.read, hc, bind, Except.bind]
  have hl := hk.leaf
  have := atomData_inv (h.atom_inv hc (by rintro _ rfl; exact hl.1 rfl)
    (by rintro _ rfl; exact hl.2.2.1 rfl) (by rintro _ rfl; exact hl.2.2.2 rfl)
    (by rintro _ rfl; exact hl.2.1 rfl))
  cases hk <;> (simp only at this; rw [this]; rfl)

/-- `rec` agrees with equality of keys -/
def KeyRec (m : Mem) (rec : Ref → Ref → Res Int) : Prop :=
  ∀ a b da db z, Denotes m a da → Denotes m b db → KeyData da → KeyData db → rec a b = .ok z →
    (z = 0 ↔ da = db)

/-- what the outcome of a search says about the entries -/
def FindSpec (dk : Data) (es : List (Ref × Ref)) (ds : List (Data × Data)) : Option Ref → Prop
  | none => ∀ d ∈ ds, d.1 ≠ dk
  | some v => ∃ (i : Nat) (e : Ref × Ref) (d : Data × Data), es[i]? = some e ∧ ds[i]? = some d ∧
      d.1 = dk ∧ e.2 = v

theorem findEntry_spec {m : Mem} {rec : Ref → Ref → Res Int} (hrec : KeyRec m rec) {nb : Nat}
    {k : Ref} {dk : Data} (hk : Denotes m k dk) (kk : KeyData dk) :
    ∀ (es : List (Ref × Ref)) (ds : List (Data × Data)) (res : Option Ref),
      es.length = ds.length →
      (∀ (i : Nat) (e : Ref × Ref) (d : Data × Data), es[i]? = some e → ds[i]? = some d →
        Denotes m e.1 d.1) →
      (∀ d ∈ ds, KeyData d.1) →
      findEntry rec (hashRef m) nb k es = .ok res → FindSpec dk es ds res := by
  intro es
  induction es with
  | nil =>
    intro ds res hl _ _ h
    obtain rfl : ds = [] := List.length_eq_zero_iff.mp (by simpa using hl.symm)
    cases h
    simp [FindSpec]
  | cons e es ih =>
    intro ds res hl hd hkd h
    cases ds with
    | nil => simp at hl
    | cons d ds =>
      obtain ⟨k', v'⟩ := e
      have hk' := hd 0 (k', v') d rfl rfl
      have kk' := hkd d (by simp)
      simp only [findEntry, hashRef_key hk kk, hashRef_key hk' kk', bind, Except.bind] at h
      simp only [List.length_cons, Nat.add_right_cancel_iff] at hl
      have rest : d.1 ≠ dk → findEntry rec (hashRef m) nb k es = .ok res →
          FindSpec dk ((k', v') :: es) (d :: ds) res := by
        intro hne h
        have := ih ds res hl (fun i => hd (i + 1)) (fun x hx => hkd x (by simp [hx])) h
        cases res with
        | none =>
          simp only [FindSpec] at this ⊢
          intro x hx
          rcases List.mem_cons.mp hx with rfl | hx
          · exact hne
          · exact this x hx
        | some v =>
          simp only [FindSpec] at this ⊢
          obtain ⟨i, x, y, h1, h2, h3, h4⟩ := this
          exact ⟨i + 1, x, y, by simpa using h1, by simpa using h2, h3, h4⟩
      by_cases hh : (keyHash dk).toNat % nb = (keyHash d.1).toNat % nb
      · rw [if_pos hh] at h
        cases hc : rec k k' with
        | error e => rw [hc] at h; cases h
        | ok c =>
          rw [hc] at h
          simp only at h
          have he := hrec k k' dk d.1 c hk hk' kk kk' hc
          by_cases hz : c = 0
          · rw [if_pos hz] at h
            cases h
            exact ⟨0, _, d, rfl, rfl, (he.mp hz).symm, rfl⟩
          · rw [if_neg hz] at h
            exact rest (fun e => hz (he.mpr e.symm)) h
      · rw [if_neg hh] at h
        exact rest (fun e => hh (by rw [e])) h

theorem compareEntries_zero {m : Mem} {rec : Ref → Ref → Res Int} (hrec : KeyRec m rec) {nb : Nat}
    {bs : List (Ref × Ref)} {dbs : List (Data × Data)} (lb : bs.length = dbs.length)
    (kb : ∀ (i : Nat) (e : Ref × Ref) (d : Data × Data), bs[i]? = some e → dbs[i]? = some d →
        Denotes m e.1 d.1)
    (vb : ∀ (i : Nat) (e : Ref × Ref) (d : Data × Data), bs[i]? = some e → dbs[i]? = some d →
        Denotes m e.2 d.2)
    (nd : (dbs.map Prod.fst).Nodup) (kdb : ∀ d ∈ dbs, KeyData d.1) (rb : ∀ d ∈ dbs, Regular d.2)
    (ih : ∀ a b da db z, Denotes m a da → Denotes m b db → Regular da → Regular db →
      rec a b = .ok z → (z = 0 ↔ da.Same db)) :
    ∀ (as : List (Ref × Ref)) (das : List (Data × Data)) (z : Int), as.length = das.length →
      (∀ (i : Nat) (e : Ref × Ref) (d : Data × Data), as[i]? = some e → das[i]? = some d →
        Denotes m e.1 d.1) →
      (∀ (i : Nat) (e : Ref × Ref) (d : Data × Data), as[i]? = some e → das[i]? = some d →
        Denotes m e.2 d.2) →
      (∀ d ∈ das, KeyData d.1) → (∀ d ∈ das, Regular d.2) →
      compareEntries rec (hashRef m) nb bs as = .ok z →
      (z = 0 ↔ ∀ d ∈ das, (∃ w, (d.1, w) ∈ dbs) ∧ ∀ w, (d.1, w) ∈ dbs → d.2.Same w) := by
  intro as
  induction as with
  | nil =>
    intro das z la _ _ _ _ h
    obtain rfl : das = [] := List.length_eq_zero_iff.mp (by simpa using la.symm)
    cases h
    simp
  | cons a as iha =>
    intro das z la ka va kda ra h
    cases das with
    | nil => simp at la
    | cons d das =>
      obtain ⟨k, v⟩ := a
      obtain ⟨dk, dv⟩ := d
      simp only [List.length_cons, Nat.add_right_cancel_iff] at la
      have hk := ka 0 (k, v) (dk, dv) rfl rfl
      have hv := va 0 (k, v) (dk, dv) rfl rfl
      have kk := kda (dk, dv) (by simp)
      have rv := ra (dk, dv) (by simp)
      simp only at hk hv kk rv
      simp only [compareEntries, bind, Except.bind] at h
      cases hf : findEntry rec (hashRef m) nb k bs with
      | error e => rw [hf] at h; cases h
      | ok res =>
        rw [hf] at h
        have sp := findEntry_spec hrec hk kk bs dbs res lb kb kdb hf
        cases res with
        | none =>
          simp only [Except.ok.injEq, FindSpec] at h sp
          subst h
          constructor
          · intro e; cases e
          · intro hall
            obtain ⟨⟨w, hw⟩, _⟩ := hall (dk, dv) (by simp)
            exact absurd rfl (sp _ hw)
        | some v' =>
          simp only [FindSpec] at h sp
          obtain ⟨i, e, d, he, hd, e1, e2⟩ := sp
          have dv' := vb i e d he hd
          rw [e2] at dv'
          have md : d ∈ dbs := List.mem_of_getElem? hd
          have uniq : ∀ w, (dk, w) ∈ dbs → w = d.2 := by
            intro w hw
            exact unique_entry _ nd dk w d.2 hw (by rw [← e1]; exact md)
          cases hc : rec v v' with
          | error e => rw [hc] at h; cases h
          | ok c =>
            rw [hc] at h
            simp only at h
            have hz := ih v v' dv d.2 c hv dv' rv (rb d md) hc
            by_cases hc0 : c = 0
            · rw [if_neg (by simp [hc0])] at h
              rw [iha das z la (fun i => ka (i + 1)) (fun i => va (i + 1))
                (fun x hx => kda x (by simp [hx])) (fun x hx => ra x (by simp [hx])) h]
              constructor
              · intro hall x hx
                rcases List.mem_cons.mp hx with rfl | hx
                · refine ⟨⟨d.2, by rw [← e1]; exact md⟩, fun w hw => ?_⟩
                  rw [uniq w hw]; exact hz.mp hc0
                · exact hall x hx
              · exact fun hall x hx => hall x (by simp [hx])
            · rw [if_pos hc0] at h
              cases h
              constructor
              · intro e; exact absurd e hc0
              · intro hall
                exact absurd (hz.mpr ((hall (dk, dv) (by simp)).2 d.2 (by rw [← e1]; exact md))) hc0

theorem compareElements_zero {rec : Ref → Ref → Res Int} {m : Mem}
    (ih : ∀ a b da db z, Denotes m a da → Denotes m b db → Regular da → Regular db →
      rec a b = .ok z → (z = 0 ↔ da.Same db)) :
    ∀ (as bs : List Ref) (das dbs : List Data) (z : Int), as.length = das.length →
      bs.length = dbs.length →
      (∀ (i : Nat) (x : Ref) (d : Data), as[i]? = some x → das[i]? = some d → Denotes m x d) →
      (∀ (i : Nat) (x : Ref) (d : Data), bs[i]? = some x → dbs[i]? = some d → Denotes m x d) →
      (∀ d ∈ das, Regular d) → (∀ d ∈ dbs, Regular d) → as.length = bs.length →
      compareElements rec as bs = .ok z →
      (z = 0 ↔ ∀ (i : Nat) (a b : Data), das[i]? = some a → dbs[i]? = some b → a.Same b) := by
  intro as
  induction as with
  | nil =>
    intro bs das dbs z la lb _ _ _ _ l h
    obtain rfl : das = [] := List.length_eq_zero_iff.mp (by simpa using la.symm)
    simp only [compareElements, Except.ok.injEq] at h
    subst h
    simp
  | cons a as iha =>
    intro bs das dbs z la lb ha hb pa pb l h
    cases bs with
    | nil => simp at l
    | cons b bs =>
      cases das with
      | nil => simp at la
      | cons da das =>
        cases dbs with
        | nil => simp at lb
        | cons db dbs =>
          simp only [compareElements] at h
          cases hr : rec a b with
          | error e => rw [hr] at h; cases h
          | ok c =>
            rw [hr] at h
            simp only [bind, Except.bind] at h
            have hc := ih a b da db c (ha 0 a da rfl rfl) (hb 0 b db rfl rfl)
              (pa da (by simp)) (pb db (by simp)) hr
            by_cases hz : c = 0
            · rw [if_neg (by simp [hz])] at h
              simp only [List.length_cons, Nat.add_right_cancel_iff] at la lb l
              rw [iha bs das dbs z la lb (fun i => ha (i + 1)) (fun i => hb (i + 1))
                (fun d hd => pa d (by simp [hd])) (fun d hd => pb d (by simp [hd])) l h]
              constructor
              · intro hall i x y hx hy
                cases i with
                | zero => cases hx; cases hy; exact hc.mp hz
                | succ i => exact hall i x y (by simpa using hx) (by simpa using hy)
              · exact fun hall i x y hx hy => hall (i + 1) x y (by simpa using hx) (by simpa using hy)
            · rw [if_pos hz] at h
              cases h
              constructor
              · intro e; exact absurd e hz
              · intro hall; exact absurd (hc.mpr (hall 0 da db rfl rfl)) hz

theorem intDiff_ne {a b : Nat} (ha : a < 2 ^ 31) (hb : b < 2 ^ 31) (h : a ≠ b) :
    Semver.intDiff a b ≠ 0 := by
  rw [Props.c21_intDiff_aux ha hb]; omega

/-- if the program's comparison of two values that denote regular data returns, then it returns 0
just if the data are the same -/
theorem compareRef_zero (m : Mem) : ∀ (n : Nat) (a b : Ref) (da db : Data) (z : Int),
    Denotes m a da → Denotes m b db → Regular da → Regular db → compareRef m n a b = .ok z →
    (z = 0 ↔ da.Same db) := by
  intro n
  induction n with
  | zero => intro a b da db z _ _ _ _ h; cases h
  | succ n ih =>
    intro a b da db z ha hb ra rb h
    have h0 := h
    simp only [compareRef] at h
    by_cases hab : a = b
    · subst hab
      rw [if_pos rfl] at h
      cases h
      rw [ha.unique db hb]
      exact ⟨fun _ => same_refl rb, fun _ => rfl⟩
    · rw [if_neg hab] at h
      obtain ⟨ca, hca, ta⟩ := ha.cell
      obtain ⟨cb, hcb, tb⟩ := hb.cell
      simp only [Mem.read, hca, hcb, bind, Except.bind] at h
      by_cases la : Leaf da ∧ Leaf db
      · have pa := ra.leaf la.1
        have pb := rb.leaf la.2
        rw [sign_eq_zero (compareRef_sign m (n + 1) a b da db z ha hb pa pb h0)]
        exact leaf_cmp la.1 pa pb
      · unfold compareObjs at h
        by_cases ht : dataTag da = dataTag db
        · have hn : ca.obj.number = none := Obj.number_none (by
            rw [ta]; intro h3; apply la
            exact ⟨⟨by omega, by omega, by omega, by omega⟩, ⟨by omega, by omega, by omega, by omega⟩⟩)
          rw [hn] at h
          simp only at h
          rw [if_neg (by rw [ta, tb]; simp [ht])] at h
          cases da <;> cases db <;> simp [dataTag] at ht <;> simp [Leaf, dataTag] at la
          case vec.vec p q =>
            obtain ⟨rs, e1, l1, d1⟩ := ha.vec_inv hca
            obtain ⟨rs', e2, l2, d2⟩ := hb.vec_inv hcb
            rw [e1, e2] at h
            obtain ⟨n1, p1⟩ := ra.vec_inv
            obtain ⟨n2, p2⟩ := rb.vec_inv
            simp only [compareSeqs] at h
            by_cases hl : rs.length = rs'.length
            · rw [if_neg (by simp [hl])] at h
              rw [compareElements_zero ih rs rs' p q z l1 l2 d1 d2 p1 p2 hl h]
              refine ⟨fun hh => .vec (by omega) hh, fun hh => ?_⟩
              cases hh with
              | number h3 _ => simp [Data.number] at h3
              | vec _ hh => exact hh
            · rw [if_pos hl] at h
              cases h
              refine ⟨fun e => absurd e (intDiff_ne (by omega) (by omega) hl), fun hh => ?_⟩
              cases hh with
              | number h3 _ => simp [Data.number] at h3
              | vec l' hh => omega
          case queue.queue p q =>
            obtain ⟨mx, rs, e1, l1, d1⟩ := ha.queue_inv hca
            obtain ⟨mx', rs', e2, l2, d2⟩ := hb.queue_inv hcb
            rw [e1, e2] at h
            obtain ⟨n1, p1⟩ := ra.queue_inv
            obtain ⟨n2, p2⟩ := rb.queue_inv
            simp only [compareSeqs] at h
            by_cases hl : rs.length = rs'.length
            · rw [if_neg (by simp [hl])] at h
              rw [compareElements_zero ih rs rs' p q z l1 l2 d1 d2 p1 p2 hl h]
              refine ⟨fun hh => .queue (by omega) hh, fun hh => ?_⟩
              cases hh with
              | number h3 _ => simp [Data.number] at h3
              | queue _ hh => exact hh
            · rw [if_pos hl] at h
              cases h
              refine ⟨fun e => absurd e (intDiff_ne (by omega) (by omega) hl), fun hh => ?_⟩
              cases hh with
              | number h3 _ => simp [Data.number] at h3
              | queue l' hh => omega
          case list.list p q =>
            obtain ⟨rs, e1, l1, d1⟩ := ha.list_inv hca
            obtain ⟨rs', e2, l2, d2⟩ := hb.list_inv hcb
            rw [e1, e2] at h
            obtain ⟨n1, p1⟩ := ra.list_inv
            obtain ⟨n2, p2⟩ := rb.list_inv
            simp only [compareSeqs] at h
            by_cases hl : rs.length = rs'.length
            · rw [if_neg (by simp [hl])] at h
              rw [compareElements_zero ih rs rs' p q z l1 l2 d1 d2 p1 p2 hl h]
              refine ⟨fun hh => .list (by omega) hh, fun hh => ?_⟩
              cases hh with
              | number h3 _ => simp [Data.number] at h3
              | list _ hh => exact hh
            · rw [if_pos hl] at h
              cases h
              refine ⟨fun e => absurd e (intDiff_ne (by omega) (by omega) hl), fun hh => ?_⟩
              cases hh with
              | number h3 _ => simp [Data.number] at h3
              | list l' hh => omega
          case hmap.hmap p q =>
            obtain ⟨nb1, es, e1, l1, k1, v1⟩ := ha.hmap_inv hca
            obtain ⟨nb2, es', e2, l2, k2, v2⟩ := hb.hmap_inv hcb
            rw [e1, e2] at h
            obtain ⟨n1, nd1, kd1, r1⟩ := ra.hmap_inv
            obtain ⟨n2, nd2, kd2, r2⟩ := rb.hmap_inv
            simp only [compareMaps] at h
            by_cases hl : es.length = es'.length
            · rw [if_neg (by simp [hl])] at h
              have hrec : KeyRec m (compareRef m n) := by
                intro a b da db z h1 h2 kd1 kd2 h3
                rw [ih a b da db z h1 h2 (.plain kd1.plain) (.plain kd2.plain) h3, key_same kd1 kd2]
              rw [compareEntries_zero hrec l2 k2 v2 nd2 kd2 r2 ih es p z l1 k1 v1 kd1 r1 h]
              constructor
              · intro hall
                exact .hmap (by omega) (fun k v hv => (hall (k, v) hv).1)
                  (fun k v w hv hw => (hall (k, v) hv).2 w hw)
              · intro hh
                cases hh with
                | number h3 _ => simp [Data.number] at h3
                | hmap _ s1 s2 =>
                  exact fun d hd => ⟨s1 d.1 d.2 hd, fun w hw => s2 d.1 d.2 w hd hw⟩
            · rw [if_pos hl] at h
              cases h
              refine ⟨fun e => absurd e (intDiff_ne (by omega) (by omega) hl), fun hh => ?_⟩
              cases hh with
              | number h3 _ => simp [Data.number] at h3
              | hmap l' _ _ => omega
        · have hne : z ≠ 0 ∧ kind da ≠ kind db := by
            have hk : kind da ≠ kind db := by
              intro e
              apply la
              clear ha hb ra rb ta tb la h h0 ih
              cases da <;> cases db <;> simp [kind] at e <;> simp [dataTag] at ht <;>
                simp [Leaf, dataTag]
            have hnum : ¬ ((∃ p, ca.obj.number = some p) ∧ ∃ q, cb.obj.number = some q) := by
              intro ⟨⟨p, hp⟩, ⟨q, hq⟩⟩
              have := number_of_tag hp
              have := number_of_tag hq
              apply la
              unfold Leaf
              omega
            refine ⟨?_, hk⟩
            have hz : z = (ca.obj.tag : Int) - cb.obj.tag := by
              cases hp : ca.obj.number with
              | none =>
                rw [hp] at h
                simp only at h
                rw [if_pos (by rw [ta, tb]; exact ht)] at h
                cases h; rfl
              | some p =>
                cases hq : cb.obj.number with
                | some q => exact absurd ⟨⟨p, hp⟩, ⟨q, hq⟩⟩ hnum
                | none =>
                  rw [hp, hq] at h
                  simp only at h
                  rw [if_pos (by rw [ta, tb]; exact ht)] at h
                  cases h; rfl
            rw [hz, ta, tb]; omega
          exact ⟨fun e => absurd e hne.1, fun e => absurd (same_kind e) hne.2⟩

end Dern
