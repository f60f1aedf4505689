import Verif.Dern.EqualLemmas
/-
Comparison: more steps do not change the outcome, and on regular data whose integers are less than
2^31 apart it returns.
-/
namespace Dern
open Spec (Version Dbl Data lexCmp sign)

/-! ### more steps -/

theorem compareElements_mono {r1 r2 : Ref → Ref → Res Int}
    (h : ∀ a b z, r1 a b = .ok z → r2 a b = .ok z) :
    ∀ (as bs : List Ref) (z : Int), compareElements r1 as bs = .ok z →
      compareElements r2 as bs = .ok z := by
  intro as
  induction as with
  | nil => intro bs z hz; exact hz
  | cons a as ih =>
    intro bs z hz
    cases bs with
    | nil => exact hz
    | cons b bs =>
      simp only [compareElements, bind, Except.bind] at hz ⊢
      cases hr : r1 a b with
      | error e => rw [hr] at hz; cases hz
      | ok c =>
        rw [hr] at hz
        rw [h a b c hr]
        simp only at hz ⊢
        by_cases hc : c = 0
        · rw [if_neg (by simp [hc])] at hz ⊢; exact ih bs z hz
        · rw [if_pos hc] at hz ⊢; exact hz

theorem compareSeqs_mono {r1 r2 : Ref → Ref → Res Int}
    (h : ∀ a b z, r1 a b = .ok z → r2 a b = .ok z) {as bs : List Ref} {z : Int}
    (hz : compareSeqs r1 as bs = .ok z) : compareSeqs r2 as bs = .ok z := by
  unfold compareSeqs at hz ⊢
  by_cases hl : as.length = bs.length
  · rw [if_neg (by simp [hl])] at hz ⊢; exact compareElements_mono h _ _ _ hz
  · rw [if_pos hl] at hz ⊢; exact hz

theorem findEntry_mono {r1 r2 : Ref → Ref → Res Int} {hash : Ref → Res (BitVec 32)} {nb : Nat} {k : Ref}
    (h : ∀ a b z, r1 a b = .ok z → r2 a b = .ok z) :
    ∀ (es : List (Ref × Ref)) (v : Option Ref), findEntry r1 hash nb k es = .ok v →
      findEntry r2 hash nb k es = .ok v := by
  intro es
  induction es with
  | nil => intro v hv; exact hv
  | cons e es ih =>
    intro v hv
    obtain ⟨k', v'⟩ := e
    simp only [findEntry, bind, Except.bind] at hv ⊢
    cases h1 : hash k with
    | error e => rw [h1] at hv; cases hv
    | ok x =>
      cases h2 : hash k' with
      | error e => rw [h1, h2] at hv; cases hv
      | ok y =>
        rw [h1, h2] at hv
        simp only at hv ⊢
        by_cases he : x.toNat % nb = y.toNat % nb
        · rw [if_pos he] at hv ⊢
          cases hr : r1 k k' with
          | error e => rw [hr] at hv; cases hv
          | ok c =>
            rw [hr] at hv
            rw [h k k' c hr]
            simp only at hv ⊢
            by_cases hc : c = 0
            · rw [if_pos hc] at hv ⊢; exact hv
            · rw [if_neg hc] at hv ⊢; exact ih v hv
        · rw [if_neg he] at hv ⊢; exact ih v hv

theorem compareEntries_mono {r1 r2 : Ref → Ref → Res Int} {hash : Ref → Res (BitVec 32)} {nb : Nat}
    {bs : List (Ref × Ref)}
    (h : ∀ a b z, r1 a b = .ok z → r2 a b = .ok z) :
    ∀ (as : List (Ref × Ref)) (z : Int), compareEntries r1 hash nb bs as = .ok z →
      compareEntries r2 hash nb bs as = .ok z := by
  intro as
  induction as with
  | nil => intro z hz; exact hz
  | cons e as ih =>
    intro z hz
    obtain ⟨k, v⟩ := e
    simp only [compareEntries, bind, Except.bind] at hz ⊢
    cases hf : findEntry r1 hash nb k bs with
    | error e => rw [hf] at hz; cases hz
    | ok o =>
      rw [hf] at hz
      rw [findEntry_mono h bs o hf]
      cases o with
      | none => exact hz
      | some v' =>
        simp only at hz ⊢
        cases hr : r1 v v' with
        | error e => rw [hr] at hz; cases hz
        | ok c =>
          rw [hr] at hz
          rw [h v v' c hr]
          simp only at hz ⊢
          by_cases hc : c = 0
          · rw [if_neg (by simp [hc])] at hz ⊢; exact ih z hz
          · rw [if_pos hc] at hz ⊢; exact hz

theorem compareMaps_mono {r1 r2 : Ref → Ref → Res Int} {hash : Ref → Res (BitVec 32)} {nb : Nat}
    (h : ∀ a b z, r1 a b = .ok z → r2 a b = .ok z) {as bs : List (Ref × Ref)} {z : Int}
    (hz : compareMaps r1 hash nb as bs = .ok z) : compareMaps r2 hash nb as bs = .ok z := by
  unfold compareMaps at hz ⊢
  by_cases hl : as.length = bs.length
  · rw [if_neg (by simp [hl])] at hz ⊢; exact compareEntries_mono h _ _ hz
  · rw [if_pos hl] at hz ⊢; exact hz

theorem then_mono {x1 x2 : Res Int} {f1 f2 : Int → Res Int}
    (hx : ∀ z, x1 = .ok z → x2 = .ok z)
    (hf : ∀ (z c : Int), f1 c = .ok z → f2 c = .ok z) (z : Int) (h : (x1 >>= f1) = .ok z) :
    (x2 >>= f2) = .ok z := by
  simp only [bind, Except.bind] at h ⊢
  cases h1 : x1 with
  | error e => rw [h1] at h; cases h
  | ok c => rw [h1] at h; rw [hx c h1]; exact hf z c h

theorem ite_mono {p : Prop} [Decidable p] {a b c d : Res Int}
    (h1 : ∀ z, a = .ok z → b = .ok z) (h2 : ∀ z, c = .ok z → d = .ok z)
    (z : Int) (h : (if p then a else c) = .ok z) : (if p then b else d) = .ok z := by
  by_cases hp : p
  · rw [if_pos hp] at h ⊢; exact h1 z h
  · rw [if_neg hp] at h ⊢; exact h2 z h

theorem compareFns_mono {r1 r2 : Ref → Ref → Res Int}
    (h : ∀ a b z, r1 a b = .ok z → r2 a b = .ok z) {f g : FnData} (z : Int)
    (hz : compareFns r1 f g = .ok z) : compareFns r2 f g = .ok z := by
  unfold compareFns at hz ⊢
  revert hz
  refine then_mono (fun _ x => x) (fun z c => ite_mono (fun _ x => x) ?_ z) z
  refine then_mono (fun _ x => x) (fun z c => ite_mono (fun _ x => x) ?_ z)
  refine then_mono (h _ _) (fun z c => ite_mono (fun _ x => x) ?_ z)
  refine then_mono (h _ _) (fun z c => ite_mono (fun _ x => x) ?_ z)
  exact then_mono (h _ _) (fun z c => ite_mono (fun _ x => x) (fun _ x => x) z)

theorem compareObjs_mono {r1 r2 : Ref → Ref → Res Int} {hash : Ref → Res (BitVec 32)}
    (h : ∀ a b z, r1 a b = .ok z → r2 a b = .ok z) {a b : Ref} {x y : Obj} {z : Int}
    (hz : compareObjs r1 hash a b x y = .ok z) : compareObjs r2 hash a b x y = .ok z := by
  unfold compareObjs at hz ⊢
  split at hz
  · exact hz
  · by_cases ht : x.tag = y.tag
    · rw [if_neg (by simp [ht])] at hz ⊢
      split at hz <;> first
        | exact hz
        | exact compareSeqs_mono h hz
        | exact compareMaps_mono h hz
        | exact compareFns_mono h _ hz
    · rw [if_pos ht] at hz ⊢; exact hz

theorem compareRef_succ (m : Mem) : ∀ (n : Nat) (a b : Ref) (z : Int), compareRef m n a b = .ok z →
    compareRef m (n + 1) a b = .ok z := by
  intro n
  induction n with
  | zero => intro a b z h; cases h
  | succ n ih =>
    intro a b z h
    unfold compareRef at h ⊢
    by_cases hab : a = b
    · rw [if_pos hab] at h ⊢; exact h
    · rw [if_neg hab] at h ⊢
      simp only [bind, Except.bind] at h ⊢
      cases h1 : m.read a with
      | error e => rw [h1] at h; cases h
      | ok ca =>
        cases h2 : m.read b with
        | error e => rw [h1, h2] at h; cases h
        | ok cb =>
          rw [h1, h2] at h
          exact compareObjs_mono ih h

theorem compareRef_mono (m : Mem) {n k : Nat} (hk : n ≤ k) {a b : Ref} {z : Int}
    (h : compareRef m n a b = .ok z) : compareRef m k a b = .ok z := by
  obtain ⟨j, rfl⟩ := Nat.le.dest hk
  induction j with
  | zero => exact h
  | succ j ih => exact compareRef_succ m _ a b z (ih (Nat.le_add_right _ _))

theorem compareRef_det (m : Mem) {n k : Nat} {a b : Ref} {x y : Int}
    (h1 : compareRef m n a b = .ok x) (h2 : compareRef m k a b = .ok y) : x = y := by
  have e1 := compareRef_mono m (Nat.le_max_left n k) h1
  have e2 := compareRef_mono m (Nat.le_max_right n k) h2
  rw [e1] at e2; cases e2; rfl

/-! ### returning -/

/-- all integers inside are in the window `lo ≤ n < lo + 2^31` -/
inductive InWindow (lo : Int) : Data → Prop
  | int {n} : lo ≤ n → n < lo + 2 ^ 31 → InWindow lo (.int n)
  | leaf {d} : (∀ n, d ≠ .int n) → Leaf d → InWindow lo d
  | vec {es} : (∀ d ∈ es, InWindow lo d) → InWindow lo (.vec es)
  | queue {es} : (∀ d ∈ es, InWindow lo d) → InWindow lo (.queue es)
  | list {es} : (∀ d ∈ es, InWindow lo d) → InWindow lo (.list es)
  | hmap {es} : (∀ e ∈ es, InWindow lo e.1) → (∀ e ∈ es, InWindow lo e.2) → InWindow lo (.hmap es)

theorem InWindow.vec_inv {lo es} (h : InWindow lo (.vec es)) : ∀ d ∈ es, InWindow lo d := by
  cases h with
  | leaf _ h => exact absurd rfl h.1
  | vec h => exact h
theorem InWindow.queue_inv {lo es} (h : InWindow lo (.queue es)) : ∀ d ∈ es, InWindow lo d := by
  cases h with
  | leaf _ h => exact absurd rfl h.2.2.1
  | queue h => exact h
theorem InWindow.list_inv {lo es} (h : InWindow lo (.list es)) : ∀ d ∈ es, InWindow lo d := by
  cases h with
  | leaf _ h => exact absurd rfl h.2.2.2
  | list h => exact h
theorem InWindow.hmap_inv {lo es} (h : InWindow lo (.hmap es)) :
    (∀ e ∈ es, InWindow lo e.1) ∧ ∀ e ∈ es, InWindow lo e.2 := by
  cases h with
  | leaf _ h => exact absurd rfl h.2.1
  | hmap h1 h2 => exact ⟨h1, h2⟩
theorem InWindow.int_inv {lo n} (h : InWindow lo (.int n)) : lo ≤ n ∧ n < lo + 2 ^ 31 := by
  cases h with
  | int h1 h2 => exact ⟨h1, h2⟩
  | leaf h _ => exact absurd rfl (h n)

theorem atom_leaf {r : Ref} {o : Obj} {d : Data} (h : atomData r o = some d) : Leaf d := by
  cases o <;> simp [atomData] at h <;> subst h <;> simp [Leaf, dataTag]

theorem compareObjs_atom {rec hash} {a b : Ref} {x y : Obj} {da : Data} {lo : Int}
    (hx : atomData a x = some da) (pa : Plain da) (wa : InWindow lo da)
    (hy : x.tag = y.tag → ∃ db, atomData b y = some db ∧ Plain db ∧ InWindow lo db) :
    ∃ z, compareObjs rec hash a b x y = .ok z := by
  unfold compareObjs
  by_cases ht : x.tag = y.tag
  · obtain ⟨db, hdb, pb, wb⟩ := hy ht
    cases x <;> simp [atomData] at hx <;> cases y <;> simp [Obj.tag] at ht <;>
      simp [atomData] at hdb <;> subst hx hdb
    all_goals simp only [Obj.number, Obj.tag, ne_eq, not_true, if_false]
    case int.int p q =>
      have := wa.int_inv; have := wb.int_inv
      exact ⟨p - q, by simp only [compareNumbers, subInt32]; exact if_pos (by omega)⟩
    case real.real => exact ⟨_, rfl⟩
    case str.str =>
      cases pa with | str pa => cases pb with | str pb =>
      rw [stringCompare_eq _ _ pa pb]; exact ⟨_, rfl⟩
    case chr.chr =>
      cases pa with | chr pa => cases pb with | chr pb =>
      rw [stringCompare_eq _ _ pa pb]; exact ⟨_, rfl⟩
    case sym.sym =>
      cases pa with | sym pa => cases pb with | sym pb =>
      rw [stringCompare_eq _ _ pa pb]; exact ⟨_, rfl⟩
    case err.err =>
      cases pa with | err pa => cases pb with | err pb =>
      rw [stringCompare_eq _ _ pa pb]
      simp only [orAbort, bind, Except.bind]
      split <;> exact ⟨_, rfl⟩
    case semver.semver =>
      cases pa with | semver pa => cases pb with | semver pb =>
      rw [Props.c21_compare_aux pa pb]; exact ⟨_, rfl⟩
    all_goals exact ⟨_, rfl⟩
  · split
    · rename_i p q h1 h2
      cases x <;> simp [Obj.number] at h1 <;> cases y <;> simp [Obj.number] at h2 <;>
        simp [Obj.tag] at ht <;> subst h1 h2 <;> exact ⟨_, rfl⟩
    · rw [if_pos ht]; exact ⟨_, rfl⟩

theorem compareElements_total {rec : Ref → Ref → Res Int} : ∀ (as bs : List Ref),
    (∀ a ∈ as, ∀ b ∈ bs, ∃ z, rec a b = .ok z) → ∃ z, compareElements rec as bs = .ok z := by
  intro as
  induction as with
  | nil => intro bs _; exact ⟨0, by simp [compareElements]⟩
  | cons a as ih =>
    intro bs h
    cases bs with
    | nil => exact ⟨0, by simp [compareElements]⟩
    | cons b bs =>
      obtain ⟨c, hc⟩ := h a (by simp) b (by simp)
      simp only [compareElements, hc, bind, Except.bind]
      by_cases hz : c = 0
      · rw [if_neg (by simp [hz])]
        exact ih bs fun x hx y hy => h x (by simp [hx]) y (by simp [hy])
      · rw [if_pos hz]; exact ⟨_, rfl⟩

theorem findEntry_total {rec : Ref → Ref → Res Int} {hash : Ref → Res (BitVec 32)} {nb : Nat} {k : Ref}
    (hk : ∃ h, hash k = .ok h) : ∀ (es : List (Ref × Ref)),
    (∀ e ∈ es, (∃ h, hash e.1 = .ok h) ∧ ∃ z, rec k e.1 = .ok z) →
    ∃ v, findEntry rec hash nb k es = .ok v ∧ ∀ x, v = some x → ∃ e ∈ es, e.2 = x := by
  obtain ⟨h1, hh1⟩ := hk
  intro es
  induction es with
  | nil => intro _; exact ⟨none, by simp [findEntry], by simp⟩
  | cons e es ih =>
    intro h
    obtain ⟨k', v'⟩ := e
    obtain ⟨⟨h2, hh2⟩, c, hc⟩ := h (k', v') (by simp)
    obtain ⟨v, hv, hm⟩ := ih fun e he => h e (by simp [he])
    simp only [findEntry, hh1, hh2, hc, bind, Except.bind]
    have tail : ∃ w, findEntry rec hash nb k es = .ok w ∧
        ∀ x, w = some x → ∃ e ∈ (k', v') :: es, e.2 = x :=
      ⟨v, hv, fun x hx => by
        obtain ⟨e, he, h⟩ := hm x hx
        exact ⟨e, by simp [he], h⟩⟩
    by_cases he : h1.toNat % nb = h2.toNat % nb
    · rw [if_pos he]
      by_cases hz : c = 0
      · rw [if_pos hz]
        exact ⟨some v', rfl, fun x hx => ⟨(k', v'), by simp, by simpa using hx⟩⟩
      · rw [if_neg hz]; exact tail
    · rw [if_neg he]; exact tail

theorem compareEntries_total {rec : Ref → Ref → Res Int} {hash : Ref → Res (BitVec 32)} {nb : Nat}
    {bs : List (Ref × Ref)} : ∀ (as : List (Ref × Ref)),
    (∀ e ∈ as, ∃ h, hash e.1 = .ok h) → (∀ e ∈ bs, ∃ h, hash e.1 = .ok h) →
    (∀ a ∈ as, ∀ b ∈ bs, ∃ z, rec a.1 b.1 = .ok z) →
    (∀ a ∈ as, ∀ b ∈ bs, ∃ z, rec a.2 b.2 = .ok z) →
    ∃ z, compareEntries rec hash nb bs as = .ok z := by
  intro as
  induction as with
  | nil => intro _ _ _ _; exact ⟨0, by simp [compareEntries]⟩
  | cons e as ih =>
    intro ha hb hk hv
    obtain ⟨k, v⟩ := e
    obtain ⟨o, ho, hm⟩ := findEntry_total (nb := nb) (rec := rec) (ha (k, v) (by simp)) bs
      (fun e he => ⟨hb e he, hk (k, v) (by simp) e he⟩)
    simp only [compareEntries, ho, bind, Except.bind]
    cases o with
    | none => exact ⟨_, rfl⟩
    | some v' =>
      obtain ⟨e, he, rfl⟩ := hm v' rfl
      obtain ⟨c, hc⟩ := hv (k, v) (by simp) e he
      simp only at hc ⊢
      rw [hc]
      simp only
      by_cases hz : c = 0
      · rw [if_neg (by simp [hz])]
        exact ih (fun e he => ha e (by simp [he])) hb (fun a ha => hk a (by simp [ha]))
          (fun a ha => hv a (by simp [ha]))
      · rw [if_pos hz]; exact ⟨_, rfl⟩

theorem eventually_all {α : Type} {P : Nat → α → Prop} : ∀ (l : List α),
    (∀ x ∈ l, ∃ n0, ∀ n, n0 ≤ n → P n x) → ∃ n0, ∀ n, n0 ≤ n → ∀ x ∈ l, P n x := by
  intro l
  induction l with
  | nil => intro _; exact ⟨0, fun _ _ _ h => by simp at h⟩
  | cons a l ih =>
    intro h
    obtain ⟨n1, h1⟩ := h a (by simp)
    obtain ⟨n2, h2⟩ := ih fun x hx => h x (by simp [hx])
    refine ⟨max n1 n2, fun n hn x hx => ?_⟩
    rcases List.mem_cons.mp hx with rfl | hx
    · exact h1 n (by omega)
    · exact h2 n (by omega) x hx

/-- the comparison with `a` on the left returns -/
def Returns (m : Mem) (lo : Int) (n : Nat) (a : Ref) : Prop :=
  ∀ b db, Denotes m b db → Regular db → InWindow lo db → ∃ z, compareRef m n a b = .ok z

theorem element_denotes {m : Mem} {rs : List Ref} {ds : List Data} (hl : rs.length = ds.length)
    (h : ∀ (i : Nat) (x : Ref) (d : Data), rs[i]? = some x → ds[i]? = some d → Denotes m x d)
    {x : Ref} (hx : x ∈ rs) : ∃ d ∈ ds, Denotes m x d := by
  obtain ⟨i, hi⟩ := List.mem_iff_getElem?.mp hx
  have : i < ds.length := by have := (List.getElem?_eq_some_iff.mp hi).1; omega
  have hd := List.getElem?_eq_getElem this
  exact ⟨_, List.mem_of_getElem? hd, h i x _ hi hd⟩

theorem entry_denotes {m : Mem} {rs : List (Ref × Ref)} {ds : List (Data × Data)}
    (hl : rs.length = ds.length)
    (hk : ∀ (i : Nat) (x : Ref × Ref) (d : Data × Data), rs[i]? = some x → ds[i]? = some d →
      Denotes m x.1 d.1)
    (hv : ∀ (i : Nat) (x : Ref × Ref) (d : Data × Data), rs[i]? = some x → ds[i]? = some d →
      Denotes m x.2 d.2)
    {x : Ref × Ref} (hx : x ∈ rs) : ∃ d ∈ ds, Denotes m x.1 d.1 ∧ Denotes m x.2 d.2 := by
  obtain ⟨i, hi⟩ := List.mem_iff_getElem?.mp hx
  have : i < ds.length := by have := (List.getElem?_eq_some_iff.mp hi).1; omega
  have hd := List.getElem?_eq_getElem this
  exact ⟨_, List.mem_of_getElem? hd, hk i x _ hi hd, hv i x _ hi hd⟩

theorem seq_returns {m : Mem} {lo : Int} {rs : List Ref} {ds : List Data}
    (hl : rs.length = ds.length)
    (ih : ∀ (i : Nat) (x : Ref) (d : Data), rs[i]? = some x → ds[i]? = some d →
      Regular d → InWindow lo d → ∃ n0, ∀ n, n0 ≤ n → Returns m lo n x)
    (rd : ∀ d ∈ ds, Regular d) (wd : ∀ d ∈ ds, InWindow lo d) :
    ∃ n0, ∀ n, n0 ≤ n → ∀ x ∈ rs, Returns m lo n x := by
  refine eventually_all rs fun x hx => ?_
  obtain ⟨i, hi⟩ := List.mem_iff_getElem?.mp hx
  have : i < ds.length := by have := (List.getElem?_eq_some_iff.mp hi).1; omega
  have hd := List.getElem?_eq_getElem this
  exact ih i x _ hi hd (rd _ (List.mem_of_getElem? hd)) (wd _ (List.mem_of_getElem? hd))

theorem seqs_ok {m : Mem} {lo : Int} {n : Nat} {rs rs' : List Ref} {ds : List Data}
    (h : ∀ x ∈ rs, Returns m lo n x) (hl : rs'.length = ds.length)
    (hd : ∀ (i : Nat) (x : Ref) (d : Data), rs'[i]? = some x → ds[i]? = some d → Denotes m x d)
    (rd : ∀ d ∈ ds, Regular d) (wd : ∀ d ∈ ds, InWindow lo d) :
    ∃ z, compareSeqs (compareRef m n) rs rs' = .ok z := by
  unfold compareSeqs
  by_cases he : rs.length = rs'.length
  · rw [if_neg (by simp [he])]
    refine compareElements_total _ _ fun a ha b hb => ?_
    obtain ⟨d, md, hd⟩ := element_denotes hl hd hb
    exact h a ha b d hd (rd d md) (wd d md)
  · rw [if_pos he]; exact ⟨_, rfl⟩

/-- comparing two values that denote regular data with integers in a common window returns, if the
model is given enough steps -/
theorem compareRef_returns {m : Mem} {lo : Int} {a : Ref} {da : Data} (h : Denotes m a da) :
    Regular da → InWindow lo da → ∃ n0, ∀ n, n0 ≤ n → Returns m lo n a := by
  induction h with
  | @atom r c d hc hd =>
    intro ra wa
    refine ⟨1, fun n hn b db hb rb wb => ?_⟩
    obtain ⟨k, rfl⟩ : ∃ k, n = k + 1 := ⟨n - 1, by omega⟩
    unfold compareRef
    by_cases hab : r = b
    · rw [if_pos hab]; exact ⟨_, rfl⟩
    · rw [if_neg hab]
      obtain ⟨cb, hcb, tb⟩ := hb.cell
      simp only [Mem.read, hc, hcb, bind, Except.bind]
      have hl := atom_leaf hd
      refine compareObjs_atom hd (ra.leaf hl) wa fun ht => ?_
      have td : c.obj.tag = dataTag d := by
        have := Denotes.atom hc hd
        obtain ⟨c', hc', t⟩ := this.cell
        rw [hc] at hc'; cases hc'; exact t
      have hlb : Leaf db := by unfold Leaf at hl ⊢; omega
      refine ⟨db, hb.atom_inv hcb ?_ ?_ ?_ ?_, rb.leaf hlb, wb⟩
      · rintro _ rfl; exact hlb.1 rfl
      · rintro _ rfl; exact hlb.2.2.1 rfl
      · rintro _ rfl; exact hlb.2.2.2 rfl
      · rintro _ rfl; exact hlb.2.1 rfl
  | @vec r c rs ds hc ho hl hd ih =>
    intro ra wa
    obtain ⟨n0, hn0⟩ := seq_returns hl ih ra.vec_inv.2 wa.vec_inv
    refine ⟨n0 + 1, fun n hn b db hb rb wb => ?_⟩
    obtain ⟨k, rfl⟩ : ∃ k, n = k + 1 := ⟨n - 1, by omega⟩
    unfold compareRef
    by_cases hab : r = b
    · rw [if_pos hab]; exact ⟨_, rfl⟩
    · rw [if_neg hab]
      obtain ⟨cb, hcb, tb⟩ := hb.cell
      simp only [Mem.read, hc, hcb, bind, Except.bind, ho, compareObjs, Obj.number]
      by_cases ht : (Obj.vec rs).tag = cb.obj.tag
      · rw [if_neg (by simp [ht])]
        rw [tb] at ht
        cases db <;> simp [Obj.tag, dataTag] at ht
        obtain ⟨rs', e2, l2, d2⟩ := hb.vec_inv hcb
        rw [e2]
        exact seqs_ok (hn0 k (by omega)) l2 d2 rb.vec_inv.2 wb.vec_inv
      · rw [if_pos ht]; exact ⟨_, rfl⟩
  | @queue r c rs ds mx hc ho hl hd ih =>
    intro ra wa
    obtain ⟨n0, hn0⟩ := seq_returns hl ih ra.queue_inv.2 wa.queue_inv
    refine ⟨n0 + 1, fun n hn b db hb rb wb => ?_⟩
    obtain ⟨k, rfl⟩ : ∃ k, n = k + 1 := ⟨n - 1, by omega⟩
    unfold compareRef
    by_cases hab : r = b
    · rw [if_pos hab]; exact ⟨_, rfl⟩
    · rw [if_neg hab]
      obtain ⟨cb, hcb, tb⟩ := hb.cell
      simp only [Mem.read, hc, hcb, bind, Except.bind, ho, compareObjs, Obj.number]
      by_cases ht : (Obj.queue mx rs).tag = cb.obj.tag
      · rw [if_neg (by simp [ht])]
        rw [tb] at ht
        cases db <;> simp [Obj.tag, dataTag] at ht
        obtain ⟨mx', rs', e2, l2, d2⟩ := hb.queue_inv hcb
        rw [e2]
        exact seqs_ok (hn0 k (by omega)) l2 d2 rb.queue_inv.2 wb.queue_inv
      · rw [if_pos ht]; exact ⟨_, rfl⟩
  | @list r c rs ds hc ho hl hd ih =>
    intro ra wa
    obtain ⟨n0, hn0⟩ := seq_returns hl ih ra.list_inv.2 wa.list_inv
    refine ⟨n0 + 1, fun n hn b db hb rb wb => ?_⟩
    obtain ⟨k, rfl⟩ : ∃ k, n = k + 1 := ⟨n - 1, by omega⟩
    unfold compareRef
    by_cases hab : r = b
    · rw [if_pos hab]; exact ⟨_, rfl⟩
    · rw [if_neg hab]
      obtain ⟨cb, hcb, tb⟩ := hb.cell
      simp only [Mem.read, hc, hcb, bind, Except.bind, ho, compareObjs, Obj.number]
      by_cases ht : (Obj.list rs).tag = cb.obj.tag
      · rw [if_neg (by simp [ht])]
        rw [tb] at ht
        cases db <;> simp [Obj.tag, dataTag] at ht
        obtain ⟨rs', e2, l2, d2⟩ := hb.list_inv hcb
        rw [e2]
        exact seqs_ok (hn0 k (by omega)) l2 d2 rb.list_inv.2 wb.list_inv
      · rw [if_pos ht]; exact ⟨_, rfl⟩
  | @hmap r c nb es ds hc ho hl hk hv ihk ihv =>
    intro ra wa
    obtain ⟨_, _, kd, rd⟩ := ra.hmap_inv
    obtain ⟨wk, wv⟩ := wa.hmap_inv
    have h1 : ∃ n0, ∀ n, n0 ≤ n → ∀ e ∈ es, Returns m lo n e.1 := eventually_all es fun e he => by
      obtain ⟨i, hi⟩ := List.mem_iff_getElem?.mp he
      have : i < ds.length := by have := (List.getElem?_eq_some_iff.mp hi).1; omega
      have hd := List.getElem?_eq_getElem this
      exact ihk i e _ hi hd (.plain (kd _ (List.mem_of_getElem? hd)).plain) (wk _ (List.mem_of_getElem? hd))
    have h2 : ∃ n0, ∀ n, n0 ≤ n → ∀ e ∈ es, Returns m lo n e.2 := eventually_all es fun e he => by
      obtain ⟨i, hi⟩ := List.mem_iff_getElem?.mp he
      have : i < ds.length := by have := (List.getElem?_eq_some_iff.mp hi).1; omega
      have hd := List.getElem?_eq_getElem this
      exact ihv i e _ hi hd (rd _ (List.mem_of_getElem? hd)) (wv _ (List.mem_of_getElem? hd))
    obtain ⟨n1, h1⟩ := h1
    obtain ⟨n2, h2⟩ := h2
    refine ⟨max n1 n2 + 1, fun n hn b db hb rb wb => ?_⟩
    obtain ⟨k, rfl⟩ : ∃ k, n = k + 1 := ⟨n - 1, by omega⟩
    unfold compareRef
    by_cases hab : r = b
    · rw [if_pos hab]; exact ⟨_, rfl⟩
    · rw [if_neg hab]
      obtain ⟨cb, hcb, tb⟩ := hb.cell
      simp only [Mem.read, hc, hcb, bind, Except.bind, ho, compareObjs, Obj.number]
      by_cases ht : (Obj.hmap nb es).tag = cb.obj.tag
      · rw [if_neg (by simp [ht])]
        rw [tb] at ht
        cases db <;> simp [Obj.tag, dataTag] at ht
        obtain ⟨nb2, es', e2, l2, k2, v2⟩ := hb.hmap_inv hcb
        rw [e2]
        obtain ⟨_, _, kd2, rd2⟩ := rb.hmap_inv
        obtain ⟨wk2, wv2⟩ := wb.hmap_inv
        simp only [compareMaps]
        by_cases he : es.length = es'.length
        · rw [if_neg (by simp [he])]
          refine compareEntries_total _ ?_ ?_ ?_ ?_
          · intro e he
            obtain ⟨d, md, d1, d2⟩ := entry_denotes hl hk hv he
            exact ⟨_, hashRef_key d1 (kd d md)⟩
          · intro e he
            obtain ⟨d, md, d1, d2⟩ := entry_denotes l2 k2 v2 he
            exact ⟨_, hashRef_key d1 (kd2 d md)⟩
          · intro a ha b hb
            obtain ⟨d, md, d1, d2⟩ := entry_denotes l2 k2 v2 hb
            exact h1 k (by omega) a ha _ _ d1 (.plain (kd2 d md).plain) (wk2 d md)
          · intro a ha b hb
            obtain ⟨d, md, d1, d2⟩ := entry_denotes l2 k2 v2 hb
            exact h2 k (by omega) a ha _ _ d2 (rd2 d md) (wv2 d md)
        · rw [if_pos he]; exact ⟨_, rfl⟩
      · rw [if_pos ht]; exact ⟨_, rfl⟩

end Dern
