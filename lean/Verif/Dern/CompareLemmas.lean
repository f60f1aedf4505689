import Verif.Dern.DataOrder
/-
octaspire_dern_value_compare on values that denote plain data is `dataCmp`.
-/
namespace Dern
open Spec (Version Dbl Data lexCmp sign)

/-- the type tag of a value denoting the data -/
def dataTag : Data → Nat
  | .nil => 1 | .bool _ => 2 | .int _ => 3 | .real _ => 4 | .str _ => 5 | .chr _ => 6 | .sym _ => 7
  | .err _ _ => 8 | .vec _ => 9 | .hmap _ => 10 | .queue _ => 11 | .list _ => 12
  | .special _ => 16 | .builtin _ => 17 | .port _ => 18 | .semver _ => 20

theorem Denotes.cell {m : Mem} {r d} (h : Denotes m r d) : ∃ c, m r = some c ∧ c.obj.tag = dataTag d := by
  cases h with
  | atom h1 h2 =>
    refine ⟨_, h1, ?_⟩
    generalize Cell.obj _ = o at h2
    cases o <;> simp [atomData] at h2 <;> subst h2 <;> rfl
  | vec h1 h2 _ _ | queue h1 h2 _ _ | list h1 h2 _ _ | hmap h1 h2 _ _ _ =>
    refine ⟨_, h1, ?_⟩; rw [h2]; rfl

theorem Denotes.vec_inv {m : Mem} {r c ds} (h : Denotes m r (.vec ds)) (hc : m r = some c) :
    ∃ rs, c.obj = .vec rs ∧ rs.length = ds.length ∧
      ∀ (i : Nat) (x : Ref) (d : Data), rs[i]? = some x → ds[i]? = some d → Denotes m x d := by
  cases h with
  | atom h1 h2 => generalize Cell.obj _ = o at h2; cases o <;> simp [atomData] at h2
  | vec h1 h2 h3 h4 => rw [hc] at h1; cases h1; exact ⟨_, h2, h3, h4⟩

theorem Denotes.queue_inv {m : Mem} {r c ds} (h : Denotes m r (.queue ds)) (hc : m r = some c) :
    ∃ mx rs, c.obj = .queue mx rs ∧ rs.length = ds.length ∧
      ∀ (i : Nat) (x : Ref) (d : Data), rs[i]? = some x → ds[i]? = some d → Denotes m x d := by
  cases h with
  | atom h1 h2 => generalize Cell.obj _ = o at h2; cases o <;> simp [atomData] at h2
  | queue h1 h2 h3 h4 => rw [hc] at h1; cases h1; exact ⟨_, _, h2, h3, h4⟩

theorem Denotes.list_inv {m : Mem} {r c ds} (h : Denotes m r (.list ds)) (hc : m r = some c) :
    ∃ rs, c.obj = .list rs ∧ rs.length = ds.length ∧
      ∀ (i : Nat) (x : Ref) (d : Data), rs[i]? = some x → ds[i]? = some d → Denotes m x d := by
  cases h with
  | atom h1 h2 => generalize Cell.obj _ = o at h2; cases o <;> simp [atomData] at h2
  | list h1 h2 h3 h4 => rw [hc] at h1; cases h1; exact ⟨_, h2, h3, h4⟩

theorem Denotes.hmap_inv {m : Mem} {r c ds} (h : Denotes m r (.hmap ds)) (hc : m r = some c) :
    ∃ nb es, c.obj = .hmap nb es ∧ es.length = ds.length ∧
      (∀ (i : Nat) (e : Ref × Ref) (d : Data × Data), es[i]? = some e → ds[i]? = some d →
        Denotes m e.1 d.1) ∧
      (∀ (i : Nat) (e : Ref × Ref) (d : Data × Data), es[i]? = some e → ds[i]? = some d →
        Denotes m e.2 d.2) := by
  cases h with
  | atom h1 h2 => generalize Cell.obj _ = o at h2; cases o <;> simp [atomData] at h2
  | hmap h1 h2 h3 h4 h5 => rw [hc] at h1; cases h1; exact ⟨_, _, h2, h3, h4, h5⟩

theorem Denotes.atom_inv {m : Mem} {r c d} (h : Denotes m r d) (hc : m r = some c)
    (hv : ∀ l, d ≠ .vec l) (hq : ∀ l, d ≠ .queue l) (hl : ∀ l, d ≠ .list l) (hm : ∀ l, d ≠ .hmap l) :
    atomData r c.obj = some d := by
  cases h with
  | atom h1 h2 => rw [hc] at h1; cases h1; exact h2
  | vec => exact absurd rfl (hv _)
  | queue => exact absurd rfl (hq _)
  | list => exact absurd rfl (hl _)
  | hmap => exact absurd rfl (hm _)

/-- what the object of an atom is -/
theorem atomData_inv {r : Ref} {o : Obj} {d : Data} (h : atomData r o = some d) :
    match d with
    | .nil => o = .nil
    | .bool b => o = .bool b
    | .int n => o = .int n
    | .real x => o = .real x
    | .str s => o = .str s
    | .chr s => o = .chr s
    | .sym s => o = .sym s
    | .err s k => o = .err s k
    | .special p => p = r ∧ ∃ x, o = .special x
    | .builtin p => p = r ∧ ∃ x, o = .builtin x
    | .port p => p = r ∧ ∃ x, o = .port x
    | .semver v => o = .semver v
    | _ => False := by
  cases o <;> simp [atomData] at h <;> subst h <;> simp

theorem list_ext_of {rs : List α} {as bs : List β} {P : α → β → Prop}
    (l1 : rs.length = as.length) (l2 : rs.length = bs.length)
    (h1 : ∀ (i : Nat) (x : α) (d : β), rs[i]? = some x → as[i]? = some d → ∀ d', P x d' → d = d')
    (h2 : ∀ (i : Nat) (x : α) (d : β), rs[i]? = some x → bs[i]? = some d → P x d) : as = bs := by
  apply List.ext_getElem?
  intro i
  by_cases h : i < rs.length
  · have a := List.getElem?_eq_getElem (l := as) (show i < as.length by omega)
    have b := List.getElem?_eq_getElem (l := bs) (show i < bs.length by omega)
    have r := List.getElem?_eq_getElem (l := rs) h
    rw [a, b, h1 i _ _ r a _ (h2 i _ _ r b)]
  · rw [List.getElem?_eq_none (by omega), List.getElem?_eq_none (by omega)]

/-- a value denotes at most one datum -/
theorem Denotes.unique {m : Mem} {r : Ref} {d : Data} (h : Denotes m r d) :
    ∀ d', Denotes m r d' → d = d' := by
  induction h with
  | atom h1 h2 =>
    intro d' h'
    have ha := h2
    cases h' with
    | atom h1' h2' => rw [h1] at h1'; cases h1'; rw [h2] at h2'; exact Option.some.inj h2'
    | vec h1' h3 _ _ | queue h1' h3 _ _ | list h1' h3 _ _ | hmap h1' h3 _ _ _ =>
      rw [h1] at h1'; cases h1'; rw [h3] at ha; simp [atomData] at ha
  | vec h1 h2 h3 h4 ih =>
    intro d' h'
    cases h' with
    | atom h1' h2' => rw [h1] at h1'; cases h1'; rw [h2] at h2'; simp [atomData] at h2'
    | vec h1' h2' h3' h4' =>
      rw [h1] at h1'; cases h1'; rw [h2] at h2'; cases h2'
      rw [list_ext_of h3 h3' ih h4']
    | queue h1' h2' _ _ | list h1' h2' _ _ | hmap h1' h2' _ _ _ =>
      rw [h1] at h1'; cases h1'; rw [h2] at h2'; cases h2'
  | queue h1 h2 h3 h4 ih =>
    intro d' h'
    cases h' with
    | atom h1' h2' => rw [h1] at h1'; cases h1'; rw [h2] at h2'; simp [atomData] at h2'
    | queue h1' h2' h3' h4' =>
      rw [h1] at h1'; cases h1'; rw [h2] at h2'; cases h2'
      rw [list_ext_of h3 h3' ih h4']
    | vec h1' h2' _ _ | list h1' h2' _ _ | hmap h1' h2' _ _ _ =>
      rw [h1] at h1'; cases h1'; rw [h2] at h2'; cases h2'
  | list h1 h2 h3 h4 ih =>
    intro d' h'
    cases h' with
    | atom h1' h2' => rw [h1] at h1'; cases h1'; rw [h2] at h2'; simp [atomData] at h2'
    | list h1' h2' h3' h4' =>
      rw [h1] at h1'; cases h1'; rw [h2] at h2'; cases h2'
      rw [list_ext_of h3 h3' ih h4']
    | vec h1' h2' _ _ | queue h1' h2' _ _ | hmap h1' h2' _ _ _ =>
      rw [h1] at h1'; cases h1'; rw [h2] at h2'; cases h2'
  | hmap h1 h2 h3 h4 h5 ih1 ih2 =>
    intro d' h'
    cases h' with
    | atom h1' h2' => rw [h1] at h1'; cases h1'; rw [h2] at h2'; simp [atomData] at h2'
    | hmap h1' h2' h3' h4' h5' =>
      rw [h1] at h1'; cases h1'; rw [h2] at h2'; cases h2'
      congr 1
      refine list_ext_of (P := fun e d => Denotes m e.1 d.1 ∧ Denotes m e.2 d.2) h3 h3' ?_ ?_
      · intro i x d hx hd d' ⟨p, q⟩
        exact Prod.ext (ih1 i x d hx hd _ p) (ih2 i x d hx hd _ q)
      · exact fun i x d hx hd => ⟨h4' i x d hx hd, h5' i x d hx hd⟩
    | vec h1' h2' _ _ | queue h1' h2' _ _ | list h1' h2' _ _ =>
      rw [h1] at h1'; cases h1'; rw [h2] at h2'; cases h2'

/-! ### signs -/

theorem sign_sign (o : Ordering) : Int.sign (sign o) = sign o := by cases o <;> rfl

theorem sign_then (x y : Ordering) : sign (x.then y) = if sign x ≠ 0 then sign x else sign y := by
  cases x <;> simp [sign]

theorem sign_intDiff {a b : Nat} (ha : a < 2 ^ 31) (hb : b < 2 ^ 31) :
    Int.sign (Semver.intDiff a b) = sign (intCmp a b) := by
  rw [Props.c21_intDiff_aux ha hb]
  unfold intCmp
  by_cases h1 : (a : Int) < b
  · rw [if_pos h1]; exact Int.sign_eq_neg_one_of_neg (by omega)
  · by_cases h2 : (b : Int) < a
    · rw [if_neg h1, if_pos h2]; exact Int.sign_eq_one_of_pos (by omega)
    · rw [if_neg h1, if_neg h2, show (a : Int) - b = 0 by omega]; rfl

theorem sign_sub (a b : Int) : Int.sign (a - b) = sign (intCmp a b) := by
  unfold intCmp
  by_cases h1 : a < b
  · rw [if_pos h1]; exact Int.sign_eq_neg_one_of_neg (by omega)
  · by_cases h2 : b < a
    · rw [if_neg h1, if_pos h2]; exact Int.sign_eq_one_of_pos (by omega)
    · rw [if_neg h1, if_neg h2, show a - b = 0 by omega]; rfl

theorem sign_eq_zero {z : Int} {o : Ordering} (h : Int.sign z = sign o) : z = 0 ↔ o = .eq := by
  cases o <;> simp [sign] at h ⊢
  · omega
  · exact h
  · omega

theorem sign_neg {z : Int} {o : Ordering} (h : Int.sign z = sign o) : z < 0 ↔ o = .lt := by
  cases o <;> simp [sign] at h ⊢
  · omega
  · omega
  · omega

theorem sign_pos {z : Int} {o : Ordering} (h : Int.sign z = sign o) : 0 < z ↔ o = .gt := by
  cases o <;> simp [sign] at h ⊢
  · omega
  · omega
  · omega

/-! ### the comparison itself -/

theorem compareElements_sign {rec : Ref → Ref → Res Int} {m : Mem}
    (ih : ∀ a b da db z, Denotes m a da → Denotes m b db → Plain da → Plain db → rec a b = .ok z →
      Int.sign z = sign (dataCmp da db)) :
    ∀ (as bs : List Ref) (das dbs : List Data) (z : Int), as.length = das.length →
      bs.length = dbs.length →
      (∀ (i : Nat) (x : Ref) (d : Data), as[i]? = some x → das[i]? = some d → Denotes m x d) →
      (∀ (i : Nat) (x : Ref) (d : Data), bs[i]? = some x → dbs[i]? = some d → Denotes m x d) →
      (∀ d ∈ das, Plain d) → (∀ d ∈ dbs, Plain d) → as.length = bs.length →
      compareElements rec as bs = .ok z → Int.sign z = sign (dataCmps das dbs) := by
  intro as
  induction as with
  | nil =>
    intro bs das dbs z la lb _ _ _ _ l h
    obtain rfl : das = [] := List.length_eq_zero_iff.mp (by simpa using la.symm)
    simp only [compareElements, Except.ok.injEq] at h
    subst h
    simp [dataCmps, sign]
  | cons a as iha =>
    intro bs das dbs z la lb ha hb pa pb l h
    cases bs with
    | nil => simp at l
    | cons b bs =>
      cases das with
      | nil => simp at la
      | cons da das =>
        cases dbs with
        | nil => simp at lb
        | cons db dbs =>
          simp only [compareElements] at h
          cases hr : rec a b with
          | error e => rw [hr] at h; cases h
          | ok c =>
            rw [hr] at h
            simp only [bind, Except.bind] at h
            have hc := ih a b da db c (ha 0 a da rfl rfl) (hb 0 b db rfl rfl)
              (pa da (by simp)) (pb db (by simp)) hr
            simp only [dataCmps, sign_then]
            by_cases hz : c = 0
            · rw [if_neg (by simp [hz])] at h
              have e := (sign_eq_zero hc).mp hz
              rw [e, if_neg (by simp [sign])]
              simp only [List.length_cons, Nat.add_right_cancel_iff] at la lb l
              exact iha bs das dbs z la lb (fun i => ha (i + 1)) (fun i => hb (i + 1))
                (fun d hd => pa d (by simp [hd])) (fun d hd => pb d (by simp [hd])) l h
            · rw [if_pos hz] at h
              cases h
              rw [← hc, if_pos]
              rw [Ne, Int.sign_eq_zero_iff_zero]; exact hz

theorem compareSeqs_sign {rec : Ref → Ref → Res Int} {m : Mem}
    (ih : ∀ a b da db z, Denotes m a da → Denotes m b db → Plain da → Plain db → rec a b = .ok z →
      Int.sign z = sign (dataCmp da db))
    {as bs : List Ref} {das dbs : List Data} {z : Int} (la : as.length = das.length)
    (lb : bs.length = dbs.length)
    (ha : ∀ (i : Nat) (x : Ref) (d : Data), as[i]? = some x → das[i]? = some d → Denotes m x d)
    (hb : ∀ (i : Nat) (x : Ref) (d : Data), bs[i]? = some x → dbs[i]? = some d → Denotes m x d)
    (pa : ∀ d ∈ das, Plain d) (pb : ∀ d ∈ dbs, Plain d) (na : das.length < 2 ^ 31)
    (nb : dbs.length < 2 ^ 31) (h : compareSeqs rec as bs = .ok z) :
    Int.sign z = sign ((intCmp das.length dbs.length).then (dataCmps das dbs)) := by
  unfold compareSeqs at h
  rw [sign_then]
  by_cases hl : as.length = bs.length
  · rw [if_neg (by simp [hl])] at h
    rw [show intCmp (das.length : Int) dbs.length = .eq from intCmp_eq.mpr (by omega),
      if_neg (by simp [sign])]
    exact compareElements_sign ih as bs das dbs z la lb ha hb pa pb hl h
  · rw [if_pos hl] at h
    cases h
    rw [la, lb, sign_intDiff na nb, if_pos]
    have : intCmp (das.length : Int) dbs.length ≠ .eq := fun e => by
      rw [intCmp_eq] at e; omega
    cases h : intCmp (das.length : Int) dbs.length <;> simp_all [sign]

theorem number_of_tag {o : Obj} {p} (h : o.number = some p) : o.tag = 3 ∨ o.tag = 4 := by
  cases o <;> simp [Obj.number] at h <;> simp [Obj.tag]

theorem plain_number {d : Data} (h : Plain d) (ht : dataTag d = 3 ∨ dataTag d = 4) :
    ∃ x, d.number = some x := by
  cases h <;> simp [dataTag] at ht
  · exact ⟨_, rfl⟩
  · rename_i d hd
    simp [Data.number, Dbl.value, hd]

theorem compareNumbers_sign {p q : Int ⊕ Dbl} {x y z : Int} (hp : numberValue p = some x)
    (hq : numberValue q = some y) (h : compareNumbers p q = .ok z) :
    Int.sign z = sign (intCmp x y) := by
  have dbl : Int.sign (compareDoubles p q) = sign (intCmp x y) := by
    unfold compareDoubles intCmp
    rw [hp, hq]
    simp only
    by_cases h1 : x < y
    · simp [h1, sign]
    · by_cases h2 : y < x
      · simp [h1, h2, sign]
      · simp [h1, h2, sign]
  match p, q with
  | .inl a, .inl b =>
    simp only [compareNumbers, subInt32] at h
    split at h
    · cases h
      simp only [numberValue, Option.some.injEq] at hp hq
      subst hp hq
      rw [sign_sub]
      congr 1
      unfold intCmp
      simp only [Dbl.ofInt_lt]
    · cases h
  | .inl a, .inr b => simp only [compareNumbers, Except.ok.injEq] at h; subst h; exact dbl
  | .inr a, .inl b => simp only [compareNumbers, Except.ok.injEq] at h; subst h; exact dbl
  | .inr a, .inr b => simp only [compareNumbers, Except.ok.injEq] at h; subst h; exact dbl

/-- a value of a number's tag holds that number -/
theorem Denotes.number {m : Mem} {r c d} (h : Denotes m r d) (hc : m r = some c)
    (ht : dataTag d = 3 ∨ dataTag d = 4) :
    ∃ p, c.obj.number = some p ∧ numberValue p = d.number := by
  cases d <;> simp [dataTag] at ht
  · have := atomData_inv (h.atom_inv hc (by simp) (by simp) (by simp) (by simp))
    simp only at this
    rw [this]; exact ⟨_, rfl, rfl⟩
  · have := atomData_inv (h.atom_inv hc (by simp) (by simp) (by simp) (by simp))
    simp only at this
    rw [this]; exact ⟨_, rfl, rfl⟩

theorem Obj.number_none {o : Obj} (h : ¬ (o.tag = 3 ∨ o.tag = 4)) : o.number = none := by
  cases ho : o.number with
  | none => rfl
  | some p => exact absurd (number_of_tag ho) h

theorem orAbort_ok {o : Option α} {a : α} (h : orAbort o = .ok a) : o = some a := by
  cases o <;> simp [orAbort] at h
  rw [h]

theorem compareString_sign {s t : Text} (hs : Printable s) (ht : Printable t) {z : Int}
    (h : orAbort (stringCompare s t) = .ok z) : Int.sign z = sign (lexCmp s t) := by
  have h := orAbort_ok h
  rw [stringCompare_eq s t hs ht] at h
  cases h
  exact sign_sign _

theorem comparePointers_sign (a b : Ref) : Int.sign (comparePointers a b) = sign (intCmp a b) := by
  unfold comparePointers intCmp
  by_cases h1 : a < b
  · have : (a : Int) < (b : Int) := Int.ofNat_lt.mpr h1
    simp [h1, this, sign]
  · have h1' : ¬ (a : Int) < (b : Int) := fun h => h1 (Int.ofNat_lt.mp h)
    by_cases h2 : b < a
    · have : (b : Int) < (a : Int) := Int.ofNat_lt.mpr h2
      simp [h1, h1', h2, this, sign]
    · have h2' : ¬ (b : Int) < (a : Int) := fun h => h2 (Int.ofNat_lt.mp h)
      simp [h1, h1', h2, h2', sign]

theorem kind_tag (d : Data) : (kind d : Int) = if dataTag d = 4 then 3 else dataTag d := by
  cases d <;> rfl

/-- if the program's comparison of two values that denote plain data returns, then the sign of the
result is the order of the data -/
theorem compareRef_sign (m : Mem) : ∀ (n : Nat) (a b : Ref) (da db : Data) (z : Int),
    Denotes m a da → Denotes m b db → Plain da → Plain db → compareRef m n a b = .ok z →
    Int.sign z = sign (dataCmp da db) := by
  intro n
  induction n with
  | zero => intro a b da db z _ _ _ _ h; cases h
  | succ n ih =>
    intro a b da db z ha hb pa pb h
    simp only [compareRef] at h
    by_cases hab : a = b
    · subst hab
      rw [if_pos rfl] at h
      cases h
      rw [ha.unique db hb, dataCmp_refl]; rfl
    · rw [if_neg hab] at h
      obtain ⟨ca, hca, ta⟩ := ha.cell
      obtain ⟨cb, hcb, tb⟩ := hb.cell
      simp only [Mem.read, hca, hcb, bind, Except.bind] at h
      rw [dataCmp_eq]
      unfold compareObjs at h
      by_cases na : dataTag da = 3 ∨ dataTag da = 4
      · by_cases nb : dataTag db = 3 ∨ dataTag db = 4
        · obtain ⟨p, hp, vp⟩ := ha.number hca na
          obtain ⟨q, hq, vq⟩ := hb.number hcb nb
          obtain ⟨x, hx⟩ := plain_number pa na
          obtain ⟨y, hy⟩ := plain_number pb nb
          rw [hp, hq] at h
          simp only at h
          rw [compareNumbers_sign (vp.trans hx) (vq.trans hy) h]
          have ek : intCmp (kind da) (kind db) = .eq := by
            rw [intCmp_eq, kind_tag, kind_tag]
            rcases na with e | e <;> rcases nb with e' | e' <;> simp [e, e']
          have ee : elems da = [] := by cases da <;> simp [dataTag] at na <;> rfl
          rw [ee, dataCmps_nil, top, ek]
          have ew : within da db = intCmp x y := by
            cases da <;> simp [dataTag] at na <;> cases db <;> simp [dataTag] at nb <;>
              simp only [within, hx, hy, Option.getD_some]
          rw [ew]
          simp
        · obtain ⟨p, hp, vp⟩ := ha.number hca na
          rw [hp, Obj.number_none (show ¬ (cb.obj.tag = 3 ∨ cb.obj.tag = 4) by rw [tb]; exact nb)] at h
          simp only at h
          have ht : ca.obj.tag ≠ cb.obj.tag := by rw [ta, tb]; omega
          rw [if_pos ht] at h
          cases h
          rw [sign_sub, ta, tb]
          have : intCmp (dataTag da) (dataTag db) = intCmp (kind da) (kind db) := by
            rw [kind_tag, kind_tag]
            have : dataTag db ≠ 4 := by omega
            rw [if_neg this]
            rcases na with e | e
            · rw [e]; simp
            · rw [e]; simp only [if_true]; unfold intCmp
              by_cases hlt : dataTag db < 3
              · rw [if_neg (by omega), if_pos (by omega), if_neg (by omega), if_pos (by omega)]
              · rw [if_pos (by omega), if_pos (by omega)]
          have hne : intCmp (kind da) (kind db) ≠ .eq := by
            rw [← this, Ne, intCmp_eq]; omega
          rw [this, sign_then, top, sign_then]
          cases hk : intCmp (kind da) (kind db) <;> simp [sign, hk] at hne ⊢
      · have hn := Obj.number_none (show ¬ (ca.obj.tag = 3 ∨ ca.obj.tag = 4) by rw [ta]; exact na)
        rw [hn] at h
        simp only at h
        by_cases ht : dataTag da = dataTag db
        · rw [if_neg (by rw [ta, tb]; simp [ht])] at h
          have ek : intCmp (kind da) (kind db) = .eq := by
            rw [intCmp_eq, kind_tag, kind_tag, ht]
          rw [top, ek, Ordering.eq_then]
          cases da <;> cases db <;> simp [dataTag] at ht na
          case nil.nil =>
            have ea := atomData_inv (ha.atom_inv hca (by simp) (by simp) (by simp) (by simp))
            simp only at ea
            rw [ea] at h; cases h; rfl
          case bool.bool p q =>
            have ea := atomData_inv (ha.atom_inv hca (by simp) (by simp) (by simp) (by simp))
            have eb := atomData_inv (hb.atom_inv hcb (by simp) (by simp) (by simp) (by simp))
            simp only at ea eb
            rw [ea, eb] at h; cases h
            simp only [elems, dataCmps_nil, Ordering.then_eq, within]
            exact sign_sub _ _
          case str.str p q =>
            have ea := atomData_inv (ha.atom_inv hca (by simp) (by simp) (by simp) (by simp))
            have eb := atomData_inv (hb.atom_inv hcb (by simp) (by simp) (by simp) (by simp))
            simp only at ea eb
            rw [ea, eb] at h
            cases pa; cases pb
            simp only [elems, dataCmps_nil, Ordering.then_eq, within]
            exact compareString_sign ‹_› ‹_› h
          case chr.chr p q =>
            have ea := atomData_inv (ha.atom_inv hca (by simp) (by simp) (by simp) (by simp))
            have eb := atomData_inv (hb.atom_inv hcb (by simp) (by simp) (by simp) (by simp))
            simp only at ea eb
            rw [ea, eb] at h
            cases pa; cases pb
            simp only [elems, dataCmps_nil, Ordering.then_eq, within]
            exact compareString_sign ‹_› ‹_› h
          case sym.sym p q =>
            have ea := atomData_inv (ha.atom_inv hca (by simp) (by simp) (by simp) (by simp))
            have eb := atomData_inv (hb.atom_inv hcb (by simp) (by simp) (by simp) (by simp))
            simp only at ea eb
            rw [ea, eb] at h
            cases pa; cases pb
            simp only [elems, dataCmps_nil, Ordering.then_eq, within]
            exact compareString_sign ‹_› ‹_› h
          case err.err s k t l =>
            have ea := atomData_inv (ha.atom_inv hca (by simp) (by simp) (by simp) (by simp))
            have eb := atomData_inv (hb.atom_inv hcb (by simp) (by simp) (by simp) (by simp))
            simp only at ea eb
            rw [ea, eb] at h
            cases pa with | err ps pk => cases pb with | err pt pl =>
            simp only [elems, dataCmps_nil, Ordering.then_eq, within, sign_then]
            simp only [bind, Except.bind] at h
            cases hs : orAbort (stringCompare s t) with
            | error e => rw [hs] at h; cases h
            | ok c =>
              rw [hs] at h
              simp only at h
              have hc := compareString_sign ps pt hs
              by_cases hz : c = 0
              · rw [if_neg (by simp [hz])] at h
                cases h
                rw [(sign_eq_zero hc).mp hz, if_neg (by simp [sign])]
                exact sign_intDiff pk pl
              · rw [if_pos hz] at h
                cases h
                rw [← hc, if_pos]
                rw [Ne, Int.sign_eq_zero_iff_zero]; exact hz
          case vec.vec p q =>
            obtain ⟨rs, e1, l1, d1⟩ := ha.vec_inv hca
            obtain ⟨rs', e2, l2, d2⟩ := hb.vec_inv hcb
            rw [e1, e2] at h
            cases pa with | vec n1 p1 => cases pb with | vec n2 p2 =>
            exact compareSeqs_sign ih l1 l2 d1 d2 p1 p2 n1 n2 h
          case queue.queue p q =>
            obtain ⟨mx, rs, e1, l1, d1⟩ := ha.queue_inv hca
            obtain ⟨mx', rs', e2, l2, d2⟩ := hb.queue_inv hcb
            rw [e1, e2] at h
            cases pa with | queue n1 p1 => cases pb with | queue n2 p2 =>
            exact compareSeqs_sign ih l1 l2 d1 d2 p1 p2 n1 n2 h
          case list.list p q =>
            obtain ⟨rs, e1, l1, d1⟩ := ha.list_inv hca
            obtain ⟨rs', e2, l2, d2⟩ := hb.list_inv hcb
            rw [e1, e2] at h
            cases pa with | list n1 p1 => cases pb with | list n2 p2 =>
            exact compareSeqs_sign ih l1 l2 d1 d2 p1 p2 n1 n2 h
          case hmap.hmap => cases pa
          case special.special p q =>
            have ea := atomData_inv (ha.atom_inv hca (by simp) (by simp) (by simp) (by simp))
            have eb := atomData_inv (hb.atom_inv hcb (by simp) (by simp) (by simp) (by simp))
            obtain ⟨rfl, _, ea⟩ := ea
            obtain ⟨rfl, _, eb⟩ := eb
            rw [ea, eb] at h; cases h
            simp only [elems, dataCmps_nil, Ordering.then_eq, within]
            exact comparePointers_sign _ _
          case builtin.builtin p q =>
            have ea := atomData_inv (ha.atom_inv hca (by simp) (by simp) (by simp) (by simp))
            have eb := atomData_inv (hb.atom_inv hcb (by simp) (by simp) (by simp) (by simp))
            obtain ⟨rfl, _, ea⟩ := ea
            obtain ⟨rfl, _, eb⟩ := eb
            rw [ea, eb] at h; cases h
            simp only [elems, dataCmps_nil, Ordering.then_eq, within]
            exact comparePointers_sign _ _
          case port.port p q =>
            have ea := atomData_inv (ha.atom_inv hca (by simp) (by simp) (by simp) (by simp))
            have eb := atomData_inv (hb.atom_inv hcb (by simp) (by simp) (by simp) (by simp))
            obtain ⟨rfl, _, ea⟩ := ea
            obtain ⟨rfl, _, eb⟩ := eb
            rw [ea, eb] at h; cases h
            simp only [elems, dataCmps_nil, Ordering.then_eq, within]
            exact comparePointers_sign _ _
          case semver.semver v w =>
            have ea := atomData_inv (ha.atom_inv hca (by simp) (by simp) (by simp) (by simp))
            have eb := atomData_inv (hb.atom_inv hcb (by simp) (by simp) (by simp) (by simp))
            simp only at ea eb
            rw [ea, eb] at h
            cases pa with | semver mv => cases pb with | semver mw =>
            simp only [elems, dataCmps_nil, Ordering.then_eq, within]
            have h := orAbort_ok h
            rw [Props.c21_compare_aux mv mw] at h
            cases h
            exact sign_sign _
        · rw [if_pos (by rw [ta, tb]; exact ht)] at h
          cases h
          rw [sign_sub, ta, tb]
          have : intCmp (dataTag da) (dataTag db) = intCmp (kind da) (kind db) := by
            rw [kind_tag, kind_tag]
            have : dataTag da ≠ 4 := by omega
            rw [if_neg this]
            by_cases e : dataTag db = 4
            · rw [e]; simp only [if_true]; unfold intCmp
              by_cases hlt : dataTag da < 3
              · rw [if_pos (by omega), if_pos (by omega)]
              · rw [if_neg (by omega), if_pos (by omega), if_neg (by omega), if_pos (by omega)]
            · rw [if_neg e]
          have hne : intCmp (kind da) (kind db) ≠ .eq := by
            rw [← this, Ne, intCmp_eq]; omega
          rw [this, sign_then, top, sign_then]
          cases hk : intCmp (kind da) (kind db) <;> simp [sign, hk] at hne ⊢

end Dern
