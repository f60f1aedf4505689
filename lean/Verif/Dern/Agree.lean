import Verif.Dern.Value
/-
Comparison and hashing only look at what is reachable from their arguments.
-/
namespace Dern

theorem compareElements_congr {r1 r2 : Ref → Ref → Res Int} : ∀ (as bs : List Ref),
    (∀ a ∈ as, ∀ b ∈ bs, r1 a b = r2 a b) → compareElements r1 as bs = compareElements r2 as bs := by
  intro as
  induction as with
  | nil => intro bs _; simp [compareElements]
  | cons a as ih =>
    intro bs h
    cases bs with
    | nil => simp [compareElements]
    | cons b bs =>
      simp only [compareElements]
      rw [h a (by simp) b (by simp), ih bs fun x hx y hy => h x (by simp [hx]) y (by simp [hy])]

theorem compareSeqs_congr {r1 r2 : Ref → Ref → Res Int} {as bs : List Ref}
    (h : ∀ a ∈ as, ∀ b ∈ bs, r1 a b = r2 a b) : compareSeqs r1 as bs = compareSeqs r2 as bs := by
  unfold compareSeqs; rw [compareElements_congr as bs h]

theorem findEntry_congr {r1 r2 : Ref → Ref → Res Int} {h1 h2 : Ref → Res (BitVec 32)} {nb : Nat} {k : Ref}
    (hk : h1 k = h2 k) : ∀ (es : List (Ref × Ref)), (∀ e ∈ es, r1 k e.1 = r2 k e.1 ∧ h1 e.1 = h2 e.1) →
    findEntry r1 h1 nb k es = findEntry r2 h2 nb k es := by
  intro es
  induction es with
  | nil => intro _; rfl
  | cons e es ih =>
    intro h
    obtain ⟨k', v'⟩ := e
    obtain ⟨e1, e2⟩ := h (k', v') (by simp)
    simp only at e1 e2
    simp only [findEntry]
    rw [hk, e1, e2, ih fun e he => h e (by simp [he])]

theorem findEntry_mem {rec : Ref → Ref → Res Int} {hash : Ref → Res (BitVec 32)} {nb : Nat} {k v : Ref} :
    ∀ (es : List (Ref × Ref)), findEntry rec hash nb k es = .ok (some v) → ∃ e ∈ es, e.2 = v := by
  intro es
  induction es with
  | nil => intro h; cases h
  | cons e es ih =>
    intro h
    obtain ⟨k', v'⟩ := e
    simp only [findEntry, bind, Except.bind] at h
    have tail : findEntry rec hash nb k es = .ok (some v) → ∃ e ∈ (k', v') :: es, e.2 = v := by
      intro h
      obtain ⟨e, he, h⟩ := ih h
      exact ⟨e, by simp [he], h⟩
    split at h
    · cases h
    · split at h
      · cases h
      · split at h
        · split at h
          · cases h
          · split at h
            · cases h; exact ⟨_, List.mem_cons_self .., rfl⟩
            · exact tail h
        · exact tail h

theorem compareEntries_congr {r1 r2 : Ref → Ref → Res Int} {h1 h2 : Ref → Res (BitVec 32)} {nb : Nat}
    {bs : List (Ref × Ref)} : ∀ (as : List (Ref × Ref)),
    (∀ a ∈ as, h1 a.1 = h2 a.1) → (∀ b ∈ bs, h1 b.1 = h2 b.1) →
    (∀ a ∈ as, ∀ b ∈ bs, r1 a.1 b.1 = r2 a.1 b.1 ∧ r1 a.2 b.2 = r2 a.2 b.2) →
    compareEntries r1 h1 nb bs as = compareEntries r2 h2 nb bs as := by
  intro as
  induction as with
  | nil => intro _ _ _; rfl
  | cons a as ih =>
    intro ha hb h
    obtain ⟨k, v⟩ := a
    simp only [compareEntries]
    rw [findEntry_congr (ha (k, v) (by simp)) bs
      (fun e he => ⟨(h (k, v) (by simp) e he).1, hb e he⟩)]
    cases hf : findEntry r2 h2 nb k bs with
    | error e => rfl
    | ok o =>
      cases o with
      | none => rfl
      | some v' =>
        obtain ⟨e, he, rfl⟩ := findEntry_mem bs hf
        simp only [bind, Except.bind]
        rw [(h (k, v) (by simp) e he).2, ih (fun a ha' => ha a (by simp [ha'])) hb
          (fun a ha' => h a (by simp [ha']))]

theorem compareMaps_congr {r1 r2 : Ref → Ref → Res Int} {h1 h2 : Ref → Res (BitVec 32)} {nb : Nat}
    {as bs : List (Ref × Ref)}
    (ha : ∀ a ∈ as, h1 a.1 = h2 a.1) (hb : ∀ b ∈ bs, h1 b.1 = h2 b.1)
    (h : ∀ a ∈ as, ∀ b ∈ bs, r1 a.1 b.1 = r2 a.1 b.1 ∧ r1 a.2 b.2 = r2 a.2 b.2) :
    compareMaps r1 h1 nb as bs = compareMaps r2 h2 nb as bs := by
  unfold compareMaps; rw [compareEntries_congr as ha hb h]

/-- comparison looks only at the two values and what they refer to -/
theorem compareObjs_congr {r1 r2 : Ref → Ref → Res Int} {h1 h2 : Ref → Res (BitVec 32)} {a b : Ref}
    {x y : Obj} (hr : ∀ p ∈ x.children, ∀ q ∈ y.children, r1 p q = r2 p q)
    (hx : ∀ p ∈ x.children, h1 p = h2 p) (hy : ∀ p ∈ y.children, h1 p = h2 p) :
    compareObjs r1 h1 a b x y = compareObjs r2 h2 a b x y := by
  unfold compareObjs
  split
  · rfl
  · by_cases ht : x.tag = y.tag
    · rw [if_neg (by simp [ht]), if_neg (by simp [ht])]
      split <;> try rfl
      · exact compareSeqs_congr hr
      · exact compareSeqs_congr hr
      · exact compareSeqs_congr hr
      · rename_i as bs _ _ _
        have mk : ∀ (nb : Nat) (es : List (Ref × Ref)) (e : Ref × Ref), e ∈ es →
            e.1 ∈ (Obj.hmap nb es).children ∧ e.2 ∈ (Obj.hmap nb es).children := by
          intro nb es e he
          exact ⟨List.mem_flatMap.mpr ⟨e, he, by simp⟩, List.mem_flatMap.mpr ⟨e, he, by simp⟩⟩
        refine compareMaps_congr (fun e he => hx _ (mk _ _ e he).1) (fun e he => hy _ (mk _ _ e he).1) ?_
        intro p hp q hq
        exact ⟨hr _ (mk _ _ p hp).1 _ (mk _ _ q hq).1, hr _ (mk _ _ p hp).2 _ (mk _ _ q hq).2⟩
      · rename_i as e bs f _ _
        have mk : ∀ (bs : List Binding) (en : Option Ref) (e : Ref × Ref),
            e ∈ bs.map (fun b => (b.key, b.val)) →
            e.1 ∈ (Obj.env bs en).children ∧ e.2 ∈ (Obj.env bs en).children := by
          intro bs en e he
          obtain ⟨b, hb, rfl⟩ := List.mem_map.mp he
          exact ⟨List.mem_append_left _ (List.mem_flatMap.mpr ⟨b, hb, by simp⟩),
            List.mem_append_left _ (List.mem_flatMap.mpr ⟨b, hb, by simp⟩)⟩
        refine compareMaps_congr (fun e he => hx _ (mk _ _ e he).1) (fun e he => hy _ (mk _ _ e he).1) ?_
        intro p hp q hq
        exact ⟨hr _ (mk _ _ p hp).1 _ (mk _ _ q hq).1, hr _ (mk _ _ p hp).2 _ (mk _ _ q hq).2⟩
      · unfold compareFns
        rw [hr _ (by simp [Obj.children]) _ (by simp [Obj.children]),
          hr _ (by simp [Obj.children]) _ (by simp [Obj.children]),
          hr _ (by simp [Obj.children]) _ (by simp [Obj.children])]
      · unfold compareFns
        rw [hr _ (by simp [Obj.children]) _ (by simp [Obj.children]),
          hr _ (by simp [Obj.children]) _ (by simp [Obj.children]),
          hr _ (by simp [Obj.children]) _ (by simp [Obj.children])]
    · rw [if_pos ht, if_pos ht]

/-- two memories that agree on a set closed under references -/
theorem compareRef_agree {m m' : Mem} {P : Ref → Prop} (heq : ∀ r, P r → m r = m' r)
    (hcl : ∀ r c, P r → m r = some c → ∀ y ∈ c.obj.children, P y) :
    ∀ (n : Nat) (a b : Ref), P a → P b → compareRef m n a b = compareRef m' n a b := by
  have hash : ∀ r, P r → hashRef m r = hashRef m' r := by
    intro r hr; unfold hashRef Mem.read; rw [heq r hr]
  intro n
  induction n with
  | zero => intro a b _ _; rfl
  | succ n ih =>
    intro a b pa pb
    unfold compareRef
    by_cases hab : a = b
    · rw [if_pos hab, if_pos hab]
    · rw [if_neg hab, if_neg hab]
      unfold Mem.read
      rw [← heq a pa, ← heq b pb]
      cases ha : m a with
      | none => rfl
      | some ca =>
        cases hb : m b with
        | none => rfl
        | some cb =>
          simp only [bind, Except.bind]
          exact compareObjs_congr
            (fun p hp q hq => ih p q (hcl a ca pa ha p hp) (hcl b cb pb hb q hq))
            (fun p hp => hash p (hcl a ca pa ha p hp)) (fun p hp => hash p (hcl b cb pb hb p hp))

end Dern
