import Verif.Dern.Data
/-
The order that comparison realises on plain data, as a function on data, and its laws.
-/
namespace Dern
open Spec (Version Dbl Data lexCmp sign)

def intCmp (x y : Int) : Ordering := if x < y then .lt else if y < x then .gt else .eq

theorem intCmp_refl (x : Int) : intCmp x x = .eq := by simp [intCmp]
theorem intCmp_swap (x y : Int) : intCmp y x = (intCmp x y).swap := by
  unfold intCmp
  by_cases h1 : x < y
  · have : ¬ y < x := by omega
    simp [h1, this]
  · by_cases h2 : y < x <;> simp [h1, h2]
theorem intCmp_ne_gt {x y : Int} : intCmp x y ≠ .gt ↔ x ≤ y := by
  unfold intCmp
  by_cases h1 : x < y
  · simp [h1]; omega
  · by_cases h2 : y < x
    · simp [h1, h2]
    · simp [h1, h2]; omega
theorem intCmp_eq {x y : Int} : intCmp x y = .eq ↔ x = y := by
  unfold intCmp
  by_cases h1 : x < y
  · simp [h1]; omega
  · by_cases h2 : y < x
    · simp [h1, h2]; omega
    · simp [h1, h2]; omega
theorem intCmp_trans {x y z : Int} (h1 : intCmp x y ≠ .gt) (h2 : intCmp y z ≠ .gt) :
    intCmp x z ≠ .gt := by
  rw [intCmp_ne_gt] at *; omega

theorem lexCmp_le_trans {a b c : List Nat} (h1 : lexCmp a b ≠ .gt) (h2 : lexCmp b c ≠ .gt) :
    lexCmp a c ≠ .gt := by
  cases h : lexCmp a b with
  | gt => exact absurd h h1
  | eq => rw [Spec.lexCmp_eq a b h]; exact h2
  | lt => cases h' : lexCmp b c with
    | gt => exact absurd h' h2
    | eq => rw [← Spec.lexCmp_eq b c h', h]; nofun
    | lt => rw [Spec.lexCmp_trans a b c h h']; nofun

theorem verCmp_le_trans {u v w : Version} (h1 : Props.c21_cmp u v ≠ .gt)
    (h2 : Props.c21_cmp v w ≠ .gt) : Props.c21_cmp u w ≠ .gt := by
  have same : ∀ {a b c d : Version}, a.Same b → c.Same d → Props.c21_cmp a c = Props.c21_cmp b d := by
    intro a b c d ⟨a1, a2, a3, a4⟩ ⟨b1, b2, b3, b4⟩
    unfold Props.c21_cmp; rw [a1, a2, a3, a4, b1, b2, b3, b4]
  cases h12 : Props.c21_cmp u v with
  | gt => exact absurd h12 h1
  | eq => rw [same ((Props.c21_cmp_eq_aux _ _).mp h12) ⟨rfl, rfl, rfl, rfl⟩]; exact h2
  | lt =>
    cases h23 : Props.c21_cmp v w with
    | gt => exact absurd h23 h2
    | eq =>
      rw [← same ⟨rfl, rfl, rfl, rfl⟩ ((Props.c21_cmp_eq_aux _ _).mp h23), h12]; nofun
    | lt =>
      rw [(Props.c21_precedes_aux u w).mpr (Props.c21_precedes_trans_aux
        ((Props.c21_precedes_aux _ _).mp h12) ((Props.c21_precedes_aux _ _).mp h23))]; nofun

theorem then_trans {x1 x2 x3 y1 y2 y3 : Ordering}
    (h1 : x1.then y1 ≠ .gt) (h2 : x2.then y2 ≠ .gt)
    (hx : x1 ≠ .gt → x2 ≠ .gt → x3 ≠ .gt)
    (he : x3 = .eq → x1 ≠ .gt → x2 ≠ .gt → x1 = .eq ∧ x2 = .eq)
    (hy : x1 = .eq → x2 = .eq → y1 ≠ .gt → y2 ≠ .gt → y3 ≠ .gt) : x3.then y3 ≠ .gt := by
  cases x3 <;> cases x1 <;> cases x2 <;> simp_all

/-- the kinds in their order; integers and reals are one kind -/
def kind : Data → Nat
  | .nil => 1 | .bool _ => 2 | .int _ => 3 | .real _ => 3 | .str _ => 5 | .chr _ => 6 | .sym _ => 7
  | .err _ _ => 8 | .vec _ => 9 | .hmap _ => 10 | .queue _ => 11 | .list _ => 12
  | .special _ => 16 | .builtin _ => 17 | .port _ => 18 | .semver _ => 20

/-- comparison within a kind, of everything but the elements -/
def within : Data → Data → Ordering
  | .bool p, .bool q => intCmp p.toNat q.toNat
  | .str s, .str t => lexCmp s t
  | .chr s, .chr t => lexCmp s t
  | .sym s, .sym t => lexCmp s t
  | .err s k, .err t l => (lexCmp s t).then (intCmp k l)
  | .vec p, .vec q => intCmp p.length q.length
  | .queue p, .queue q => intCmp p.length q.length
  | .list p, .list q => intCmp p.length q.length
  | .special p, .special q => intCmp p q
  | .builtin p, .builtin q => intCmp p q
  | .port p, .port q => intCmp p q
  | .semver v, .semver w => Props.c21_cmp v w
  | a, b => intCmp (a.number.getD 0) (b.number.getD 0)

def top (a b : Data) : Ordering := (intCmp (kind a) (kind b)).then (within a b)

def elems : Data → List Data
  | .vec es | .queue es | .list es => es
  | _ => []

mutual
/-- the order of plain data -/
def dataCmp : Data → Data → Ordering
  | .vec es, b => (top (.vec es) b).then (dataCmps es (elems b))
  | .queue es, b => (top (.queue es) b).then (dataCmps es (elems b))
  | .list es, b => (top (.list es) b).then (dataCmps es (elems b))
  | a, b => top a b
def dataCmps : List Data → List Data → Ordering
  | a :: as, b :: bs => (dataCmp a b).then (dataCmps as bs)
  | _, _ => .eq
end

theorem dataCmps_nil (b : List Data) : dataCmps [] b = .eq := by simp [dataCmps]

theorem dataCmp_eq (a b : Data) : dataCmp a b = (top a b).then (dataCmps (elems a) (elems b)) := by
  cases a <;> simp [dataCmp, elems, dataCmps_nil]

theorem top_refl (a : Data) : top a a = .eq := by
  unfold top
  rw [intCmp_refl, Ordering.eq_then]
  cases a <;> simp [within, intCmp_refl, Spec.lexCmp_refl]
  exact (Props.c21_cmp_eq_aux _ _).mpr ⟨rfl, rfl, rfl, rfl⟩

theorem then_swap (x y : Ordering) : (x.then y).swap = x.swap.then y.swap := by
  cases x <;> rfl

theorem within_swap (a b : Data) (h : kind a = kind b) : within b a = (within a b).swap := by
  cases a <;> cases b <;> simp [kind] at h <;>
    simp only [within, then_swap, ← intCmp_swap, ← Spec.lexCmp_swap, ← Props.c21_cmp_swap_aux]

theorem top_swap (a b : Data) : top b a = (top a b).swap := by
  unfold top
  rw [then_swap, ← intCmp_swap]
  by_cases h : kind a = kind b
  · rw [within_swap a b h]
  · cases h' : intCmp (kind b) (kind a) with
    | lt => rfl
    | gt => rfl
    | eq => rw [intCmp_eq] at h'; omega

theorem within_trans {a b c : Data} (h1 : kind a = kind b) (h2 : kind b = kind c)
    (x : within a b ≠ .gt) (y : within b c ≠ .gt) : within a c ≠ .gt := by
  cases a <;> cases b <;> simp [kind] at h1 <;> cases c <;> simp [kind] at h2 <;>
    simp only [within] at x y ⊢ <;>
    first
    | exact intCmp_trans x y
    | exact lexCmp_le_trans x y
    | exact verCmp_le_trans x y
    | skip
  refine then_trans x y lexCmp_le_trans ?_ (fun _ _ => intCmp_trans)
  intro e p q
  have e := Spec.lexCmp_eq _ _ e
  subst e
  rw [Spec.lexCmp_swap] at q
  cases h : lexCmp _ _ with
  | gt => exact absurd h p
  | eq => rw [Spec.lexCmp_swap, h]; exact ⟨rfl, rfl⟩
  | lt => rw [h] at q; exact absurd rfl q

/-- from transitivity of ≤ and reversal: if a ≤ b ≤ c ≤ a then all are equal -/
theorem squeeze {f : α → α → Ordering} (sw : ∀ a b, f b a = (f a b).swap)
    (tr : ∀ a b c, f a b ≠ .gt → f b c ≠ .gt → f a c ≠ .gt) {a b c : α}
    (e : f a c = .eq) (p : f a b ≠ .gt) (q : f b c ≠ .gt) : f a b = .eq ∧ f b c = .eq := by
  have e' : f c a ≠ .gt := by rw [sw, e]; nofun
  have r1 := tr b c a q e'
  have r2 := tr c a b e' p
  rw [sw] at r1 r2
  constructor
  · generalize f a b = z at *; cases z <;> first | rfl | exact absurd rfl p | exact absurd rfl r1
  · generalize f b c = z at *; cases z <;> first | rfl | exact absurd rfl q | exact absurd rfl r2

/-- transitivity of ≤, with equality only if all are equal -/
def Tri (x y z : Ordering) : Prop := x ≠ .gt → y ≠ .gt → z ≠ .gt ∧ (z = .eq → x = .eq ∧ y = .eq)

theorem then_tri {x1 x2 x3 y1 y2 y3 : Ordering} (h : Tri x1 x2 x3)
    (h' : x1 = .eq → x2 = .eq → Tri y1 y2 y3) :
    Tri (x1.then y1) (x2.then y2) (x3.then y3) := by
  intro p q
  have hx := h (by rintro rfl; exact p rfl) (by rintro rfl; exact q rfl)
  cases x3 with
  | gt => exact absurd rfl hx.1
  | lt => exact ⟨nofun, nofun⟩
  | eq =>
    obtain ⟨rfl, rfl⟩ := hx.2 rfl
    exact h' rfl rfl p q

theorem top_trans (a b c : Data) (x : top a b ≠ .gt) (y : top b c ≠ .gt) : top a c ≠ .gt := by
  refine then_trans x y intCmp_trans ?_ ?_
  · intro e p q
    rw [intCmp_eq] at e
    rw [intCmp_ne_gt] at p q
    rw [intCmp_eq, intCmp_eq]; omega
  · intro p q
    rw [intCmp_eq] at p q
    exact within_trans (by omega) (by omega)

theorem top_elems {a b : Data} (h : top a b = .eq) : (elems a).length = (elems b).length := by
  unfold top at h
  rw [Ordering.then_eq_eq] at h
  obtain ⟨h1, h2⟩ := h
  rw [intCmp_eq] at h1
  cases a <;> cases b <;> simp [kind] at h1 <;> simp only [elems] <;>
    (simp only [within, intCmp_eq] at h2; omega)

mutual
theorem dataCmp_refl (a : Data) : dataCmp a a = .eq := by
  match a with
  | .vec es | .queue es | .list es =>
    rw [dataCmp_eq, top_refl, Ordering.eq_then]; exact dataCmps_refl es
  | .nil | .bool _ | .int _ | .real _ | .str _ | .chr _ | .sym _ | .err _ _ | .hmap _ | .special _
  | .builtin _ | .port _ | .semver _ => simp only [dataCmp, top_refl]
theorem dataCmps_refl (as : List Data) : dataCmps as as = .eq := by
  match as with
  | [] => rfl
  | a :: as => simp only [dataCmps, dataCmp_refl a, Ordering.eq_then, dataCmps_refl as]
end

mutual
theorem dataCmp_swap (a b : Data) : dataCmp b a = (dataCmp a b).swap := by
  match a with
  | .vec es | .queue es | .list es =>
    rw [dataCmp_eq, dataCmp_eq _ b, then_swap, ← top_swap]
    congr 1
    exact dataCmps_swap es (elems b)
  | .nil | .bool _ | .int _ | .real _ | .str _ | .chr _ | .sym _ | .err _ _ | .hmap _ | .special _
  | .builtin _ | .port _ | .semver _ =>
    rw [dataCmp_eq, dataCmp_eq _ b, then_swap, ← top_swap]
    simp only [elems]
    cases elems b <;> simp [dataCmps]
theorem dataCmps_swap (as bs : List Data) : dataCmps bs as = (dataCmps as bs).swap := by
  match as, bs with
  | [], [] => rfl
  | [], _ :: _ => rfl
  | _ :: _, [] => rfl
  | a :: as, b :: bs =>
    simp only [dataCmps, then_swap, ← dataCmps_swap as bs, ← dataCmp_swap a b]
end

mutual
theorem dataCmp_tri (a b c : Data) : Tri (dataCmp a b) (dataCmp b c) (dataCmp a c) := by
  match a with
  | .vec es | .queue es | .list es =>
    rw [dataCmp_eq, dataCmp_eq b c, dataCmp_eq _ c]
    refine then_tri (fun p q => ⟨top_trans _ _ _ p q, fun e => squeeze top_swap top_trans e p q⟩) ?_
    intro e1 e2
    exact dataCmps_tri es (elems b) (elems c) (top_elems e1) (top_elems e2)
  | .nil | .bool _ | .int _ | .real _ | .str _ | .chr _ | .sym _ | .err _ _ | .hmap _ | .special _
  | .builtin _ | .port _ | .semver _ =>
    rw [dataCmp_eq, dataCmp_eq b c, dataCmp_eq _ c]
    refine then_tri (fun p q => ⟨top_trans _ _ _ p q, fun e => squeeze top_swap top_trans e p q⟩) ?_
    intro e1 e2
    have l := (top_elems e1).symm
    simp only [elems, List.length_nil, List.length_eq_zero_iff] at l
    simp [elems, dataCmps, l, Tri]
theorem dataCmps_tri (as bs cs : List Data) (l1 : as.length = bs.length)
    (l2 : bs.length = cs.length) : Tri (dataCmps as bs) (dataCmps bs cs) (dataCmps as cs) := by
  match as, bs, cs with
  | [], [], _ => simp [dataCmps, Tri]
  | [], b :: bs, _ => simp at l1
  | a :: as, [], _ => simp at l1
  | a :: as, b :: bs, [] => simp at l2
  | a :: as, b :: bs, c :: cs =>
    simp only [dataCmps]
    refine then_tri (dataCmp_tri a b c) ?_
    intro _ _
    simp only [List.length_cons, Nat.add_right_cancel_iff] at l1 l2
    exact dataCmps_tri as bs cs l1 l2
end

end Dern
