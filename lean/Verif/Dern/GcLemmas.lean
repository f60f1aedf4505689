import Verif.Dern.Vm
import Verif.Spec.Reach
/-
Correctness of marking and sweeping.
-/
namespace Dern
open Spec (Reach)

def Mem.Marked (m : Mem) (r : Ref) : Prop := ∃ c, m r = some c ∧ c.mark = true

/-- the edges the collector follows -/
def Mem.Edge (m : Mem) (x y : Ref) : Prop := ∃ c, m x = some c ∧ y ∈ c.edges

def Cell.unmark (c : Cell) : Cell := { c with mark := false }

/-- equal except for the marks -/
def UpToMarks (m m' : Mem) : Prop := ∀ r, (m' r).map Cell.unmark = (m r).map Cell.unmark

theorem UpToMarks.refl (m : Mem) : UpToMarks m m := fun _ => rfl
theorem UpToMarks.trans {a b c : Mem} (h1 : UpToMarks a b) (h2 : UpToMarks b c) : UpToMarks a c :=
  fun r => (h2 r).trans (h1 r)
theorem UpToMarks.symm {a b : Mem} (h : UpToMarks a b) : UpToMarks b a := fun r => (h r).symm

theorem UpToMarks.some {m m' : Mem} (h : UpToMarks m m') {r : Ref} {c : Cell} (hc : m r = some c) :
    ∃ c', m' r = some c' ∧ c'.unmark = c.unmark := by
  have := h r
  rw [hc] at this
  cases h' : m' r with
  | none => rw [h'] at this; cases this
  | some c' => rw [h'] at this; exact ⟨c', rfl, by simpa using this⟩

theorem UpToMarks.edge {m m' : Mem} (h : UpToMarks m m') {x y : Ref} (he : m.Edge x y) : m'.Edge x y := by
  obtain ⟨c, hc, hy⟩ := he
  obtain ⟨c', hc', hu⟩ := h.some hc
  refine ⟨c', hc', ?_⟩
  have : c'.edges = c.edges := by
    have h1 := congrArg Cell.docstr hu
    have h2 := congrArg Cell.obj hu
    simp only [Cell.unmark] at h1 h2
    simp [Cell.edges, h1, h2]
  rwa [this]

theorem UpToMarks.live {m m' : Mem} (h : UpToMarks m m') (r : Ref) : (m' r).isSome = (m r).isSome := by
  have := congrArg Option.isSome (h r)
  simpa using this

theorem UpToMarks.reach {m m' : Mem} (h : UpToMarks m m') {root : Ref → Prop} {x : Ref} :
    Reach m'.Edge root x ↔ Reach m.Edge root x :=
  ⟨Reach.congr fun _ _ => h.symm.edge, Reach.congr fun _ _ => h.edge⟩

theorem upToMarks_set {m : Mem} {r : Ref} {c : Cell} (hc : m r = some c) (b : Bool) :
    UpToMarks m (m.set r { c with mark := b }) := by
  intro x
  unfold Mem.set
  by_cases h : x = r
  · subst h; simp [hc, Cell.unmark]
  · simp [h]

/-- what marking from `rs` does to a memory -/
structure MarkPost (m : Mem) (rs : List Ref) (m' : Mem) : Prop where
  same : UpToMarks m m'
  mono : ∀ x, m.Marked x → m'.Marked x
  roots : ∀ r ∈ rs, m'.Marked r
  only : ∀ x, m'.Marked x → m.Marked x ∨ Reach m.Edge (· ∈ rs) x
  closed : ∀ x y, m'.Marked x → ¬ m.Marked x → m.Edge x y → m'.Marked y

theorem markList_post {f : Mem → Ref → Res Mem}
    (hf : ∀ m r m', f m r = .ok m' → MarkPost m [r] m') :
    ∀ (rs : List Ref) (m m' : Mem), markList f m rs = .ok m' → MarkPost m rs m' := by
  intro rs
  induction rs with
  | nil =>
    intro m m' h
    cases h
    exact ⟨.refl m, fun _ h => h, by simp, fun _ h => .inl h, fun _ _ h h' => absurd h h'⟩
  | cons r rs ih =>
    intro m m' h
    simp only [markList, bind, Except.bind] at h
    cases h1 : f m r with
    | error e => rw [h1] at h; cases h
    | ok m1 =>
      rw [h1] at h
      simp only at h
      have p1 := hf m r m1 h1
      have p2 := ih m1 m' h
      refine ⟨p1.same.trans p2.same, fun x hx => p2.mono x (p1.mono x hx), ?_, ?_, ?_⟩
      · intro x hx
        rcases List.mem_cons.mp hx with rfl | hx
        · exact p2.mono _ (p1.roots _ (by simp))
        · exact p2.roots x hx
      · intro x hx
        rcases p2.only x hx with h | h
        · rcases p1.only x h with h | h
          · exact .inl h
          · exact .inr (h.mono fun y hy => .root (by simp at hy; simp [hy]))
        · exact .inr ((p1.same.reach.mp h).mono fun y hy => .root (by simp [hy]))
      · intro x y hx hn he
        by_cases h : m1.Marked x
        · exact p2.mono y (p1.closed x y h hn he)
        · exact p2.closed x y hx h (p1.same.edge he)

theorem markRef_post : ∀ (n : Nat) (m : Mem) (r : Ref) (m' : Mem), markRef n m r = .ok m' →
    MarkPost m [r] m' := by
  intro n
  induction n with
  | zero => intro m r m' h; cases h
  | succ n ih =>
    intro m r m' h
    simp only [markRef, Mem.read, bind, Except.bind] at h
    cases hc : m r with
    | none => rw [hc] at h; cases h
    | some c =>
      rw [hc] at h
      simp only at h
      by_cases hm : c.mark = true
      · rw [if_pos hm] at h
        cases h
        exact ⟨.refl m, fun _ h => h, by simpa using ⟨c, hc, hm⟩, fun _ h => .inl h,
          fun _ _ h h' => absurd h h'⟩
      · rw [if_neg hm] at h
        have p := markList_post ih _ _ _ h
        have us := upToMarks_set hc true
        have hr : (m.set r { c with mark := true }).Marked r := ⟨{ c with mark := true }, by simp [Mem.set], rfl⟩
        have hother : ∀ x, x ≠ r → ((m.set r { c with mark := true }).Marked x ↔ m.Marked x) := by
          intro x hx; unfold Mem.Marked Mem.set; simp [hx]
        refine ⟨us.trans p.same, ?_, ?_, ?_, ?_⟩
        · intro x hx
          by_cases e : x = r
          · subst e; exact p.mono _ hr
          · exact p.mono x ((hother x e).mpr hx)
        · intro x hx; simp at hx; subst hx; exact p.mono _ hr
        · intro x hx
          rcases p.only x hx with h | h
          · by_cases e : x = r
            · subst e; exact .inr (.root (by simp))
            · exact .inl ((hother x e).mp h)
          · refine .inr ((us.reach.mp h).mono fun y hy => ?_)
            exact Reach.step (x := r) (.root (by simp)) ⟨c, hc, hy⟩
        · intro x y hx hn he
          by_cases e : x = r
          · subst e
            obtain ⟨c', hc', hy⟩ := he
            rw [hc] at hc'; cases hc'
            exact p.roots y hy
          · exact p.closed x y hx (fun h => hn ((hother x e).mp h)) (us.edge he)

/-! ### marking returns -/

/-- number of values of `all` that are live and not marked -/
def unmarked (m : Mem) (all : List Ref) : Nat := all.countP fun r => (m r).any fun c => !c.mark

theorem unmarked_mono {m m' : Mem} (s : UpToMarks m m') (h : ∀ x, m.Marked x → m'.Marked x)
    (all : List Ref) : unmarked m' all ≤ unmarked m all := by
  unfold unmarked
  apply List.countP_mono_left
  intro r _ hr
  cases hm : m' r with
  | none => rw [hm] at hr; simp at hr
  | some c' =>
    obtain ⟨c, hc, _⟩ := s.symm.some hm
    rw [hc]
    simp only [Option.any_some, Bool.not_eq_true']
    cases hk : c.mark with
    | false => rfl
    | true =>
      obtain ⟨c'', h1, h2⟩ := h r ⟨c, hc, hk⟩
      rw [hm] at h1; cases h1
      rw [hm] at hr; simp [h2] at hr

theorem countP_lt {p q : α → Bool} : ∀ (l : List α) (x : α), x ∈ l → (∀ y, q y = true → p y = true) →
    p x = true → q x = false → l.countP q < l.countP p := by
  intro l
  induction l with
  | nil => intro x h; simp at h
  | cons a l ih =>
    intro x hx hqp hp hq
    rw [List.countP_cons, List.countP_cons]
    have le : l.countP q ≤ l.countP p := List.countP_mono_left fun y _ h => hqp y h
    rcases List.mem_cons.mp hx with rfl | hx
    · rw [hp, hq]; simp; omega
    · have := ih x hx hqp hp hq
      by_cases h : q a = true
      · rw [h, hqp a h]; simp; omega
      · simp only [Bool.not_eq_true] at h; rw [h]; simp; omega

theorem unmarked_set {m : Mem} {r : Ref} {c : Cell} (hc : m r = some c) (hm : c.mark = false)
    {all : List Ref} (hr : r ∈ all) :
    unmarked (m.set r { c with mark := true }) all < unmarked m all := by
  refine countP_lt all r hr ?_ (by simp [hc, hm]) (by simp [Mem.set])
  intro y hy
  unfold Mem.set at hy
  by_cases e : y = r
  · simp [e] at hy
  · simpa [e] using hy

/-- enough steps: more than there are unmarked values -/
theorem markRef_returns {all : List Ref} : ∀ (n : Nat) (m : Mem) (r : Ref),
    (∀ x, (m x).isSome → x ∈ all) → (∀ x, Reach m.Edge (· = r) x → (m x).isSome) →
    unmarked m all < n → ∃ m', markRef n m r = .ok m' := by
  intro n
  induction n with
  | zero => intro m r _ _ h; omega
  | succ n ih =>
    intro m r hall hlive hn
    have h0 := hlive r (.root rfl)
    obtain ⟨c, hc⟩ := Option.isSome_iff_exists.mp h0
    simp only [markRef, Mem.read, hc, bind, Except.bind]
    by_cases hm : c.mark = true
    · rw [if_pos hm]; exact ⟨m, rfl⟩
    · rw [if_neg hm]
      simp only [Bool.not_eq_true] at hm
      have us := upToMarks_set hc true
      have hlt := unmarked_set hc hm (hall r h0)
      -- the list of edges
      have key : ∀ (rs : List Ref) (m1 : Mem), UpToMarks m m1 → (∀ y ∈ rs, m.Edge r y) →
          unmarked m1 all < n → ∃ m', markList (markRef n) m1 rs = .ok m' := by
        intro rs
        induction rs with
        | nil => intro m1 _ _ _; exact ⟨m1, rfl⟩
        | cons y rs ihr =>
          intro m1 u1 he hn1
          obtain ⟨m2, h2⟩ := ih m1 y (fun x hx => hall x (by rwa [u1.live] at hx))
            (fun x hx => by
              rw [u1.live]
              apply hlive
              exact (u1.reach.mp hx).mono fun z hz => by
                subst hz; exact Reach.step (.root rfl) (he _ (by simp))) hn1
          have p := markRef_post n m1 y m2 h2
          obtain ⟨m3, h3⟩ := ihr m2 (u1.trans p.same) (fun z hz => he z (by simp [hz]))
            (Nat.lt_of_le_of_lt (unmarked_mono p.same p.mono all) hn1)
          exact ⟨m3, by simp only [markList, h2, bind, Except.bind]; exact h3⟩
      exact key c.edges _ us (fun y hy => ⟨c, hc, hy⟩) (by omega)

theorem markRoots_returns {all : List Ref} {n : Nat} : ∀ (rs : List Ref) (m : Mem),
    (∀ x, (m x).isSome → x ∈ all) → (∀ x, Reach m.Edge (· ∈ rs) x → (m x).isSome) →
    unmarked m all < n → ∃ m', markList (markRef n) m rs = .ok m' := by
  intro rs
  induction rs with
  | nil => intro m _ _ _; exact ⟨m, rfl⟩
  | cons r rs ih =>
    intro m hall hlive hn
    obtain ⟨m1, h1⟩ := markRef_returns n m r hall
      (fun x hx => hlive x (hx.mono fun z hz => by subst hz; exact .root (by simp))) hn
    have p := markRef_post n m r m1 h1
    obtain ⟨m2, h2⟩ := ih m1 (fun x hx => hall x (by rwa [p.same.live] at hx))
      (fun x hx => by
        rw [p.same.live]
        exact hlive x ((p.same.reach.mp hx).mono fun z hz => .root (by simp [hz])))
      (Nat.lt_of_le_of_lt (unmarked_mono p.same p.mono all) hn)
    exact ⟨m2, by simp only [markList, h1, bind, Except.bind]; exact h2⟩

/-! ### sweeping -/

/-- what is left of a cell -/
def sweepCell (o : Option Cell) : Option Cell := o.bind fun c => if c.mark then some c.unmark else none

theorem sweepFrom_spec : ∀ (rs : List Ref) (m : Mem), rs.Nodup → (∀ r ∈ rs, (m r).isSome) →
    ∃ m', sweepFrom m rs = .ok (m', rs.filter fun r => (m r).any (·.mark)) ∧
      ∀ x, m' x = if x ∈ rs then sweepCell (m x) else m x := by
  intro rs
  induction rs with
  | nil => intro m _ _; exact ⟨m, rfl, by simp⟩
  | cons r rs ih =>
    intro m nd live
    obtain ⟨c, hc⟩ := Option.isSome_iff_exists.mp (live r (by simp))
    obtain ⟨nr, nd⟩ := List.nodup_cons.mp nd
    simp only [sweepFrom, Mem.read, hc, bind, Except.bind]
    have hne : ∀ x ∈ rs, x ≠ r := fun x hx e => nr (e ▸ hx)
    by_cases hm : c.mark = true
    · rw [if_pos hm]
      obtain ⟨m', h1, h2⟩ := ih (m.set r { c with mark := false }) nd (fun x hx => by
        unfold Mem.set; rw [if_neg (hne x hx)]; exact live x (by simp [hx]))
      rw [h1]
      refine ⟨m', ?_, ?_⟩
      · simp only [Except.ok.injEq, Prod.mk.injEq, true_and]
        rw [List.filter_cons_of_pos (by simp [hc, hm])]
        congr 1
        apply List.filter_congr
        intro x hx
        unfold Mem.set; rw [if_neg (hne x hx)]
      · intro x
        rw [h2 x]
        unfold Mem.set
        by_cases e : x = r
        · subst e; simp [nr, hc, sweepCell, hm, Cell.unmark]
        · simp [e]
    · rw [if_neg hm]
      obtain ⟨m', h1, h2⟩ := ih (fun x => if x = r then none else m x) nd (fun x hx => by
        rw [if_neg (hne x hx)]; exact live x (by simp [hx]))
      rw [h1]
      refine ⟨m', ?_, ?_⟩
      · simp only [Except.ok.injEq, Prod.mk.injEq, true_and]
        rw [List.filter_cons_of_neg (by simp [hc, hm])]
        apply List.filter_congr
        intro x hx
        rw [if_neg (hne x hx)]
      · intro x
        rw [h2 x]
        by_cases e : x = r
        · subst e; simp [nr, hc, sweepCell, hm]
        · simp [e]

/-! ### a collection -/

/-- the values the collector keeps: reachable from the stack -/
def Vm.Kept (v : Vm) (r : Ref) : Prop := Reach v.mem.Edge (· ∈ v.stack) r

/-- invariants of the memory of a virtual machine -/
structure Vm.Wf (v : Vm) : Prop where
  nodup : v.all.Nodup
  dom : ∀ r, r ∈ v.all ↔ (v.mem r).isSome
  unmarked : ∀ r c, v.mem r = some c → c.mark = false
  live : ∀ r, v.Kept r → (v.mem r).isSome

open Classical in
/-- the effect of a collection -/
theorem gc_spec {v : Vm} (wf : v.Wf) : ∃ m all, gc v = .ok ((), { v with mem := m, all := all }) ∧
    (∀ r, m r = if v.Kept r then v.mem r else none) ∧
    (∀ r, r ∈ all ↔ (m r).isSome) ∧ all.Nodup ∧ all.Sublist v.all := by
  have hroots : ∀ x, Reach v.mem.Edge (· ∈ v.stack.reverse) x ↔ v.Kept x := by
    intro x
    have : (fun r => r ∈ v.stack.reverse) = fun r => r ∈ v.stack := by funext r; simp
    unfold Vm.Kept; rw [this]
  have hun : _root_.Dern.unmarked v.mem v.all < v.all.length + 1 := Nat.lt_succ_of_le List.countP_le_length
  obtain ⟨m1, h1⟩ := markRoots_returns v.stack.reverse v.mem (fun x hx => (wf.dom x).mpr hx)
    (fun x hx => wf.live x ((hroots x).mp hx)) hun
  have p := markList_post (markRef_post _) _ _ _ h1
  have none : ∀ x, ¬ v.mem.Marked x := by
    rintro x ⟨c, hc, hm⟩
    rw [wf.unmarked x c hc] at hm; cases hm
  have marked : ∀ x, m1.Marked x ↔ v.Kept x := by
    intro x
    constructor
    · intro hx
      rcases p.only x hx with h | h
      · exact absurd h (none x)
      · exact (hroots x).mp h
    · intro hx
      exact ((hroots x).mpr hx).closed (P := m1.Marked) (fun y hy => p.roots y hy)
        (fun y z hy he => p.closed y z hy (none y) he)
  obtain ⟨m2, h2, h3⟩ := sweepFrom_spec v.all m1 wf.nodup (fun r hr => by
    rw [p.same.live]; exact (wf.dom r).mp hr)
  have cell : ∀ r, m2 r = if v.Kept r then v.mem r else Option.none := by
    intro r
    rw [h3 r]
    by_cases hr : r ∈ v.all
    · rw [if_pos hr]
      obtain ⟨c, hc⟩ := Option.isSome_iff_exists.mp ((wf.dom r).mp hr)
      obtain ⟨c1, hc1, hu⟩ := p.same.some hc
      rw [hc1]
      simp only [sweepCell, Option.bind_some]
      by_cases hk : v.Kept r
      · obtain ⟨c', hc', hm⟩ := (marked r).mpr hk
        rw [hc1] at hc'; cases hc'
        rw [if_pos hm, if_pos hk, hu, hc]
        have := wf.unmarked r c hc
        cases c; simp only at this; subst this; rfl
      · rw [if_neg hk, if_neg]
        intro hm
        exact hk ((marked r).mp ⟨c1, hc1, hm⟩)
    · rw [if_neg hr]
      have hnone : v.mem r = Option.none := by
        cases h : v.mem r with
        | none => rfl
        | some c => exact absurd ((wf.dom r).mpr (by simp [h])) hr
      have : m1 r = Option.none := by
        have := p.same.live r
        rw [hnone] at this
        simpa using this
      rw [this, hnone]; simp
  refine ⟨m2, v.all.filter fun r => (m1 r).any (·.mark), ?_, cell, ?_, ?_, ?_⟩
  · simp only [gc, h1, h2, bind, Except.bind]
  · intro r
    rw [List.mem_filter, cell r]
    constructor
    · rintro ⟨h1, h2⟩
      have : m1.Marked r := by
        unfold Mem.Marked
        cases hm : m1 r with
        | none => rw [hm] at h2; simp at h2
        | some c => rw [hm] at h2; exact ⟨c, rfl, by simpa using h2⟩
      rw [if_pos ((marked r).mp this)]
      exact (wf.dom r).mp h1
    · intro h
      by_cases hk : v.Kept r
      · rw [if_pos hk] at h
        obtain ⟨c, hc, hm⟩ := (marked r).mpr hk
        exact ⟨(wf.dom r).mpr h, by simp [hc, hm]⟩
      · rw [if_neg hk] at h; simp at h
  · exact wf.nodup.filter _
  · exact List.filter_sublist

theorem gc_wf {v w : Vm} (wf : v.Wf) (h : gc v = .ok ((), w)) :
    w.Wf ∧ (∀ r, v.Kept r → w.mem r = v.mem r) ∧ (∀ r, w.Kept r ↔ v.Kept r) ∧
    (∀ r, ¬ v.Kept r → w.mem r = none) ∧ w.all.Sublist v.all ∧
    w = { v with mem := w.mem, all := w.all } := by
  obtain ⟨m, all, e, hm, hall, nd, sub⟩ := gc_spec wf
  rw [e] at h
  cases h
  have keep : ∀ r, v.Kept r → m r = v.mem r := fun r hr => by rw [hm, if_pos hr]
  have gone : ∀ r, ¬ v.Kept r → m r = none := fun r hr => by rw [hm, if_neg hr]
  have kept : ∀ r, Vm.Kept { v with mem := m, all := all } r ↔ v.Kept r := by
    intro r
    constructor
    · intro h
      refine h.closed (P := v.Kept) (fun x hx => .root hx) ?_
      rintro x y hx ⟨c, hc, hy⟩
      simp only at hc
      rw [keep x hx] at hc
      exact hx.step ⟨c, hc, hy⟩
    · intro h
      have : v.Kept r ∧ Vm.Kept { v with mem := m, all := all } r := by
        refine h.closed (P := fun r => v.Kept r ∧ Vm.Kept { v with mem := m, all := all } r)
          (fun x hx => ⟨.root hx, .root hx⟩) ?_
        rintro x y ⟨h1, h2⟩ ⟨c, hc, hy⟩
        exact ⟨h1.step ⟨c, hc, hy⟩, h2.step ⟨c, by simp only; rw [keep x h1]; exact hc, hy⟩⟩
      exact this.2
  refine ⟨⟨nd, hall, ?_, ?_⟩, keep, kept, gone, sub, rfl⟩
  · intro r c hc
    simp only at hc
    by_cases hk : v.Kept r
    · rw [keep r hk] at hc; exact wf.unmarked r c hc
    · rw [gone r hk] at hc; cases hc
  · intro r hr
    have := (kept r).mp hr
    simp only
    rw [keep r this]
    exact wf.live r this

end Dern
