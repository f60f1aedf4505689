import Verif.Dern.Sound
/-
Two runs of the same program that differ in the collections made: one machine lacks some of the values
of the other one.  As long as the first one does not use a released value, both do the same.
-/
namespace Dern
open Spec (Reach)

/-- `v` is `w`, with some values released, other settings of the collector and another count of
allocations since the last collection -/
structure Vm.Lags (v w : Vm) : Prop where
  mem : v.mem.Sub w.mem
  stack : v.stack = w.stack
  nextUid : v.nextUid = w.nextUid
  births : v.births = w.births
  ret : v.functionReturn = w.functionReturn
  quit : v.quit = w.quit
  exitCode : v.exitCode = w.exitCode
  out : v.out = w.out
  ticks : v.ticks = w.ticks
  globalEnv : v.globalEnv = w.globalEnv
  valueNil : v.valueNil = w.valueNil
  valueTrue : v.valueTrue = w.valueTrue
  valueFalse : v.valueFalse = w.valueFalse
  readably : v.readably = w.readably

theorem Vm.Lags.refl (v : Vm) : v.Lags v := by
  constructor <;> first | rfl | exact fun _ _ h => h

theorem Vm.Lags.root {v w : Vm} (h : v.Lags w) (which : Root) : v.root which = w.root which := by
  cases which
  · exact h.globalEnv
  · exact h.valueNil
  · exact h.valueTrue
  · exact h.valueFalse

/-- the same evaluation on two machines -/
structure Event.Lags (e f : Event) : Prop where
  form : e.form = f.form
  env : e.env = f.env
  result : e.result = f.result
  pre : e.pre.Lags f.pre
  post : e.post.Lags f.post

/-- the relation between the two machines: the second one never collects -/
structure Vm.Rel (W : World) (v w : Vm) : Prop where
  sane : v.Sane W
  lags : v.Lags w
  off : w.preventGc = true

/-- the relation between the outcomes: the same, unless the first machine has used a released value -/
def Outcome.Rel (W : World) (x y : Outcome α) : Prop :=
  x = .error .released ∨ (∃ e, x = .error e ∧ y = .error e) ∨
  ∃ a v t w u, x = .ok (a, v, t) ∧ y = .ok (a, w, u) ∧ v.Rel W w ∧ List.Forall₂ Event.Lags t u

variable {W : World}

/-! ### marking -/

/-- marking uses a released value or returns -/
theorem markRef_ends {all : List Ref} : ∀ (n : Nat) (m : Mem) (r : Ref),
    (∀ x, (m x).isSome → x ∈ all) → unmarked m all < n →
    markRef n m r = .error .released ∨ ∃ m', markRef n m r = .ok m' := by
  intro n
  induction n with
  | zero => intro m r _ h; omega
  | succ n ih =>
    intro m r hall hn
    cases hc : m r with
    | none => left; simp [markRef, Mem.read, hc, bind, Except.bind]
    | some c =>
      simp only [markRef, Mem.read, hc, bind, Except.bind]
      by_cases hm : c.mark = true
      · rw [if_pos hm]; exact .inr ⟨m, rfl⟩
      · rw [if_neg hm]
        simp only [Bool.not_eq_true] at hm
        have us := upToMarks_set hc true
        have hlt := unmarked_set hc hm (hall r (by simp [hc]))
        have key : ∀ (rs : List Ref) (m1 : Mem), UpToMarks m m1 → unmarked m1 all < n →
            markList (markRef n) m1 rs = .error .released ∨ ∃ m', markList (markRef n) m1 rs = .ok m' := by
          intro rs
          induction rs with
          | nil => intro m1 _ _; exact .inr ⟨m1, rfl⟩
          | cons y rs ihr =>
            intro m1 u1 hn1
            rcases ih m1 y (fun x hx => hall x (by rwa [u1.live] at hx)) hn1 with h2 | ⟨m2, h2⟩
            · left; simp only [markList, h2, bind, Except.bind]
            · have p := markRef_post n m1 y m2 h2
              have := ihr m2 (u1.trans p.same) (Nat.lt_of_le_of_lt (unmarked_mono p.same p.mono all) hn1)
              simpa only [markList, h2, bind, Except.bind] using this
        exact key c.edges _ us (by omega)

theorem markRoots_ends {all : List Ref} {n : Nat} : ∀ (rs : List Ref) (m : Mem),
    (∀ x, (m x).isSome → x ∈ all) → unmarked m all < n →
    markList (markRef n) m rs = .error .released ∨ ∃ m', markList (markRef n) m rs = .ok m' := by
  intro rs
  induction rs with
  | nil => intro m _ _; exact .inr ⟨m, rfl⟩
  | cons r rs ih =>
    intro m hall hn
    rcases markRef_ends n m r hall hn with h1 | ⟨m1, h1⟩
    · left; simp only [markList, h1, bind, Except.bind]
    · have p := markRef_post n m r m1 h1
      have := ih m1 (fun x hx => hall x (by rwa [p.same.live] at hx))
        (Nat.lt_of_le_of_lt (unmarked_mono p.same p.mono all) hn)
      simpa only [markList, h1, bind, Except.bind] using this

/-- a collection uses a released value or returns -/
theorem gc_ends {v : Vm} (nodup : v.all.Nodup) (dom : ∀ r, r ∈ v.all ↔ (v.mem r).isSome) :
    gc v = .error .released ∨ ∃ w, gc v = .ok ((), w) := by
  rcases markRoots_ends (n := v.all.length + 1) v.stack.reverse v.mem (fun x hx => (dom x).mpr hx)
    (Nat.lt_succ_of_le List.countP_le_length) with h1 | ⟨m1, h1⟩
  · left; simp only [gc, h1, bind, Except.bind]
  · have p := markList_post (markRef_post _) _ _ _ h1
    obtain ⟨m2, h2, _⟩ := sweepFrom_spec v.all m1 nodup (fun r hr => by
      rw [p.same.live]; exact (dom r).mp hr)
    right
    simp only [gc, h1, h2, bind, Except.bind]
    exact ⟨_, rfl⟩

/-! ### allocation -/

/-- the second half of an allocation -/
def birth (A : Malloc) (o : Obj) (v : Vm) : Vm :=
  { v with mem := v.mem.set (A.pick v.births) { obj := o, uid := v.nextUid }
           all := v.all ++ [A.pick v.births]
           nextUid := v.nextUid + 1
           births := v.births + 1 }

theorem alloc_eq (A : Malloc) (o : Obj) (v : Vm) : Dern.alloc A o v =
    match (if v.gcLimit ≤ v.sinceGc ∧ v.preventGc = false then
        match gc v with
        | .ok (_, u) => .ok { u with sinceGc := 0 }
        | .error e => .error e
      else .ok { v with sinceGc := v.sinceGc + 1 } : Res Vm) with
    | .error e => .error e
    | .ok u => if u.nextUid = uintMax then .error .abort else .ok (A.pick u.births, birth A o u) := by
  unfold Dern.alloc
  simp only [bind, StateT.bind, M.get, Except.bind]
  split
  · simp only [StateT.bind, bind, Except.bind]
    cases hg : gc v with
    | error e => rfl
    | ok x =>
      obtain ⟨⟨⟩, u⟩ := x
      simp only [M.modify, M.get]
      by_cases e : u.nextUid = uintMax
      · simp only [if_pos e]; rfl
      · simp only [if_neg e]; rfl
  · simp only [StateT.bind, bind, Except.bind, M.modify, M.get]
    by_cases e : v.nextUid = uintMax
    · simp only [if_pos e]; rfl
    · simp only [if_neg e]; rfl

/-- the first machine after the first half of an allocation -/
theorem collect_rel {v w : Vm} (h : v.Rel W w) :
    (if v.gcLimit ≤ v.sinceGc ∧ v.preventGc = false then
        match gc v with
        | .ok (_, u) => .ok { u with sinceGc := 0 }
        | .error e => .error e
      else .ok { v with sinceGc := v.sinceGc + 1 } : Res Vm) = .error .released ∨
    ∃ u, (if v.gcLimit ≤ v.sinceGc ∧ v.preventGc = false then
        match gc v with
        | .ok (_, u) => .ok { u with sinceGc := 0 }
        | .error e => .error e
      else .ok { v with sinceGc := v.sinceGc + 1 } : Res Vm) = .ok u ∧
      u.Lags { w with sinceGc := w.sinceGc + 1 } := by
  split
  · rcases gc_ends h.sane.nodup h.sane.dom with e | ⟨u, e⟩
    · left; rw [e]
    · right
      refine ⟨_, by rw [e], ?_⟩
      obtain ⟨h1, -, -, -, h5⟩ := gc_keeps h.sane e
      obtain ⟨a1, a2, a3, a4, a5, a6, a7, a8, a9, b1, b2, b3, b4, b5⟩ := h.lags
      have hm : u.mem.Sub w.mem := fun r c hr => by
        rcases h1 r with q | q
        · exact a1 r c (q ▸ hr)
        · rw [q] at hr; cases hr
      rw [h5]
      exact ⟨hm, a2, a3, a4, a5, a6, a7, a8, a9, b1, b2, b3, b4, b5⟩
  · right
    obtain ⟨a1, a2, a3, a4, a5, a6, a7, a8, a9, b1, b2, b3, b4, b5⟩ := h.lags
    exact ⟨_, rfl, ⟨a1, a2, a3, a4, a5, a6, a7, a8, a9, b1, b2, b3, b4, b5⟩⟩

theorem set_sub {m₁ m₂ : Mem} (h : m₁.Sub m₂) (r : Ref) (c : Cell) : (m₁.set r c).Sub (m₂.set r c) := by
  intro x d hx
  unfold Mem.set at hx ⊢
  split
  · rename_i e; rw [if_pos e] at hx; exact hx
  · rename_i e; rw [if_neg e] at hx; exact h x d hx

theorem birth_lags {A : Malloc} {o : Obj} {v w : Vm} (h : v.Lags w) : (birth A o v).Lags (birth A o w) := by
  obtain ⟨a1, a2, a3, a4, a5, a6, a7, a8, a9, b1, b2, b3, b4, b5⟩ := h
  refine ⟨?_, a2, ?_, ?_, a5, a6, a7, a8, a9, b1, b2, b3, b4, b5⟩
  · simp only [birth]
    rw [a3, a4]
    exact set_sub a1 _ _
  · simp only [birth]; rw [a3]
  · simp only [birth]; rw [a4]

theorem rel_error {e : Fault} : Outcome.Rel W (.error e : Outcome α) (.error e) := .inr (.inl ⟨e, rfl, rfl⟩)

theorem rel_ok {a : α} {v w : Vm} (h : v.Rel W w) : Outcome.Rel W (.ok (a, v, [])) (.ok (a, w, [])) :=
  .inr (.inr ⟨a, v, [], w, [], rfl, rfl, h, .nil⟩)

theorem alloc_rel {v w : Vm} (h : v.Rel W w) (o : Obj) :
    Outcome.Rel W (quiet (Dern.alloc W.malloc o) v) (quiet (Dern.alloc W.malloc o) w) := by
  have hw : Dern.alloc W.malloc o w = if w.nextUid = uintMax then .error .abort else
      .ok (W.malloc.pick w.births, birth W.malloc o { w with sinceGc := w.sinceGc + 1 }) := by
    rw [alloc_eq, if_neg (by simp [h.off])]
  have hv := alloc_eq W.malloc o v
  rcases collect_rel h with e | ⟨u, e, l⟩
  · rw [e] at hv
    left; simp only [quiet, hv]
  · rw [e] at hv
    simp only at hv
    have e1 : u.nextUid = w.nextUid := l.nextUid
    have e2 : u.births = w.births := l.births
    by_cases hu : w.nextUid = uintMax
    · rw [if_pos (e1.trans hu)] at hv
      rw [if_pos hu] at hw
      simp only [quiet, hv, hw]
      exact rel_error
    · rw [if_neg (e1 ▸ hu)] at hv
      rw [if_neg hu] at hw
      simp only [quiet, hv, hw]
      rw [e2]
      exact rel_ok ⟨(alloc_spec h.sane hv).sane h.sane, birth_lags l, h.off⟩

/-! ### the other operations -/

theorem write_rel {v w : Vm} (h : v.Rel W w) (r : Ref) (f : Cell → Cell) (hu : ∀ c, (f c).uid = c.uid)
    (hm : ∀ c, (f c).mark = c.mark) : Outcome.Rel W (quiet (M.write r f) v) (quiet (M.write r f) w) := by
  cases hc : v.mem r with
  | none => left; simp only [quiet, M.write, hc]
  | some c =>
    have hc' := h.lags.mem r c hc
    simp only [quiet, M.write, hc, hc']
    obtain ⟨a1, a2, a3, a4, a5, a6, a7, a8, a9, b1, b2, b3, b4, b5⟩ := h.lags
    exact rel_ok ⟨write_sane h.sane hc (hu c) (hm c),
      ⟨set_sub a1 _ _, a2, a3, a4, a5, a6, a7, a8, a9, b1, b2, b3, b4, b5⟩, h.off⟩

theorem Vm.Sane.congr {v w : Vm} (s : v.Sane W) (hm : w.mem = v.mem) (ha : w.all = v.all) (hb : w.births = v.births)
    (hn : w.nextUid = v.nextUid) : w.Sane W where
  nodup := by rw [ha]; exact s.nodup
  dom := by rw [ha, hm]; exact s.dom
  unmarked := by rw [hm]; exact s.unmarked
  old := by rw [hm]; exact fun r c h => by have := s.old r c h; unfold Vm.Old at this ⊢; rwa [hb]
  uidLt := by rw [hm, hn]; exact s.uidLt
  uidInj := by rw [hm]; exact s.uidInj

/-- how two handlers are related -/
def HandlersRel (W : World) (h₁ h₂ : Handler) : Prop :=
  ∀ c v w, v.Rel W w → Outcome.Rel W (h₁ c v) (h₂ c w)

theorem step_rel {n : Nat} {h₁ h₂ : Handler} (hh : HandlersRel W h₁ h₂) (o : Op) (v w : Vm) (h : v.Rel W w) :
    Outcome.Rel W (step W n h₁ o v) (step W n h₂ o w) := by
  have ⟨a1, a2, a3, a4, a5, a6, a7, a8, a9, b1, b2, b3, b4, b5⟩ := h.lags
  cases o with
  | alloc o => exact alloc_rel h o
  | read r =>
    simp only [step, quiet, M.read]
    rcases a1.read r with e | e
    · rw [e]; exact .inl rfl
    · rw [e]
      cases v.mem.read r with
      | error e => exact rel_error
      | ok c => exact rel_ok h
  | setObj r o => exact write_rel h r _ (fun _ => rfl) fun _ => rfl
  | replace r o => exact write_rel h r _ (fun _ => rfl) fun _ => rfl
  | setDoc r ds dv => exact write_rel h r _ (fun _ => rfl) fun _ => rfl
  | setHowto r b => exact write_rel h r _ (fun _ => rfl) fun _ => rfl
  | push r =>
    exact rel_ok ⟨h.sane.congr rfl rfl rfl rfl,
      ⟨a1, by simp only; rw [a2], a3, a4, a5, a6, a7, a8, a9, b1, b2, b3, b4, b5⟩, h.off⟩
  | pop r =>
    simp only [step, quiet, Dern.pop]
    rw [a2]
    cases hs : w.stack with
    | nil => exact rel_error
    | cons t s =>
      simp only
      by_cases e : t = r
      · simp only [if_pos e]
        exact rel_ok ⟨h.sane.congr rfl rfl rfl rfl, ⟨a1, rfl, a3, a4, a5, a6, a7, a8, a9, b1, b2, b3, b4, b5⟩, h.off⟩
      · simp only [if_neg e]; exact rel_error
  | getReturn => simp only [step]; rw [a5]; exact rel_ok h
  | setReturn x =>
    exact rel_ok ⟨h.sane.congr rfl rfl rfl rfl, ⟨a1, a2, a3, a4, rfl, a6, a7, a8, a9, b1, b2, b3, b4, b5⟩, h.off⟩
  | isQuit => simp only [step]; rw [a6]; exact rel_ok h
  | quit code =>
    exact rel_ok ⟨h.sane.congr rfl rfl rfl rfl,
      ⟨a1, a2, a3, a4, a5, rfl, by simp only; rw [a7], a8, a9, b1, b2, b3, b4, b5⟩, h.off⟩
  | root which => simp only [step]; rw [h.lags.root which]; exact rel_ok h
  | emit t =>
    exact rel_ok ⟨h.sane.congr rfl rfl rfl rfl,
      ⟨a1, a2, a3, a4, a5, a6, a7, by simp only; rw [a8], a9, b1, b2, b3, b4, b5⟩, h.off⟩
  | text what =>
    simp only [step]; rw [a9]
    exact rel_ok ⟨h.sane.congr rfl rfl rfl rfl, ⟨a1, a2, a3, a4, a5, a6, a7, a8, rfl, b1, b2, b3, b4, b5⟩, h.off⟩
  | arrange es =>
    simp only [step]; rw [a9]
    exact rel_ok ⟨h.sane.congr rfl rfl rfl rfl, ⟨a1, a2, a3, a4, a5, a6, a7, a8, rfl, b1, b2, b3, b4, b5⟩, h.off⟩
  | real =>
    simp only [step]; rw [a9]
    exact rel_ok ⟨h.sane.congr rfl rfl rfl rfl, ⟨a1, a2, a3, a4, a5, a6, a7, a8, rfl, b1, b2, b3, b4, b5⟩, h.off⟩
  | compare a b =>
    simp only [step]
    rcases compareRef_refines a1 n a b with e | e
    · rw [e]; exact .inl rfl
    · rw [e]
      cases compareRef v.mem n a b with
      | error e => exact rel_error
      | ok c => exact rel_ok h
  | print p r =>
    simp only [step]
    rw [← b5]
    rcases printRef_refines (fmt := W.fmt) (rd := v.readably) a1 n p r with e | e
    · rw [e]; exact .inl rfl
    · rw [e]
      cases printRef v.mem W.fmt v.readably n p r with
      | error e => exact rel_error
      | ok c => exact rel_ok h
  | readably => simp only [step]; rw [b5]; exact rel_ok h
  | setReadably b =>
    exact rel_ok ⟨h.sane.congr rfl rfl rfl rfl, ⟨a1, a2, a3, a4, a5, a6, a7, a8, a9, b1, b2, b3, b4, rfl⟩, h.off⟩
  | fail e => exact rel_error
  | call c => exact hh c v w h

theorem forall₂_append {R : α → β → Prop} {as as' : List α} {bs bs' : List β} (h : List.Forall₂ R as bs)
    (h' : List.Forall₂ R as' bs') : List.Forall₂ R (as ++ as') (bs ++ bs') := by
  induction h with
  | nil => exact h'
  | cons h1 _ ih => exact .cons h1 ih

theorem run_rel {n : Nat} {h₁ h₂ : Handler} (hh : HandlersRel W h₁ h₂) (p : Prog α) : ∀ (v w : Vm), v.Rel W w →
    Outcome.Rel W (run W n h₁ p v) (run W n h₂ p w) := by
  induction p with
  | done a => intro v w h; exact rel_ok h
  | op o k ih =>
    intro v w h
    rcases step_rel (n := n) hh o v w h with e | ⟨e, e1, e2⟩ | ⟨a, v1, t, w1, u, e1, e2, r, ht⟩
    · left; simp only [run, e]
    · right; left; exact ⟨e, by simp only [run, e1], by simp only [run, e2]⟩
    · rcases ih a v1 w1 r with q | ⟨e, q1, q2⟩ | ⟨b, v2, t', w2, u', q1, q2, r2, ht'⟩
      · left; simp only [run, e1, q]
      · right; left; exact ⟨e, by simp only [run, e1, q1], by simp only [run, e2, q2]⟩
      · right; right
        exact ⟨b, v2, t ++ t', w2, u ++ u', by simp only [run, e1, q1], by simp only [run, e2, q2], r2,
          forall₂_append ht ht'⟩

theorem handler_rel (body : Call → Prog (Option Ref)) : ∀ (n : Nat),
    HandlersRel W (handler W body n) (handler W body n) := by
  intro n
  induction n with
  | zero => intro c v w _; exact rel_error
  | succ n ih =>
    intro c v w h
    rcases run_rel (n := n) ih (body c) v w h with e | ⟨e, e1, e2⟩ | ⟨a, v1, t, w1, u, e1, e2, r, ht⟩
    · left; simp only [handler, e]
    · right; left; exact ⟨e, by simp only [handler, e1], by simp only [handler, e2]⟩
    · right; right
      simp only [handler, e1, e2]
      refine ⟨a, v1, _, w1, _, rfl, rfl, r, ?_⟩
      cases c <;> first | exact ht | exact .cons ⟨rfl, rfl, rfl, h.lags, r.lags⟩ .nil

end Dern
