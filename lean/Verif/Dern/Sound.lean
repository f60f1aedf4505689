import Verif.Dern.SafeEval
import Verif.Dern.GcLemmas
import Verif.Dern.Refines
/-
What `Ok` means for the runs of a program: invariants of the virtual machine, and values the program
cannot get at stay as they are.
-/
namespace Dern

/-- allocated before -/
def Vm.Old (W : World) (v : Vm) (r : Ref) : Prop := ∃ k, k < v.births ∧ W.malloc.pick k = r

/-- invariants of the memory -/
structure Vm.Sane (W : World) (v : Vm) : Prop where
  nodup : v.all.Nodup
  dom : ∀ r, r ∈ v.all ↔ (v.mem r).isSome
  unmarked : ∀ r c, v.mem r = some c → c.mark = false
  old : ∀ r c, v.mem r = some c → v.Old W r
  uidLt : ∀ r c, v.mem r = some c → c.uid < v.nextUid
  uidInj : ∀ r c r' c', v.mem r = some c → v.mem r' = some c' → c.uid = c'.uid → r = r'

/-- known values that are not in `X` -/
def Vm.Pub (W : World) (X : Ref → Prop) (v : Vm) (r : Ref) : Prop := v.Old W r ∧ ¬ X r

/-- all references are to values allocated before; the values in `X` are only referred to by each
other and by the stack -/
structure Vm.Closed (W : World) (X : Ref → Prop) (v : Vm) : Prop where
  cells : ∀ r c, v.mem r = some c → PubCell (v.Old W) c
  pub : ∀ r c, v.mem r = some c → ¬ X r → PubCell (v.Pub W X) c
  stack : ∀ x ∈ v.stack, v.Old W x
  ret : PubOpt (v.Pub W X) v.functionReturn
  roots : ∀ which, v.Pub W X (v.root which)
  known : ∀ x, X x → v.Old W x

/-- what happens to values in the course of time: those in `X` do not change -/
structure Vm.Later (W : World) (X : Ref → Prop) (v w : Vm) : Prop where
  births : v.births ≤ w.births
  nextUid : v.nextUid ≤ w.nextUid
  priv : ∀ r, X r → v.Old W r → w.mem r = v.mem r ∨ w.mem r = none
  gone : ∀ r, v.Old W r → v.mem r = none → w.mem r = none
  uid : ∀ r c c', v.mem r = some c → w.mem r = some c' → c'.uid = c.uid
  new : ∀ r c, v.mem r = none → w.mem r = some c → v.nextUid ≤ c.uid
  roots : ∀ which, w.root which = v.root which

variable {W : World} {X : Ref → Prop}

theorem Vm.Old.mono {v w : Vm} (h : v.births ≤ w.births) {r : Ref} (hr : v.Old W r) : w.Old W r := by
  obtain ⟨k, hk, e⟩ := hr
  exact ⟨k, Nat.lt_of_lt_of_le hk h, e⟩

theorem Vm.Pub.mono {v w : Vm} (h : v.births ≤ w.births) {r : Ref} (hr : v.Pub W X r) : w.Pub W X r :=
  ⟨hr.1.mono h, hr.2⟩

theorem PubObj.mono {P Q : Ref → Prop} (h : ∀ x, P x → Q x) {o : Obj} (ho : PubObj P o) : PubObj Q o := by
  cases o <;> simp only [PubObj] at ho ⊢ <;> grind

theorem PubOpt.mono {P Q : Ref → Prop} (h : ∀ x, P x → Q x) {o : Option Ref} (ho : PubOpt P o) : PubOpt Q o :=
  fun x hx => h x (ho x hx)

theorem PubCell.mono {P Q : Ref → Prop} (h : ∀ x, P x → Q x) {c : Cell} (hc : PubCell P c) : PubCell Q c :=
  ⟨hc.obj.mono h, hc.docstr.mono h, hc.docvec.mono h⟩

theorem Vm.Later.refl (v : Vm) : Vm.Later W X v v where
  births := Nat.le_refl _
  nextUid := Nat.le_refl _
  priv := fun _ _ _ => .inl rfl
  gone := fun _ _ h => h
  uid := fun r c c' h h' => by rw [h] at h'; cases h'; rfl
  new := fun r c h h' => by rw [h] at h'; cases h'
  roots := fun _ => rfl

theorem Vm.Later.trans {v w u : Vm} (sv : v.Sane W) (h1 : Vm.Later W X v w) (h2 : Vm.Later W X w u) :
    Vm.Later W X v u where
  births := Nat.le_trans h1.births h2.births
  nextUid := Nat.le_trans h1.nextUid h2.nextUid
  priv := fun r hx ho => by
    rcases h1.priv r hx ho with e | e
    · rcases h2.priv r hx (ho.mono h1.births) with e' | e'
      · exact .inl (e'.trans e)
      · exact .inr e'
    · exact .inr (h2.gone r (ho.mono h1.births) e)
  gone := fun r ho e => h2.gone r (ho.mono h1.births) (h1.gone r ho e)
  uid := fun r c c' hc hc' => by
    cases hw : w.mem r with
    | none =>
      have := h2.gone r ((sv.old r c hc).mono h1.births) hw
      rw [this] at hc'; cases hc'
    | some d => rw [h2.uid r d c' hw hc', h1.uid r c d hc hw]
  new := fun r c hn hc => by
    cases hw : w.mem r with
    | none => exact Nat.le_trans h1.nextUid (h2.new r c hw hc)
    | some d => rw [h2.uid r d c hw hc]; exact h1.new r d hn hw
  roots := fun which => (h2.roots which).trans (h1.roots which)

/-! ### collection and allocation -/

/-- a collection that returns has found all reachable values live -/
theorem gc_live {v w : Vm} (nodup : v.all.Nodup) (dom : ∀ r, r ∈ v.all ↔ (v.mem r).isSome)
    (unmarked : ∀ r c, v.mem r = some c → c.mark = false) (h : gc v = .ok ((), w)) : v.Wf := by
  refine ⟨nodup, dom, unmarked, ?_⟩
  unfold gc at h
  cases h1 : markList (markRef (v.all.length + 1)) v.mem v.stack.reverse with
  | error e => rw [h1] at h; simp [bind, Except.bind] at h
  | ok m1 =>
    have p := markList_post (markRef_post _) _ _ _ h1
    have none : ∀ x, ¬ v.mem.Marked x := by
      rintro x ⟨c, hc, hm⟩
      rw [unmarked x c hc] at hm; cases hm
    intro r hr
    have : m1.Marked r := hr.closed (P := m1.Marked) (fun y hy => p.roots y (by simpa using hy))
      (fun y z hy he => p.closed y z hy (none y) he)
    obtain ⟨c, hc, _⟩ := this
    rw [← p.same.live r, hc]; rfl

theorem gc_keeps {v w : Vm} (s : v.Sane W) (h : gc v = .ok ((), w)) :
    (∀ r, w.mem r = v.mem r ∨ w.mem r = none) ∧ (∀ r, v.Kept r → w.mem r = v.mem r) ∧
    w.all.Nodup ∧ (∀ r, r ∈ w.all ↔ (w.mem r).isSome) ∧ w = { v with mem := w.mem, all := w.all } := by
  have wf := gc_live s.nodup s.dom s.unmarked h
  obtain ⟨h1, h2, h3, h4, h5, h6⟩ := gc_wf wf h
  refine ⟨fun r => ?_, h2, h1.nodup, h1.dom, h6⟩
  by_cases hk : v.Kept r
  · exact .inl (h2 r hk)
  · exact .inr (h4 r hk)

/-- the effect of an allocation -/
structure Allocated (W : World) (v : Vm) (o : Obj) (r : Ref) (w : Vm) : Prop where
  addr : r = W.malloc.pick v.births
  cell : w.mem r = some { obj := o, uid := v.nextUid }
  other : ∀ x, x ≠ r → w.mem x = v.mem x ∨ w.mem x = none
  kept : ∀ x, v.Kept x → x ≠ r → w.mem x = v.mem x
  births : w.births = v.births + 1
  nextUid : w.nextUid = v.nextUid + 1
  stack : w.stack = v.stack
  ret : w.functionReturn = v.functionReturn
  quit : w.quit = v.quit
  exitCode : w.exitCode = v.exitCode
  out : w.out = v.out
  readably : w.readably = v.readably
  ticks : w.ticks = v.ticks
  roots : ∀ which, w.root which = v.root which
  nodup : w.all.Nodup
  dom : ∀ x, x ∈ w.all ↔ (w.mem x).isSome

theorem not_old_next {v : Vm} : ¬ v.Old W (W.malloc.pick v.births) := by
  rintro ⟨k, hk, e⟩
  have := W.malloc.inj _ _ e
  omega

theorem Vm.Sane.next {v : Vm} (s : v.Sane W) : v.mem (W.malloc.pick v.births) = none := by
  cases h : v.mem (W.malloc.pick v.births) with
  | none => rfl
  | some c => exact absurd (s.old _ c h) not_old_next

theorem alloc_spec {v w : Vm} (s : v.Sane W) {o : Obj} {r : Ref} (h : Dern.alloc W.malloc o v = .ok (r, w)) :
    Allocated W v o r w := by
  have fin : ∀ (u : Vm), (∀ x, u.mem x = v.mem x ∨ u.mem x = none) → (∀ x, v.Kept x → u.mem x = v.mem x) →
      u.all.Nodup → (∀ x, x ∈ u.all ↔ (u.mem x).isSome) →
      (∃ k, u = { v with mem := u.mem, all := u.all, sinceGc := k }) →
      (if u.nextUid = uintMax then M.fail .abort else do
        M.modify fun v => { v with
          mem := v.mem.set (W.malloc.pick u.births) { obj := o, uid := v.nextUid }
          all := v.all ++ [W.malloc.pick u.births]
          nextUid := v.nextUid + 1
          births := v.births + 1 }
        pure (W.malloc.pick u.births) : M Ref) u = .ok (r, w) → Allocated W v o r w := by
    rintro u h1 h2 h3 h4 ⟨k, h5⟩ h
    have eb : u.births = v.births := by rw [h5]
    have eu : u.nextUid = v.nextUid := by rw [h5]
    rw [eb] at h
    split at h
    · cases h
    · simp only [M.modify, bind, StateT.bind, Except.bind, pure, StateT.pure, Except.pure] at h
      cases h
      have fresh : u.mem (W.malloc.pick v.births) = none := by
        rcases h1 (W.malloc.pick v.births) with e | e
        · rw [e]; exact s.next
        · exact e
      refine ⟨rfl, ?_, ?_, ?_, ?_, ?_, ?_, ?_, ?_, ?_, ?_, ?_, ?_, ?_, ?_, ?_⟩
      · simp [Mem.set, eu]
      · intro x hx; simp only [Mem.set, if_neg hx]; exact h1 x
      · intro x hk hx; simp only [Mem.set, if_neg hx]; exact h2 x hk
      · simp [eb]
      · simp [eu]
      · simp only; rw [h5]
      · simp only; rw [h5]
      · simp only; rw [h5]
      · simp only; rw [h5]
      · simp only; rw [h5]
      · simp only; rw [h5]
      · simp only; rw [h5]
      · intro which; cases which <;> simp only [Vm.root] <;> rw [h5]
      · rw [List.nodup_append]
        refine ⟨h3, by simp, ?_⟩
        intro a ha b hb
        simp at hb
        subst hb
        rintro rfl
        rw [h4, fresh] at ha
        simp at ha
      · intro x
        simp only [List.mem_append, List.mem_singleton, Mem.set]
        by_cases hx : x = W.malloc.pick v.births
        · simp [hx]
        · simp [hx, h4]
  unfold Dern.alloc at h
  simp only [bind, StateT.bind, M.get, Except.bind] at h
  split at h
  · simp only [StateT.bind, bind, Except.bind] at h
    cases hg : gc v with
    | error e => rw [hg] at h; cases h
    | ok x =>
      obtain ⟨⟨⟩, u⟩ := x
      rw [hg] at h
      obtain ⟨h1, h2, h3, h4, h5⟩ := gc_keeps s hg
      exact fin { u with sinceGc := 0 } h1 h2 h3 h4 ⟨0, by rw [h5]⟩ h
  · exact fin { v with sinceGc := v.sinceGc + 1 } (fun _ => .inl rfl) (fun _ _ => rfl) s.nodup s.dom ⟨_, rfl⟩ h

theorem Allocated.fresh {v w : Vm} {o : Obj} {r : Ref} (a : Allocated W v o r w) : ¬ v.Old W r := by
  rw [a.addr]; exact not_old_next

theorem Allocated.old {v w : Vm} {o : Obj} {r : Ref} (a : Allocated W v o r w) : w.Old W r :=
  ⟨v.births, by rw [a.births]; omega, a.addr.symm⟩

theorem Allocated.some {v w : Vm} {o : Obj} {r x : Ref} {c : Cell} (a : Allocated W v o r w)
    (h : w.mem x = some c) : (x = r ∧ c = { obj := o, uid := v.nextUid }) ∨ (x ≠ r ∧ v.mem x = some c) := by
  by_cases hx : x = r
  · subst hx; rw [a.cell] at h; cases h; exact .inl ⟨rfl, rfl⟩
  · rcases a.other x hx with e | e
    · exact .inr ⟨hx, by rw [← e]; exact h⟩
    · rw [e] at h; cases h

theorem Allocated.sane {v w : Vm} {o : Obj} {r : Ref} (s : v.Sane W) (a : Allocated W v o r w) : w.Sane W where
  nodup := a.nodup
  dom := a.dom
  unmarked := fun x c h => by
    rcases a.some h with ⟨_, rfl⟩ | ⟨_, h⟩
    · rfl
    · exact s.unmarked x c h
  old := fun x c h => by
    rcases a.some h with ⟨rfl, _⟩ | ⟨_, h⟩
    · exact a.old
    · exact (s.old x c h).mono (by rw [a.births]; omega)
  uidLt := fun x c h => by
    rw [a.nextUid]
    rcases a.some h with ⟨_, rfl⟩ | ⟨_, h⟩
    · exact Nat.lt_succ_self _
    · exact Nat.lt_succ_of_lt (s.uidLt x c h)
  uidInj := fun x c x' c' h h' e => by
    rcases a.some h with ⟨rfl, rfl⟩ | ⟨_, h⟩ <;> rcases a.some h' with ⟨rfl, rfl⟩ | ⟨_, h'⟩
    · rfl
    · have := s.uidLt x' c' h'; simp only at e; omega
    · have := s.uidLt x c h; simp only at e; omega
    · exact s.uidInj x c x' c' h h' e

theorem Allocated.later {v w : Vm} {o : Obj} {r : Ref} (s : v.Sane W) (a : Allocated W v o r w) : Vm.Later W X v w where
  births := by rw [a.births]; omega
  nextUid := by rw [a.nextUid]; omega
  priv := fun x _ ho => a.other x (fun e => a.fresh (e ▸ ho))
  gone := fun x ho h => by
    rcases a.other x (fun e => a.fresh (e ▸ ho)) with e | e
    · rw [e, h]
    · exact e
  uid := fun x c c' h h' => by
    rcases a.some h' with ⟨rfl, rfl⟩ | ⟨_, h'⟩
    · exact absurd (s.old _ c h) a.fresh
    · rw [h] at h'; cases h'; rfl
  new := fun x c h h' => by
    rcases a.some h' with ⟨rfl, rfl⟩ | ⟨_, h'⟩
    · exact Nat.le_refl _
    · rw [h] at h'; cases h'
  roots := a.roots

theorem Allocated.closed {v w : Vm} {o : Obj} {r : Ref} (a : Allocated W v o r w) (cl : v.Closed W X)
    (ho : PubObj (v.Pub W X) o) : w.Closed W X := by
  have hb : v.births ≤ w.births := by rw [a.births]; omega
  have up : ∀ x, v.Pub W X x → w.Pub W X x := fun x h => h.mono hb
  have up' : ∀ x, v.Old W x → w.Old W x := fun x h => h.mono hb
  refine ⟨?_, ?_, ?_, ?_, ?_, fun x hx => up' x (cl.known x hx)⟩
  · intro x c h
    rcases a.some h with ⟨_, rfl⟩ | ⟨_, h⟩
    · exact ⟨ho.mono fun x h => (up x h).1, Prog.pubOpt_none, Prog.pubOpt_none⟩
    · exact (cl.cells x c h).mono up'
  · intro x c h hx
    rcases a.some h with ⟨_, rfl⟩ | ⟨_, h⟩
    · exact ⟨ho.mono up, Prog.pubOpt_none, Prog.pubOpt_none⟩
    · exact (cl.pub x c h hx).mono up
  · rw [a.stack]; exact fun x h => up' x (cl.stack x h)
  · rw [a.ret]; exact cl.ret.mono up
  · intro which; rw [a.roots]; exact up _ (cl.roots which)


theorem Allocated.pub {v w : Vm} {o : Obj} {r : Ref} (a : Allocated W v o r w) (cl : v.Closed W X) :
    w.Pub W X r := ⟨a.old, fun h => a.fresh (cl.known r h)⟩

/-! ### changing a value in place -/

theorem write_spec {v w : Vm} {r : Ref} {f : Cell → Cell} (h : M.write r f v = .ok ((), w)) :
    ∃ c, v.mem r = some c ∧ w = { v with mem := v.mem.set r (f c) } := by
  unfold M.write at h
  split at h
  · rename_i c hc; cases h; exact ⟨c, hc, rfl⟩
  · cases h

theorem set_some {m : Mem} {r x : Ref} {d c : Cell} (h : m.set r d x = some c) :
    (x = r ∧ c = d) ∨ (x ≠ r ∧ m x = some c) := by
  unfold Mem.set at h
  split at h
  · rename_i e; cases h; exact .inl ⟨e, rfl⟩
  · rename_i e; exact .inr ⟨e, h⟩

theorem write_sane {v : Vm} (s : v.Sane W) {r : Ref} {c d : Cell} (hc : v.mem r = some c) (hu : d.uid = c.uid)
    (hm : d.mark = c.mark) : Vm.Sane W { v with mem := v.mem.set r d } where
  nodup := s.nodup
  dom := fun x => by
    simp only
    rw [s.dom]
    unfold Mem.set
    split
    · rename_i e; subst e; simp [hc]
    · rfl
  unmarked := fun x y h => by
    rcases set_some h with ⟨rfl, rfl⟩ | ⟨_, h⟩
    · rw [hm]; exact s.unmarked _ _ hc
    · exact s.unmarked x y h
  old := fun x y h => by
    rcases set_some h with ⟨rfl, rfl⟩ | ⟨_, h⟩
    · exact s.old _ _ hc
    · exact s.old x y h
  uidLt := fun x y h => by
    rcases set_some h with ⟨rfl, rfl⟩ | ⟨_, h⟩
    · rw [hu]; exact s.uidLt _ _ hc
    · exact s.uidLt x y h
  uidInj := fun x y x' y' h h' e => by
    rcases set_some h with ⟨rfl, rfl⟩ | ⟨_, g⟩
    · rcases set_some h' with ⟨rfl, rfl⟩ | ⟨_, g'⟩
      · rfl
      · rw [hu] at e; exact s.uidInj _ _ _ _ hc g' e
    · rcases set_some h' with ⟨rfl, rfl⟩ | ⟨_, g'⟩
      · rw [hu] at e; exact s.uidInj _ _ _ _ g hc e
      · exact s.uidInj _ _ _ _ g g' e

theorem write_later {v : Vm} {r : Ref} {c d : Cell} (hc : v.mem r = some c) (hu : d.uid = c.uid)
    (hx : ¬ X r) : Vm.Later W X v { v with mem := v.mem.set r d } where
  births := Nat.le_refl _
  nextUid := Nat.le_refl _
  priv := fun x h _ => by
    left
    show v.mem.set r d x = v.mem x
    unfold Mem.set
    rw [if_neg]
    rintro rfl
    exact hx h
  gone := fun x _ h => by
    show v.mem.set r d x = none
    unfold Mem.set
    rw [if_neg, h]
    rintro rfl
    rw [hc] at h; cases h
  uid := fun x y y' h h' => by
    rcases set_some h' with ⟨rfl, rfl⟩ | ⟨_, h'⟩
    · rw [hc] at h; cases h; exact hu
    · rw [h] at h'; cases h'; rfl
  new := fun x y h h' => by
    rcases set_some h' with ⟨rfl, rfl⟩ | ⟨_, h'⟩
    · rw [hc] at h; cases h
    · rw [h] at h'; cases h'
  roots := fun which => by cases which <;> rfl

theorem write_closed {v : Vm} (cl : v.Closed W X) {r : Ref} {d : Cell} (hd : PubCell (v.Pub W X) d) :
    Vm.Closed W X { v with mem := v.mem.set r d } where
  cells := fun x y h => by
    rcases set_some h with ⟨rfl, rfl⟩ | ⟨_, h⟩
    · exact hd.mono fun x h => h.1
    · exact cl.cells x y h
  pub := fun x y h hx => by
    rcases set_some h with ⟨rfl, rfl⟩ | ⟨_, h⟩
    · exact hd
    · exact cl.pub x y h hx
  stack := cl.stack
  ret := cl.ret
  roots := fun which => by have := cl.roots which; cases which <;> exact this
  known := cl.known

/-! ### runs -/

/-- the state after a step is well-behaved -/
structure Vm.Good (W : World) (X : Ref → Prop) (v w : Vm) : Prop where
  sane : w.Sane W
  closed : w.Closed W X
  later : Vm.Later W X v w

theorem Vm.Good.trans {v w u : Vm} (sv : v.Sane W) (h1 : Vm.Good W X v w) (h2 : Vm.Good W X w u) :
    Vm.Good W X v u := ⟨h2.sane, h2.closed, h1.later.trans sv h2.later⟩

/-- what a call does -/
def CallSpec (W : World) (h : Handler) : Prop :=
  ∀ (X : Ref → Prop) (c : Call) (v : Vm) (t : List Ref), v.Sane W → v.Closed W X →
    (∀ x ∈ c.refs, v.Pub W X x) → c.Effect v.stack t →
    match h c v with
    | .ok (a, w, _) => Vm.Good W X v w ∧ w.stack = t ∧ PubOpt (w.Pub W X) a
    | .error e => e ≠ .unbalanced

theorem markRef_calm : ∀ (n : Nat) (m : Mem) (r : Ref), Calm (markRef n m r) := by
  intro n
  induction n with
  | zero => intro m r h; cases h
  | succ n ih =>
    intro m r
    have hl : ∀ (rs : List Ref) (m : Mem), Calm (markList (markRef n) m rs) := by
      intro rs
      induction rs with
      | nil => intro m; exact calm_ok _
      | cons r rs ihr => intro m; exact (ih m r).bind fun m => ihr m
    refine (calm_read m r).bind fun c => ?_
    split
    · exact calm_ok _
    · exact hl _ _

theorem sweepFrom_calm : ∀ (rs : List Ref) (m : Mem), Calm (sweepFrom m rs) := by
  intro rs
  induction rs with
  | nil => intro m; exact calm_ok _
  | cons r rs ih =>
    intro m
    refine (calm_read m r).bind fun c => ?_
    split
    · exact (ih _).bind fun x => calm_ok _
    · exact ih _

theorem gc_calm (v : Vm) : Calm (gc v) := by
  have hl : ∀ (rs : List Ref) (m : Mem), Calm (markList (markRef (v.all.length + 1)) m rs) := by
    intro rs
    induction rs with
    | nil => intro m; exact calm_ok _
    | cons r rs ihr => intro m; exact (markRef_calm _ m r).bind fun m => ihr m
  refine (hl _ _).bind fun m => (sweepFrom_calm _ _).bind fun x => calm_ok _

theorem alloc_calm (o : Obj) (v : Vm) : Calm (Dern.alloc W.malloc o v) := by
  have fin : ∀ (u : Vm), Calm ((if u.nextUid = uintMax then M.fail .abort else do
        M.modify fun v => { v with
          mem := v.mem.set (W.malloc.pick u.births) { obj := o, uid := v.nextUid }
          all := v.all ++ [W.malloc.pick u.births]
          nextUid := v.nextUid + 1
          births := v.births + 1 }
        pure (W.malloc.pick u.births) : M Ref) u) := by
    intro u
    split
    · intro h; cases h
    · exact calm_ok _
  unfold Dern.alloc
  simp only [bind, StateT.bind, M.get, Except.bind]
  split
  · simp only [StateT.bind, bind, Except.bind]
    have := gc_calm v
    cases hg : gc v with
    | error e => rw [hg] at this; intro h; exact this (by cases h; rfl)
    | ok x => exact fin _
  · exact fin _


theorem Call.Effect.append {c : Call} {s s' : List Ref} (h : c.Effect s s') (t : List Ref) :
    c.Effect (s ++ t) (s' ++ t) := by
  cases c <;> simp only [Call.Effect] at h ⊢ <;> subst h <;> simp

/-- the only changes are in fields other than the memory and the roots -/
theorem good_same {v w : Vm} (sv : v.Sane W) (cv : v.Closed W X) (hm : w.mem = v.mem) (ha : w.all = v.all)
    (hn : w.nextUid = v.nextUid) (hb : w.births = v.births) (hr : ∀ which, w.root which = v.root which)
    (hs : ∀ x ∈ w.stack, w.Old W x) (hf : PubOpt (w.Pub W X) w.functionReturn) : Vm.Good W X v w := by
  have old : ∀ x, w.Old W x ↔ v.Old W x := by intro x; unfold Vm.Old; rw [hb]
  have pub : ∀ x, v.Pub W X x → w.Pub W X x := fun x h => ⟨(old x).mpr h.1, h.2⟩
  refine ⟨⟨by rw [ha]; exact sv.nodup, by rw [ha, hm]; exact sv.dom, by rw [hm]; exact sv.unmarked,
    fun r c h => (old r).mpr (sv.old r c (by rw [← hm]; exact h)), by rw [hm, hn]; exact sv.uidLt,
    by rw [hm]; exact sv.uidInj⟩, ⟨?_, ?_, hs, hf, ?_, fun x h => (old x).mpr (cv.known x h)⟩, ?_⟩
  · intro r c h
    exact (cv.cells r c (by rw [← hm]; exact h)).mono fun x h => (old x).mpr h
  · intro r c h hx
    exact (cv.pub r c (by rw [← hm]; exact h) hx).mono pub
  · intro which; rw [hr]; exact pub _ (cv.roots which)
  · refine ⟨Nat.le_of_eq hb.symm, Nat.le_of_eq hn.symm, fun _ _ _ => by rw [hm]; exact .inl rfl,
      fun _ _ h => by rw [hm]; exact h, fun r c c' h h' => ?_, fun r c h h' => ?_, hr⟩
    · rw [hm, h] at h'; cases h'; rfl
    · rw [hm, h] at h'; cases h'

/-- one operation -/
theorem step_sound {n : Nat} {h : Handler} (hc : CallSpec W h) (o : Op) (k : o.Resp → Prog β)
    (v : Vm) (s t : List Ref) (Q : (Ref → Prop) → β → List Ref → Prop) (sv : v.Sane W) (cv : v.Closed W X)
    (hs : v.stack = s ++ t) (hp : ∀ P : Ref → Prop, (∀ x, v.Pub W X x → P x) → Prog.Ok P (.op o k) s (Q P)) :
    match step W n h o v with
    | .ok (a, w, _) => Vm.Good W X v w ∧ ∃ s', w.stack = s' ++ t ∧
        ∀ P : Ref → Prop, (∀ x, w.Pub W X x → P x) → Prog.Ok P (k a) s' (Q P)
    | .error e => e ≠ .unbalanced := by
  have h0 := hp (v.Pub W X) fun _ h => h
  have write : ∀ (r : Ref) (f : Cell → Cell), ¬ X r → (∀ c, (f c).uid = c.uid ∧ (f c).mark = c.mark) →
      (∀ c, PubCell (v.Pub W X) c → PubCell (v.Pub W X) (f c)) →
      (∃ w, quiet (M.write r f) v = .ok ((), w, []) ∧ Vm.Good W X v w ∧ w.stack = v.stack ∧ w.births = v.births) ∨
      ∃ e, quiet (M.write r f) v = .error e ∧ e ≠ .unbalanced := by
    intro r f hx hf hf'
    unfold quiet
    cases e : M.write r f v with
    | error e' =>
      refine .inr ⟨e', rfl, ?_⟩
      unfold M.write at e
      split at e
      · cases e
      · cases e; simp
    | ok x =>
      obtain ⟨⟨⟩, w⟩ := x
      obtain ⟨c, hc, rfl⟩ := write_spec e
      exact .inl ⟨_, rfl, ⟨write_sane sv hc (hf c).1 (hf c).2, write_closed cv (hf' c (cv.pub r c hc hx)),
        write_later hc (hf c).1 hx⟩, rfl, rfl⟩
  have pubw : ∀ {w : Vm}, w.births = v.births → ∀ {P : Ref → Prop}, (∀ x, w.Pub W X x → P x) →
      ∀ x, v.Pub W X x → P x := by
    intro w hb P hP x hx
    exact hP x (hx.mono (Nat.le_of_eq hb.symm))
  have same : ∀ {w : Vm}, w.mem = v.mem → w.all = v.all → w.nextUid = v.nextUid → w.births = v.births →
      (∀ which, w.root which = v.root which) → (∀ x ∈ w.stack, w.Old W x) →
      PubOpt (w.Pub W X) w.functionReturn → Vm.Good W X v w := fun a b c d e f g => good_same sv cv a b c d e f g
  have idgood : Vm.Good W X v v := ⟨sv, cv, .refl v⟩
  cases o with
  | alloc o =>
    simp only [step, quiet]
    cases e : Dern.alloc W.malloc o v with
    | error e' => simp only; rintro rfl; exact alloc_calm o v e
    | ok x =>
      obtain ⟨r, w⟩ := x
      simp only
      have a := alloc_spec sv e
      refine ⟨⟨a.sane sv, a.closed cv h0.1, a.later sv⟩, s, by rw [a.stack, hs], ?_⟩
      intro P hP
      exact (hp P fun x hx => hP x (hx.mono (by rw [a.births]; omega))).2 r (hP r (a.pub cv))
  | read r =>
    simp only [step, quiet, M.read]
    cases e : v.mem.read r with
    | error e' => simp only; rintro rfl; exact calm_read _ _ e
    | ok c =>
      simp only
      have hc : v.mem r = some c := by
        unfold Mem.read at e
        split at e
        · cases e; assumption
        · cases e
      refine ⟨idgood, s, hs, fun P hP => ?_⟩
      exact (hp P hP).2 c ((cv.pub r c hc h0.1.2).mono hP)
  | setObj r o =>
    rcases write r (fun c => { c with obj := o }) h0.1.2 (fun _ => ⟨rfl, rfl⟩) (fun c hc => ⟨h0.2.1, hc.docstr, hc.docvec⟩) with
      ⟨w, e, g, hs', hb⟩ | ⟨e', e, ne⟩
    · have e : step W n h (.setObj r o) v = .ok ((), w, []) := e
      rw [e]
      exact ⟨g, s, by rw [hs', hs], fun P hP => (hp P (pubw hb hP)).2.2⟩
    · have e : step W n h (.setObj r o) v = .error e' := e
      rw [e]; exact ne
  | replace r o =>
    rcases write r (fun c => { c with obj := o, gen := c.gen + 1 }) h0.1.2 (fun _ => ⟨rfl, rfl⟩) (fun c hc => ⟨h0.2.1, hc.docstr, hc.docvec⟩) with
      ⟨w, e, g, hs', hb⟩ | ⟨e', e, ne⟩
    · have e : step W n h (.replace r o) v = .ok ((), w, []) := e
      rw [e]
      exact ⟨g, s, by rw [hs', hs], fun P hP => (hp P (pubw hb hP)).2.2⟩
    · have e : step W n h (.replace r o) v = .error e' := e
      rw [e]; exact ne
  | setDoc r d d' =>
    rcases write r (fun c => { c with docstr := d, docvec := d' }) h0.1.2 (fun _ => ⟨rfl, rfl⟩) (fun c hc => ⟨hc.obj, h0.2.1, h0.2.2.1⟩) with
      ⟨w, e, g, hs', hb⟩ | ⟨e', e, ne⟩
    · have e : step W n h (.setDoc r d d') v = .ok ((), w, []) := e
      rw [e]
      exact ⟨g, s, by rw [hs', hs], fun P hP => (hp P (pubw hb hP)).2.2.2⟩
    · have e : step W n h (.setDoc r d d') v = .error e' := e
      rw [e]; exact ne
  | setHowto r b =>
    rcases write r (fun c => { c with howto := b }) h0.1.2 (fun _ => ⟨rfl, rfl⟩) (fun c hc => ⟨hc.obj, hc.docstr, hc.docvec⟩) with
      ⟨w, e, g, hs', hb⟩ | ⟨e', e, ne⟩
    · have e : step W n h (.setHowto r b) v = .ok ((), w, []) := e
      rw [e]
      exact ⟨g, s, by rw [hs', hs], fun P hP => (hp P (pubw hb hP)).2⟩
    · have e : step W n h (.setHowto r b) v = .error e' := e
      rw [e]; exact ne
  | push r =>
    simp only [step, quiet, Dern.push, M.modify]
    refine ⟨same rfl rfl rfl rfl (fun which => by cases which <;> rfl) ?_ cv.ret, r :: s, by simp [hs], fun P hP => (hp P hP).2⟩
    intro x hx
    simp only [List.mem_cons] at hx
    rcases hx with rfl | hx
    · exact h0.1.1
    · exact cv.stack x hx
  | pop r =>
    obtain ⟨s', e, _⟩ := h0
    subst e
    simp only [step, quiet, Dern.pop, hs, List.cons_append, if_true]
    refine ⟨same rfl rfl rfl rfl (fun which => by cases which <;> rfl) ?_ cv.ret, s', rfl, fun P hP => ?_⟩
    · intro x hx
      exact cv.stack x (by rw [hs]; exact List.mem_cons_of_mem _ hx)
    · obtain ⟨s'', e, h⟩ := hp P hP
      cases e
      exact h
  | getReturn => exact ⟨idgood, s, hs, fun P hP => hp P hP _ (cv.ret.mono hP)⟩
  | setReturn a =>
    simp only [step]
    exact ⟨same rfl rfl rfl rfl (fun which => by cases which <;> rfl) cv.stack h0.1, s, hs, fun P hP => (hp P hP).2⟩
  | isQuit => exact ⟨idgood, s, hs, fun P hP => hp P hP _⟩
  | quit c =>
    simp only [step]
    exact ⟨same rfl rfl rfl rfl (fun which => by cases which <;> rfl) cv.stack cv.ret, s, hs, fun P hP => hp P hP⟩
  | root which => exact ⟨idgood, s, hs, fun P hP => hp P hP _ (hP _ (cv.roots which))⟩
  | emit t' =>
    simp only [step]
    exact ⟨same rfl rfl rfl rfl (fun which => by cases which <;> rfl) cv.stack cv.ret, s, hs, fun P hP => hp P hP⟩
  | text w =>
    simp only [step]
    exact ⟨same rfl rfl rfl rfl (fun which => by cases which <;> rfl) cv.stack cv.ret, s, hs, fun P hP => hp P hP _⟩
  | compare a b =>
    simp only [step]
    cases e : compareRef v.mem n a b with
    | error e' => simp only; rintro rfl; exact compareRef_calm _ _ _ _ e
    | ok c => exact ⟨idgood, s, hs, fun P hP => (hp P hP).2.2 _⟩
  | arrange es =>
    simp only [step]
    refine ⟨same rfl rfl rfl rfl (fun which => by cases which <;> rfl) cv.stack cv.ret, s, hs, fun P hP => (hp P hP).2 _ ?_⟩
    intro e he
    exact (hp P hP).1 e ((W.perm _ _).mem_iff.mp he)
  | real =>
    simp only [step]
    exact ⟨same rfl rfl rfl rfl (fun which => by cases which <;> rfl) cv.stack cv.ret, s, hs, fun P hP => hp P hP _⟩
  | print p r =>
    simp only [step]
    cases e : printRef v.mem W.fmt v.readably n p r with
    | error e' => simp only; rintro rfl; exact printRef_calm _ _ _ _ _ _ e
    | ok c => exact ⟨idgood, s, hs, fun P hP => (hp P hP).2 _⟩
  | readably => exact ⟨idgood, s, hs, fun P hP => hp P hP _⟩
  | setReadably b =>
    simp only [step]
    exact ⟨same rfl rfl rfl rfl (fun which => by cases which <;> rfl) cv.stack cv.ret, s, hs, fun P hP => hp P hP⟩
  | fail e => exact h0
  | call c =>
    simp only [step]
    obtain ⟨hr, s', he, _⟩ := h0
    have := hc X c v (s' ++ t) sv cv hr (by rw [hs]; exact he.append t)
    split at this
    · rename_i a w tr e
      obtain ⟨g, hst, ha⟩ := this
      rw [e]
      refine ⟨g, s', hst, fun P hP => ?_⟩
      obtain ⟨_, s'', he', hk⟩ := hp P fun x hx => hP x (hx.mono g.later.births)
      have : s'' = s' := by
        cases c <;> simp only [Call.Effect] at he he' <;> simp_all
      subst this
      exact hk a (ha.mono hP)
    · rename_i e heq
      rw [heq]; exact this

theorem run_sound {n : Nat} {h : Handler} (hc : CallSpec W h) (p : Prog α) :
    ∀ (v : Vm) (s t : List Ref) (Q : (Ref → Prop) → α → List Ref → Prop), v.Sane W → v.Closed W X →
    v.stack = s ++ t → (∀ P : Ref → Prop, (∀ x, v.Pub W X x → P x) → Prog.Ok P p s (Q P)) →
    match run W n h p v with
    | .ok (a, w, _) => Vm.Good W X v w ∧ ∃ s', w.stack = s' ++ t ∧ Q (w.Pub W X) a s'
    | .error e => e ≠ .unbalanced := by
  induction p with
  | done a =>
    intro v s t Q sv cv hs hp
    exact ⟨⟨sv, cv, .refl v⟩, s, hs, hp _ fun _ h => h⟩
  | op o k ih =>
    intro v s t Q sv cv hs hp
    have := step_sound (n := n) hc o k v s t Q sv cv hs hp
    simp only [run]
    split at this
    · rename_i a w tr e
      obtain ⟨g, s', hs', hp'⟩ := this
      rw [e]
      simp only
      have := ih a w s' t Q g.sane g.closed hs' hp'
      split at this
      · rename_i b u tr' e'
        rw [e']
        exact ⟨g.trans sv this.1, this.2⟩
      · rename_i e' heq
        rw [heq]; exact this
    · rename_i e heq
      rw [heq]; exact this

theorem handler_sound {L : Prog.Library} (hL : L.Safe) : ∀ n, CallSpec W (handler W (Prog.body L) n) := by
  intro n
  induction n with
  | zero => intro X c v t _ _ _ _; simp [handler]
  | succ n ih =>
    intro X c v t sv cv hr he
    simp only [handler]
    have := run_sound (X := X) (n := n) ih (Prog.body L c) v v.stack [] (fun P a s' => s' = t ∧ PubOpt P a) sv cv (by simp)
      (fun P hP => Prog.ok_body hL c (fun x hx => hP x (hr x hx)) _ _ he)
    split at this
    · rename_i a w tr e
      rw [e]
      obtain ⟨g, s', hs, rfl, ha⟩ := this
      exact ⟨g, by simpa using hs, ha⟩
    · rename_i e heq
      rw [heq]; exact this

end Dern
