import Verif.Dern.Copy
/-
The values that copying creates consist of new values only (documentation included).
-/
namespace Dern
open Prog (Library)
variable {W : World} {n : Nat} {h : Handler}

/-- since `v0`, only collections and new values, and these refer to new values only -/
structure Islet (W : World) (v0 u : Vm) : Prop where
  sane0 : v0.Sane W
  sane : u.Sane W
  quiet : Vm.Quiet W (fun _ => False) v0 u
  isle : ∀ y c, u.mem y = some c → ¬ v0.Old W y → PubCell (fun z => ¬ v0.Old W z) c

/-- the handler creates such values when it copies -/
def Isles (W : World) (h : Handler) : Prop := ∀ x v a w t, v.Sane W → h (.copy x) v = .ok (a, w, t) → Islet W v w ∧ t = [] ∧ ∀ r, a = some r → ¬ v.Old W r

variable {v0 u w : Vm} {r x : Ref}

theorem Islet.trans (f : Islet W v0 u) (g : Islet W u w) : Islet W v0 w where
  sane0 := f.sane0
  sane := g.sane
  quiet := f.quiet.trans f.sane0 g.quiet
  isle := by
    intro y c hc hy
    by_cases hu : u.Old W y
    · cases hm : u.mem y with
      | none => rw [g.quiet.gone y hu hm] at hc; cases hc
      | some d =>
        have p := f.isle y d hm hy
        rcases g.quiet.cells y d id hm with e | e | ⟨m, t, l, e1, e2⟩
        · obtain rfl : d = c := by rw [hc] at e; exact (Option.some.inj e).symm
          exact p
        · rw [hc] at e; cases e
        · rw [hc] at e2
          cases e2
          exact ⟨trivial, p.docstr, p.docvec⟩
    · exact (g.isle y c hc hu).mono fun z hz h => hz (h.mono f.quiet.births)

theorem Islet.alloc (f : Islet W v0 u) {o : Obj} (a : Allocated W u o r w) (ho : PubObj (fun z => ¬ v0.Old W z) o) : Islet W v0 w where
  sane0 := f.sane0
  sane := a.sane f.sane
  quiet := f.quiet.trans f.sane0 (a.quiet f.sane)
  isle := by
    intro y c hc hy
    by_cases hr : y = r
    · subst hr
      rw [a.cell] at hc
      cases hc
      exact ⟨ho, fun _ h => (by cases h), fun _ h => (by cases h)⟩
    · rcases a.other y hr with e | e
      · exact f.isle y c (by rw [← e]; exact hc) hy
      · rw [hc] at e; cases e

theorem Islet.write (f : Islet W v0 u) {c d : Cell} (hr : ¬ v0.Old W r) (hc : u.mem r = some c) (hu : d.uid = c.uid) (hm : d.mark = c.mark)
    (hd : PubCell (fun z => ¬ v0.Old W z) d) : Islet W v0 { u with mem := u.mem.set r d } where
  sane0 := f.sane0
  sane := write_sane f.sane hc hu hm
  quiet := f.quiet.write f.sane0 (.inr hr) hc
  isle := by
    intro y c' hc' hy
    by_cases he : y = r
    · subst he
      have : (u.mem.set y d) y = some c' := hc'
      rw [Mem.set_self] at this
      cases this
      exact hd
    · have : (u.mem.set r d) y = some c' := hc'
      rw [Mem.set_other _ _ he] at this
      exact f.isle y c' this hy

theorem Islet.same (f : Islet W v0 u) (hw : w.Sane W) (q : Vm.Quiet W (fun _ => False) u w) (hm : w.mem = u.mem) : Islet W v0 w :=
  ⟨f.sane0, hw, f.quiet.trans f.sane0 q, by rw [hm]; exact f.isle⟩

theorem sane_same {v w : Vm} (sv : v.Sane W) (h1 : w.mem = v.mem) (h2 : w.all = v.all) (h3 : w.nextUid = v.nextUid) (h4 : w.births = v.births) : w.Sane W :=
  ⟨by rw [h2]; exact sv.nodup, by rw [h2, h1]; exact sv.dom, by rw [h1]; exact sv.unmarked,
    fun r c hc => (sv.old r c (by rw [← h1]; exact hc)).mono (Nat.le_of_eq h4.symm), by rw [h1, h3]; exact sv.uidLt, by rw [h1]; exact sv.uidInj⟩

theorem Islet.stack (f : Islet W v0 u) (s : List Ref) : Islet W v0 { u with stack := s } :=
  f.same (sane_same f.sane rfl rfl rfl rfl) (.same rfl rfl rfl rfl rfl rfl (fun x => by cases x <;> rfl) rfl) rfl

theorem Islet.tick (f : Islet W v0 u) : Islet W v0 { u with ticks := u.ticks + 1 } :=
  f.same (sane_same f.sane rfl rfl rfl rfl) (.same rfl rfl rfl rfl rfl rfl (fun x => by cases x <;> rfl) rfl) rfl

theorem Islet.copyOf (I : Isles W h) (f : Islet W v0 u) {Q : Ref → Vm → List Event → Prop} (hq : ∀ y w, Islet W v0 w → ¬ v0.Old W y → Q y w []) :
    Wp W n h (Prog.copyOf x) u Q := by
  unfold Prog.copyOf
  refine wp_bind (wp_call fun a w t e => wp_deref fun y hy => ?_)
  obtain ⟨g, rfl, fr⟩ := I x u a w t f.sane e
  exact hq y w (f.trans g) fun h => fr y hy (h.mono f.quiet.births)

theorem Islet.addElement (f : Islet W v0 u) (hr : ¬ v0.Old W r) (hx : ¬ v0.Old W x) {Q : Unit → Vm → List Event → Prop} (hq : ∀ w, Islet W v0 w → Q () w []) :
    Wp W n h (Prog.addElement r x) u Q := by
  unfold Prog.addElement
  refine wp_bind (wp_read fun c hc => ?_)
  split
  · rename_i o ho
    refine wp_setObj fun d hd => ?_
    obtain rfl := same_cell hc hd
    have p := f.isle r c hc hr
    refine hq _ (f.write hr hc rfl rfl ⟨?_, p.docstr, p.docvec⟩)
    have po := p.obj
    revert ho po
    cases c.obj <;> simp only [Prog.Obj.snoc, Option.some.injEq, reduceCtorEq, false_implies]
    all_goals
      rintro rfl po
      intro z hz
      rcases List.mem_append.mp hz with hz | hz
      · exact po z hz
      · rw [List.mem_singleton.mp hz]; exact hx
  · exact wp_fail

theorem Islet.copyElements (I : Isles W h) (hr : ¬ v0.Old W r) : ∀ (xs : List Ref) {u : Vm}, Islet W v0 u → ∀ {Q : Unit → Vm → List Event → Prop},
    (∀ w, Islet W v0 w → Q () w []) → Wp W n h (Prog.copyElements x r xs) u Q
  | [], u, f, Q, hq => wp_pure (hq _ f)
  | z :: xs, u, f, Q, hq => by
    unfold Prog.copyElements
    refine wp_bind (wp_read fun c hc => wp_bind (f.copyOf I fun y w f1 hy => wp_bind (f1.addElement hr hy fun w f2 => ?_)))
    exact f2.copyElements I hr xs hq

theorem Islet.copyPairs (I : Isles W h) (hr : ¬ v0.Old W r) : ∀ (xs : List (Ref × Ref)) {u : Vm}, Islet W v0 u → ∀ {Q : Unit → Vm → List Event → Prop},
    (∀ w, Islet W v0 w → Q () w []) → Wp W n h (Prog.copyPairs x r xs) u Q
  | [], u, f, Q, hq => wp_pure (hq _ f)
  | (z1, z2) :: xs, u, f, Q, hq => by
    unfold Prog.copyPairs
    refine wp_bind (wp_read fun c hc => wp_bind (f.copyOf I fun y1 w1 f1 hy1 => wp_bind (wp_push ?_)))
    refine wp_bind ((f1.stack _).copyOf I fun y2 w2 f2 hy2 => wp_bind (wp_push ?_))
    unfold Prog.addPair
    refine wp_bind (wp_bind (wp_read fun d hd => ?_))
    split
    · rename_i k es ho
      refine wp_bind (wp_arrange fun a ha => ?_)
      obtain ⟨k', es'⟩ := a
      refine wp_setObj fun d' hd' => ?_
      have hdd : w2.mem r = some d := hd
      have hdd' : w2.mem r = some d' := hd'
      obtain rfl := same_cell hdd hdd'
      have p := f2.isle r d hd hr
      have f3 := ((f2.stack (y2 :: w2.stack)).tick).write (d := { d with obj := .hmap k' es' }) hr hd rfl rfl ⟨by
        intro b hb
        rcases List.mem_append.mp (ha.mem_iff.mp hb) with hb | hb
        · have po := p.obj
          rw [ho] at po
          exact po b hb
        · simp at hb; subst hb; exact ⟨hy1, hy2⟩, p.docstr, p.docvec⟩
      simp only [List.nil_append]
      refine wp_bind (wp_pop fun s1 _ => wp_bind (wp_pop fun s2 _ => ?_))
      exact ((f3.stack s1).stack s2).copyPairs I hr xs hq
    · exact wp_fail

theorem Islet.setDoc (f : Islet W v0 u) (hr : ¬ v0.Old W r) {d e : Option Ref} (hd : PubOpt (fun z => ¬ v0.Old W z) d) (he : PubOpt (fun z => ¬ v0.Old W z) e)
    {Q : Unit → Vm → List Event → Prop} (hq : ∀ w, Islet W v0 w → Q () w []) : Wp W n h (Prog.setDoc r d e) u Q :=
  wp_setDoc fun c hc => hq _ (f.write hr hc rfl rfl ⟨(f.isle r c hc hr).obj, hd, he⟩)

theorem Islet.copyDocs (I : Isles W h) (hr : ¬ v0.Old W r) (f : Islet W v0 u) {Q : Unit → Vm → List Event → Prop}
    (hq : ∀ w, Islet W v0 w → Q () w []) : Wp W n h (Prog.copyDocs x r) u Q := by
  have second : ∀ u : Vm, Islet W v0 u → Wp W n h (do
      match (← Prog.read x).docvec with
      | some d => do
        let d' ← Prog.copyOf d
        let c ← Prog.read r
        Prog.setDoc r c.docstr (some d')
      | none => pure ()) u fun _ w t => t = [] ∧ Islet W v0 w := by
    intro u f
    refine wp_bind (wp_read fun d hd => ?_)
    split
    · refine wp_bind (f.copyOf I fun y w f1 hy => wp_bind (wp_read fun c hc => ?_))
      exact f1.setDoc hr (f1.isle r c hc hr).docstr (fun z hz => by cases hz; exact hy) fun w f2 => ⟨rfl, f2⟩
    · exact wp_pure ⟨rfl, f⟩
  have fin : ∀ u : Vm, Islet W v0 u → Wp W n h (do
      match (← Prog.read x).docvec with
      | some d => do
        let d' ← Prog.copyOf d
        let c ← Prog.read r
        Prog.setDoc r c.docstr (some d')
      | none => pure ()) u Q := fun u f => Wp.mono (second u f) (by rintro _ w t ⟨rfl, h⟩; exact hq w h)
  unfold Prog.copyDocs
  refine wp_bind (wp_read fun d hd => ?_)
  split
  · simp only [bind_assoc]
    refine wp_bind (f.copyOf I fun y w f1 hy => wp_bind (wp_read fun c hc => wp_bind ?_))
    exact f1.setDoc hr (fun z hz => by cases hz; exact hy) (f1.isle r c hc hr).docvec fun w f2 => fin w f2
  · exact fin u f

theorem wp_copyIsle (I : Isles W h) {v : Vm} (sv : v.Sane W) : Wp W n h (Prog.copyValue x) v fun a w t => Islet W v w ∧ t = [] ∧ ∀ r, a = some r → ¬ v.Old W r := by
  have f0 : Islet W v v := ⟨sv, sv, .refl v, fun y c hc hy => absurd (sv.old y c hc) hy⟩
  unfold Prog.copyValue
  refine wp_bind (wp_read fun c hc => wp_bind (wp_alloc sv fun r u a => wp_bind (wp_push (wp_bind (wp_read fun d hd => ?_)))))
  have hu : u.mem x = some d := hd
  have hne : x ≠ r := by rintro rfl; exact a.fresh (sv.old _ _ hc)
  obtain rfl : c = d := by
    rcases a.other x hne with e | e
    · rw [e] at hu; exact same_cell hc hu
    · rw [e] at hu; cases hu
  have done : ∀ w, Islet W v w → Wp W n h (do
      Prog.copyDocs x r
      Prog.pop r
      pure (some r)) w fun a w t => Islet W v w ∧ t = [] ∧ ∀ r, a = some r → ¬ v.Old W r := by
    intro w f
    refine wp_bind (f.copyDocs I a.fresh fun w f1 => wp_bind (wp_pop fun s _ => wp_pure ⟨f1.stack s, rfl, ?_⟩))
    rintro _ ⟨⟩
    exact a.fresh
  have start : PubObj (fun z => ¬ v.Old W z) (Prog.shell c.obj) → Islet W v { u with stack := r :: u.stack } := fun ho => (f0.alloc a ho).stack _
  cases ho : c.obj <;> rw [ho] at start
  case vec es => exact wp_bind ((start (by simp [Prog.shell, PubObj])).copyElements I a.fresh es fun w f => done w f)
  case queue m es => exact wp_bind ((start (by simp [Prog.shell, PubObj])).copyElements I a.fresh es fun w f => done w f)
  case list es => exact wp_bind ((start (by simp [Prog.shell, PubObj])).copyElements I a.fresh es fun w f => done w f)
  case hmap k es => exact wp_bind ((start (by simp [Prog.shell, PubObj])).copyPairs I a.fresh es fun w f => done w f)
  case env bs enc =>
    cases enc with
    | none => exact wp_bind wp_fail
    | some e => exact wp_bind (wp_call fun _ _ _ _ => wp_bind wp_fail)
  case fn f => exact wp_bind (wp_call fun _ _ _ _ => wp_bind (wp_call fun _ _ _ _ => wp_bind (wp_call fun _ _ _ _ => wp_bind wp_fail)))
  case mac f => exact wp_bind (wp_call fun _ _ _ _ => wp_bind (wp_call fun _ _ _ _ => wp_bind (wp_call fun _ _ _ _ => wp_bind wp_fail)))
  case port p => exact wp_bind wp_fail
  case cdata p => exact wp_bind wp_fail
  all_goals exact done _ (start trivial)

theorem handler_isles {L : Library} : ∀ n, Isles W (handler W (Prog.body L) n) := by
  intro n
  induction n with
  | zero => intro x v a w t sv h; cases h
  | succ n ih =>
    intro x v a w t sv h
    simp only [handler, Prog.body] at h
    have := wp_copyIsle (n := n) (x := x) ih sv
    cases hr : run W n (handler W (Prog.body L) n) (Prog.copyValue x) v with
    | error e' => rw [hr] at h; cases h
    | ok y =>
      obtain ⟨a', w', t'⟩ := y
      rw [hr] at h
      cases h
      exact this _ _ _ hr

end Dern
