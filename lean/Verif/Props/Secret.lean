import Verif.Props.Calling
import Verif.Dern.Apply
/-
Vectors that are being made while programs are evaluated, and which nobody knows meanwhile.
-/
namespace Dern.Props
open Dern
open Dern.Spec (Reach)
open Dern.Prog (Library)
variable {W : World} {n : Nat} {h : Handler} {env : Ref} {ms : List (Ref × List Ref)} {cur : Option Ref} {acc st : List Ref} {v w u : Vm}

/-- the values that nobody knows: the vectors `ms`, which are done, and the vector `cur`, which is being filled -/
def hid (ms : List (Ref × List Ref)) (cur : Option Ref) (x : Ref) : Prop := some x = cur ∨ ∃ m ∈ ms, m.1 = x

theorem hid_congr {ms' : List (Ref × List Ref)} {cur' : Option Ref} (e : ∀ x, hid ms cur x ↔ hid ms' cur' x) : hid ms cur = hid ms' cur' :=
  funext fun x => propext (e x)

/-- nobody knows the vectors `ms`, which have the elements given, nor the vector `cur` -/
structure Secret (W : World) (env : Ref) (ms : List (Ref × List Ref)) (cur : Option Ref) (v : Vm) : Prop where
  sane : v.Sane W
  closed : v.Closed W (hid ms cur)
  env : v.Pub W (hid ms cur) env
  made : ∀ m ∈ ms, v.HasVec m.1 m.2
  apart : ∀ m ∈ ms, some m.1 ≠ cur

/-- in addition, the vector `cur` has the elements `acc`, and all these vectors are protected by the part `st` of the stack -/
structure Secure (W : World) (env : Ref) (ms : List (Ref × List Ref)) (cur : Option Ref) (acc st : List Ref) (v : Vm) : Prop extends
    Secret W env ms cur v where
  filled : ∀ r, cur = some r → v.HasVec r acc
  stack : ∃ s, v.stack = s ++ st
  based : ∀ r, cur = some r → r ∈ st
  guarded : ∀ x, hid ms cur x → Guarded (hid ms cur) v.mem st x

theorem Secret.here {E : Ref → Prop} (k : Secret W env ms cur v) : Vm.Step W (hid ms cur) E v v := .refl k.sane k.closed

theorem Secret.old (k : Secret W env ms cur v) {m : Ref × List Ref} (hm : m ∈ ms) : v.Old W m.1 := k.closed.known _ (.inr ⟨m, hm, rfl⟩)

/-- a vector that nobody knows and that survives has the same elements -/
theorem vec_keeps {X : Ref → Prop} {r : Ref} {es : List Ref} (sv : v.Sane W) (hX : X r) (l : Vm.Later W X v w) (hv : v.HasVec r es)
    (hw : (w.mem r).isSome) : w.HasVec r es := by
  obtain ⟨c, hc, ho⟩ := hv
  rcases l.priv r hX (sv.old r c hc) with e | e
  · exact ⟨c, by rw [e, hc], ho⟩
  · rw [e] at hw; cases hw

theorem vec_some {r : Ref} {es : List Ref} (hv : v.HasVec r es) : (v.mem r).isSome := by
  obtain ⟨c, hc, _⟩ := hv
  rw [hc]; rfl

theorem ends_hasVec {r : Ref} {es : List Ref} (e : Ends v w) (hv : v.HasVec r es) : w.HasVec r es :=
  e.hasObj hv (by simp)

/-- going on, protected values surviving -/
theorem Secure.keep (k : Secure W env ms cur acc st v) (sw : w.Sane W) (cw : w.Closed W (hid ms cur)) (l : Vm.Later W (hid ms cur) v w)
    (kp : Vm.Keeps (hid ms cur) st v w) (hst : w.stack = v.stack) : Secure W env ms cur acc st w where
  sane := sw
  closed := cw
  env := k.env.mono l.births
  made := fun m hm => vec_keeps k.sane (.inr ⟨m, hm, rfl⟩) l (k.made m hm) (kp _ (k.guarded _ (.inr ⟨m, hm, rfl⟩)) (vec_some (k.made m hm)))
  apart := k.apart
  filled := fun r e => vec_keeps k.sane (.inl e.symm) l (k.filled r e) (kp _ (k.guarded _ (.inl e.symm)) (vec_some (k.filled r e)))
  stack := by rw [hst]; exact k.stack
  based := k.based
  guarded := fun x hx => kp.guarded k.sane l (k.guarded x hx)

theorem keeps_base {X : Ref → Prop} {s t : List Ref} (h : Vm.Keeps X (s ++ t) v w) : Vm.Keeps X t v w :=
  fun x hx => h x (Reach.mono (fun _ hy => .root (List.mem_append_right _ hy)) hx)

theorem Secure.good (k : Secure W env ms cur acc st v) (g : Vm.Good W (hid ms cur) v w) (kp : Vm.Keeps (hid ms cur) v.stack v w)
    (hst : w.stack = v.stack) : Secure W env ms cur acc st w := by
  obtain ⟨s, hs⟩ := k.stack
  rw [hs] at kp
  exact k.keep g.sane g.closed g.later (keeps_base kp) hst

theorem Secure.alloc (k : Secure W env ms cur acc st v) {o : Obj} {r : Ref} (a : Allocated W v o r w) (ho : PubObj (v.Pub W (hid ms cur)) o) :
    Secure W env ms cur acc st w := by
  obtain ⟨s, hs⟩ := k.stack
  refine k.keep (a.sane k.sane) (a.closed k.closed ho) (a.later k.sane) (fun x hx hv => ?_) a.stack
  by_cases e : x = r
  · rw [e, a.cell]; rfl
  · rw [a.kept x (hx.kept hs) e]; exact hv

/-- other changes than to the values -/
theorem Secure.aside (k : Secure W env ms cur acc st v) {E : Ref → Prop} (g : Vm.Step W (hid ms cur) E v w) (hm : w.mem = v.mem)
    (hs : ∃ s, w.stack = s ++ st) : Secure W env ms cur acc st w where
  sane := g.sane
  closed := g.closed
  env := k.env.mono g.quiet.births
  made := fun m h => by have := k.made m h; unfold Vm.HasVec at *; rwa [hm]
  apart := k.apart
  filled := fun r e => by have := k.filled r e; unfold Vm.HasVec at *; rwa [hm]
  stack := hs
  based := k.based
  guarded := by rw [hm]; exact k.guarded

theorem Secure.push (k : Secure W env ms cur acc st v) {r : Ref} (hr : v.Old W r) : Secure W env ms cur acc st { v with stack := r :: v.stack } := by
  obtain ⟨s, hs⟩ := k.stack
  exact k.aside (E := nobody) (k.here.push hr) rfl ⟨r :: s, by rw [hs]; rfl⟩

theorem Secure.pop (k : Secure W env ms cur acc st v) {r : Ref} {s : List Ref} (hs : v.stack = r :: s) (hst : ∃ s', s = s' ++ st) :
    Secure W env ms cur acc st { v with stack := s } :=
  k.aside (E := nobody) (k.here.pop hs) rfl hst

theorem Secure.tick (k : Secure W env ms cur acc st v) : Secure W env ms cur acc st { v with ticks := v.ticks + 1 } :=
  k.aside (E := nobody) k.here.tick rfl k.stack

theorem Secret.pop (k : Secret W env ms cur v) {r : Ref} {s : List Ref} (hs : v.stack = r :: s) : Secret W env ms cur { v with stack := s } := by
  have g := (k.here (E := nobody)).pop hs
  exact ⟨g.sane, g.closed, k.env, k.made, k.apart⟩

theorem Secret.congr {ms' : List (Ref × List Ref)} (k : Secret W env ms cur v) (e : ∀ m, m ∈ ms' ↔ m ∈ ms) : Secret W env ms' cur v := by
  have : hid ms' cur = hid ms cur := hid_congr fun x => by simp only [hid, e]
  exact ⟨k.sane, this ▸ k.closed, this ▸ k.env, fun m hm => k.made m ((e m).mp hm), fun m hm => k.apart m ((e m).mp hm)⟩

/-- a new error -/
theorem wp_errorSecure (k : Secure W env ms cur acc st v) {s : String} {Q : Option Ref → Vm → List Event → Prop}
    (hq : ∀ r w t, Secure W env ms cur acc st w → Vm.Step W (hid ms cur) nobody v w → w.stack = v.stack → w.Pub W (hid ms cur) r → ¬ v.Old W r →
      w.HasObj r (.err t 0) → Q (some r) w []) : Wp W n h (Prog.error s) v Q := by
  unfold Prog.error
  refine wp_bind (wp_text fun t => wp_bind (wp_alloc k.tick.sane fun r w a => wp_pure ?_))
  exact hq r w t (k.tick.alloc a trivial) ((k.here.tick).alloc a trivial) a.stack (a.pub k.tick.closed) a.fresh ⟨_, a.cell, rfl⟩

/-- evaluating a form -/
theorem wp_evalSecure (F : Fine W h) (k : Secure W env ms cur acc st v) {x env' : Ref} {Q : Option Ref → Vm → List Event → Prop}
    (hx : v.Pub W (hid ms cur) x) (he : v.Pub W (hid ms cur) env')
    (hq : ∀ a w, Secure W env ms cur acc st w → v.births ≤ w.births → w.stack = v.stack → PubOpt (w.Pub W (hid ms cur)) a → Q a w [⟨x, env', v, a, w⟩]) :
    Wp W n h (Prog.eval x env') v Q :=
  wps_evalKeeps F (k.here (E := nobody)) hx he fun a w g kp hst ha => hq a w (k.good g kp hst) g.later.births hst ha

/-- a new value that only the code at hand knows, in addition to others -/
theorem hide_more {X E : Ref → Prop} {v0 : Vm} (g : Vm.Step W X E v0 v) {o : Obj} {r : Ref} (a : Allocated W v o r w)
    (ho : PubObj (v.Pub W X) o) : Vm.Step W (fun x => x = r ∨ X x) E v0 w := by
  have g' := g.alloc a ho
  have hb : v.births ≤ w.births := by rw [a.births]; omega
  have up : ∀ x, v.Pub W X x → w.Pub W (fun x => x = r ∨ X x) x :=
    fun x hx => ⟨hx.1.mono hb, fun e => e.elim (fun e => a.fresh (e ▸ hx.1)) hx.2⟩
  refine ⟨g.sane0, g'.sane, ⟨g'.closed.cells, ?_, g'.closed.stack, ?_, ?_, ?_⟩, g'.quiet⟩
  · intro x c hx hne
    rcases a.some hx with ⟨e, _⟩ | ⟨_, hx⟩
    · exact absurd (.inl e) hne
    · exact (g.closed.pub x c hx fun h => hne (.inr h)).mono up
  · rw [a.ret]; exact g.closed.ret.mono up
  · intro which; rw [a.roots]; exact up _ (g.closed.roots which)
  · rintro x (rfl | hx)
    · exact a.old
    · exact g'.closed.known x hx

/-- what is known about the vector that is being filled, as one that is done -/
def underway (cur : Option Ref) (acc : List Ref) : List (Ref × List Ref) := (cur.map fun r => (r, acc)).toList

theorem mem_underway {m : Ref × List Ref} : m ∈ underway cur acc ↔ ∃ r, cur = some r ∧ m = (r, acc) := by
  unfold underway
  cases cur <;> simp

theorem hid_underway (r : Ref) (x : Ref) : hid (underway cur acc ++ ms) (some r) x ↔ x = r ∨ hid ms cur x := by
  simp only [hid, List.mem_append, mem_underway, Option.some.injEq]
  constructor
  · rintro (e | ⟨m, ⟨y, e, rfl⟩ | hm, rfl⟩)
    · exact .inl e
    · exact .inr (.inl e.symm)
    · exact .inr (.inr ⟨m, hm, rfl⟩)
  · rintro (e | e | ⟨m, hm, rfl⟩)
    · exact .inl e
    · exact .inr ⟨(x, acc), .inl ⟨x, e.symm, rfl⟩, rfl⟩
    · exact .inr ⟨m, .inr hm, rfl⟩

theorem guarded_more {X Y : Ref → Prop} {m : Mem} {s t : List Ref} (hX : ∀ x, X x → Y x) (hs : ∀ x ∈ s, x ∈ t) {x : Ref} (hx : Guarded X m s x) :
    Guarded Y m t x := by
  induction hx with
  | root h => exact .root (hs _ h)
  | step _ e ih => exact .step ih ⟨hX _ e.1, e.2⟩

/-- starting a new vector -/
theorem Secure.start (k : Secure W env ms cur acc st v) (hst : v.stack = st) {r : Ref} (a : Allocated W v (.vec []) r w) :
    Secure W env (underway cur acc ++ ms) (some r) [] (r :: st) { w with stack := r :: w.stack } := by
  have kw := k.alloc a (by intro x hx; cases hx)
  have g := (hide_more (E := nobody) k.here a (by intro x hx; cases hx)).push (r := r) a.old
  have e : (fun x => x = r ∨ hid ms cur x) = hid (underway cur acc ++ ms) (some r) := funext fun x => propext (hid_underway r x).symm
  rw [e] at g
  refine ⟨⟨g.sane, g.closed, ?_, ?_, ?_⟩, ?_, ⟨[], by rw [List.nil_append, a.stack, hst]⟩, by simp, ?_⟩
  · refine ⟨k.env.1.mono g.quiet.births, fun hx => ?_⟩
    rcases (hid_underway r env).mp hx with rfl | hx
    · exact a.fresh k.env.1
    · exact k.env.2 hx
  · intro m hm
    rcases List.mem_append.mp hm with hm | hm
    · obtain ⟨y, e, rfl⟩ := mem_underway.mp hm
      exact kw.filled y e
    · exact kw.made m hm
  · rintro m hm e
    rcases List.mem_append.mp hm with hm | hm
    · obtain ⟨y, e', rfl⟩ := mem_underway.mp hm
      cases e
      exact a.fresh (k.closed.known _ (.inl e'.symm))
    · cases e
      exact a.fresh (k.old hm)
  · rintro r' e; cases e
    exact ⟨_, a.cell, rfl⟩
  · intro x hx
    rcases (hid_underway r x).mp hx with rfl | hx
    · exact .root (.head _)
    · exact guarded_more (fun y hy => (hid_underway r y).mpr (.inr hy)) (fun y hy => .tail _ hy) (kw.guarded x hx)

theorem hid_finish {ps : List Ref} {r : Ref} {ms' : List (Ref × List Ref)} :
    hid (ms' ++ (underway cur acc ++ ms)) (some r) = hid ((r, ps) :: ms' ++ ms) cur := by
  refine hid_congr fun x => ?_
  simp only [hid, List.mem_append, mem_underway, List.cons_append, List.mem_cons]
  constructor
  · rintro (e | ⟨m, hm | ⟨y, e, rfl⟩ | hm, rfl⟩)
    · cases e; exact .inr ⟨(r, ps), .inl rfl, rfl⟩
    · exact .inr ⟨m, .inr (.inl hm), rfl⟩
    · exact .inl e.symm
    · exact .inr ⟨m, .inr (.inr hm), rfl⟩
  · rintro (e | ⟨m, rfl | hm | hm, rfl⟩)
    · exact .inr ⟨(x, acc), .inr (.inl ⟨x, e.symm, rfl⟩), rfl⟩
    · exact .inl rfl
    · exact .inr ⟨m, .inl hm, rfl⟩
    · exact .inr ⟨m, .inr (.inr hm), rfl⟩

/-- finishing a vector, and going on with the one before -/
theorem Secure.finish {ps : List Ref} {r : Ref} {ms' : List (Ref × List Ref)} (k : Secure W env (ms' ++ (underway cur acc ++ ms)) (some r) ps (r :: st) v)
    (ha : ∀ m ∈ ms' ++ ms, some m.1 ≠ cur) : Secret W env ((r, ps) :: ms' ++ ms) cur v ∧ ∀ y, cur = some y → v.HasVec y acc := by
  have hc : ∀ y, cur = some y → some y ≠ some r := fun y e => k.apart (y, acc) (by simp [mem_underway, e])
  have e := hid_finish (cur := cur) (acc := acc) (ms := ms) (ps := ps) (r := r) (ms' := ms')
  refine ⟨⟨k.sane, e ▸ k.closed, e ▸ k.env, ?_, ?_⟩, ?_⟩
  · intro m hm
    rcases List.mem_cons.mp hm with rfl | hm
    · exact k.filled r rfl
    · refine k.made m ?_
      rcases List.mem_append.mp hm with hm | hm <;> simp [hm]
  · intro m hm
    rcases List.mem_cons.mp hm with rfl | hm
    · intro e; exact hc r e.symm rfl
    · exact ha m hm
  · exact fun y e => k.made (y, acc) (by simp [mem_underway, e])

theorem append_edge {r x : Ref} {c : Cell} (hc : v.mem r = some c) (ho : c.obj = .vec acc) {y z : Ref} (he : v.mem.Edge y z) :
    Mem.Edge (v.mem.set r { c with obj := .vec (acc ++ [x]) }) y z := by
  obtain ⟨d, hd, hz⟩ := he
  by_cases e : y = r
  · subst e
    rw [hc] at hd; cases hd
    refine ⟨_, Mem.set_self _ _ _, ?_⟩
    simp only [Cell.edges, ho, Obj.children, List.mem_append] at hz ⊢
    tauto
  · exact ⟨d, by rw [Mem.set_other _ _ e]; exact hd, hz⟩

/-- appending a value, which may be unknown itself -/
theorem wp_appendSecret {r x : Ref} (k : Secret W env ms (some r) v) (hacc : v.HasVec r acc) (hx : v.Old W x)
    {Q : Unit → Vm → List Event → Prop}
    (hq : ∀ w, Secret W env ms (some r) w → Vm.Step W (hid ms (some r)) (fun y => some y = some r) v w → w.births = v.births →
      w.HasVec r (acc ++ [x]) → w.stack = v.stack → (∀ y z, v.mem.Edge y z → w.mem.Edge y z) → w.mem.Edge r x → Q () w []) :
    Wp W n h (Prog.append r x) v Q := by
  refine wp_append fun c es hc ho => ?_
  have he : es = acc := by
    obtain ⟨c', hc', ho'⟩ := hacc
    rw [hc] at hc'; cases hc'
    rw [ho] at ho'; cases ho'
    rfl
  subst he
  have hp := k.closed.cells r c hc
  have g := (k.here (E := fun y => some y = some r)).change (d := { c with obj := .vec (es ++ [x]) }) (.inl rfl) (.inl rfl) hc rfl rfl
    ⟨by
      have := hp.obj
      rw [ho] at this
      intro y hy
      rcases List.mem_append.mp hy with hy | hy
      · exact this y hy
      · rw [List.mem_singleton.mp hy]; exact hx, hp.docstr, hp.docvec⟩
  have hv : Vm.HasVec { v with mem := v.mem.set r { c with obj := .vec (es ++ [x]) } } r (es ++ [x]) := ⟨_, Mem.set_self _ _ _, rfl⟩
  refine hq _ ⟨g.sane, g.closed, k.env, ?_, k.apart⟩ g rfl hv rfl (fun y z he => append_edge hc ho he) ⟨_, Mem.set_self _ _ _, ?_⟩
  · intro m hm
    obtain ⟨d, hd, ho'⟩ := k.made m hm
    exact ⟨d, (Mem.set_other _ _ fun e => k.apart m hm (congrArg some e)).trans hd, ho'⟩
  · simp [Cell.edges, Obj.children]

theorem guarded_edges {X : Ref → Prop} {m m' : Mem} (hm : ∀ y z, m.Edge y z → m'.Edge y z) {x : Ref} (hx : Guarded X m st x) : Guarded X m' st x := by
  induction hx with
  | root h => exact .root h
  | step _ e ih => exact .step ih ⟨e.1, hm _ _ e.2⟩

/-- the same, the vectors being protected -/
theorem wp_appendSecure {r x : Ref} (k : Secure W env ms (some r) acc st v) (hx : v.Old W x)
    {Q : Unit → Vm → List Event → Prop}
    (hq : ∀ w, Secure W env ms (some r) (acc ++ [x]) st w → Vm.Quiet W (fun y => some y = some r) v w → w.births = v.births →
      w.stack = v.stack → Q () w []) : Wp W n h (Prog.append r x) v Q :=
  wp_appendSecret k.toSecret (k.filled r rfl) hx fun w kw g hb hv hst he hx' =>
    hq w ⟨kw, fun r' e => by cases e; exact hv, by rw [hst]; exact k.stack, k.based, fun y hy => guarded_edges he (k.guarded y hy)⟩ g.quiet hb hst

/-- a vector that is done and that has been put into the one before is protected by it -/
theorem guarded_inner {X : Ref → Prop} {m : Mem} {r x : Ref} (hX : X r) (hr : r ∈ st) (he : m.Edge r x) {y : Ref} (hy : Guarded X m (x :: st) y) :
    Guarded X m st y := by
  refine Reach.mono (fun z hz => ?_) hy
  rcases List.mem_cons.mp hz with rfl | hz
  · exact .step (.root hr) ⟨hX, he⟩
  · exact .root hz

end Dern.Props
