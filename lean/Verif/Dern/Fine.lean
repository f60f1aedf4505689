import Verif.Dern.Trace
/-
The handlers of the model are `Fine`: copying and looking up.
-/
namespace Dern.Prog
variable {F : Ref → Prop}

theorem mild_pure {a : α} {Q : α → Prop} (h : Q a) : Mild F (pure a) Q := h
theorem mild_alloc {o : Obj} {Q : Ref → Prop} (h : ∀ r, F r → Q r) : Mild F (alloc o) Q := h
theorem mild_read {r : Ref} {Q : Cell → Prop} (h : ∀ c, Q c) : Mild F (read r) Q := h
theorem mild_setObj {r : Ref} {o : Obj} {Q : Unit → Prop} (hr : F r) (h : Q ()) : Mild F (setObj r o) Q := ⟨hr, h⟩
theorem mild_setDoc {r : Ref} {d e} {Q : Unit → Prop} (hr : F r) (h : Q ()) : Mild F (setDoc r d e) Q := ⟨hr, h⟩
theorem mild_push {r : Ref} {Q : Unit → Prop} (h : Q ()) : Mild F (push r) Q := h
theorem mild_pop {r : Ref} {Q : Unit → Prop} (h : Q ()) : Mild F (pop r) Q := h
theorem mild_root {w} {Q : Ref → Prop} (h : ∀ r, Q r) : Mild F (root w) Q := h
theorem mild_isQuit {Q : Bool → Prop} (h : ∀ r, Q r) : Mild F isQuit Q := h
theorem mild_text {w} {Q : Text → Prop} (h : ∀ r, Q r) : Mild F (text w) Q := h
theorem mild_real {Q : Spec.Dbl → Prop} (h : ∀ r, Q r) : Mild F real Q := h
theorem mild_compare {a b} {Q : Int → Prop} (h : ∀ r, Q r) : Mild F (compare a b) Q := h
theorem mild_arrange {es} {Q : Nat × List (Ref × Ref) → Prop} (h : ∀ r, Q r) : Mild F (arrange es) Q := h
theorem mild_print {p r} {Q : Text → Prop} (h : ∀ r, Q r) : Mild F (print p r) Q := h
theorem mild_readably {Q : Bool → Prop} (h : ∀ r, Q r) : Mild F readably Q := h
theorem mild_fail {e} {Q : α → Prop} : Mild F (fail e) Q := trivial
theorem mild_copy {x} {Q : Option Ref → Prop} (h : ∀ a, PubOpt F a → Q a) : Mild F (call (.copy x)) Q := h
theorem mild_lookup {e s} {Q : Option Ref → Prop} (h : ∀ a, Q a) : Mild F (call (.lookup e s)) Q := h
theorem mild_deref {a} {Q : Ref → Prop} (h : ∀ r, a = some r → Q r) : Mild F (deref a) Q := by
  cases a with
  | none => trivial
  | some r => exact h r rfl

syntax "mild_rule" : tactic
macro_rules | `(tactic| mild_rule) => `(tactic| with_reducible first
  | refine Mild.bind ?_ | refine mild_pure ?_ | refine mild_alloc fun r hr => ?_ | refine mild_read fun c => ?_
  | refine mild_setObj ?_ ?_ | refine mild_setDoc ?_ ?_ | refine mild_push ?_ | refine mild_pop ?_
  | refine mild_root fun r => ?_ | refine mild_isQuit fun b => ?_ | refine mild_text fun t => ?_
  | refine mild_real fun t => ?_ | refine mild_compare fun t => ?_ | refine mild_print fun t => ?_ | refine mild_readably fun t => ?_
  | refine mild_arrange fun x => ?_ | refine mild_fail | refine mild_copy fun a ha => ?_
  | refine mild_lookup fun a => ?_ | refine mild_deref fun r hr => ?_ | split)

syntax "mild" : tactic
macro_rules | `(tactic| mild) => `(tactic| repeat' first | mild_rule | (beta_reduce; mild_rule))

theorem mild_error {w} {Q : Option Ref → Prop} (h : ∀ r, F r → Q (some r)) : Mild F (error w) Q := by
  unfold error; mild; exact h _ ‹_›
macro_rules | `(tactic| mild_rule) => `(tactic| with_reducible refine mild_error fun r hr => ?_)

theorem mild_copyOf {x} {Q : Ref → Prop} (h : ∀ r, F r → Q r) : Mild F (copyOf x) Q := by
  unfold copyOf; mild; exact h _ (by apply_assumption; assumption)
macro_rules | `(tactic| mild_rule) => `(tactic| with_reducible refine mild_copyOf fun r hr => ?_)

theorem mild_getRoot {x} {Q : Ref → Prop} (h : ∀ r, F r → Q r) : Mild F (getRoot x) Q := by
  unfold getRoot; mild; exact h _ ‹_›
macro_rules | `(tactic| mild_rule) => `(tactic| with_reducible refine mild_getRoot fun r hr => ?_)

theorem mild_copyAtom {x} {Q : Ref → Prop} (h : ∀ r, Q r) : Mild F (copyAtom x) Q := by
  unfold copyAtom; mild <;> exact h _
macro_rules | `(tactic| mild_rule) => `(tactic| with_reducible refine mild_copyAtom fun r => ?_)

theorem mild_append {r x} {Q : Unit → Prop} (hr : F r) (h : Q ()) : Mild F (append r x) Q := by
  unfold append; mild <;> assumption
macro_rules | `(tactic| mild_rule) => `(tactic| with_reducible refine mild_append ?_ ?_)

theorem mild_appendAll {r} (hr : F r) {Q : Unit → Prop} (h : Q ()) : ∀ xs, Mild F (appendAll r xs) Q := by
  intro xs
  induction xs with
  | nil => exact h
  | cons x xs ih => unfold appendAll; mild; exacts [hr, ih]

theorem mild_addElement {r x} {Q : Unit → Prop} (hr : F r) (h : Q ()) : Mild F (addElement r x) Q := by
  unfold addElement; mild <;> assumption
macro_rules | `(tactic| mild_rule) => `(tactic| with_reducible refine mild_addElement ?_ ?_)

theorem mild_addPair {r k x} {Q : Unit → Prop} (hr : F r) (h : Q ()) : Mild F (addPair r k x) Q := by
  unfold addPair; mild <;> assumption
macro_rules | `(tactic| mild_rule) => `(tactic| with_reducible refine mild_addPair ?_ ?_)

theorem mild_copyElements {value r} (hr : F r) {Q : Unit → Prop} (h : Q ()) : ∀ xs, Mild F (copyElements value r xs) Q := by
  intro xs
  induction xs with
  | nil => exact h
  | cons x xs ih => unfold copyElements; mild; exacts [hr, ih]
macro_rules | `(tactic| mild_rule) => `(tactic| with_reducible refine mild_copyElements ?_ ?_ _)

theorem mild_copyPairs {value r} (hr : F r) {Q : Unit → Prop} (h : Q ()) : ∀ xs, Mild F (copyPairs value r xs) Q := by
  intro xs
  induction xs with
  | nil => exact h
  | cons x xs ih => unfold copyPairs; mild; exacts [hr, ih]
macro_rules | `(tactic| mild_rule) => `(tactic| with_reducible refine mild_copyPairs ?_ ?_ _)

theorem mild_copyDocs {value r} (hr : F r) {Q : Unit → Prop} (h : Q ()) : Mild F (copyDocs value r) Q := by
  unfold copyDocs; mild <;> assumption
macro_rules | `(tactic| mild_rule) => `(tactic| with_reducible refine mild_copyDocs ?_ ?_)

theorem mild_copyValue {value} : Mild F (copyValue value) (PubOpt F) := by
  unfold copyValue
  mild
  all_goals first | assumption | exact pubOpt_some ‹_›

end Dern.Prog

namespace Dern
variable {W : World}

theorem handler_lookup {L : Prog.Library} : ∀ n e s v a w t, handler W (Prog.body L) n (.lookup e s) v = .ok (a, w, t) →
    w = v ∧ t = [] := by
  intro n
  induction n with
  | zero => intro e s v a w t h; cases h
  | succ n ih =>
    intro e s v a w t h
    simp only [handler, Prog.body] at h
    have : Wp W n (handler W (Prog.body L) n) (Prog.envGet e s) v fun _ w t => w = v ∧ t = [] := by
      unfold Prog.envGet
      refine wp_bind (wp_read fun c hc => ?_)
      split
      · split
        · exact wp_pure ⟨rfl, rfl⟩
        · split
          · exact wp_call fun a w t e => by simpa using ih _ _ _ _ _ _ e
          · exact wp_pure ⟨rfl, rfl⟩
      · exact wp_fail
    cases hr : run W n (handler W (Prog.body L) n) (Prog.envGet e s) v with
    | error e' => rw [hr] at h; cases h
    | ok x =>
      obtain ⟨a', w', t'⟩ := x
      rw [hr] at h
      cases h
      exact this _ _ _ hr

theorem handler_copy {L : Prog.Library} : ∀ n x v a w t, v.Sane W → handler W (Prog.body L) n (.copy x) v = .ok (a, w, t) →
    w.Sane W ∧ t = [] ∧ Vm.Quiet W (fun _ => False) v w ∧ ∀ r, a = some r → ¬ v.Old W r := by
  intro n
  induction n with
  | zero => intro x v a w t sv h; cases h
  | succ n ih =>
    intro x v a w t sv h
    simp only [handler, Prog.body] at h
    have := wp_mild (n := n) (E := fun _ => False) (handler_lookup (W := W) (L := L) n) ih sv (Prog.copyValue x) v sv (.refl v)
      Prog.mild_copyValue
    cases hr : run W n (handler W (Prog.body L) n) (Prog.copyValue x) v with
    | error e' => rw [hr] at h; cases h
    | ok y =>
      obtain ⟨a', w', t'⟩ := y
      rw [hr] at h
      cases h
      obtain ⟨h1, h2, h3, h4⟩ := this _ _ _ hr
      refine ⟨h1, h2, h3, fun r hr => ?_⟩
      rcases h4 r hr with h | h
      · exact h.elim
      · exact h

theorem handler_fine {L : Prog.Library} (hL : L.Safe) (n : Nat) : Fine W (handler W (Prog.body L) n) where
  spec := handler_sound hL n
  keeps := handler_keeps hL n
  eval := by
    intro x e v a w t h
    cases n with
    | zero => cases h
    | succ n =>
      simp only [handler] at h
      split at h
      · cases h
      · cases h; rfl
  lookup := handler_lookup n
  copy := handler_copy n

end Dern
