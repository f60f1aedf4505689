import Verif.Core.ListLemmas
import Verif.Props.C20
/-
C19: queues are first in first out, and bounded queues drop the oldest elements.
-/
namespace Dern.Props
open Dern Dern.Spec

variable {α : Type}

theorem c19_trim_aux : ∀ (n : Nat) {q : Queue α} {as s}, q.list.Inv as s → as.length ≤ n + q.max →
    ∃ q' as', q.trimLoop n = .ok q' ∧ q'.list.Inv as' (s.drop (s.length - q.max)) ∧
      q'.list.released = q.list.released ++ s.take (s.length - q.max) ∧
      q'.max = q.max ∧ q'.bounded = q.bounded := by
  intro n
  induction n with
  | zero =>
    intro q as s h hn
    have hl := h.len
    have := h.num
    refine ⟨q, as, ?_, ?_, ?_, rfl, rfl⟩
    · simp only [Queue.trimLoop]; rw [if_neg (by omega)]
    · rw [show s.length - q.max = 0 by omega]; exact h
    · rw [show s.length - q.max = 0 by omega]; simp
  | succ n ih =>
    intro q as s h hn
    have hl := h.len
    have hnum := h.num
    by_cases hgt : q.list.num > q.max
    · obtain ⟨l', h1, h2, h3⟩ := DList.popFront_ok h
      have hpos : 0 < s.length := by omega
      obtain ⟨q', as', g1, g2, g3, g4, g5⟩ := ih (q := { q with list := l' }) h2 (by simp; omega)
      refine ⟨q', as', ?_, ?_, ?_, g4, g5⟩
      · simp only [Queue.trimLoop]; rw [if_pos hgt]; simp only [Queue.pop, h1, g1]
      · obtain ⟨x, t, rfl⟩ : ∃ x t, s = x :: t := by
          cases s with
          | nil => simp at hpos
          | cons x t => exact ⟨x, t, rfl⟩
        simp only [List.tail_cons] at g2
        rw [show (x :: t).length - q.max = (t.length - q.max) + 1 by
          simp only [List.length_cons] at *; omega]
        simpa using g2
      · obtain ⟨x, t, rfl⟩ : ∃ x t, s = x :: t := by
          cases s with
          | nil => simp at hpos
          | cons x t => exact ⟨x, t, rfl⟩
        rw [g3, show (x :: t).length - q.max = (t.length - q.max) + 1 by
          simp only [List.length_cons] at *; omega]
        simp [h3]
    · refine ⟨q, as, ?_, ?_, ?_, rfl, rfl⟩
      · simp only [Queue.trimLoop]; rw [if_neg hgt]
      · rw [show s.length - q.max = 0 by omega]; exact h
      · rw [show s.length - q.max = 0 by omega]; simp

theorem c19_ensure_aux {q : Queue α} {as s} (h : q.list.Inv as s) :
    ∃ q' as', q.ensure = .ok q' ∧
      q'.list.Inv as' (Fifo.trim ⟨s, q.max, q.bounded⟩).1.items ∧
      q'.list.released = q.list.released ++ (Fifo.trim ⟨s, q.max, q.bounded⟩).2 ∧
      q'.max = q.max ∧ q'.bounded = q.bounded := by
  unfold Queue.ensure Fifo.trim
  cases hb : q.bounded with
  | false => exact ⟨q, as, by simp, by simpa using h, by simp, rfl, hb⟩
  | true =>
    obtain ⟨q', as', g1, g2, g3, g4, g5⟩ := c19_trim_aux q.list.num h (by rw [h.num]; omega)
    exact ⟨q', as', by simp [g1], by simpa using g2, by simpa using g3, g4, by rw [g5, hb]⟩

theorem c19_step_aux {q : Queue α} {as s} (h : q.list.Inv as s) (op : QueueOp α) :
    ∃ q' as', q.apply op = .ok q' ∧
      q'.list.Inv as' (op.apply ⟨s, q.max, q.bounded⟩).1.items ∧
      q'.max = (op.apply ⟨s, q.max, q.bounded⟩).1.max ∧
      q'.bounded = (op.apply ⟨s, q.max, q.bounded⟩).1.bounded ∧
      q'.list.released = q.list.released ++ (op.apply ⟨s, q.max, q.bounded⟩).2 := by
  have htm : ∀ f : Fifo α, f.trim.1.max = f.max ∧ f.trim.1.bounded = f.bounded := by
    intro f; unfold Fifo.trim; split <;> simp
  cases op with
  | push x =>
    obtain ⟨l', h1, h2, h3⟩ := DList.pushBack_ok h x
    obtain ⟨q', as', g1, g2, g3, g4, g5⟩ := c19_ensure_aux (q := { q with list := l' }) h2
    refine ⟨q', as', by simp [Queue.apply, Queue.push, h1, g1], g2, ?_, ?_, ?_⟩
    · simp [QueueOp.apply, htm, g4]
    · simp [QueueOp.apply, htm, g5]
    · rw [g3]; simp [h3, QueueOp.apply]
  | pop =>
    obtain ⟨l', h1, h2, h3⟩ := DList.popFront_ok h
    exact ⟨{ q with list := l' }, _, by simp [Queue.apply, Queue.pop, h1], h2, rfl, rfl, h3⟩
  | clear =>
    obtain ⟨l', h1, h2, h3⟩ := DList.clearLoop_ok as.length h rfl
    exact ⟨{ q with list := l' }, _, by simp [Queue.apply, Queue.clear, DList.clear, h.num, h1], h2,
      rfl, rfl, h3⟩
  | setMax n =>
    obtain ⟨q', as', g1, g2, g3, g4, g5⟩ := c19_ensure_aux (q := { q with max := n }) h
    refine ⟨q', as', by simp [Queue.apply, Queue.setMax, g1], g2, ?_, ?_, g3⟩
    · simp [QueueOp.apply, htm, g4]
    · simp [QueueOp.apply, htm, g5]
  | setBounded b =>
    obtain ⟨q', as', g1, g2, g3, g4, g5⟩ := c19_ensure_aux (q := { q with bounded := b }) h
    refine ⟨q', as', by simp [Queue.apply, Queue.setBounded, Queue.setMax, g1], g2, ?_, ?_, g3⟩
    · simp [QueueOp.apply, htm, g4]
    · simp [QueueOp.apply, htm, g5]

theorem c19_run_aux : ∀ (ops : List (QueueOp α)) {q : Queue α} {as s}, q.list.Inv as s →
    ∃ q' as', q.run ops = .ok q' ∧
      q'.list.Inv as' (runFifo ⟨s, q.max, q.bounded⟩ ops).1.items ∧
      q'.list.released = q.list.released ++ (runFifo ⟨s, q.max, q.bounded⟩ ops).2 := by
  intro ops
  induction ops with
  | nil => intro q as s h; exact ⟨q, as, rfl, h, by simp [runFifo]⟩
  | cons op ops ih =>
    intro q as s h
    obtain ⟨q', as', h1, h2, h3, h4, h5⟩ := c19_step_aux h op
    obtain ⟨q'', as'', g1, g2, g3⟩ := ih h2
    rw [h3, h4] at g2 g3
    refine ⟨q'', as'', by simp [Queue.run, h1, g1], g2, ?_⟩
    rw [g3, h5]; simp [runFifo]

/-- C19.  For every history on a new queue, bounded or not (`bound`): nothing goes wrong, the queue
holds exactly the elements of the first-in first-out specification in order, its front is the oldest
of them, and exactly the popped, cleared and evicted elements have been released, oldest first. -/
theorem c19_queue_is_fifo (bound : Option Nat) (ops : List (QueueOp α)) :
    let q0 : Queue α := match bound with | none => Queue.new | some n => Queue.newWithMax n
    let spec := runFifo ⟨[], bound.getD 0, bound.isSome⟩ ops
    ∃ q, q0.run ops = .ok q ∧
      q.list.iterate q.list.num q.list.front = .ok spec.1.items ∧
      q.list.num = spec.1.items.length ∧
      q.peek = .ok spec.1.items.head? ∧
      q.list.released = spec.2 := by
  intro q0 spec
  have h0 : q0.list.Inv [] [] := by
    cases bound <;> exact DList.new_inv
  obtain ⟨q, as, h1, h2, h3⟩ := c19_run_aux ops h0
  have he : (⟨[], q0.max, q0.bounded⟩ : Fifo α) = ⟨[], bound.getD 0, bound.isSome⟩ := by
    cases bound <;> rfl
  have hr : q0.list.released = [] := by cases bound <;> rfl
  rw [he] at h2 h3
  refine ⟨q, h1, ?_, by rw [h2.num, h2.len], ?_, by rw [h3, hr]; rfl⟩
  · rw [h2.front, h2.num, c20_iterate_aux h2 _ _ (by omega)]; rfl
  · unfold Queue.peek
    rw [h2.front]
    show _ = Except.ok spec.1.items.head?
    have hlen := h2.len
    have hspec : spec = runFifo ⟨[], bound.getD 0, bound.isSome⟩ ops := rfl
    rw [← hspec] at hlen h2
    cases hi : spec.1.items with
    | nil =>
      rw [hi] at hlen
      have : as = [] := List.length_eq_zero_iff.mp (by simpa using hlen)
      subst this; rfl
    | cons x t =>
      rw [hi] at hlen
      have hx : as[0]? = some (as[0]'(by rw [hlen]; simp)) :=
        List.getElem?_eq_getElem (by rw [hlen]; simp)
      have hl := h2.links 0 _ hx
      rw [hi] at hl
      simp only [List.getElem?_cons_zero, Option.map_some] at hl
      simp only [hx, DList.node, hl]; rfl

/-- A queue with a maximum length never holds more, whatever is pushed and popped, and after any
pushes it holds the most recent ones. -/
theorem c19_bounded (n : Nat) (ops : List (QueueOp α))
    (hops : ∀ op ∈ ops, match op with | .setMax _ => False | .setBounded _ => False | _ => True) :
    ∃ q, (Queue.newWithMax n : Queue α).run ops = .ok q ∧ q.list.num ≤ n := by
  obtain ⟨q, h1, _, h3, _⟩ := c19_queue_is_fifo (some n) ops
  refine ⟨q, h1, ?_⟩
  rw [h3]
  have gen : ∀ (ops : List (QueueOp α)) (f : Fifo α), f.bounded = true → f.items.length ≤ f.max →
      (∀ op ∈ ops, match op with | .setMax _ => False | .setBounded _ => False | _ => True) →
      (runFifo f ops).1.items.length ≤ f.max := by
    intro ops
    induction ops with
    | nil => intro f _ hl _; exact hl
    | cons op ops ih =>
      intro f hb hl hops
      have hop := hops op (by simp)
      have hst : (op.apply f).1.bounded = true ∧ (op.apply f).1.max = f.max ∧
          (op.apply f).1.items.length ≤ (op.apply f).1.max := by
        cases op with
        | push x => simp only [QueueOp.apply, Fifo.trim, hb]; simp; omega
        | pop => simp [QueueOp.apply, hb]; omega
        | clear => simp [QueueOp.apply, hb]
        | setMax n => exact absurd hop (by simp)
        | setBounded b => exact absurd hop (by simp)
      have := ih _ hst.1 hst.2.2 (fun o ho => hops o (by simp [ho]))
      rw [hst.2.1] at this
      exact this
  exact gen ops ⟨[], n, true⟩ rfl (by simp) hops

/-- Pushing `xs` to a new queue of maximum length `n` leaves the last `n` of them, in order. -/
theorem c19_keeps_most_recent (n : Nat) (xs : List α) :
    ∃ q, (Queue.newWithMax n : Queue α).run (xs.map .push) = .ok q ∧
      q.list.iterate q.list.num q.list.front = .ok (xs.drop (xs.length - n)) := by
  obtain ⟨q, h1, h2, _, _⟩ := c19_queue_is_fifo (some n) (xs.map QueueOp.push)
  refine ⟨q, h1, ?_⟩
  rw [h2]
  congr 1
  have gen : ∀ (xs done : List α), (runFifo ⟨done.drop (done.length - n), n, true⟩
      (xs.map QueueOp.push)).1.items = (done ++ xs).drop ((done ++ xs).length - n) := by
    intro xs
    induction xs with
    | nil => intro done; simp [runFifo]
    | cons x xs ih =>
      intro done
      have hstep : (QueueOp.apply ⟨done.drop (done.length - n), n, true⟩ (.push x)).1 =
          ⟨(done ++ [x]).drop ((done ++ [x]).length - n), n, true⟩ := by
        simp only [QueueOp.apply, Fifo.trim]
        simp only [if_true, List.length_append, List.length_drop, List.length_singleton]
        congr 1
        rw [← List.drop_append_of_le_length (by omega), List.drop_drop]
        congr 1; omega
      simp only [List.map_cons, runFifo, hstep]
      have := ih (done ++ [x])
      rw [this]; simp
  have := gen xs []
  simpa using this

/-- non-vacuity: pushes beyond the maximum, a pop and shrinking -/
example : runFifo (⟨[], 3, true⟩ : Fifo Nat)
    [.push 1, .push 2, .push 3, .push 4, .pop, .push 5, .setMax 1] =
    (⟨[5], 1, true⟩, [1, 2, 3, 4]) := rfl

end Dern.Props
