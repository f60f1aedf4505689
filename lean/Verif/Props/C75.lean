import Verif.Core.Files
import Mathlib.Data.Nat.Bitwise
/-
C75: requests for memory and reads that are refused on purpose.
-/
namespace Dern.Props
open Dern Dern.Files
open Dern.Stdio (Stream)

/-! ### Specification -/

/-- what is asked from an allocator -/
inductive MemReq
  | malloc
  | realloc (block : Option Nat)
  | free (block : Option Nat)

/-- the requests one after the other, and the answers to those for memory -/
inductive Asking : Allocator → List MemReq → List (Option Nat) → Allocator → Prop
  | done {a} : Asking a [] [] a
  | malloc {a b c r qs rs} : a.malloc = .ok (r, b) → Asking b qs rs c → Asking a (.malloc :: qs) (r :: rs) c
  | realloc {a b c k r qs rs} : a.realloc k = .ok (r, b) → Asking b qs rs c → Asking a (.realloc k :: qs) (r :: rs) c
  | free {a b c k qs rs} : a.free k = .ok b → Asking b qs rs c → Asking a (.free k :: qs) rs c

/-- request `k` is to be refused, as the code has it: the bit is one of the lowest eight of the word -/
def Barred (words : List Nat) (count k : Nat) : Prop := k < count ∧ (words[k / 32]?.getD 0).testBit (k % 8) = false

/-- the reader after `k` reads since it was rigged -/
def Reader.At (r : Reader) (count mask k : Nat) : Prop := r.rigged = count - k ∧ r.bitIndex = min k count ∧ r.bitQueue = mask

/-! ### Proofs -/

theorem c75_testBit_aux (w i : Nat) : Files.testBit w i = w.testBit i := by
  unfold Files.testBit
  rw [Nat.one_shiftLeft, Nat.and_two_pow]
  cases w.testBit i <;> simp

/-- the allocator after `k` requests since it was rigged -/
structure AllocAt (words : List Nat) (count k : Nat) (a : Allocator) : Prop where
  rigged : a.rigged = count - k
  bitIndex : a.bitIndex = min k count
  bitQueue : a.bitQueue = words

theorem c75_refuses_aux {words : List Nat} {count k : Nat} {a : Allocator} (h : AllocAt words count k a) (hw : words.length = 20) (hc : count ≤ 640) :
    ∃ no b, a.refuses = .ok (no, b) ∧ AllocAt words count (k + 1) b ∧ b.grants = a.grants ∧ (no = true ↔ Barred words count k) := by
  unfold Allocator.refuses
  split
  · next hr =>
    rw [h.rigged] at hr
    have hk : k < count := by omega
    have hlt : k / 32 < words.length := by omega
    have hm : min k count = k := by omega
    simp only [Allocator.testBit, h.bitQueue, h.bitIndex, hm, List.getElem?_eq_getElem hlt]
    refine ⟨_, _, rfl, ⟨by show a.rigged - 1 = _; rw [h.rigged]; omega, by show k + 1 = _; omega, rfl⟩, rfl, ?_⟩
    simp [Barred, hk, List.getElem?_eq_getElem hlt, c75_testBit_aux]
  · next hr =>
    have hr : a.rigged = 0 := by simpa using hr
    rw [h.rigged] at hr
    refine ⟨_, _, rfl, ⟨by rw [h.rigged]; omega, by rw [h.bitIndex]; omega, h.bitQueue⟩, rfl, ?_⟩
    simp only [Bool.false_eq_true, Barred, false_iff, not_and]
    omega

theorem c75_malloc_aux {words : List Nat} {count k : Nat} {a b : Allocator} {r : Option Nat} (h : AllocAt words count k a) (hw : words.length = 20) (hc : count ≤ 640)
    (e : a.malloc = .ok (r, b)) : AllocAt words count (k + 1) b ∧ b.grants = a.grants ∧ (Barred words count k → r = none) ∧
      ((∀ k, a.grants k = true) → ¬ Barred words count k → r.isSome) := by
  obtain ⟨no, c, e', h1, h2, h3⟩ := c75_refuses_aux h hw hc
  simp only [Allocator.malloc, e', bind, Except.bind] at e
  cases no with
  | true =>
    simp only [if_true] at e
    cases e
    exact ⟨h1, h2, fun _ => rfl, fun _ hb => absurd (h3.mp rfl) hb⟩
  | false =>
    have hb : ¬ Barred words count k := fun hb => by simpa using h3.mpr hb
    simp only [Bool.false_eq_true, if_false] at e
    split at e
    · cases e; exact ⟨⟨h1.1, h1.2, h1.3⟩, h2, fun h => absurd h hb, fun _ _ => rfl⟩
    · next hg => cases e; exact ⟨⟨h1.1, h1.2, h1.3⟩, h2, fun h => absurd h hb, fun hall _ => absurd (by rw [h2]; exact hall _) hg⟩

theorem c75_realloc_aux {words : List Nat} {count k : Nat} {a b : Allocator} {r o : Option Nat} (h : AllocAt words count k a) (hw : words.length = 20) (hc : count ≤ 640)
    (e : a.realloc o = .ok (r, b)) : AllocAt words count (k + 1) b ∧ b.grants = a.grants ∧ (Barred words count k → r = none) ∧
      ((∀ k, a.grants k = true) → ¬ Barred words count k → r.isSome) := by
  obtain ⟨no, c, e', h1, h2, h3⟩ := c75_refuses_aux h hw hc
  simp only [Allocator.realloc, e', bind, Except.bind] at e
  cases no with
  | true =>
    simp only [if_true] at e
    cases e
    exact ⟨h1, h2, fun _ => rfl, fun _ hb => absurd (h3.mp rfl) hb⟩
  | false =>
    have hb : ¬ Barred words count k := fun hb => by simpa using h3.mpr hb
    simp only [Bool.false_eq_true, if_false] at e
    split at e
    · cases e; exact ⟨⟨h1.1, h1.2, h1.3⟩, h2, fun h => absurd h hb, fun _ _ => rfl⟩
    · next hg => cases e; exact ⟨⟨h1.1, h1.2, h1.3⟩, h2, fun h => absurd h hb, fun hall _ => absurd (by rw [h2]; exact hall _) hg⟩

theorem c75_asking_aux {words : List Nat} {count : Nat} (hw : words.length = 20) (hc : count ≤ 640) {a b : Allocator} {qs : List MemReq} {rs : List (Option Nat)}
    (r : Asking a qs rs b) : ∀ {k : Nat}, AllocAt words count k a → AllocAt words count (k + rs.length) b ∧
      ∀ j x, rs[j]? = some x → (Barred words count (k + j) → x = none) ∧ ((∀ k, a.grants k = true) → ¬ Barred words count (k + j) → x.isSome) := by
  induction r with
  | done => intro k h; exact ⟨h, fun j x hx => by simp at hx⟩
  | @malloc a b c r qs rs e _ ih =>
    intro k h
    obtain ⟨h1, h2, h3, h4⟩ := c75_malloc_aux h hw hc e
    obtain ⟨i1, i2⟩ := ih h1
    refine ⟨by rw [List.length_cons, show k + (rs.length + 1) = k + 1 + rs.length by omega]; exact i1, fun j x hx => ?_⟩
    cases j with
    | zero => cases hx; exact ⟨h3, h4⟩
    | succ j =>
      have := i2 j x (by simpa using hx)
      rw [h2, show k + 1 + j = k + (j + 1) by omega] at this
      exact this
  | @realloc a b c o r qs rs e _ ih =>
    intro k h
    obtain ⟨h1, h2, h3, h4⟩ := c75_realloc_aux h hw hc e
    obtain ⟨i1, i2⟩ := ih h1
    refine ⟨by rw [List.length_cons, show k + (rs.length + 1) = k + 1 + rs.length by omega]; exact i1, fun j x hx => ?_⟩
    cases j with
    | zero => cases hx; exact ⟨h3, h4⟩
    | succ j =>
      have := i2 j x (by simpa using hx)
      rw [h2, show k + 1 + j = k + (j + 1) by omega] at this
      exact this
  | @free a b c o qs rs e _ ih =>
    intro k h
    have key : AllocAt words count k b ∧ b.grants = a.grants := by
      cases o with
      | none => cases e; exact ⟨h, rfl⟩
      | some o =>
        simp only [Allocator.free] at e
        split at e
        · cases e; exact ⟨⟨h.1, h.2, h.3⟩, rfl⟩
        · cases e
    obtain ⟨i1, i2⟩ := ih key.1
    rw [key.2] at i2
    exact ⟨i1, i2⟩

/-! ### Theorems -/

/-- C75, what the allocator does after it was rigged with words, for every history of requests: request k (for new memory or to change the size of a block; from 0) is refused if its
bit is not set and, if the C library never refuses, only then; after `count` requests none is refused any more, and the number of requests still rigged is what is left of `count`.
Here the bit of request k is bit k mod 8 (not 32) of word k / 32. -/
theorem c75_requests {a b : Allocator} {words : List Nat} {count : Nat} {qs : List MemReq} {rs : List (Option Nat)} (hw : words.length = 20) (hc : count ≤ 640)
    (h : Asking (a.rigMany count words) qs rs b) :
    b.rigged = count - rs.length ∧
    ∀ k x, rs[k]? = some x → (Barred words count k → x = none) ∧ ((∀ k, a.grants k = true) → ¬ Barred words count k → x.isSome) := by
  obtain ⟨h1, h2⟩ := c75_asking_aux (k := 0) hw hc h ⟨rfl, by simp [Allocator.rigMany], rfl⟩
  refine ⟨by rw [h1.rigged]; omega, fun k x hx => ?_⟩
  have := h2 k x hx
  rw [Nat.zero_add] at this
  exact this

/-- C75, the first eight requests after rigging with one word: refused exactly if bit k of the word is not set.  Missing from the full statement: the same for all 32. -/
theorem c75_first_requests_partial {a b : Allocator} {mask count : Nat} {qs : List MemReq} {rs : List (Option Nat)} (hc : count ≤ 32)
    (h : Asking (a.rig count mask) qs rs b) (hg : ∀ k, a.grants k = true) {k : Nat} {x : Option Nat} (hk : k < 8) (hx : rs[k]? = some x) :
    x = none ↔ k < count ∧ mask.testBit k = false := by
  have h' : Asking (a.rigMany count (mask :: List.replicate 19 0)) qs rs b := h
  obtain ⟨h1, h2⟩ := (c75_requests (by simp) (by omega) h').2 k x hx
  have hb : Barred (mask :: List.replicate 19 0) count k ↔ k < count ∧ mask.testBit k = false := by
    have e1 : k / 32 = 0 := by omega
    have e2 : k % 8 = k := by omega
    simp [Barred, e1, e2]
  rw [← hb]
  constructor
  · intro hn
    subst hn
    exact Classical.byContradiction fun hbar => by simpa using h2 hg hbar
  · exact h1

/-- C75, what does not hold: from request 8 on the bits of the mask are not looked at.  If only bit k is set, for k from 8 to 31, request k is refused all the same. -/
theorem c75_later_bits_ignored {a b : Allocator} {count k : Nat} {qs : List MemReq} {rs : List (Option Nat)} (hc : count ≤ 32) (hk : 8 ≤ k) (hk' : k < count)
    (h : Asking (a.rig count (2 ^ k)) qs rs b) {x : Option Nat} (hx : rs[k]? = some x) : x = none := by
  have h' : Asking (a.rigMany count (2 ^ k :: List.replicate 19 0)) qs rs b := h
  refine ((c75_requests (by simp) (by omega) h').2 k x hx).1 ⟨hk', ?_⟩
  have e1 : k / 32 = 0 := by omega
  rw [e1]
  simp only [List.getElem?_cons_zero, Option.getD_some]
  rw [Nat.testBit_two_pow]
  simp
  omega

/-- C75, reads: read k after rigging (from 0) gives nothing, without touching the stream, if k is less than the count and bit k is not set; otherwise it is a read of the C library.
In both cases the next read is read k + 1. -/
theorem c75_reads {s : Host} {count mask k : Nat} (hc : count ≤ 32) (hr : Reader.At s.reader count mask k) (f : Stream) (n : Nat) :
    ∃ r, Reader.At r count mask (k + 1) ∧
      readFile f n s = if k < count ∧ mask.testBit k = false then .ok (([], f), { s with reader := r }) else io (Stdio.fread f n) { s with reader := r } := by
  obtain ⟨h1, h2, h3⟩ := hr
  by_cases hk : k < count
  · have hm : min k count = k := by omega
    have h0 : s.reader.rigged ≠ 0 := by omega
    have hlt : ¬ s.reader.bitIndex ≥ 32 := by omega
    refine ⟨{ s.reader with rigged := s.reader.rigged - 1, bitIndex := s.reader.bitIndex + 1 }, ⟨?_, ?_, h3⟩, ?_⟩
    · show s.reader.rigged - 1 = _
      omega
    · show s.reader.bitIndex + 1 = _
      omega
    · simp only [readFile, if_pos h0, if_neg hlt, c75_testBit_aux, h3]
      rw [h2, hm]
      cases mask.testBit k <;> simp [hk]
  · have h0 : s.reader.rigged = 0 := by omega
    refine ⟨s.reader, ⟨by omega, by omega, h3⟩, ?_⟩
    rw [if_neg (by simp [hk])]
    simp [readFile, h0]

/-- rigging starts with read 0 -/
theorem c75_reads_start (r : Reader) (count mask : Nat) : Reader.At (r.rig count mask) count mask 0 := ⟨rfl, by simp [Reader.rig], rfl⟩

/-! ### Examples -/

/-- the third request (to change the size of the first block) is refused, the block stays; the next is not rigged -/
example : Asking (Allocator.rig { grants := fun _ => true } 3 3) [.malloc, .malloc, .realloc (some 0), .free (some 0), .malloc] [some 0, some 1, none, some 2]
    { grants := fun _ => true, rigged := 0, bitIndex := 3, bitQueue := 3 :: List.replicate 19 0, asked := 3, live := [2, 1] } :=
  .malloc rfl (.malloc rfl (.realloc rfl (.free rfl (.malloc rfl .done))))

/-- a read that is refused, one that is not -/
example : Reader.At ({ rigged := 1, bitIndex := 1, bitQueue := 2 } : Reader) 2 2 1 := ⟨rfl, rfl, rfl⟩

end Dern.Props
