import Verif.Core.Files
import Verif.Props.C02
/-
C74: whole files.
-/
namespace Dern.Props
open Dern Dern.Files
open Dern.Stdio (Sys Io Stream fopen fclose fseek ftell fread failing upTo content put)
open Dern.Utf8 (Octet)

/-! ### Specification -/

/-- The states of a host: at most 640 requests for memory and 32 reads are rigged, as the functions that rig them demand, and blocks have different numbers. -/
structure Ready (s : Host) : Prop where
  words : s.alloc.bitQueue.length = 20
  requests : s.alloc.bitIndex + s.alloc.rigged ≤ 640
  reads : s.reader.bitIndex + s.reader.rigged ≤ 32
  blocks : ∀ b ∈ s.alloc.live, b < s.alloc.asked
  nodup : s.alloc.live.Nodup

/-- the files are the same, the same number of streams is open, no more requests are rigged -/
structure Untouched (s t : Host) : Prop where
  grants : t.alloc.grants = s.alloc.grants
  rigged : t.alloc.rigged ≤ s.alloc.rigged
  disk : t.sys.disk = s.sys.disk
  streams : t.streams = s.streams
  ready : Ready t

/-- something can have gone wrong: the C library fails, or requests or reads are rigged -/
def Trouble (s : Host) : Prop :=
  (∃ k, s.sys.fails k = true) ∨ s.alloc.rigged ≠ 0 ∨ (∃ k, s.alloc.grants k = false) ∨ s.reader.rigged ≠ 0

/-! ### Proofs -/

/-- a computation returns, and `Q` holds of its result -/
def Does {α : Type} (p : Hx α) (s : Host) (Q : α → Host → Prop) : Prop := ∃ a t, p s = .ok (a, t) ∧ Q a t

theorem does_pure {α : Type} {a : α} {s : Host} {Q : α → Host → Prop} (h : Q a s) : Does (pure a) s Q := ⟨a, s, rfl, h⟩

theorem does_bind {α β : Type} {p : Hx α} {f : α → Hx β} {s : Host} {Q : β → Host → Prop} (h : Does p s fun a t => Does (f a) t Q) : Does (p >>= f) s Q := by
  obtain ⟨a, t, e, b, u, e', q⟩ := h
  refine ⟨b, u, ?_, q⟩
  show StateT.bind p f s = _
  simp only [StateT.bind, e]
  exact e'

theorem Does.mono {α : Type} {p : Hx α} {s : Host} {Q R : α → Host → Prop} (h : Does p s Q) (q : ∀ a t, Q a t → R a t) : Does p s R := by
  obtain ⟨a, t, e, h⟩ := h
  exact ⟨a, t, e, q a t h⟩

/-- the C library makes its choices, nothing else changes -/
structure Chose (s t : Host) : Prop where
  disk : t.sys.disk = s.sys.disk
  fails : t.sys.fails = s.sys.fails
  alloc : t.alloc = s.alloc
  reader : t.reader = s.reader
  streams : t.streams = s.streams

/-- a stream opened for reading whose last operation was not input -/
structure AtRest (path : Text) (f : Stream) : Prop where
  path : f.path = path
  last : f.last = .idle

theorem AtRest.pending {path : Text} {f : Stream} (a : AtRest path f) : f.pending = [] := by simp [Stream.pending, a.last]

theorem does_seek {path : Text} {f : Stream} (a : AtRest path f) (w : Stdio.Whence) (s : Host) {Q : Bool × Stream → Host → Prop}
    (h : ∀ g ok t, Chose s t → AtRest path g → (g.pos = w.base f.pos (s.sys.content path).length ∨ (g.pos = f.pos ∧ ∃ k, s.sys.fails k = true)) → Q (ok, g) t) :
    Does (io (fseek f 0 w)) s Q := by
  have hp := a.pending
  cases hb : s.sys.fails s.sys.tick with
  | true =>
    refine ⟨(false, f), { s with sys := { s.sys with tick := s.sys.tick + 1 } }, ?_, h _ _ _ ⟨rfl, rfl, rfl, rfl, rfl⟩ a (.inr ⟨rfl, _, hb⟩)⟩
    simp [io, fseek, failing, put, content, bind, StateT.bind, Except.bind, hb, hp, pure, StateT.pure, Except.pure]
  | false =>
    refine ⟨(true, { f with pos := w.base f.pos (s.sys.content path).length, last := .idle }), { s with sys := { s.sys with tick := s.sys.tick + 1 } }, ?_,
      h _ _ _ ⟨rfl, rfl, rfl, rfl, rfl⟩ ⟨a.path, rfl⟩ (.inl rfl)⟩
    have ht : { s.sys with tick := s.sys.tick + 1 }.content f.path = s.sys.content path := by rw [a.path]; rfl
    simp [io, fseek, failing, put, content, bind, StateT.bind, Except.bind, hb, hp, pure, StateT.pure, Except.pure, ht]
    rw [if_neg (by omega)]
    rfl

theorem does_tell {path : Text} {f : Stream} (a : AtRest path f) (s : Host) {Q : Int → Host → Prop}
    (h : ∀ (i : Int) t, Chose s t → (i = f.pos ∨ (i = -1 ∧ ∃ k, s.sys.fails k = true)) → Q i t) : Does (io (ftell f)) s Q := by
  have hp := a.pending
  cases hb : s.sys.fails s.sys.tick with
  | true =>
    refine ⟨-1, { s with sys := { s.sys with tick := s.sys.tick + 1 } }, ?_, h _ _ ⟨rfl, rfl, rfl, rfl, rfl⟩ (.inr ⟨rfl, _, hb⟩)⟩
    simp [io, ftell, failing, bind, StateT.bind, Except.bind, hb, pure, StateT.pure, Except.pure]
  | false =>
    refine ⟨f.pos, { s with sys := { s.sys with tick := s.sys.tick + 1 } }, ?_, h _ _ ⟨rfl, rfl, rfl, rfl, rfl⟩ (.inl rfl)⟩
    simp [io, ftell, failing, bind, StateT.bind, Except.bind, hb, hp, pure, StateT.pure, Except.pure]

theorem does_close {f : Stream} (hf : f.pending = []) (s : Host) {Q : Unit → Host → Prop}
    (h : ∀ t, t.sys.disk = s.sys.disk → t.alloc = s.alloc → t.reader = s.reader → t.streams = s.streams - 1 → Q () t) : Does (closeFile f) s Q := by
  refine ⟨(), { s with sys := { s.sys with tick := s.sys.tick + 1 }, streams := s.streams - 1 }, ?_, h _ rfl rfl rfl rfl⟩
  cases hb : s.sys.fails s.sys.tick <;>
    simp [closeFile, io, fclose, failing, put, hf, bind, StateT.bind, Except.bind, hb, pure, StateT.pure, Except.pure]

theorem does_open (path : Text) (s : Host) {Q : Option Stream → Host → Prop}
    (no : ∀ t, Chose s t → (s.sys.disk path = none ∨ ∃ k, s.sys.fails k = true) → Q none t)
    (yes : ∀ f os t, s.sys.disk path = some os → t.sys.disk = s.sys.disk → t.sys.fails = s.sys.fails → t.alloc = s.alloc → t.reader = s.reader →
      t.streams = s.streams + 1 → AtRest path f → f.pos = 0 → Q (some f) t) : Does (openFile path) s Q := by
  cases hb : s.sys.fails s.sys.tick with
  | true =>
    refine ⟨none, { s with sys := { s.sys with tick := s.sys.tick + 1 } }, ?_, no _ ⟨rfl, rfl, rfl, rfl, rfl⟩ (.inr ⟨_, hb⟩)⟩
    simp [openFile, io, fopen, failing, bind, StateT.bind, Except.bind, hb, pure, StateT.pure, Except.pure]
  | false =>
    cases hd : s.sys.disk path with
    | none =>
      refine ⟨none, { s with sys := { s.sys with tick := s.sys.tick + 1 } }, ?_, no _ ⟨rfl, rfl, rfl, rfl, rfl⟩ (.inl hd)⟩
      simp [openFile, io, fopen, failing, bind, StateT.bind, Except.bind, hb, hd, pure, StateT.pure, Except.pure]
    | some os =>
      refine ⟨some { path := path, input := true, output := false, pos := 0 }, { s with sys := { s.sys with tick := s.sys.tick + 1 }, streams := s.streams + 1 }, ?_,
        yes _ os _ hd rfl rfl rfl rfl rfl ⟨rfl, rfl⟩ rfl⟩
      simp [openFile, io, fopen, failing, bind, StateT.bind, Except.bind, hb, hd, pure, StateT.pure, Except.pure]

theorem does_fread {path : Text} {f : Stream} (a : AtRest path f) (n : Nat) (hn : n ≠ 0) (s : Host) {Q : List Octet × Stream → Host → Prop}
    (h : ∀ k g t, Chose s t → g.pending = [] → k ≤ min n ((s.sys.content path).length - f.pos) →
      (k = min n ((s.sys.content path).length - f.pos) ∨ ∃ k, s.sys.fails k = true) → Q (((s.sys.content path).drop f.pos).take k, g) t) :
    Does (io (fread f n)) s Q := by
  have hc : ∀ j, { s.sys with tick := j }.content f.path = s.sys.content path := by intro j; rw [a.path]; rfl
  have hc' : s.sys.content f.path = s.sys.content path := by rw [a.path]
  cases hb : s.sys.fails s.sys.tick with
  | true =>
    refine ⟨_, { s with sys := { s.sys with tick := s.sys.tick + 1 + 1 } }, ?_,
      h (min (min n ((s.sys.content path).length - f.pos)) (s.sys.amount (s.sys.tick + 1))) { f with
        pos := f.pos + min (min n ((s.sys.content path).length - f.pos)) (s.sys.amount (s.sys.tick + 1)),
        last := .input (min (min n ((s.sys.content path).length - f.pos)) (s.sys.amount (s.sys.tick + 1)) < n &&
          min (min n ((s.sys.content path).length - f.pos)) (s.sys.amount (s.sys.tick + 1)) = (s.sys.content path).length - f.pos) }
        _ ⟨rfl, rfl, rfl, rfl, rfl⟩ rfl (Nat.min_le_left _ _) (.inr ⟨_, hb⟩)⟩
    simp [io, fread, failing, upTo, content, a.last, hn, bind, StateT.bind, Except.bind, hb, hc', pure, StateT.pure, Except.pure]
  | false =>
    refine ⟨_, { s with sys := { s.sys with tick := s.sys.tick + 1 } }, ?_,
      h (min n ((s.sys.content path).length - f.pos)) { f with
        pos := f.pos + min n ((s.sys.content path).length - f.pos),
        last := .input (min n ((s.sys.content path).length - f.pos) < n &&
          min n ((s.sys.content path).length - f.pos) = (s.sys.content path).length - f.pos) }
        _ ⟨rfl, rfl, rfl, rfl, rfl⟩ rfl (Nat.le_refl _) (.inl rfl)⟩
    simp [io, fread, failing, upTo, content, a.last, hn, bind, StateT.bind, Except.bind, hb, hc', pure, StateT.pure, Except.pure]

theorem does_malloc {s : Host} (r : Ready s) {Q : Option Nat → Host → Prop}
    (no : ∀ t, t.sys = s.sys → t.reader = s.reader → t.streams = s.streams → Ready t → t.alloc.live = s.alloc.live →
      t.alloc.rigged ≤ s.alloc.rigged → t.alloc.grants = s.alloc.grants → (s.alloc.rigged ≠ 0 ∨ ∃ k, s.alloc.grants k = false) → Q none t)
    (yes : ∀ b t, t.sys = s.sys → t.reader = s.reader → t.streams = s.streams → Ready t → t.alloc.live = b :: s.alloc.live → b ∉ s.alloc.live →
      t.alloc.rigged ≤ s.alloc.rigged → t.alloc.grants = s.alloc.grants → Q (some b) t) : Does malloc s Q := by
  have fresh : s.alloc.asked ∉ s.alloc.live := fun h => Nat.lt_irrefl _ (r.blocks _ h)
  -- the state before the C library is asked
  have key : ∃ no' a, s.alloc.refuses = .ok (no', a) ∧ a.bitQueue.length = 20 ∧ a.bitIndex + a.rigged ≤ 640 ∧ a.live = s.alloc.live ∧ a.asked = s.alloc.asked ∧
      a.grants = s.alloc.grants ∧ a.rigged ≤ s.alloc.rigged ∧ (no' = true → s.alloc.rigged ≠ 0) := by
    unfold Allocator.refuses
    split
    · next hr =>
      have h1 := r.words
      have h2 := r.requests
      have hlt : s.alloc.bitIndex / 32 < s.alloc.bitQueue.length := by omega
      simp only [Allocator.testBit, List.getElem?_eq_getElem hlt]
      exact ⟨_, _, rfl, h1, by show _ + 1 + (_ - 1) ≤ 640; omega, rfl, rfl, rfl, Nat.sub_le _ _, fun _ => hr⟩
    · next hr => exact ⟨_, _, rfl, r.words, r.requests, rfl, rfl, rfl, Nat.le_refl _, fun h => by cases h⟩
  obtain ⟨no', a, e, h1, h2, h3, h4, h5, h6, h7⟩ := key
  cases no' with
  | true =>
    refine ⟨none, { s with alloc := a }, ?_, no _ rfl rfl rfl ⟨h1, h2, r.reads, ?_, ?_⟩ h3 h6 h5 (.inl (h7 rfl))⟩
    · simp [Files.malloc, Allocator.malloc, e, bind, Except.bind]
    · show ∀ b ∈ a.live, b < a.asked
      rw [h3, h4]; exact r.blocks
    · show a.live.Nodup
      rw [h3]; exact r.nodup
  | false =>
    cases hg : a.grants a.asked with
    | true =>
      refine ⟨some a.asked, { s with alloc := { a with asked := a.asked + 1, live := a.asked :: a.live } }, ?_, yes _ _ rfl rfl rfl ⟨h1, h2, r.reads, ?_, ?_⟩ ?_ ?_ h6 h5⟩
      · simp [Files.malloc, Allocator.malloc, e, hg, bind, Except.bind]
      · intro b hb
        rcases List.mem_cons.mp hb with rfl | hb
        · exact Nat.lt_succ_self _
        · rw [h3] at hb
          have := r.blocks b hb
          show b < a.asked + 1
          omega
      · show (a.asked :: a.live).Nodup
        rw [h3, h4]; exact List.nodup_cons.mpr ⟨fresh, r.nodup⟩
      · show a.asked :: a.live = _
        rw [h3]
      · rw [h4]; exact fresh
    | false =>
      refine ⟨none, { s with alloc := { a with asked := a.asked + 1 } }, ?_, no _ rfl rfl rfl ⟨h1, h2, r.reads, ?_, ?_⟩ h3 h6 h5 (.inr ⟨a.asked, by rw [← h5]; exact hg⟩)⟩
      · simp [Files.malloc, Allocator.malloc, e, hg, bind, Except.bind]
      · intro b hb
        show b < a.asked + 1
        have hb : b ∈ a.live := hb
        rw [h3] at hb
        have := r.blocks b hb
        omega
      · show a.live.Nodup
        rw [h3]; exact r.nodup

theorem does_free {s : Host} (r : Ready s) {b : Nat} (hb : b ∈ s.alloc.live) {Q : Unit → Host → Prop}
    (h : ∀ t, t.sys = s.sys → t.reader = s.reader → t.streams = s.streams → Ready t → t.alloc.live = s.alloc.live.erase b → t.alloc.rigged = s.alloc.rigged →
      t.alloc.grants = s.alloc.grants → Q () t) : Does (free (some b)) s Q := by
  refine ⟨(), { s with alloc := { s.alloc with live := s.alloc.live.erase b } }, ?_, h _ rfl rfl rfl ⟨r.words, r.requests, r.reads, ?_, ?_⟩ rfl rfl rfl⟩
  · simp [Files.free, Allocator.free, hb]
  · intro c hc
    exact r.blocks c (List.mem_of_mem_erase hc)
  · exact r.nodup.erase _

theorem does_read {path : Text} {f : Stream} (a : AtRest path f) (n : Nat) (hn : n ≠ 0) {s : Host} (r : Ready s) {Q : List Octet × Stream → Host → Prop}
    (h : ∀ k g t, t.sys.disk = s.sys.disk → t.alloc = s.alloc → t.streams = s.streams → Ready t → g.pending = [] →
      k ≤ min n ((s.sys.content path).length - f.pos) →
      (k = min n ((s.sys.content path).length - f.pos) ∨ (∃ k, s.sys.fails k = true) ∨ s.reader.rigged ≠ 0) → Q (((s.sys.content path).drop f.pos).take k, g) t) :
    Does (readFile f n) s Q := by
  have hr := r.reads
  by_cases h0 : s.reader.rigged = 0
  · obtain ⟨x, t, e, q⟩ := does_fread (Q := Q) a n hn s fun k g t c hg hk hk' => h k g t c.disk c.alloc c.streams
      ⟨by rw [c.alloc]; exact r.words, by rw [c.alloc]; exact r.requests, by rw [c.reader]; exact r.reads, by rw [c.alloc]; exact r.blocks, by rw [c.alloc]; exact r.nodup⟩
      hg hk (hk'.elim .inl fun h => .inr (.inl h))
    exact ⟨x, t, by simp only [readFile, h0, ne_eq, not_true_eq_false, if_false]; exact e, q⟩
  · have hlt : ¬ s.reader.bitIndex ≥ 32 := by omega
    let s' : Host := { s with reader := { s.reader with rigged := s.reader.rigged - 1, bitIndex := s.reader.bitIndex + 1 } }
    have r' : Ready s' := ⟨r.words, r.requests, by show _ + 1 + (_ - 1) ≤ 32; omega, r.blocks, r.nodup⟩
    cases hb : testBit s.reader.bitQueue s.reader.bitIndex with
    | true =>
      obtain ⟨x, t, e, q⟩ := does_fread (Q := Q) a n hn s' fun k g t c hg hk hk' => h k g t c.disk c.alloc c.streams
        ⟨by rw [c.alloc]; exact r'.words, by rw [c.alloc]; exact r'.requests, by rw [c.reader]; exact r'.reads, by rw [c.alloc]; exact r'.blocks,
          by rw [c.alloc]; exact r'.nodup⟩
        hg hk (.inr (.inr h0))
      exact ⟨x, t, by simp only [readFile, if_pos h0, if_neg hlt, hb]; exact e, q⟩
    | false =>
      refine ⟨_, s', ?_, h 0 f s' rfl rfl rfl r' a.pending (Nat.zero_le _) (.inr (.inr h0))⟩
      simp only [readFile, if_pos h0, if_neg hlt, hb]
      rfl

/-! ### Theorems -/

/-- C74.  Reading a whole file always returns.  Either the result is a new buffer with exactly the octets of the file and their number, or there is no buffer and the number is 0, and
then the file does not exist, is empty, or something went wrong.  Whatever goes wrong, and wherever: the stream is closed again, nothing but the buffer of the result remains allocated,
and no file changes. -/
theorem c74_whole_or_nothing {s : Host} (hs : Ready s) (path : Text) :
    ∃ r t, pathToBuffer path s = .ok (r, t) ∧ Untouched s t ∧
      ((∃ b os, r = (some (b, os), os.length) ∧ s.sys.disk path = some os ∧ os ≠ [] ∧ t.alloc.live = b :: s.alloc.live ∧ b ∉ s.alloc.live) ∨
        (r = (none, 0) ∧ t.alloc.live = s.alloc.live ∧ (s.sys.disk path = none ∨ s.sys.disk path = some [] ∨ Trouble s))) := by
  have back : ∀ {t u : Host}, Ready t → u.alloc = t.alloc → u.reader = t.reader → Ready u := fun r h1 h2 =>
    ⟨by rw [h1]; exact r.words, by rw [h1]; exact r.requests, by rw [h2]; exact r.reads, by rw [h1]; exact r.blocks, by rw [h1]; exact r.nodup⟩
  show Does _ _ _
  unfold pathToBuffer
  refine does_bind (does_open path s (fun t c hno => ?_) fun f os t1 hd d1 f1 a1 r1 s1 hf hpos => ?_)
  · refine does_pure ⟨⟨by rw [c.alloc], by rw [c.alloc], c.disk, c.streams, back hs c.alloc c.reader⟩, .inr ⟨rfl, by rw [c.alloc], ?_⟩⟩
    exact hno.elim .inl fun h => .inr (.inr (.inl h))
  have c1 : t1.sys.content path = os := by rw [Stdio.Sys.content, d1, hd]; rfl
  refine does_bind (does_seek hf .end_ t1 fun g ok t2 c2 hg hgp => ?_)
  rw [c1, f1, hpos] at hgp
  simp only
  refine does_bind (does_tell hg t2 fun i t3 c3 hi => ?_)
  rw [c2.fails, f1] at hi
  have rd3 : Ready t3 := back (back (back hs a1 r1) c2.alloc c2.reader) c3.alloc c3.reader
  have al3 : t3.alloc = s.alloc := by rw [c3.alloc, c2.alloc, a1]
  have re3 : t3.reader = s.reader := by rw [c3.reader, c2.reader, r1]
  have st3 : t3.streams = s.streams + 1 := by rw [c3.streams, c2.streams, s1]
  have di3 : t3.sys.disk = s.sys.disk := by rw [c3.disk, c2.disk, d1]
  have fa3 : t3.sys.fails = s.sys.fails := by rw [c3.fails, c2.fails, f1]
  have why : i ≤ 0 → s.sys.disk path = none ∨ s.sys.disk path = some [] ∨ Trouble s := by
    intro hle
    rcases hi with hi | ⟨_, hf⟩
    · rcases hgp with hgp | ⟨_, hf⟩
      · have h0 : os.length = 0 := by
          have : g.pos = os.length := hgp
          omega
        rw [List.length_eq_zero_iff] at h0
        subst h0
        exact .inr (.inl hd)
      · exact .inr (.inr (.inl hf))
    · exact .inr (.inr (.inl hf))
  split
  · next hle =>
    refine does_bind (does_close hg.pending t3 fun t4 h1 h2 h3 h4 => does_pure ⟨⟨by rw [h2, al3], by rw [h2, al3], by rw [h1, di3], by rw [h4, st3]; rfl, back rd3 h2 h3⟩, .inr ⟨rfl, by rw [h2, al3], why hle⟩⟩)
  · next hlt =>
    have hip : i = os.length ∧ 0 < os.length := by
      rcases hi with hi | ⟨hi, _⟩
      · rcases hgp with hgp | ⟨hgp, _⟩
        · have : g.pos = os.length := hgp
          omega
        · omega
      · omega
    obtain ⟨rfl, hlen⟩ := hip
    refine does_bind (does_seek hg .set t3 fun g' ok' t4 c4 hg' hgp' => ?_)
    simp only
    have c3' : t3.sys.content path = os := by rw [Stdio.Sys.content, di3, hd]; rfl
    rw [c3', fa3] at hgp'
    have rd4 := back rd3 c4.alloc c4.reader
    refine does_bind (does_malloc rd4 (fun t5 h1 h2 h3 h4 h5 hr hgr h6 => ?_) fun b t5 h1 h2 h3 h4 h5 h6 h7 h8 => ?_)
    · refine does_bind (does_close hg'.pending t5 fun t6 k1 k2 k3 k4 => does_pure ⟨⟨by rw [k2, hgr, c4.alloc, al3], by rw [k2]; rw [c4.alloc, al3] at hr; exact hr, by rw [k1, h1, c4.disk, di3], by rw [k4, h3, c4.streams, st3]; rfl, back h4 k2 k3⟩,
        .inr ⟨rfl, by rw [k2, h5, c4.alloc, al3], .inr (.inr ?_)⟩⟩)
      rw [c4.alloc, al3] at h6
      rcases h6 with h | h
      · exact .inr (.inl h)
      · exact .inr (.inr (.inl h))
    · have c5 : t5.sys.content path = os := by rw [h1, Stdio.Sys.content, c4.disk, di3, hd]; rfl
      refine does_bind (does_read hg' _ (by simp; intro h; subst h; simp at hlen) h4 fun k g6 t6 k1 k2 k3 k4 k5 k6 k7 => ?_)
      simp only [c5, Int.toNat_natCast] at k6 k7 ⊢
      have hmin : k ≤ os.length - g'.pos := by omega
      have hl : ((os.drop g'.pos).take k).length = k := by simp; omega
      simp only [hl]
      split
      · next hne =>
        refine does_bind (does_close k5 t6 fun t7 m1 m2 m3 m4 => ?_)
        refine does_bind (does_free (b := b) (back k4 m2 m3) (by rw [m2, k2, h5]; simp) fun t8 n1 n2 n3 n4 n5 n6 n7 => does_pure
          ⟨⟨by rw [n7, m2, k2, h8, c4.alloc, al3], by rw [n6, m2, k2]; rw [c4.alloc, al3] at h7; exact h7, by rw [n1, m1, k1, h1, c4.disk, di3], by rw [n3, m4, k3, h3, c4.streams, st3]; rfl, n4⟩, .inr ⟨rfl, ?_, .inr (.inr ?_)⟩⟩)
        · rw [n5, m2, k2, h5, c4.alloc, al3, List.erase_cons_head]
        · rcases k7 with rfl | hf | hr
          · rcases hgp' with hp | ⟨_, hf⟩
            · have : g'.pos = 0 := hp
              omega
            · exact .inl hf
          · rw [h1, c4.fails, fa3] at hf
            exact .inl hf
          · rw [h2, c4.reader, re3] at hr
            exact .inr (.inr (.inr hr))
      · next heq =>
        have hk : k = os.length := by simpa using heq
        have hp0 : g'.pos = 0 := by omega
        refine does_bind (does_close k5 t6 fun t7 m1 m2 m3 m4 => does_pure ⟨⟨by rw [m2, k2, h8, c4.alloc, al3], by rw [m2, k2]; rw [c4.alloc, al3] at h7; exact h7, by rw [m1, k1, h1, c4.disk, di3], by rw [m4, k3, h3, c4.streams, st3]; rfl, back k4 m2 m3⟩,
          .inl ⟨b, os, ?_, hd, ?_, by rw [m2, k2, h5, c4.alloc, al3], ?_⟩⟩)
        · subst hk
          rw [hp0]
          simp
        · rintro rfl
          simp at hlen
        · rw [c4.alloc, al3] at h6
          exact h6

/-- C74: a file that is there and not empty is read if nothing goes wrong. -/
theorem c74_found {s : Host} (hs : Ready s) {path : Text} {os : List Octet} (hd : s.sys.disk path = some os) (hne : os ≠ []) (ok : ¬ Trouble s) :
    ∃ b t, pathToBuffer path s = .ok ((some (b, os), os.length), t) ∧ Untouched s t ∧ t.alloc.live = b :: s.alloc.live ∧ b ∉ s.alloc.live := by
  obtain ⟨r, t, e, u, h | ⟨_, _, h⟩⟩ := c74_whole_or_nothing hs path
  · obtain ⟨b, os', rfl, h1, h2, h3, h4⟩ := h
    rw [hd] at h1
    cases h1
    exact ⟨b, t, e, u, h3, h4⟩
  · rw [hd] at h
    rcases h with h | h | h
    · cases h
    · cases h; exact absurd rfl hne
    · exact absurd h ok

/-- C74, what does not hold: an empty file is not told from a missing one. -/
theorem c74_empty_is_missing {s : Host} (hs : Ready s) {path : Text} (hd : s.sys.disk path = some [] ∨ s.sys.disk path = none) :
    ∃ t, pathToBuffer path s = .ok ((none, 0), t) ∧ Untouched s t ∧ t.alloc.live = s.alloc.live := by
  obtain ⟨r, t, e, u, h | ⟨rfl, h1, _⟩⟩ := c74_whole_or_nothing hs path
  · obtain ⟨b, os, rfl, h1, h2, h3, h4⟩ := h
    rw [h1] at hd
    rcases hd with h | h
    · cases h; exact absurd rfl h2
    · cases h
  · exact ⟨t, e, u, h1⟩

/-- C74, an input from a file: it stands before the first character of the longest beginning of the file that is well-formed, or there is no input, and then the file does not exist,
is empty, or something went wrong.  Only the input remains allocated, the stream is closed, and no file changes.  (Well-formed as for strings, see C02.) -/
theorem c74_input {s : Host} (hs : Ready s) (path : Text) :
    ∃ r t, inputFromPath path s = .ok (r, t) ∧ Untouched s t ∧
      ((∃ i os text rest, r = some (i, { index := 0, line := 1, column := 1, rest := text }) ∧ s.sys.disk path = some os ∧ os ≠ [] ∧
          LongestText (os.map BitVec.toNat) text rest ∧ t.alloc.live = i :: s.alloc.live) ∨
        (r = none ∧ t.alloc.live = s.alloc.live ∧ (s.sys.disk path = none ∨ s.sys.disk path = some [] ∨ Trouble s))) := by
  obtain ⟨r, t, e, u, h⟩ := c74_whole_or_nothing hs path
  have start : Does (pathToBuffer path) s fun r' t' => r' = r ∧ t' = t := ⟨r, t, e, rfl, rfl⟩
  show Does _ _ _
  unfold inputFromPath
  refine does_bind (start.mono ?_)
  rintro _ _ ⟨rfl, rfl⟩
  rcases h with ⟨b, os, rfl, h1, h2, h3, h4⟩ | ⟨rfl, h3, h4⟩
  · simp only
    refine does_bind (does_malloc u.ready (fun t1 k1 k2 k3 k4 k5 kr kg k6 => ?_) fun i t1 k1 k2 k3 k4 k5 k6 k7 k8 => ?_)
    · refine does_bind (does_pure ?_)
      refine does_bind (does_free (b := b) k4 (by rw [k5, h3]; simp) fun t2 m1 m2 m3 m4 m5 m6 m7 => does_pure
        ⟨⟨by rw [m7, kg, u.grants], by rw [m6]; exact Nat.le_trans kr u.rigged, by rw [m1, k1, u.disk], by rw [m3, k3, u.streams], m4⟩, .inr ⟨rfl, by rw [m5, k5, h3, List.erase_cons_head], ?_⟩⟩)
      rcases k6 with h | ⟨k, h⟩
      · exact .inr (.inr (.inr (.inl fun h0 => h (Nat.le_zero.mp (h0 ▸ u.rigged)))))
      · exact .inr (.inr (.inr (.inr (.inl ⟨k, by rw [← u.grants]; exact h⟩))))
    · obtain ⟨fb, rest, f1, f2, f3⟩ := c02_string_longest_partial os
      simp only [f1]
      refine does_bind (does_pure ?_)
      refine does_bind (does_free (b := b) k4 (by rw [k5, h3]; simp) fun t2 m1 m2 m3 m4 m5 m6 m7 => does_pure
        ⟨⟨by rw [m7, k8, u.grants], by rw [m6]; exact Nat.le_trans k7 u.rigged, by rw [m1, k1, u.disk], by rw [m3, k3, u.streams], m4⟩, .inl ⟨i, os, _, rest, rfl, h1, h2, f2, ?_⟩⟩)
      rw [m5, k5, h3, List.erase_cons_tail (by simpa using fun h => k6 (by rw [h3, h]; simp)), List.erase_cons_head]
  · exact does_pure ⟨u, .inr ⟨rfl, h3, h4⟩⟩

/-- C74, so a file that is well-formed as a whole is read as a whole, and (what a user would not expect) of a file with octets that are not well-formed only the text before them is
read, without an error. -/
theorem c74_input_text {s : Host} (hs : Ready s) {path : Text} {os : List Octet} {text rest : List Nat} (hd : s.sys.disk path = some os) (hne : os ≠ []) (ok : ¬ Trouble s)
    (ht : LongestText (os.map BitVec.toNat) text rest) :
    ∃ i t, inputFromPath path s = .ok (some (i, { index := 0, line := 1, column := 1, rest := text }), t) ∧ Untouched s t ∧ t.alloc.live = i :: s.alloc.live := by
  obtain ⟨r, t, e, u, h | ⟨_, _, h⟩⟩ := c74_input hs path
  · obtain ⟨i, os', text', rest', rfl, h1, h2, h3, h4⟩ := h
    rw [hd] at h1
    cases h1
    obtain ⟨rfl, _⟩ := c02_longest_unique ht h3
    exact ⟨i, t, e, u, h4⟩
  · rw [hd] at h
    rcases h with h | h | h
    · cases h
    · cases h; exact absurd rfl hne
    · exact absurd h ok

/-! ### Examples -/

/-- a host with the files `a` (`hi` and the octet 255) and `e` (empty) -/
def exFiles (fails grants : Nat → Bool) : Host where
  sys := { disk := fun p => if p = txt "a" then some [104, 105, 255] else if p = txt "e" then some [] else none, fails := fails, amount := fun _ => 1, tick := 0 }
  alloc := { grants := grants, asked := 3, live := [2, 0] }
  reader := {}

example (fails grants : Nat → Bool) : Ready (exFiles fails grants) :=
  ⟨rfl, by simp [exFiles], by simp [exFiles], fun b hb => by change b ∈ [2, 0] at hb; change b < 3; rcases List.mem_cons.mp hb with rfl | hb <;> simp_all, by simp [exFiles]⟩

example : ¬ Trouble (exFiles (fun _ => false) fun _ => true) := by simp [Trouble, exFiles]

/-- the file, and its text before the octet that does not belong to one -/
example : ((pathToBuffer (txt "a") (exFiles (fun _ => false) fun _ => true)).toOption.map fun r => (r.1, r.2.alloc.live, r.2.streams)) =
      some ((some (3, [104, 105, 255]), 3), [3, 2, 0], 0) ∧
    ((inputFromPath (txt "a") (exFiles (fun _ => false) fun _ => true)).toOption.map fun r => (r.1, r.2.alloc.live, r.2.streams)) =
      some (some (4, { index := 0, line := 1, column := 1, rest := txt "hi" }), [4, 2, 0], 0) ∧
    LongestText [104, 105, 255] (txt "hi") [255] := by
  refine ⟨by decide +kernel, by decide +kernel, rfl, by decide, fun c h1 h2 h3 => ?_⟩
  obtain ⟨t, ht⟩ := h3
  unfold Spec.Utf8.encode at ht
  split at ht <;> (try split at ht) <;> (try split at ht) <;> simp at ht <;> omega

/-- no memory, the fifth choice of the library a failure (it reads one octet), the third (no position): no buffer, nothing left behind -/
example : ((pathToBuffer (txt "a") (exFiles (fun _ => false) fun _ => false)).toOption.map fun r => (r.1, r.2.alloc.live, r.2.streams)) = some ((none, 0), [2, 0], 0) ∧
    ((pathToBuffer (txt "a") (exFiles (fun k => k == 4) fun _ => true)).toOption.map fun r => (r.1, r.2.alloc.live, r.2.streams)) = some ((none, 0), [2, 0], 0) ∧
    ((pathToBuffer (txt "a") (exFiles (fun k => k == 2) fun _ => true)).toOption.map fun r => (r.1, r.2.alloc.live, r.2.streams)) = some ((none, 0), [2, 0], 0) :=
  ⟨rfl, rfl, rfl⟩

end Dern.Props
