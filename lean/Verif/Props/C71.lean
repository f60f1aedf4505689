import Verif.Dern.Port
/-
C71: ports on files.

A program uses any number of ports, on any files, in any order; the library may fail at any time and may put buffered octets into the files whenever it
likes.  `perform` makes one step, `Performs` a whole history.
-/
namespace Dern.Props
open Dern
open Dern.Stdio (Sys Io Stream Last Whence)
open Dern.Ports (Port Tag)

/-! ### Specification -/

/-- what can be done with a port -/
inductive PortOp where
  | read (n : Nat)
  | write (os : List Utf8.Octet)
  | seek (amount : Int) (fromCurrent : Bool)
  | flush | close | release | distance | length | supportsOutput | supportsInput
  deriving DecidableEq

/-- one step of a program: a new port, a copy of a port, or something done with a port.  Ports are numbered in the order in which they are made. -/
inductive PortAct where
  | openInput (f : Text) | openOutput (f : Text) | openIo (f : Text)
  | copy (i : Nat)
  | use (i : Nat) (op : PortOp)
  deriving DecidableEq

/-- the answer -/
inductive PortAns where
  | made
  | flag (b : Bool)
  | number (n : Int)
  | octets (n : Int) (os : List Utf8.Octet)
  | nothing
  deriving DecidableEq

/-- the C library and the ports; a port that has been released is `none` -/
structure PortState where
  sys : Sys
  ports : List (Option Port)

/-- an operation: the answer and the port afterwards -/
def PortOp.perform : PortOp → Port → Io (PortAns × Option Port)
  | .read n, p => do
    let (a, p) ← Ports.read p n
    pure (.octets a.1 a.2, some p)
  | .write os, p => do
    let (n, p) ← Ports.write p os
    pure (.number n, some p)
  | .seek a c, p => do
    let (b, p) ← Ports.seek p a c
    pure (.flag b, some p)
  | .flush, p => do
    let (b, p) ← Ports.flush p
    pure (.flag b, some p)
  | .close, p => do
    let (b, p) ← Ports.close p
    pure (.flag b, some p)
  | .release, p => do
    Ports.release p
    pure (.nothing, none)
  | .distance, p => do
    let n ← Ports.distance p
    pure (.number n, some p)
  | .length, p => pure (.number (Ports.length p), some p)
  | .supportsOutput, p => do
    let b ← Ports.supportsOutput p
    pure (.flag b, some p)
  | .supportsInput, p => do
    let b ← Ports.supportsInput p
    pure (.flag b, some p)

/-- one step; the use of a port that does not exist is an error of the program -/
def PortState.perform (st : PortState) : PortAct → Except Fault (PortAns × PortState)
  | .openInput f => (Ports.newInput f st.sys).map fun (p, s) => (.made, ⟨s, st.ports ++ [some p]⟩)
  | .openOutput f => (Ports.newOutput f st.sys).map fun (p, s) => (.made, ⟨s, st.ports ++ [some p]⟩)
  | .openIo f => (Ports.newIo f st.sys).map fun (p, s) => (.made, ⟨s, st.ports ++ [some p]⟩)
  | .copy i =>
    match st.ports[i]? with
    | some (some p) => (Ports.copy p st.sys).map fun (p, s) => (.made, ⟨s, st.ports ++ [some p]⟩)
    | _ => .error .null
  | .use i op =>
    match st.ports[i]? with
    | some (some p) => (op.perform p st.sys).map fun (r, s) => (r.1, ⟨s, st.ports.set i r.2⟩)
    | _ => .error .null

/-- a history: what was done, with the answers -/
inductive Performs : PortState → List (PortAct × PortAns) → PortState → Prop
  | none {st} : Performs st [] st
  | next {st st1 st2 a r h} : Performs st h st1 → st1.perform a = .ok (r, st2) → Performs st (h ++ [(a, r)]) st2

/-- the octets that the history has written with port `i` -/
def accepted (i : Nat) (h : List (PortAct × PortAns)) : List Utf8.Octet :=
  (h.map fun
    | (.use j (.write os), .number n) => if i = j then os.take n.toNat else []
    | _ => []).flatten

/-- the files of the ports that the history has made, in order -/
def filesOf (h : List (PortAct × PortAns)) : List Text :=
  h.foldl (fun fs e =>
    match e.1 with
    | .openInput f | .openOutput f | .openIo f => fs ++ [f]
    | .copy i => fs ++ [fs.getD i []]
    | .use _ _ => fs) []

/-- after this step port `i` has nothing left to put into its file: it was flushed, moved or closed successfully, or released without having been closed
before (`h` is the history before) -/
inductive Settles (i : Nat) (h : List (PortAct × PortAns)) : PortAct × PortAns → Prop
  | flush : Settles i h (.use i .flush, .flag true)
  | seek {a c} : Settles i h (.use i (.seek a c), .flag true)
  | close : Settles i h (.use i .close, .flag true)
  | release : (∀ e ∈ h, e.1 ≠ .use i .close) → Settles i h (.use i .release, .nothing)

/-- port `i` has written nothing since it was last settled -/
def SettledIn (i : Nat) (h : List (PortAct × PortAns)) : Prop :=
  ∃ h1 e h2, h = h1 ++ e :: h2 ∧ Settles i h1 e ∧ ∀ e ∈ h2, ∀ os, e.1 ≠ .use i (.write os)

/-- `s` is an interleaving of the sequences `out 0`, `out 1`, … -/
inductive Interleaves {α : Type} : (Nat → List α) → List α → Prop
  | nil : Interleaves (fun _ => []) []
  | snoc {out s} (i : Nat) (x : α) : Interleaves out s → Interleaves (fun j => if j = i then out j ++ [x] else out j) (s ++ [x])

/-- the position of a stream: when octets are pending, behind them at the end of the file -/
def _root_.Dern.Stdio.Stream.at_ (st : Stream) (s : Sys) : Nat := if st.pending = [] then st.pos else (s.content st.path).length + st.pending.length

/-- the position of port `i`, if it is open: when octets are pending, behind them at the end of the file -/
def PortState.position (st : PortState) (i : Nat) : Option Nat :=
  match st.ports[i]? with
  | some (some p) => p.file.map fun s => s.at_ st.sys
  | _ => none

/-- the answer of a port that is not open -/
def refusal : PortOp → PortAns
  | .read _ => .octets (-1) []
  | .write _ | .distance | .length => .number (-1)
  | .seek _ _ | .flush | .close | .supportsOutput | .supportsInput => .flag false
  | .release => .nothing

/-- what a port is being used for: whether the last thing that used its stream was input or output -/
inductive PortUse where
  | free | reading | writing
  deriving DecidableEq

/-- the use after an operation: input and output count if the port supports them and they are not empty; a successful seek frees the port, a successful flush only
from output -/
def PortUse.after (u : PortUse) : PortOp → PortAns → PortUse
  | .read n, .octets m _ => if n = 0 ∨ m < 0 then u else .reading
  | .write os, .number m => if os = [] ∨ m < 0 then u else .writing
  | .seek _ _, .flag true => .free
  | .flush, .flag true => if u = .writing then .free else u
  | _, _ => u

/-- what port `i` is being used for after a history -/
def useOf (i : Nat) (h : List (PortAct × PortAns)) : PortUse :=
  h.foldl (fun u e =>
    match e.1 with
    | .use j op => if j = i then u.after op e.2 else u
    | _ => u) .free

/-- the octets that the history has read with port `i` -/
def received (i : Nat) (h : List (PortAct × PortAns)) : List Utf8.Octet :=
  (h.map fun
    | (.use j (.read _), .octets _ os) => if i = j then os else []
    | _ => []).flatten

/-- operations that only read or ask -/
def PortOp.Asks : PortOp → Prop
  | .read _ | .distance | .length | .supportsOutput | .supportsInput => True
  | _ => False

/-- the program at its beginning -/
def PortState.start (s : Sys) : PortState := ⟨s, []⟩

/-! ### Proofs -/

/-- whenever the computation ends, this holds -/
def Post {α : Type} (m : Io α) (s : Sys) (Q : α → Sys → Prop) : Prop := ∀ a s', m s = .ok (a, s') → Q a s'

theorem post_pure {α : Type} {a : α} {s : Sys} {Q : α → Sys → Prop} (h : Q a s) : Post (pure a) s Q := by
  intro b s' e; cases e; exact h

theorem post_throw {α : Type} {f : Fault} {s : Sys} {Q : α → Sys → Prop} : Post (throw f : Io α) s Q := by
  intro b s' e; cases e

theorem post_bind {α β : Type} {m : Io α} {f : α → Io β} {s : Sys} {Q : β → Sys → Prop} (h : Post m s fun a s' => Post (f a) s' Q) : Post (m >>= f) s Q := by
  intro b s' e
  cases hm : m s with
  | error x => rw [show (m >>= f) s = (m s >>= fun p => f p.1 p.2) from rfl, hm] at e; cases e
  | ok p =>
    rw [show (m >>= f) s = (m s >>= fun p => f p.1 p.2) from rfl, hm] at e
    exact h p.1 p.2 hm b s' e

theorem post_mono {α : Type} {m : Io α} {s : Sys} {Q R : α → Sys → Prop} (h : Post m s Q) (hQ : ∀ a s', Q a s' → R a s') : Post m s R :=
  fun a s' e => hQ a s' (h a s' e)

/-- only the choices of the library are used up -/
structure SameSys (s s' : Sys) : Prop where
  disk : s'.disk = s.disk
  fails : s'.fails = s.fails
  amount : s'.amount = s.amount

theorem SameSys.refl (s : Sys) : SameSys s s := ⟨rfl, rfl, rfl⟩

theorem SameSys.trans {a b c : Sys} (h : SameSys a b) (k : SameSys b c) : SameSys a c :=
  ⟨k.disk.trans h.disk, k.fails.trans h.fails, k.amount.trans h.amount⟩

/-- the octets go to the end of the file, and nothing else changes -/
structure AddsTo (f : Text) (os : List Utf8.Octet) (s s' : Sys) : Prop where
  others : ∀ g, g ≠ f → s'.disk g = s.disk g
  file : (os = [] ∧ s'.disk f = s.disk f) ∨ s'.disk f = some (s.content f ++ os)
  fails : s'.fails = s.fails
  amount : s'.amount = s.amount

theorem SameSys.adds {s s' : Sys} (f : Text) (h : SameSys s s') : AddsTo f [] s s' :=
  ⟨fun g _ => by rw [h.disk], .inl ⟨rfl, by rw [h.disk]⟩, h.fails, h.amount⟩

theorem AddsTo.content {f : Text} {os : List Utf8.Octet} {s s' : Sys} (h : AddsTo f os s s') : s'.content f = s.content f ++ os := by
  rcases h.file with ⟨rfl, e⟩ | e <;> simp [Sys.content, e]

theorem AddsTo.trans {f : Text} {os os' : List Utf8.Octet} {s s1 s2 : Sys} (h : AddsTo f os s s1) (k : AddsTo f os' s1 s2) : AddsTo f (os ++ os') s s2 := by
  refine ⟨fun g hg => (k.others g hg).trans (h.others g hg), ?_, k.fails.trans h.fails, k.amount.trans h.amount⟩
  rcases k.file with ⟨rfl, e⟩ | e
  · rcases h.file with ⟨rfl, e'⟩ | e'
    · exact .inl ⟨rfl, e.trans e'⟩
    · exact .inr (by rw [e, e', List.append_nil])
  · exact .inr (by rw [e, h.content, List.append_assoc])

theorem AddsTo.then_ {f : Text} {os : List Utf8.Octet} {s s1 s2 : Sys} (h : AddsTo f os s s1) (k : SameSys s1 s2) : AddsTo f os s s2 := by
  simpa using h.trans (k.adds f)

theorem SameSys.before {f : Text} {os : List Utf8.Octet} {s s1 s2 : Sys} (h : SameSys s s1) (k : AddsTo f os s1 s2) : AddsTo f os s s2 := by
  simpa using (h.adds f).trans k

theorem post_failing {s : Sys} {Q : Bool → Sys → Prop} (h : ∀ s', SameSys s s' → Q (s.fails s.tick) s') : Post Stdio.failing s Q := by
  intro a s' e; cases e; exact h _ ⟨rfl, rfl, rfl⟩

theorem post_upTo {n : Nat} {s : Sys} {Q : Nat → Sys → Prop} (h : ∀ k s', k ≤ n → SameSys s s' → Q k s') : Post (Stdio.upTo n) s Q := by
  intro a s' e; cases e; exact h _ _ (Nat.min_le_left _ _) ⟨rfl, rfl, rfl⟩

theorem post_content {f : Text} {s : Sys} {Q : List Utf8.Octet → Sys → Prop} (h : Q (s.content f) s) : Post (Stdio.content f) s Q := by
  intro a s' e; cases e; exact h

theorem post_addTo {f : Text} {os : List Utf8.Octet} {s : Sys} {Q : Unit → Sys → Prop} (h : ∀ s', AddsTo f os s s' → Q () s') : Post (Stdio.addTo f os) s Q := by
  intro a s' e; cases e
  exact h _ ⟨fun g hg => if_neg hg, .inr (if_pos rfl), rfl, rfl⟩

/-- the streams differ only in what is pending, and in the position if something was pending -/
structure PutTo (st st' : Stream) (os : List Utf8.Octet) (s' : Sys) : Prop where
  path : st'.path = st.path
  input : st'.input = st.input
  output : st'.output = st.output
  pending : st.pending = os ++ st'.pending
  idle : st.pending = [] → st' = st
  pos : st.pending ≠ [] → st'.pending = [] → st'.pos = (s'.content st.path).length ∧ st'.last = .output []
  out : st.pending ≠ [] → ∃ r, st'.last = .output r

theorem post_put {st : Stream} {b : Bool} {s : Sys} {Q : Stream → Sys → Prop}
    (h : ∀ st' s' os, AddsTo st.path os s s' → PutTo st st' os s' → (b = true → st'.pending = []) → (st.pending = [] → SameSys s s') → Q st' s') : Post (Stdio.put st b) s Q := by
  unfold Stdio.put
  by_cases hp : st.pending = []
  · rw [if_pos hp]
    exact post_pure (h st s [] ((SameSys.refl s).adds _) ⟨rfl, rfl, rfl, by simp, fun _ => rfl, fun hn => absurd hp hn, fun hn => absurd hp hn⟩ (fun _ => hp) fun _ => SameSys.refl s)
  · rw [if_neg hp]
    have main : ∀ k s1, k ≤ st.pending.length → SameSys s s1 → (b = true → k = st.pending.length) → Post (do
        Stdio.addTo st.path (st.pending.take k)
        if k = st.pending.length then do
          let c ← Stdio.content st.path
          pure { st with pos := c.length, last := .output [] }
        else pure { st with last := .output (st.pending.drop k) }) s1 Q := by
      intro k s1 hk h1 hb
      refine post_bind (post_addTo fun s2 h2 => ?_)
      by_cases hk' : k = st.pending.length
      · rw [if_pos hk']
        refine post_bind (post_content (post_pure ?_))
        refine h _ s2 _ (h1.before h2) ⟨rfl, rfl, rfl, ?_, fun e => absurd e hp, fun _ _ => ⟨rfl, rfl⟩, fun _ => ⟨_, rfl⟩⟩ (fun _ => rfl) fun e => absurd e hp
        rw [hk', List.take_length]; simp [Stream.pending]
      · rw [if_neg hk']
        refine post_pure (h _ s2 _ (h1.before h2) ⟨rfl, rfl, rfl, ?_, fun e => absurd e hp, fun _ he => ?_, fun _ => ⟨_, rfl⟩⟩ (fun e => absurd (hb e) hk') fun e => absurd e hp)
        · simp [Stream.pending]
        · have : st.pending.drop k = [] := he
          rw [List.drop_eq_nil_iff] at this
          omega
    cases b with
    | true =>
      simp only [if_true]
      exact post_bind (post_pure (main _ s (Nat.le_refl _) (SameSys.refl s) fun _ => rfl))
    | false =>
      simp only [Bool.false_eq_true, if_false]
      exact post_bind (post_upTo fun k s1 hk h1 => main k s1 hk h1 fun e => by cases e)

/-- some of what is pending has gone out, and the stream is otherwise of the same kind -/
structure Moved (st st' : Stream) (os : List Utf8.Octet) : Prop where
  path : st'.path = st.path
  input : st'.input = st.input
  output : st'.output = st.output
  pending : st.pending = os ++ st'.pending

theorem PutTo.moved {st st' : Stream} {os : List Utf8.Octet} {s : Sys} (h : PutTo st st' os s) : Moved st st' os := ⟨h.path, h.input, h.output, h.pending⟩

theorem post_fopen {f : Text} {inp out : Bool} {s : Sys} {Q : Option Stream → Sys → Prop}
    (h : ∀ r s', AddsTo f [] s s' → (out = false → SameSys s s') →
      (∀ st, r = some st → st.path = f ∧ st.input = inp ∧ st.output = out ∧ st.last = .idle) → Q r s') : Post (Stdio.fopen f inp out) s Q := by
  unfold Stdio.fopen
  refine post_bind (post_failing fun s1 h1 => ?_)
  cases s.fails s.tick with
  | true => exact post_pure (h _ s1 (h1.adds f) (fun _ => h1) fun st e => by cases e)
  | false =>
    simp only [Bool.false_eq_true, if_false]
    cases out with
    | true =>
      simp only [if_true]
      refine post_bind (post_addTo fun s2 h2 => post_bind (post_content (post_bind (post_upTo fun k s3 _ h3 => post_pure ?_))))
      exact h _ s3 ((h1.before h2).then_ h3) (fun e => by cases e) fun st e => by cases e; exact ⟨rfl, rfl, rfl, rfl⟩
    | false =>
      simp only [Bool.false_eq_true, if_false]
      intro a s' e
      dsimp only at e
      split at e
      · cases e; exact h _ _ (h1.adds f) (fun _ => h1) fun st e => by cases e
      · cases e; exact h _ _ (h1.adds f) (fun _ => h1) fun st e => by cases e; exact ⟨rfl, rfl, rfl, rfl⟩

theorem post_fclose {st : Stream} {s : Sys} {Q : Bool → Sys → Prop}
    (h : ∀ b s' os, AddsTo st.path os s s' → os <+: st.pending → (b = true → os = st.pending) → (st.pending = [] → SameSys s s') → Q b s') : Post (Stdio.fclose st) s Q := by
  unfold Stdio.fclose
  refine post_bind (post_failing fun s1 h1 => post_bind (post_put fun st' s2 os h2 m hb hs => post_pure ?_))
  refine h _ s2 os (h1.before h2) ⟨_, m.pending.symm⟩ (fun e => ?_) fun e => h1.trans (hs e)
  have := m.pending
  rw [hb e] at this
  simpa using this.symm

theorem post_fflush {st : Stream} {s : Sys} {Q : Bool × Stream → Sys → Prop}
    (h : ∀ b st' s' os, AddsTo st.path os s s' → Moved st st' os → (b = true → st'.pending = []) → (st.pending = [] → st'.pos = st.pos ∧ SameSys s s') → Q (b, st') s') :
    Post (Stdio.fflush st) s Q := by
  unfold Stdio.fflush
  refine post_bind (post_failing fun s1 h1 => post_bind (post_put fun st' s2 os h2 m hb hs => ?_))
  have hp : st.pending = [] → st'.pos = st.pos ∧ SameSys s s2 := fun e => ⟨by rw [m.idle e], h1.trans (hs e)⟩
  split
  · rename_i hl
    refine post_pure (h _ _ s2 os (h1.before h2) ⟨m.path, m.input, m.output, ?_⟩ (fun _ => rfl) hp)
    have : st'.pending = [] := by simp [Stream.pending, hl]
    rw [m.pending, this]; rfl
  · exact post_pure (h _ _ s2 os (h1.before h2) m.moved hb hp)

theorem post_ftell {st : Stream} {s : Sys} {Q : Int → Sys → Prop} (h : ∀ (n : Int) s', SameSys s s' → (n = -1 ∨ n = st.at_ s) → (s.fails s.tick = false → n = st.at_ s) → Q n s') :
    Post (Stdio.ftell st) s Q := by
  unfold Stdio.ftell
  refine post_bind (post_failing fun s1 h1 => ?_)
  cases hf : s.fails s.tick with
  | true => exact post_pure (h _ s1 h1 (.inl rfl) fun e => by rw [hf] at e; cases e)
  | false =>
    simp only [Bool.false_eq_true, if_false]
    have hc : ∀ f, s1.content f = s.content f := fun f => by simp [Sys.content, h1.disk]
    split
    · rename_i hp
      have : (st.pos : Int) = st.at_ s := by simp [Stream.at_, hp]
      exact post_pure (h _ s1 h1 (.inr this) fun _ => this)
    · rename_i hp
      refine post_bind (post_content (post_pure ?_))
      have : (((s1.content st.path).length + st.pending.length : Nat) : Int) = st.at_ s := by rw [Stream.at_, if_neg hp, hc]
      exact h _ s1 h1 (.inr this) fun _ => this

/-- the position that a seek starts from -/
def from_ (st : Stream) (s : Sys) : Whence → Nat
  | .set => 0
  | .cur => st.at_ s
  | .end_ => (s.content st.path).length + st.pending.length

theorem post_fseek {st : Stream} {o : Int} {w : Whence} {s : Sys} {Q : Bool × Stream → Sys → Prop}
    (h : ∀ b st' s' os, AddsTo st.path os s s' → Moved st st' os → (b = true → st'.last = .idle ∧ (st'.pos : Int) = from_ st s w + o) →
      (b = false → st.pending = [] → st' = st) → (s.fails s.tick = false → (b = true ↔ 0 ≤ (from_ st s w : Int) + o)) → (st.pending = [] → SameSys s s') → (s.fails s.tick = false → st'.pending = []) → Q (b, st') s') : Post (Stdio.fseek st o w) s Q := by
  unfold Stdio.fseek
  refine post_bind (post_failing fun s1 h1 => post_bind (post_put fun st' s2 os h2 m hb hs => post_bind (post_content ?_)))
  have hc : ∀ f, s1.content f = s.content f := fun f => by simp [Sys.content, h1.disk]
  have hbase : s.fails s.tick = false → w.base st'.pos (s2.content st'.path).length = from_ st s w := by
    intro hf
    rw [hf] at hb
    have he := hb rfl
    have hos : os = st.pending := by have := m.pending; rw [he] at this; simpa using this.symm
    have hl : (s2.content st.path).length = (s.content st.path).length + st.pending.length := by
      rw [h2.content, hos, hc, List.length_append]
    cases w with
    | set => rfl
    | cur =>
      show st'.pos = st.at_ s
      unfold Stream.at_
      by_cases hp : st.pending = []
      · rw [if_pos hp, m.idle hp]
      · rw [if_neg hp, (m.pos hp he).1, hl]
    | end_ =>
      show (s2.content st'.path).length = _
      rw [m.path, hl]; rfl
  split
  · rename_i hbad
    refine post_pure (h _ _ s2 os (h1.before h2) m.moved (fun e => by cases e) (fun _ e => m.idle e) (fun hf => ?_) (fun e => h1.trans (hs e)) fun hf => hb (by rw [hf]; rfl))
    rw [hbase hf] at hbad
    rcases hbad with e | e
    · rw [hf] at e; cases e
    · exact ⟨fun e => (by cases e), fun e' => by omega⟩
  · rename_i hbad
    have hf : s.fails s.tick = false := by
      cases hf : s.fails s.tick with
      | true => exact absurd (.inl hf) hbad
      | false => rfl
    rw [hbase hf] at hbad
    have hnn : 0 ≤ (from_ st s w : Int) + o := by
      rcases Int.lt_or_le ((from_ st s w : Int) + o) 0 with e | e
      · exact absurd (.inr e) hbad
      · exact e
    refine post_pure (h _ _ s2 os (h1.before h2) ⟨m.path, m.input, m.output, ?_⟩ (fun _ => ⟨rfl, ?_⟩) (fun e => by cases e) (fun _ => ⟨fun _ => hnn, fun _ => rfl⟩) (fun e => h1.trans (hs e)) fun _ => rfl)
    · have he := hb (by rw [hf]; rfl)
      rw [m.pending, he]; rfl
    · rw [hbase hf]
      show (((from_ st s w : Int) + o).toNat : Int) = _
      omega

theorem post_fread {st : Stream} {n : Nat} {s : Sys} {Q : List Utf8.Octet × Stream → Sys → Prop}
    (h : ∀ os st' s', SameSys s s' → Moved st st' [] → os = ((s.content st.path).drop st.pos).take os.length → os.length ≤ n →
      (st.pending = [] → st'.pos = st.pos + os.length) → (os ≠ [] → st.pending = []) →
      (n ≠ 0 → ∃ e, st'.last = .input e) → (s.fails s.tick = false → os.length = min n ((s.content st.path).length - st.pos)) → Q (os, st') s') :
    Post (Stdio.fread st n) s Q := by
  unfold Stdio.fread
  by_cases hn : n = 0
  · rw [if_pos hn]
    exact post_pure (h [] st s (SameSys.refl s) ⟨rfl, rfl, rfl, rfl⟩ rfl (by simp) (fun _ => rfl) (fun e => absurd rfl e) (fun e => absurd hn e) fun _ => by simp [hn])
  · rw [if_neg hn]
    split
    · exact post_throw
    · rename_i hl
      have hp : st.pending = [] := by
        unfold Stream.pending
        cases hq : st.last with
        | output os => exact absurd hq (hl os)
        | idle => rfl
        | input e => rfl
      refine post_bind (post_content (post_bind (post_failing fun s1 h1 => ?_)))
      have main : ∀ k s2, k ≤ min n ((s.content st.path).length - st.pos) → SameSys s s2 →
          (s.fails s.tick = false → k = min n ((s.content st.path).length - st.pos)) →
          Post (pure (((s.content st.path).drop st.pos).take k, { st with pos := st.pos + k, last := .input (k < n && k = (s.content st.path).length - st.pos) })) s2 Q := by
        intro k s2 hk h2 hf
        have hlen : (((s.content st.path).drop st.pos).take k).length = k := by
          rw [List.length_take, List.length_drop]; omega
        refine post_pure (h _ _ s2 h2 ⟨rfl, rfl, rfl, ?_⟩ ?_ ?_ (fun _ => ?_) (fun _ => hp) (fun _ => ⟨_, rfl⟩) fun e => ?_)
        · rw [hp]; rfl
        · rw [hlen]
        · rw [hlen]; omega
        · rw [hlen]
        · rw [hlen]; exact hf e
      cases hf : s.fails s.tick with
      | true =>
        simp only [if_true]
        exact post_bind (post_upTo fun k s2 hk h2 => main k s2 hk (h1.trans h2) fun e => by rw [hf] at e; cases e)
      | false =>
        simp only [Bool.false_eq_true, if_false]
        exact post_bind (post_pure (main _ s1 (Nat.le_refl _) h1 fun _ => rfl))

theorem post_fwrite {st : Stream} {os : List Utf8.Octet} {s : Sys} {Q : Nat × Stream → Sys → Prop}
    (h : ∀ k st' s' c, AddsTo st.path c s s' → st'.path = st.path → st'.input = st.input → st'.output = st.output →
      st.pending ++ os.take k = c ++ st'.pending → k ≤ os.length → (s.fails s.tick = false → k = os.length) → Q (k, st') s') :
    Post (Stdio.fwrite st os) s Q := by
  unfold Stdio.fwrite
  by_cases hn : os = []
  · rw [if_pos hn]
    exact post_pure (h 0 st s [] ((SameSys.refl s).adds _) rfl rfl rfl (by simp) (Nat.zero_le _) fun _ => by simp [hn])
  · rw [if_neg hn]
    split
    · exact post_throw
    · refine post_bind (post_failing fun s1 h1 => ?_)
      have main : ∀ k s2, k ≤ os.length → SameSys s s2 → (s.fails s.tick = false → k = os.length) →
          Post (do
            let st ← Stdio.put { st with last := .output (st.pending ++ os.take k) } false
            pure (k, st)) s2 Q := by
        intro k s2 hk h2 hf
        refine post_bind (post_put fun st' s3 c h3 m _ _ => post_pure ?_)
        exact h k st' s3 c (h2.before h3) m.path m.input m.output m.pending hk hf
      cases hf : s.fails s.tick with
      | true =>
        simp only [if_true]
        exact post_bind (post_upTo fun k s2 hk h2 => main k s2 hk (h1.trans h2) fun e => by rw [hf] at e; cases e)
      | false =>
        simp only [Bool.false_eq_true, if_false]
        exact post_bind (post_pure (main _ s1 (Nat.le_refl _) h1 fun _ => rfl))

/-- what is pending in the stream of a port -/
def pendingIn (p : Port) : List Utf8.Octet :=
  match p.file with
  | some st => st.pending
  | none => []

/-- the stream of an open port is on its file and goes in its directions -/
structure PortOk (p : Port) : Prop where
  open_ : p.tag = .notOpen ↔ p.file = none
  stream : ∀ st, p.file = some st → st.path = p.name ∧ (st.input = true ↔ p.tag = .input ∨ p.tag = .io) ∧ (st.output = true ↔ p.tag = .output ∨ p.tag = .io) ∧
    (p.tag = .input → st.pending = [])
  length : p.tag = .notOpen → p.length = -1

theorem post_measure {st : Stream} {s : Sys} {Q : Int × Stream → Sys → Prop} (hi : st.last = .idle)
    (h : ∀ (n : Int) st' s', SameSys s s' → Moved st st' [] → st'.last = .idle → st'.pos = 0 → (n = -1 ∨ n = (s.content st.path).length) → Q (n, st') s') :
    Post (Ports.measure st) s Q := by
  have hp : st.pending = [] := by simp [Stream.pending, hi]
  unfold Ports.measure
  refine post_bind (post_fseek fun b st1 s1 os h1 m1 hb _ _ hs _ => ?_)
  cases b with
  | false => exact post_bind post_throw
  | true =>
    obtain ⟨hl1, hp1⟩ := hb rfl
    refine post_bind (post_pure (post_bind (post_ftell fun n s2 h2 hn _ => ?_)))
    refine post_bind (post_fseek fun b st2 s3 os2 h3 m2 hb _ _ hs2 _ => ?_)
    cases b with
    | false => exact post_bind post_throw
    | true =>
      obtain ⟨hl2, hp2⟩ := hb rfl
      have e1 : st1.pending = [] := by simp [Stream.pending, hl1]
      have e2 : st2.pending = [] := by simp [Stream.pending, hl2]
      have h01 := hs hp
      refine post_bind (post_pure (post_pure (h n st2 s3 ((h01.trans h2).trans (hs2 e1)) ⟨m2.path.trans m1.path, m2.input.trans m1.input, m2.output.trans m1.output,
        by rw [hp, e2]; rfl⟩ hl2 ?_ ?_)))
      · simp [from_] at hp2; exact hp2
      · rcases hn with hn | hn
        · exact .inl hn
        · refine .inr ?_
          rw [hn, Stream.at_, if_pos e1, hp1]
          simp [from_, hp]

theorem c71_made_aux {f : Text} {st : Stream} {n : Int} {t : Tag} (h : st.path = f) (hl : st.last = .idle) (hi : st.input = true ↔ t = .input ∨ t = .io)
    (ho : st.output = true ↔ t = .output ∨ t = .io) (ht : t ≠ .notOpen) : PortOk { name := f, length := n, file := some st, tag := t } :=
  ⟨⟨fun e => absurd e ht, fun e => by cases e⟩, fun st' e => by cases e; exact ⟨h, hi, ho, fun _ => by simp [Stream.pending, hl]⟩, fun e => absurd e ht⟩

theorem c71_closed_aux {f : Text} : PortOk { name := f, length := -1, file := none, tag := .notOpen } :=
  ⟨⟨fun _ => rfl, fun _ => rfl⟩, fun st' e => (by cases e), fun _ => rfl⟩

theorem post_newInput {f : Text} {s : Sys} {Q : Port → Sys → Prop}
    (h : ∀ p s', SameSys s s' → PortOk p → p.name = f → pendingIn p = [] → (p.tag = .input ∨ p.tag = .notOpen) → (∀ st, p.file = some st → st.pos = 0) →
      (p.tag = .input → p.length = -1 ∨ p.length = (s.content f).length) → Q p s') : Post (Ports.newInput f) s Q := by
  unfold Ports.newInput
  refine post_bind (post_fopen fun r s1 _ hs hr => ?_)
  cases r with
  | none => exact post_pure (h _ s1 (hs rfl) c71_closed_aux rfl rfl (.inr rfl) (fun st e => by cases e) fun e => by cases e)
  | some st =>
    obtain ⟨h1, h2, h3, h4⟩ := hr st rfl
    refine post_bind (post_measure h4 fun n st' s2 hs2 m hl hp hn => post_pure ?_)
    refine h _ s2 ((hs rfl).trans hs2) (c71_made_aux (m.path.trans h1) hl ?_ ?_ (by decide)) rfl ?_ (.inl rfl) (fun st e => by cases e; exact hp) fun _ => ?_
    · rw [m.input, h2]; simp
    · rw [m.output, h3]; simp
    · simp [pendingIn, Stream.pending, hl]
    · rw [h1] at hn
      have : s1.content f = s.content f := by simp [Sys.content, (hs rfl).disk]
      rwa [this] at hn

theorem post_newOutput {f : Text} {s : Sys} {Q : Port → Sys → Prop}
    (h : ∀ p s', AddsTo f [] s s' → PortOk p → p.name = f → pendingIn p = [] → (p.tag = .output ∨ p.tag = .notOpen) → Q p s') : Post (Ports.newOutput f) s Q := by
  unfold Ports.newOutput
  refine post_bind (post_fopen fun r s1 ha _ hr => ?_)
  cases r with
  | none => exact post_pure (h _ s1 ha c71_closed_aux rfl rfl (.inr rfl))
  | some st =>
    obtain ⟨h1, h2, h3, h4⟩ := hr st rfl
    refine post_bind (post_ftell fun n s2 hs2 _ _ => post_pure ?_)
    refine h _ s2 (ha.then_ hs2) (c71_made_aux h1 h4 ?_ ?_ (by decide)) rfl ?_ (.inl rfl)
    · rw [h2]; simp
    · rw [h3]; simp
    · simp [pendingIn, Stream.pending, h4]

theorem post_newIo {f : Text} {s : Sys} {Q : Port → Sys → Prop}
    (h : ∀ p s', AddsTo f [] s s' → PortOk p → p.name = f → pendingIn p = [] → (p.tag = .io ∨ p.tag = .notOpen) → (∀ st, p.file = some st → st.pos = 0) →
      (p.tag = .io → p.length = -1 ∨ p.length = (s.content f).length) → Q p s') : Post (Ports.newIo f) s Q := by
  unfold Ports.newIo
  refine post_bind (post_fopen fun r s1 ha _ hr => ?_)
  cases r with
  | none => exact post_pure (h _ s1 ha c71_closed_aux rfl rfl (.inr rfl) (fun st e => by cases e) fun e => by cases e)
  | some st =>
    obtain ⟨h1, h2, h3, h4⟩ := hr st rfl
    refine post_bind (post_measure h4 fun n st' s2 hs2 m hl hp hn => post_pure ?_)
    refine h _ s2 (ha.then_ hs2) (c71_made_aux (m.path.trans h1) hl ?_ ?_ (by decide)) rfl ?_ (.inl rfl) (fun st e => by cases e; exact hp) fun _ => ?_
    · rw [m.input, h2]; simp
    · rw [m.output, h3]; simp
    · simp [pendingIn, Stream.pending, hl]
    · rw [h1, ha.content, List.append_nil] at hn
      exact hn

theorem post_copy {p : Port} {s : Sys} {Q : Port → Sys → Prop} (ok : PortOk p)
    (h : ∀ q s', AddsTo p.name [] s s' → PortOk q → q.name = p.name → pendingIn q = [] → q.tag = p.tag → (p.tag = .input ∨ p.tag = .notOpen → SameSys s s') → Q q s') :
    Post (Ports.copy p) s Q := by
  unfold Ports.copy
  split
  · rename_i ht
    refine post_bind (post_fopen fun r s1 ha _ hr => ?_)
    cases r with
    | none => exact post_throw
    | some st =>
      obtain ⟨h1, h2, h3, h4⟩ := hr st rfl
      refine post_bind (post_measure h4 fun n st' s2 hs2 m hl hp hn => post_pure ?_)
      refine h _ s2 (ha.then_ hs2) (c71_made_aux (m.path.trans h1) hl ?_ ?_ (by rw [ht]; decide)) rfl ?_ rfl fun e => by rw [ht] at e; simp at e
      · rw [m.input, h2, ht]; simp
      · rw [m.output, h3, ht]; simp
      · simp [pendingIn, Stream.pending, hl]
  · rename_i ht
    refine post_bind (post_fopen fun r s1 ha hs hr => ?_)
    cases r with
    | none => exact post_throw
    | some st =>
      obtain ⟨h1, h2, h3, h4⟩ := hr st rfl
      refine post_bind (post_measure h4 fun n st' s2 hs2 m hl hp hn => post_pure ?_)
      refine h _ s2 (ha.then_ hs2) (c71_made_aux (m.path.trans h1) hl ?_ ?_ (by rw [ht]; decide)) rfl ?_ rfl fun _ => (hs rfl).trans hs2
      · rw [m.input, h2, ht]; simp
      · rw [m.output, h3, ht]; simp
      · simp [pendingIn, Stream.pending, hl]
  · rename_i ht
    refine post_bind (post_fopen fun r s1 ha _ hr => ?_)
    cases r with
    | none => exact post_throw
    | some st =>
      obtain ⟨h1, h2, h3, h4⟩ := hr st rfl
      refine post_bind (post_ftell fun n s2 hs2 _ _ => post_pure ?_)
      refine h _ s2 (ha.then_ hs2) (c71_made_aux h1 h4 ?_ ?_ (by rw [ht]; decide)) rfl ?_ rfl fun e => by rw [ht] at e; simp at e
      · rw [h2, ht]; simp
      · rw [h3, ht]; simp
      · simp [pendingIn, Stream.pending, h4]
  · rename_i ht
    have hf := ok.open_.mp ht
    refine post_pure (h _ s ((SameSys.refl s).adds _) ⟨⟨fun _ => rfl, fun _ => ht⟩, fun st e => (by cases e), ok.length⟩ rfl rfl rfl fun _ => SameSys.refl s)

/-- the octets taken by an operation -/
def PortOp.took : PortOp → PortAns → List Utf8.Octet
  | .write os, .number n => os.take n.toNat
  | _, _ => []

/-- what an operation does to the file of the port and to what is pending -/
structure OpDone (p : Port) (op : PortOp) (s s' : Sys) (a : PortAns) (r : Option Port) : Prop where
  effect : ∃ c rest, AddsTo p.name c s s' ∧ pendingIn p ++ op.took a = c ++ rest ∧ (∀ q, r = some q → q.file ≠ none → pendingIn q = rest) ∧
    ((op = .flush ∧ a = .flag true) ∨ (∃ x y, op = .seek x y ∧ a = .flag true) ∨ (op = .close ∧ a = .flag true) ∨ op = .release → rest = [])
  port : ∀ q, r = some q → PortOk q ∧ q.name = p.name ∧ (q.tag = p.tag ∨ q.tag = .notOpen)
  same : p.tag = .input ∨ p.tag = .notOpen → SameSys s s'
  closed : p.file = none → op.took a = [] ∧ (r = some p ∨ r = none)
  shuts : ∀ q, r = some q → q.file = none → p.file = none ∨ op = .close
  length : ∀ q, r = some q → op ≠ .close → q.length = p.length
  over : op = .close → ∃ q, r = some q ∧ q.file = none
  ends : op = .flush ∨ (∃ x y, op = .seek x y) ∨ op = .close → p.file = none → a = .flag false

theorem c71_stream_aux {p : Port} {s : Sys} {Q : Stream → Sys → Prop} (h : ∀ st, p.file = some st → Q st s) : Post (Ports.stream p) s Q := by
  unfold Ports.stream
  cases hf : p.file with
  | none => exact post_throw
  | some st => exact post_pure (h st hf)

/-- nothing is done -/
theorem c71_idle_aux {p : Port} {op : PortOp} {s s' : Sys} {a : PortAns} (ok : PortOk p) (hs : SameSys s s') (ht : op.took a = [])
    (hn : ¬ ((op = .flush ∧ a = .flag true) ∨ (∃ x y, op = .seek x y ∧ a = .flag true) ∨ (op = .close ∧ a = .flag true) ∨ op = .release))
    (he : op = .flush ∨ (∃ x y, op = .seek x y) ∨ op = .close → p.file = none → a = .flag false) (ho : op = .close → p.file = none) : OpDone p op s s' a (some p) :=
  ⟨⟨[], pendingIn p, hs.adds _, by rw [ht]; simp, fun q e _ => by cases e; rfl, fun h => absurd h hn⟩, fun q e => by cases e; exact ⟨ok, rfl, .inl rfl⟩,
    fun _ => hs, fun _ => ⟨ht, .inl rfl⟩, fun q e h => (by cases e; exact .inl h), fun q e _ => (by cases e; rfl), fun e => ⟨p, rfl, ho e⟩, he⟩

/-- the stream has been used -/
theorem c71_used_aux {p : Port} {op : PortOp} {s s' : Sys} {a : PortAns} {st st' : Stream} {c : List Utf8.Octet} (ok : PortOk p) (hf : p.file = some st)
    (ha : AddsTo st.path c s s') (h1 : st'.path = st.path) (h2 : st'.input = st.input) (h3 : st'.output = st.output)
    (hp : st.pending ++ op.took a = c ++ st'.pending) (hs : st.pending = [] → p.tag = .input → SameSys s s' ∧ op.took a = [])
    (hnc : op ≠ .close) (hr : (op = .flush ∧ a = .flag true) ∨ (∃ x y, op = .seek x y ∧ a = .flag true) ∨ (op = .close ∧ a = .flag true) ∨ op = .release → st'.pending = []) :
    OpDone p op s s' a (some { p with file := some st' }) := by
  obtain ⟨k1, k2, k3, k4⟩ := ok.stream st hf
  have ht : p.tag ≠ .notOpen := fun e => by rw [ok.open_.mp e] at hf; cases hf
  refine ⟨⟨c, st'.pending, by rw [← k1]; exact ha, by simpa [pendingIn, hf] using hp, fun q e _ => by cases e; rfl, hr⟩, fun q e => ?_, fun e => ?_, fun e => (by rw [hf] at e; cases e), fun q e h => (by cases e; cases h), fun q e _ => (by cases e; rfl), fun e => absurd e hnc, fun _ e => (by rw [hf] at e; cases e)⟩
  · cases e
    refine ⟨⟨⟨fun e => absurd e ht, fun e => (by cases e)⟩, fun st'' e => ?_, fun e => absurd e ht⟩, rfl, .inl rfl⟩
    cases e
    refine ⟨h1.trans k1, by rw [h2]; exact k2, by rw [h3]; exact k3, fun e => ?_⟩
    have := (hs (k4 e) e).2
    rw [this, k4 e] at hp
    simp at hp
    exact hp.2
  · rcases e with e | e
    · exact (hs (k4 e) e).1
    · exact absurd e ht

theorem c71_op_aux {p : Port} {op : PortOp} {s : Sys} (ok : PortOk p) : Post (op.perform p) s fun r s' => OpDone p op s s' r.1 r.2 := by
  cases op with
  | read n =>
    simp only [PortOp.perform, Ports.read]
    split
    · refine post_bind (post_bind (c71_stream_aux fun st hf => post_bind (post_fread fun os st' s' hs m _ _ _ _ _ _ => post_pure (post_pure ?_))))
      exact c71_used_aux ok hf (hs.adds _) m.path m.input m.output (by simpa [PortOp.took] using m.pending) (fun _ _ => ⟨hs, rfl⟩) (by simp) (by simp)
    · exact post_bind (post_pure (post_pure (c71_idle_aux ok (SameSys.refl s) rfl (by simp) (by simp) (by simp))))
  | write os =>
    simp only [PortOp.perform, Ports.write]
    split
    · rename_i ht
      refine post_bind (post_bind (c71_stream_aux fun st hf => post_bind (post_fwrite fun k st' s' c ha h1 h2 h3 h4 _ _ => post_pure (post_pure ?_))))
      refine c71_used_aux ok hf ha h1 h2 h3 (by simpa [PortOp.took] using h4) (fun _ e => ?_) (by simp) (by simp)
      rw [e] at ht; simp at ht
    · exact post_bind (post_pure (post_pure (c71_idle_aux ok (SameSys.refl s) rfl (by simp) (by simp) (by simp))))
  | seek x y =>
    simp only [PortOp.perform, Ports.seek]
    split
    · exact post_bind (post_pure (post_pure (c71_idle_aux ok (SameSys.refl s) rfl (by simp) (by simp) (by simp))))
    · have fin : ∀ o w, Post (do
          let st ← Ports.stream p
          let (ok, st) ← Stdio.fseek st o w
          pure (ok, { p with file := some st })) s fun r s' => OpDone p (.seek x y) s s' (.flag r.1) (some r.2) := by
        intro o w
        refine post_bind (c71_stream_aux fun st hf => post_bind (post_fseek fun b st' s' os ha m hb _ _ hs _ => post_pure ?_))
        refine c71_used_aux ok hf ha m.path m.input m.output (by simpa [PortOp.took] using m.pending) (fun e _ => ⟨hs e, rfl⟩) (by simp) fun e => ?_
        have : b = true := by simpa using e
        simp [Stream.pending, (hb this).1]
      refine post_bind (post_mono (Q := fun r s' => OpDone p (.seek x y) s s' (.flag r.1) (some r.2)) ?_ fun r s' h => post_pure h)
      by_cases hx : x < 0
      · simp only [if_pos hx]; exact fin _ _
      · simp only [if_neg hx]; exact fin _ _
  | flush =>
    simp only [PortOp.perform, Ports.flush]
    split
    · exact post_bind (post_pure (post_pure (c71_idle_aux ok (SameSys.refl s) rfl (by simp) (by simp) (by simp))))
    · refine post_bind (post_bind (c71_stream_aux fun st hf => post_bind (post_fflush fun b st' s' os ha m hb hs => post_pure (post_pure ?_))))
      refine c71_used_aux ok hf ha m.path m.input m.output (by simpa [PortOp.took] using m.pending) (fun e _ => ⟨(hs e).2, rfl⟩) (by simp) fun e => ?_
      exact hb (by simpa using e)
  | close =>
    simp only [PortOp.perform, Ports.close]
    split
    · rename_i ht
      exact post_bind (post_pure (post_pure (c71_idle_aux ok (SameSys.refl s) rfl (by simp) (by simp) fun _ => ok.open_.mp ht)))
    · refine post_bind (post_bind (c71_stream_aux fun st hf => post_bind (post_fclose fun b s' os ha hp hb hs => post_pure (post_pure ?_))))
      obtain ⟨k1, k2, k3, k4⟩ := ok.stream st hf
      obtain ⟨rest, hrest⟩ := hp
      refine ⟨⟨os, rest, by rw [← k1]; exact ha, by simp [pendingIn, hf, PortOp.took, hrest], fun q e hq => ?_, fun e => ?_⟩, fun q e => ?_, fun e => ?_, fun e => (by rw [hf] at e; cases e), fun q e h => .inr rfl, fun q _ e => absurd rfl e, fun _ => ⟨_, rfl, rfl⟩, fun _ e => (by rw [hf] at e; cases e)⟩
      · cases e; exact absurd rfl hq
      · have : b = true := by simpa using e
        rw [hb this] at hrest
        simpa using hrest
      · cases e; exact ⟨c71_closed_aux, rfl, .inr rfl⟩
      · rcases e with e | e
        · exact hs (k4 e)
        · rw [ok.open_.mp e] at hf; cases hf
  | release =>
    simp only [PortOp.perform, Ports.release]
    split
    · rename_i ht
      have hf := ok.open_.mp ht
      exact post_bind (post_pure (post_pure ⟨⟨[], [], (SameSys.refl s).adds _, by simp [pendingIn, hf, PortOp.took], fun q e => (by cases e), fun _ => rfl⟩,
        fun q e => (by cases e), fun _ => SameSys.refl s, fun _ => ⟨rfl, .inr rfl⟩, fun q e => (by cases e), fun q e => (by cases e), by simp, by simp⟩))
    · refine post_bind (post_bind (c71_stream_aux fun st hf => post_bind (post_fclose fun b s' os ha hp hb hs => ?_)))
      cases b with
      | false => exact post_throw
      | true =>
        obtain ⟨k1, k2, k3, k4⟩ := ok.stream st hf
        refine post_pure (post_pure ⟨⟨os, [], by rw [← k1]; exact ha, by simp [pendingIn, hf, PortOp.took, hb rfl], fun q e => (by cases e), fun _ => rfl⟩,
          fun q e => (by cases e), fun e => ?_, fun e => (by rw [hf] at e; cases e), fun q e => (by cases e), fun q e => (by cases e), by simp, by simp⟩)
        rcases e with e | e
        · exact hs (k4 e)
        · rw [ok.open_.mp e] at hf; cases hf
  | distance =>
    simp only [PortOp.perform, Ports.distance]
    split
    · exact post_bind (post_pure (post_pure (c71_idle_aux ok (SameSys.refl s) rfl (by simp) (by simp) (by simp))))
    · exact post_bind (post_bind (c71_stream_aux fun st hf => post_ftell fun n s' hs _ _ => post_pure (c71_idle_aux ok hs rfl (by simp) (by simp) (by simp))))
  | length => exact post_pure (c71_idle_aux ok (SameSys.refl s) rfl (by simp) (by simp) (by simp))
  | supportsOutput =>
    simp only [PortOp.perform, Ports.supportsOutput]
    refine post_bind (post_mono (Q := fun _ s' => s' = s) ?_ fun r s' e => post_pure (c71_idle_aux ok (by rw [e]; exact SameSys.refl s) rfl (by simp) (by simp) (by simp)))
    split <;> first | exact post_pure rfl | exact post_bind (c71_stream_aux fun _ _ => post_pure rfl)
  | supportsInput =>
    simp only [PortOp.perform, Ports.supportsInput]
    refine post_bind (post_mono (Q := fun _ s' => s' = s) ?_ fun r s' e => post_pure (c71_idle_aux ok (by rw [e]; exact SameSys.refl s) rfl (by simp) (by simp) (by simp)))
    split <;> first | exact post_pure rfl | exact post_bind (c71_stream_aux fun _ _ => post_pure rfl)

theorem interleaves_append {α : Type} {out : Nat → List α} {s : List α} (h : Interleaves out s) (i : Nat) : ∀ c : List α,
    Interleaves (fun j => if j = i then out j ++ c else out j) (s ++ c) := by
  intro c
  induction c generalizing out s with
  | nil => simpa using h
  | cons x c ih =>
    have := ih (h.snoc i x)
    simp only [List.append_assoc, List.cons_append, List.nil_append] at this
    refine (congrArg (fun o => Interleaves o (s ++ x :: c)) (funext fun j => ?_)).mp this
    split <;> simp_all

theorem accepted_snoc {i : Nat} {h : List (PortAct × PortAns)} {a : PortAct} {r : PortAns} :
    accepted i (h ++ [(a, r)]) = accepted i h ++ (match a with | .use j op => if i = j then op.took r else [] | _ => []) := by
  have : ∀ e : List Utf8.Octet, accepted i (h ++ [(a, r)]) = accepted i h ++ e ↔ (match (a, r) with
    | (.use j (.write os), .number n) => if i = j then os.take n.toNat else []
    | _ => []) = e := by
    intro e
    unfold accepted
    rw [List.map_append, List.flatten_append]
    simp
  rw [this]
  cases a with
  | use j op => cases op <;> cases r <;> simp [PortOp.took]
  | _ => rfl

theorem filesOf_snoc {h : List (PortAct × PortAns)} {a : PortAct} {r : PortAns} : filesOf (h ++ [(a, r)]) =
    match a with
    | .openInput f | .openOutput f | .openIo f => filesOf h ++ [f]
    | .copy i => filesOf h ++ [(filesOf h).getD i []]
    | .use _ _ => filesOf h := by
  unfold filesOf
  rw [List.foldl_append]
  rfl

theorem settledIn_snoc {i : Nat} {h : List (PortAct × PortAns)} {e : PortAct × PortAns} (k : SettledIn i (h ++ [e])) :
    Settles i h e ∨ (SettledIn i h ∧ ∀ os, e.1 ≠ .use i (.write os)) := by
  obtain ⟨h1, e1, h2, he, hs, hw⟩ := k
  rcases List.eq_nil_or_concat h2 with rfl | ⟨h3, e3, rfl⟩
  · have := List.append_inj' he rfl
    simp at this
    obtain ⟨rfl, rfl⟩ := this
    exact .inl hs
  · rw [List.concat_eq_append] at he hw
    rw [show h1 ++ e1 :: (h3 ++ [e3]) = (h1 ++ e1 :: h3) ++ [e3] by simp] at he
    have := List.append_inj' he rfl
    simp at this
    obtain ⟨rfl, rfl⟩ := this
    exact .inr ⟨⟨h1, e1, h3, rfl, hs, fun x hx => hw x (by simp [hx])⟩, hw e (by simp)⟩

/-- the history has opened the file for output -/
def WrittenIn (f : Text) (h : List (PortAct × PortAns)) : Prop := ∃ e ∈ h, e.1 = .openOutput f ∨ e.1 = .openIo f

/-- what a history leads to -/
structure HistInv (s0 : Sys) (h : List (PortAct × PortAns)) (st : PortState) : Prop where
  ports : ∀ (i : Nat) p, st.ports[i]? = some (some p) → PortOk p ∧ (filesOf h)[i]? = some p.name ∧ (p.tag = .output ∨ p.tag = .io → WrittenIn p.name h)
  number : (filesOf h).length = st.ports.length
  absent : ∀ (i : Nat), st.ports.length ≤ i → accepted i h = []
  contents : ∀ f, ∃ out s, st.sys.content f = s0.content f ++ s ∧ Interleaves out s ∧ ∀ (i : Nat), ((filesOf h)[i]? ≠ some f → out i = []) ∧
    ((filesOf h)[i]? = some f → ∃ rest, accepted i h = out i ++ rest ∧ (∀ p, st.ports[i]? = some (some p) → p.file ≠ .none → pendingIn p = rest) ∧
      (SettledIn i h → rest = []))
  shut : ∀ (i : Nat) p, st.ports[i]? = some (some p) → p.file = .none → (∃ e ∈ h, e.1 = .use i .close) ∨ accepted i h = []
  acts : ∀ e ∈ h, ∀ i op, e.1 = .use i op → i < st.ports.length
  over : ∀ (i : Nat) p, st.ports[i]? = some (some p) → (∃ e ∈ h, e.1 = .use i .close) → p.file = .none
  grows : ∀ f c, s0.disk f = some c → ∃ c', st.sys.disk f = some (c ++ c')
  same : ∀ f, ¬ WrittenIn f h → st.sys.disk f = s0.disk f
  fails : st.sys.fails = s0.fails
  amount : st.sys.amount = s0.amount

theorem AddsTo.grows {f : Text} {os : List Utf8.Octet} {s s' : Sys} (h : AddsTo f os s s') : ∀ g c, s.disk g = some c → ∃ c', s'.disk g = some (c ++ c') := by
  intro g c e
  by_cases hg : g = f
  · subst hg
    rcases h.file with ⟨_, e'⟩ | e'
    · exact ⟨[], by rw [e', e, List.append_nil]⟩
    · exact ⟨os, by rw [e']; simp [Sys.content, e]⟩
  · exact ⟨[], by rw [h.others g hg, e, List.append_nil]⟩

theorem AddsTo.contentOf {f : Text} {os : List Utf8.Octet} {s s' : Sys} (h : AddsTo f os s s') (g : Text) :
    s'.content g = s.content g ++ (if g = f then os else []) := by
  by_cases hg : g = f
  · subst hg; rw [if_pos rfl, h.content]
  · rw [if_neg hg, List.append_nil]; simp [Sys.content, h.others g hg]

theorem written_snoc {f : Text} {h : List (PortAct × PortAns)} {e : PortAct × PortAns} (k : WrittenIn f h) : WrittenIn f (h ++ [e]) := by
  obtain ⟨x, hx, h1⟩ := k
  exact ⟨x, by simp [hx], h1⟩

theorem not_written_snoc {f : Text} {h : List (PortAct × PortAns)} {e : PortAct × PortAns} (k : ¬ WrittenIn f (h ++ [e])) : ¬ WrittenIn f h :=
  fun h1 => k (written_snoc h1)

/-- a new port -/
theorem c71_new_aux {s0 : Sys} {h : List (PortAct × PortAns)} {st : PortState} (inv : HistInv s0 h st) {a : PortAct} {f : Text} {p : Port} {s' : Sys}
    (hf : filesOf (h ++ [(a, .made)]) = filesOf h ++ [f]) (hu : ∀ i op, a ≠ .use i op) (ha : AddsTo f [] st.sys s') (ok : PortOk p) (hn : p.name = f)
    (hp : pendingIn p = []) (hw : p.tag = .output ∨ p.tag = .io → WrittenIn f (h ++ [(a, .made)])) (hs : ¬ WrittenIn f (h ++ [(a, .made)]) → s'.disk f = st.sys.disk f) :
    HistInv s0 (h ++ [(a, .made)]) ⟨s', st.ports ++ [some p]⟩ := by
  have hacc : ∀ i, accepted i (h ++ [(a, .made)]) = accepted i h := by
    intro i
    rw [accepted_snoc]
    cases a with
    | use j op => exact absurd rfl (hu j op)
    | _ => simp
  have hset : ∀ i, SettledIn i (h ++ [(a, .made)]) → SettledIn i h := by
    intro i k
    rcases settledIn_snoc k with k | k
    · generalize he : (a, PortAns.made) = e at k
      cases k <;> cases he
    · exact k.1
  have hlen := inv.number
  have hget : ∀ i, i < st.ports.length → (filesOf h ++ [f])[i]? = (filesOf h)[i]? := fun i hi => List.getElem?_append_left (by omega)
  refine ⟨?_, by rw [hf]; simp [hlen], ?_, ?_, ?_, ?_, ?_, ?_, ?_, ha.fails.trans inv.fails, ha.amount.trans inv.amount⟩
  · intro i q hq
    rw [hf]
    rcases Nat.lt_or_ge i st.ports.length with hi | hi
    · rw [List.getElem?_append_left hi] at hq
      obtain ⟨h1, h2, h3⟩ := inv.ports i q hq
      exact ⟨h1, by rw [hget i hi]; exact h2, fun e => written_snoc (h3 e)⟩
    · rw [List.getElem?_append_right hi] at hq
      have : i - st.ports.length = 0 := by
        rcases Nat.eq_zero_or_pos (i - st.ports.length) with e | e
        · exact e
        · rw [List.getElem?_eq_none (by simp; omega)] at hq; cases hq
      rw [this] at hq
      cases hq
      refine ⟨ok, ?_, by rw [hn]; exact hw⟩
      rw [List.getElem?_append_right (by omega), hlen, this, hn]; rfl
  · intro i hi
    rw [hacc]
    exact inv.absent i (by simp at hi; omega)
  · intro g
    obtain ⟨out, s, h1, h2, h3⟩ := inv.contents g
    refine ⟨out, s, ?_, h2, fun i => ?_⟩
    · rw [ha.contentOf, h1]; simp
    · rw [hf, hacc]
      rcases Nat.lt_or_ge i st.ports.length with hi | hi
      · rw [hget i hi]
        refine ⟨(h3 i).1, fun e => ?_⟩
        obtain ⟨rest, k1, k2, k3⟩ := (h3 i).2 e
        exact ⟨rest, k1, fun q hq => k2 q (by rw [← hq]; exact (List.getElem?_append_left hi).symm), fun e => k3 (hset i e)⟩
      · have hnone : (filesOf h)[i]? = none := List.getElem?_eq_none (by omega)
        have hout : out i = [] := (h3 i).1 (by rw [hnone]; simp)
        refine ⟨fun _ => hout, fun e => ⟨[], by rw [hout, inv.absent i hi]; rfl, fun q hq hq' => ?_, fun _ => rfl⟩⟩
        change (st.ports ++ [some p])[i]? = _ at hq
        rw [List.getElem?_append_right hi] at hq
        have : i - st.ports.length = 0 := by
          rcases Nat.eq_zero_or_pos (i - st.ports.length) with e | e
          · exact e
          · rw [List.getElem?_eq_none (by simp; omega)] at hq; cases hq
        rw [this] at hq
        cases hq
        exact hp
  · intro i q hq hq'
    rw [hacc]
    rcases Nat.lt_or_ge i st.ports.length with hi | hi
    · have hq : (st.ports ++ [some p])[i]? = some (some q) := hq
      rw [List.getElem?_append_left hi] at hq
      rcases inv.shut i q hq hq' with ⟨e, he, h1⟩ | h1
      · exact .inl ⟨e, by simp [he], h1⟩
      · exact .inr h1
    · exact .inr (inv.absent i hi)
  · intro e he i op h1
    rcases List.mem_append.mp he with he | he
    · have := inv.acts e he i op h1
      show i < (st.ports ++ [some p]).length
      simp; omega
    · simp at he
      rw [he] at h1
      exact absurd h1 (hu i op)
  · intro i q hq ⟨e, he, h1⟩
    rcases List.mem_append.mp he with he | he
    · have hi := inv.acts e he i _ h1
      have hq : (st.ports ++ [some p])[i]? = some (some q) := hq
      rw [List.getElem?_append_left hi] at hq
      exact inv.over i q hq ⟨e, he, h1⟩
    · simp at he
      rw [he] at h1
      exact absurd h1 (hu i _)
  · intro g c hc
    obtain ⟨c', h1⟩ := inv.grows g c hc
    obtain ⟨c2, h2⟩ := ha.grows g _ h1
    exact ⟨c' ++ c2, by rw [h2, List.append_assoc]⟩
  · intro g hg
    by_cases e : g = f
    · subst e
      rw [← inv.same g (not_written_snoc hg)]
      exact hs hg
    · show s'.disk g = _
      rw [ha.others g e]
      exact inv.same g (not_written_snoc hg)

/-- something done with a port -/
theorem c71_use_aux {s0 : Sys} {h : List (PortAct × PortAns)} {st : PortState} (inv : HistInv s0 h st) {j : Nat} {op : PortOp} {p : Port} {s' : Sys} {a : PortAns}
    {r : Option Port} (hj : st.ports[j]? = some (some p)) (d : OpDone p op st.sys s' a r) : HistInv s0 (h ++ [(.use j op, a)]) ⟨s', st.ports.set j r⟩ := by
  have hjl : j < st.ports.length := by
    rcases Nat.lt_or_ge j st.ports.length with e | e
    · exact e
    · rw [List.getElem?_eq_none e] at hj; cases hj
  obtain ⟨ok, hjf, hjw⟩ := inv.ports j p hj
  obtain ⟨c, rest', ha, hc, hr1, hr2⟩ := d.effect
  have hf : filesOf (h ++ [(.use j op, a)]) = filesOf h := filesOf_snoc
  have hacc : ∀ i, accepted i (h ++ [(.use j op, a)]) = accepted i h ++ if i = j then op.took a else [] := fun i => accepted_snoc
  have hother : ∀ i, i ≠ j → SettledIn i (h ++ [(.use j op, a)]) → SettledIn i h := by
    intro i hi k
    rcases settledIn_snoc k with k | k
    · generalize he : (PortAct.use j op, a) = e at k
      cases k <;> cases he <;> exact absurd rfl hi
    · exact k.1
  refine ⟨?_, by rw [hf]; simp [inv.number], ?_, ?_, ?_, ?_, ?_, ?_, ?_, ha.fails.trans inv.fails, ha.amount.trans inv.amount⟩
  · intro i q hq
    rw [hf]
    by_cases hi : i = j
    · subst hi
      have hq : (st.ports.set i r)[i]? = some (some q) := hq
      rw [List.getElem?_set_self hjl] at hq
      cases hq
      obtain ⟨k1, k2, k3⟩ := d.port q rfl
      refine ⟨k1, by rw [k2]; exact hjf, fun e => ?_⟩
      rw [k2]
      refine written_snoc (hjw ?_)
      rcases k3 with k3 | k3
      · rwa [k3] at e
      · rw [k3] at e; simp at e
    · have hq : (st.ports.set j r)[i]? = some (some q) := hq
      rw [List.getElem?_set_ne (Ne.symm hi)] at hq
      obtain ⟨k1, k2, k3⟩ := inv.ports i q hq
      exact ⟨k1, k2, fun e => written_snoc (k3 e)⟩
  · intro i hi
    have hi : st.ports.length ≤ i := by simpa using hi
    rw [hacc, inv.absent i hi, if_neg (by omega)]; rfl
  · intro g
    obtain ⟨out, s, h1, h2, h3⟩ := inv.contents g
    by_cases hg : g = p.name
    · subst hg
      refine ⟨_, _, ?_, interleaves_append h2 j c, fun i => ?_⟩
      · rw [ha.content, h1, List.append_assoc]
      · rw [hf, hacc]
        by_cases hi : i = j
        · subst hi
          refine ⟨fun e => absurd hjf e, fun e => ?_⟩
          obtain ⟨rest, k1, k2, k3⟩ := (h3 i).2 e
          rw [if_pos rfl, if_pos rfl, k1]
          by_cases ho : p.file = none
          · have htag : p.tag = .notOpen := ok.open_.mpr ho
            have hsame := d.same (.inr htag)
            have hcont : s'.content p.name = st.sys.content p.name := by simp [Sys.content, hsame.disk]
            rw [ha.content] at hcont
            have hc0 : c = [] := by simpa using hcont
            obtain ⟨ht, hr⟩ := d.closed ho
            refine ⟨rest, by rw [ht, hc0]; simp, fun q hq hq' => ?_, fun k => ?_⟩
            · have hq : (st.ports.set i r)[i]? = some (some q) := hq
              rw [List.getElem?_set_self hjl] at hq
              cases hq
              rcases hr with hr | hr
              · cases hr; exact absurd ho hq'
              · cases hr
            · rcases settledIn_snoc k with k | ⟨k, hw⟩
              · generalize he : (PortAct.use i op, a) = e at k
                cases k with
                | flush => cases he; exact absurd (d.ends (.inl rfl) ho) (by simp)
                | seek => cases he; exact absurd (d.ends (.inr (.inl ⟨_, _, rfl⟩)) ho) (by simp)
                | close => cases he; exact absurd (d.ends (.inr (.inr rfl)) ho) (by simp)
                | release hn =>
                  cases he
                  rcases inv.shut i p hj ho with ⟨e, he, h1⟩ | h1
                  · exact absurd h1 (hn e he)
                  · rw [h1] at k1
                    simp at k1
                    exact k1.2
              · exact k3 k
          · have hpend := k2 p hj ho
            refine ⟨rest', ?_, fun q hq hq' => ?_, fun k => ?_⟩
            · rw [hpend] at hc
              rw [List.append_assoc, hc, List.append_assoc]
            · have hq : (st.ports.set i r)[i]? = some (some q) := hq
              rw [List.getElem?_set_self hjl] at hq
              cases hq
              exact hr1 q rfl hq'
            · rcases settledIn_snoc k with k | ⟨k, hw⟩
              · refine hr2 ?_
                generalize he : (PortAct.use i op, a) = e at k
                cases k with
                | flush => cases he; exact .inl ⟨rfl, rfl⟩
                | seek => cases he; exact .inr (.inl ⟨_, _, rfl, rfl⟩)
                | close => cases he; exact .inr (.inr (.inl ⟨rfl, rfl⟩))
                | release => cases he; exact .inr (.inr (.inr rfl))
              · have hr0 := k3 k
                have ht : op.took a = [] := by
                  cases op with
                  | write os => exact absurd rfl (hw os)
                  | _ => rfl
                rw [hpend, hr0, ht] at hc
                simp at hc
                exact hc.2
        · rw [if_neg hi, if_neg hi, List.append_nil]
          refine ⟨(h3 i).1, fun e => ?_⟩
          obtain ⟨rest, k1, k2, k3⟩ := (h3 i).2 e
          refine ⟨rest, k1, fun q hq => k2 q ?_, fun k => k3 (hother i hi k)⟩
          have hq : (st.ports.set j r)[i]? = some (some q) := hq
          rwa [List.getElem?_set_ne (Ne.symm hi)] at hq
    · refine ⟨out, s, ?_, h2, fun i => ?_⟩
      · rw [ha.contentOf, if_neg hg, List.append_nil, h1]
      · rw [hf, hacc]
        refine ⟨(h3 i).1, fun e => ?_⟩
        have hi : i ≠ j := by rintro rfl; rw [hjf] at e; cases e; exact hg rfl
        obtain ⟨rest, k1, k2, k3⟩ := (h3 i).2 e
        rw [if_neg hi, List.append_nil]
        refine ⟨rest, k1, fun q hq => k2 q ?_, fun k => k3 (hother i hi k)⟩
        have hq : (st.ports.set j r)[i]? = some (some q) := hq
        rwa [List.getElem?_set_ne (Ne.symm hi)] at hq
  · intro i q hq hq'
    have hq : (st.ports.set j r)[i]? = some (some q) := hq
    rw [hacc]
    by_cases hi : i = j
    · subst hi
      rw [List.getElem?_set_self hjl] at hq
      cases hq
      rcases d.shuts q rfl hq' with e | e
      · rw [if_pos rfl, (d.closed e).1, List.append_nil]
        rcases inv.shut i p hj e with ⟨x, hx, h1⟩ | h1
        · exact .inl ⟨x, by simp [hx], h1⟩
        · exact .inr h1
      · subst e
        exact .inl ⟨(.use i .close, a), by simp, rfl⟩
    · rw [List.getElem?_set_ne (Ne.symm hi)] at hq
      rw [if_neg hi, List.append_nil]
      rcases inv.shut i q hq hq' with ⟨x, hx, h1⟩ | h1
      · exact .inl ⟨x, by simp [hx], h1⟩
      · exact .inr h1
  · intro e he i op' h1
    show i < (st.ports.set j r).length
    rw [List.length_set]
    rcases List.mem_append.mp he with he | he
    · exact inv.acts e he i op' h1
    · simp at he
      rw [he] at h1
      cases h1
      exact hjl
  · intro i q hq ⟨e, he, h1⟩
    have hq : (st.ports.set j r)[i]? = some (some q) := hq
    by_cases hi : i = j
    · subst hi
      rw [List.getElem?_set_self hjl] at hq
      cases hq
      rcases List.mem_append.mp he with he | he
      · have := inv.over i p hj ⟨e, he, h1⟩
        rcases (d.closed this).2 with e | e
        · cases e; exact this
        · cases e
      · simp at he
        rw [he] at h1
        cases h1
        obtain ⟨q', e1, e2⟩ := d.over rfl
        cases e1; exact e2
    · rw [List.getElem?_set_ne (Ne.symm hi)] at hq
      rcases List.mem_append.mp he with he | he
      · exact inv.over i q hq ⟨e, he, h1⟩
      · simp at he
        rw [he] at h1
        cases h1
        exact absurd rfl hi
  · intro g b hb
    obtain ⟨c', h1⟩ := inv.grows g b hb
    obtain ⟨c2, h2⟩ := ha.grows g _ h1
    exact ⟨c' ++ c2, by rw [h2, List.append_assoc]⟩
  · intro g hg
    have hg' := not_written_snoc hg
    show s'.disk g = _
    by_cases e : g = p.name
    · have : p.tag = .input ∨ p.tag = .notOpen := by
        cases ht : p.tag with
        | input => exact .inl rfl
        | notOpen => exact .inr rfl
        | output => rw [e] at hg'; exact absurd (hjw (.inl ht)) hg'
        | io => rw [e] at hg'; exact absurd (hjw (.inr ht)) hg'
      rw [(d.same this).disk]
      exact inv.same g hg'
    · rw [ha.others g e]
      exact inv.same g hg'

theorem c71_mapOk_aux {α β : Type} {m : Except Fault α} {f : α → β} {b : β} (h : m.map f = .ok b) : ∃ a, m = .ok a ∧ f a = b := by
  cases m with
  | error e => cases h
  | ok a => cases h; exact ⟨a, rfl, rfl⟩

theorem c71_step_aux {s0 : Sys} {h : List (PortAct × PortAns)} {st st' : PortState} (inv : HistInv s0 h st) {a : PortAct} {r : PortAns}
    (e : st.perform a = .ok (r, st')) : HistInv s0 (h ++ [(a, r)]) st' := by
  cases a with
  | openInput f =>
    obtain ⟨⟨p, s'⟩, e1, e2⟩ := c71_mapOk_aux e
    cases e2
    have : ∀ a s', Ports.newInput f st.sys = .ok (a, s') → HistInv s0 (h ++ [(.openInput f, .made)]) ⟨s', st.ports ++ [some a]⟩ :=
      post_newInput fun p s' hs ok hn hp ht _ _ => c71_new_aux inv filesOf_snoc (by simp) (hs.adds f) ok hn hp
        (fun e => by rcases ht with ht | ht <;> rw [ht] at e <;> simp at e) fun _ => by rw [hs.disk]
    exact this _ _ e1
  | openOutput f =>
    obtain ⟨⟨p, s'⟩, e1, e2⟩ := c71_mapOk_aux e
    cases e2
    have : ∀ a s', Ports.newOutput f st.sys = .ok (a, s') → HistInv s0 (h ++ [(.openOutput f, .made)]) ⟨s', st.ports ++ [some a]⟩ :=
      post_newOutput fun p s' hs ok hn hp ht => c71_new_aux inv filesOf_snoc (by simp) hs ok hn hp (fun _ => ⟨(.openOutput f, .made), by simp, .inl rfl⟩)
        fun e => absurd ⟨(.openOutput f, .made), by simp, .inl rfl⟩ e
    exact this _ _ e1
  | openIo f =>
    obtain ⟨⟨p, s'⟩, e1, e2⟩ := c71_mapOk_aux e
    cases e2
    have : ∀ a s', Ports.newIo f st.sys = .ok (a, s') → HistInv s0 (h ++ [(.openIo f, .made)]) ⟨s', st.ports ++ [some a]⟩ :=
      post_newIo fun p s' hs ok hn hp ht _ _ => c71_new_aux inv filesOf_snoc (by simp) hs ok hn hp (fun _ => ⟨(.openIo f, .made), by simp, .inr rfl⟩)
        fun e => absurd ⟨(.openIo f, .made), by simp, .inr rfl⟩ e
    exact this _ _ e1
  | copy i =>
    simp only [PortState.perform] at e
    split at e
    · rename_i p hp
      obtain ⟨⟨q, s'⟩, e1, e2⟩ := c71_mapOk_aux e
      cases e2
      obtain ⟨ok, hf, hw⟩ := inv.ports i p hp
      have : ∀ a s', Ports.copy p st.sys = .ok (a, s') → HistInv s0 (h ++ [(.copy i, .made)]) ⟨s', st.ports ++ [some a]⟩ := by
        refine post_copy ok fun q s' hs ok' hn hp' ht hsame => c71_new_aux inv ?_ (by simp) hs ok' hn hp' ?_ ?_
        · rw [filesOf_snoc]
          simp [List.getD_eq_getElem?_getD, hf]
        · intro e; rw [ht] at e; exact written_snoc (hw e)
        · intro e
          cases ht : p.tag with
          | input => rw [(hsame (.inl ht)).disk]
          | notOpen => rw [(hsame (.inr ht)).disk]
          | output => exact absurd (written_snoc (hw (.inl ht))) e
          | io => exact absurd (written_snoc (hw (.inr ht))) e
      exact this _ _ e1
    · cases e
  | use i op =>
    simp only [PortState.perform] at e
    split at e
    · rename_i p hp
      obtain ⟨⟨⟨a, q⟩, s'⟩, e1, e2⟩ := c71_mapOk_aux e
      cases e2
      exact c71_use_aux inv hp (c71_op_aux (inv.ports i p hp).1 _ _ e1)
    · cases e

theorem c71_inv_aux {s0 : Sys} {h : List (PortAct × PortAns)} {st : PortState} (k : Performs (.start s0) h st) : HistInv s0 h st := by
  generalize hs : PortState.start s0 = st0 at k
  induction k with
  | none =>
    subst hs
    refine ⟨fun i p e => ?_, rfl, fun _ _ => rfl, fun f => ⟨fun _ => [], [], (by simp [PortState.start]), .nil, fun i => ⟨fun _ => rfl, fun e => ?_⟩⟩, fun i p e => ?_,
      fun e he => ?_, fun i p e => ?_, fun f c e => ⟨[], (by rw [List.append_nil]; exact e)⟩, fun f _ => rfl, rfl, rfl⟩
    · simp [PortState.start] at e
    · simp [filesOf] at e
    · simp [PortState.start] at e
    · cases he
    · simp [PortState.start] at e
  | next _ e ih => exact c71_step_aux ih e

theorem c71_trans_aux {a b c : PortState} {h k : List (PortAct × PortAns)} (x : Performs a h b) (y : Performs b k c) : Performs a (h ++ k) c := by
  induction y with
  | none => simpa using x
  | next _ e ih => rw [← List.append_assoc]; exact ih.next e

theorem c71_use_inv_aux {st st' : PortState} {i : Nat} {op : PortOp} {a : PortAns} (e : st.perform (.use i op) = .ok (a, st')) :
    ∃ p q, st.ports[i]? = some (some p) ∧ op.perform p st.sys = .ok ((a, q), st'.sys) ∧ st'.ports = st.ports.set i q := by
  simp only [PortState.perform] at e
  split at e
  · rename_i p hp
    obtain ⟨⟨⟨a, q⟩, s'⟩, e1, e2⟩ := c71_mapOk_aux e
    cases e2
    exact ⟨p, q, hp, e1, rfl⟩
  · cases e

theorem c71_position_aux {st st' : PortState} {i : Nat} {q : Option Port} {p : Port} (hp : st.ports[i]? = some (some p)) (h : st'.ports = st.ports.set i q) :
    st'.position i = q.bind fun q => q.file.map fun s => s.at_ st'.sys := by
  have hi : i < st.ports.length := by
    rcases Nat.lt_or_ge i st.ports.length with e | e
    · exact e
    · rw [List.getElem?_eq_none e] at hp; cases hp
  unfold PortState.position
  rw [h, List.getElem?_set_self hi]
  cases q <;> rfl

/-- reading -/
theorem c71_readOp_aux {p : Port} {n : Nat} {s : Sys} (ok : PortOk p) : Post ((PortOp.read n).perform p) s fun r s' => SameSys s s' ∧
    (((p.tag = .output ∨ p.tag = .notOpen) ∧ r.1 = .octets (-1) [] ∧ r.2 = some p) ∨
      ((p.tag = .input ∨ p.tag = .io) ∧ ∃ st st' os, p.file = some st ∧ r.1 = .octets os.length os ∧ r.2 = some { p with file := some st' } ∧
        os = ((s.content p.name).drop (st.at_ s)).take os.length ∧ os.length ≤ n ∧ st'.at_ s' = st.at_ s + os.length ∧
        (s.Reliable → os.length = min n ((s.content p.name).length - st.at_ s)))) := by
  simp only [PortOp.perform, Ports.read]
  split
  · rename_i ht
    refine post_bind (post_bind (c71_stream_aux fun st hf => post_bind (post_fread fun os st' s' hs m h1 h2 h3 h4 h5 h6 => post_pure (post_pure ?_))))
    obtain ⟨k1, k2, k3, k4⟩ := ok.stream st hf
    refine ⟨hs, .inr ⟨ht, st, st', os, hf, rfl, rfl, ?_⟩⟩
    have hc : ∀ f, s'.content f = s.content f := fun f => by simp [Sys.content, hs.disk]
    by_cases hp : st.pending = []
    · have e1 : st.at_ s = st.pos := if_pos hp
      have e2 : st'.pending = [] := by have := m.pending; rw [hp] at this; simpa using this.symm
      rw [e1, show st'.at_ s' = st'.pos from if_pos e2, ← k1]
      exact ⟨h1, h2, h3 hp, fun hr => h6 (hr _)⟩
    · have e3 : os = [] := by
        cases os with
        | nil => rfl
        | cons o os => exact absurd (h4 (by simp)) hp
      subst e3
      have e2 : st'.pending = st.pending := by simpa using m.pending.symm
      have e4 : st'.at_ s' = st.at_ s := by
        unfold Stream.at_
        rw [e2, if_neg hp, if_neg hp, m.path, hc]
      refine ⟨rfl, Nat.zero_le _, by rw [e4]; rfl, fun hr => ?_⟩
      have : st.at_ s = (s.content p.name).length + st.pending.length := by rw [Stream.at_, if_neg hp, k1]
      rw [this]
      simp
  · rename_i ht
    refine post_bind (post_pure (post_pure ⟨SameSys.refl s, .inl ⟨?_, rfl, rfl⟩⟩))
    cases hq : p.tag <;> simp [hq] at ht ⊢

/-- moving -/
theorem c71_seekOp_aux {p : Port} {x : Int} {y : Bool} {s : Sys} (ok : PortOk p) : Post ((PortOp.seek x y).perform p) s fun r s' =>
    (p.file = none ∧ r.1 = .flag false ∧ r.2 = some p ∧ SameSys s s') ∨
    ∃ st st' b, p.file = some st ∧ r.1 = .flag b ∧ r.2 = some { p with file := some st' } ∧
      (b = true → st'.pending = [] ∧ (st'.pos : Int) = (if y then (st.at_ s : Int) + x else if x < 0 then ((s'.content p.name).length : Int) + x + 1 else x)) ∧
      (b = false → st.pending = [] → st' = st ∧ SameSys s s') ∧
      (s.Reliable → (b = true ↔ 0 ≤ (if y then (st.at_ s : Int) + x else if x < 0 then ((s'.content p.name).length : Int) + x + 1 else x))) := by
  simp only [PortOp.perform, Ports.seek]
  split
  · rename_i ht
    exact post_bind (post_pure (post_pure (.inl ⟨ok.open_.mp ht, rfl, rfl, SameSys.refl s⟩)))
  · have fin : ∀ (o : Int) w (g : Stream → Sys → Int), (∀ st s', p.file = some st → s'.content st.path = s.content st.path ++ st.pending →
          (from_ st s w : Int) + o = g st s') →
        Post (do
          let st ← Ports.stream p
          let (ok, st) ← Stdio.fseek st o w
          pure (ok, { p with file := some st })) s fun r s' => ∃ st st' b, p.file = some st ∧ r.1 = b ∧ r.2 = { p with file := some st' } ∧
            (b = true → st'.pending = [] ∧ (st'.pos : Int) = g st s') ∧ (b = false → st.pending = [] → st' = st ∧ SameSys s s') ∧
            (s.Reliable → (b = true ↔ 0 ≤ g st s')) := by
      intro o w g hg
      refine post_bind (c71_stream_aux fun st hf => post_bind (post_fseek fun b st' s' os ha m h1 h2 h3 h4 h5 => post_pure ?_))
      have key : st'.pending = [] → (from_ st s w : Int) + o = g st s' := by
        intro e
        refine hg st s' hf ?_
        rw [ha.content, m.pending, e, List.append_nil]
      refine ⟨st, st', b, hf, rfl, rfl, fun e => ?_, fun e e' => ⟨h2 e e', h4 e'⟩, fun hr => ?_⟩
      · obtain ⟨e1, e2⟩ := h1 e
        have e3 : st'.pending = [] := by simp [Stream.pending, e1]
        exact ⟨e3, by rw [e2, key e3]⟩
      · rw [← key (h5 (hr _))]
        exact h3 (hr _)
    refine post_bind (post_mono (Q := fun r s' => ∃ st st' b, p.file = some st ∧ r.1 = b ∧ r.2 = { p with file := some st' } ∧
            (b = true → st'.pending = [] ∧ (st'.pos : Int) = (if y then (st.at_ s : Int) + x else if x < 0 then ((s'.content p.name).length : Int) + x + 1 else x)) ∧
            (b = false → st.pending = [] → st' = st ∧ SameSys s s') ∧
            (s.Reliable → (b = true ↔ 0 ≤ (if y then (st.at_ s : Int) + x else if x < 0 then ((s'.content p.name).length : Int) + x + 1 else x)))) ?_ ?_)
    · by_cases hx : x < 0
      · simp only [if_pos hx]
        refine fin _ _ (fun st s' => if y then (st.at_ s : Int) + x else ((s'.content p.name).length : Int) + x + 1) ?_
        intro st s' hf hc
        cases y with
        | true => rfl
        | false =>
          rw [(ok.stream st hf).1] at hc
          simp only [Bool.false_eq_true, if_false, from_, (ok.stream st hf).1]
          rw [hc, List.length_append]; omega
      · simp only [if_neg hx]
        refine fin _ _ (fun st s' => if y then (st.at_ s : Int) + x else x) ?_
        intro st s' hf hc
        cases y with
        | true => rfl
        | false => simp [from_]
    · rintro ⟨b, q⟩ s' ⟨st, st', b', h1, rfl, rfl, h4⟩
      exact post_pure (.inr ⟨st, st', _, h1, rfl, rfl, h4⟩)

/-- writing -/
theorem c71_writeOp_aux {p : Port} {os : List Utf8.Octet} {s : Sys} : Post ((PortOp.write os).perform p) s fun r s' =>
    ((p.tag = .input ∨ p.tag = .notOpen) ∧ r.1 = .number (-1) ∧ r.2 = some p ∧ s' = s) ∨
    ((p.tag = .output ∨ p.tag = .io) ∧ ∃ (k : Nat), r.1 = .number k ∧ k ≤ os.length ∧ (s.Reliable → k = os.length)) := by
  simp only [PortOp.perform, Ports.write]
  split
  · rename_i ht
    refine post_bind (post_bind (c71_stream_aux fun st hf => post_bind (post_fwrite fun k st' s' c _ _ _ _ _ h1 h2 => post_pure (post_pure ?_))))
    exact .inr ⟨ht.symm, k, rfl, h1, fun hr => h2 (hr _)⟩
  · rename_i ht
    refine post_bind (post_pure (post_pure (.inl ⟨?_, rfl, rfl, rfl⟩)))
    cases hq : p.tag <;> simp [hq] at ht ⊢

theorem c71_supports_aux {p : Port} {s : Sys} : Post (PortOp.supportsOutput.perform p) s (fun r s' => r.1 = .flag (decide (p.tag = .output ∨ p.tag = .io)) ∧ r.2 = some p ∧ s' = s) ∧
    Post (PortOp.supportsInput.perform p) s (fun r s' => r.1 = .flag (decide (p.tag = .input ∨ p.tag = .io)) ∧ r.2 = some p ∧ s' = s) := by
  constructor
  · simp only [PortOp.perform, Ports.supportsOutput]
    cases hq : p.tag with
    | io => exact post_bind (post_bind (c71_stream_aux fun _ _ => post_pure (post_pure ⟨rfl, rfl, rfl⟩)))
    | output => exact post_bind (post_bind (c71_stream_aux fun _ _ => post_pure (post_pure ⟨rfl, rfl, rfl⟩)))
    | input => exact post_bind (post_pure (post_pure ⟨rfl, rfl, rfl⟩))
    | notOpen => exact post_bind (post_pure (post_pure ⟨rfl, rfl, rfl⟩))
  · simp only [PortOp.perform, Ports.supportsInput]
    cases hq : p.tag with
    | io => exact post_bind (post_bind (c71_stream_aux fun _ _ => post_pure (post_pure ⟨rfl, rfl, rfl⟩)))
    | input => exact post_bind (post_bind (c71_stream_aux fun _ _ => post_pure (post_pure ⟨rfl, rfl, rfl⟩)))
    | output => exact post_bind (post_pure (post_pure ⟨rfl, rfl, rfl⟩))
    | notOpen => exact post_bind (post_pure (post_pure ⟨rfl, rfl, rfl⟩))

theorem c71_refuses_aux {p : Port} {op : PortOp} {s : Sys} (ok : PortOk p) (hf : p.file = none) : Post (op.perform p) s fun r s' => r.1 = refusal op ∧
    (op ≠ .release → r.2 = some p) ∧ s' = s := by
  have ht := ok.open_.mpr hf
  cases op with
  | read n => simp only [PortOp.perform, Ports.read, ht]; exact post_bind (post_pure (post_pure ⟨rfl, fun _ => rfl, rfl⟩))
  | write n => simp only [PortOp.perform, Ports.write, ht]; exact post_bind (post_pure (post_pure ⟨rfl, fun _ => rfl, rfl⟩))
  | seek x y => simp only [PortOp.perform, Ports.seek, ht]; exact post_bind (post_pure (post_pure ⟨rfl, fun _ => rfl, rfl⟩))
  | flush => simp only [PortOp.perform, Ports.flush, ht]; exact post_bind (post_pure (post_pure ⟨rfl, fun _ => rfl, rfl⟩))
  | close => simp only [PortOp.perform, Ports.close, ht]; exact post_bind (post_pure (post_pure ⟨rfl, fun _ => rfl, rfl⟩))
  | release => simp only [PortOp.perform, Ports.release, ht]; exact post_bind (post_pure (post_pure ⟨rfl, fun e => absurd rfl e, rfl⟩))
  | distance => simp only [PortOp.perform, Ports.distance, ht]; exact post_bind (post_pure (post_pure ⟨rfl, fun _ => rfl, rfl⟩))
  | length => exact post_pure ⟨by simp [refusal, Ports.length, ok.length ht], fun _ => rfl, rfl⟩
  | supportsOutput => simp only [PortOp.perform, Ports.supportsOutput, ht]; exact post_bind (post_pure (post_pure ⟨rfl, fun _ => rfl, rfl⟩))
  | supportsInput => simp only [PortOp.perform, Ports.supportsInput, ht]; exact post_bind (post_pure (post_pure ⟨rfl, fun _ => rfl, rfl⟩))

theorem c71_set_aux {α : Type} {l : List α} {i : Nat} {x : α} (h : l[i]? = some x) : l.set i x = l := by
  apply List.ext_getElem?
  intro j
  by_cases hj : j = i
  · subst hj
    have hi : j < l.length := by
      rcases Nat.lt_or_ge j l.length with e | e
      · exact e
      · rw [List.getElem?_eq_none e] at h; cases h
    rw [List.getElem?_set_self hi, h]
  · rw [List.getElem?_set_ne (Ne.symm hj)]

/-! #### What the library does with a reliable system -/

/-- the computation ends -/
def Goes {α : Type} (m : Io α) (s : Sys) : Prop := ∃ a s', m s = .ok (a, s')

theorem goes_pure {α : Type} {a : α} {s : Sys} : Goes (pure a) s := ⟨a, s, rfl⟩

theorem goes_bind {α β : Type} {m : Io α} {f : α → Io β} {s : Sys} (h : Goes m s) (k : Post m s fun a s' => Goes (f a) s') : Goes (m >>= f) s := by
  obtain ⟨a, s', e⟩ := h
  obtain ⟨b, s2, e2⟩ := k a s' e
  exact ⟨b, s2, by rw [show (m >>= f) s = (m s >>= fun p => f p.1 p.2) from rfl, e]; exact e2⟩

/-- after a computation that ends and satisfies `Q` -/
theorem goes_then {α β : Type} {m : Io α} {f : α → Io β} {s : Sys} (h : Goes m s) {Q : α → Sys → Prop} (q : Post m s Q) (k : ∀ a s', Q a s' → Goes (f a) s') : Goes (m >>= f) s :=
  goes_bind h fun a s' e => k a s' (q a s' e)

theorem goes_failing {s : Sys} : Goes Stdio.failing s := ⟨_, _, rfl⟩
theorem goes_upTo {n : Nat} {s : Sys} : Goes (Stdio.upTo n) s := ⟨_, _, rfl⟩
theorem goes_content {f : Text} {s : Sys} : Goes (Stdio.content f) s := ⟨_, _, rfl⟩
theorem goes_addTo {f : Text} {os : List Utf8.Octet} {s : Sys} : Goes (Stdio.addTo f os) s := ⟨_, _, rfl⟩

/-- after a computation that ends whatever happens -/
theorem goes_any {α β : Type} {m : Io α} {f : α → Io β} {s : Sys} (h : Goes m s) (k : ∀ a s', Goes (f a) s') : Goes (m >>= f) s :=
  goes_bind h fun a s' _ => k a s'

theorem goes_put {st : Stream} {b : Bool} {s : Sys} : Goes (Stdio.put st b) s := by
  unfold Stdio.put
  split
  · exact goes_pure
  · have main : ∀ (k : Nat) s1, Goes (do
        Stdio.addTo st.path (st.pending.take k)
        if k = st.pending.length then do
          let c ← Stdio.content st.path
          pure { st with pos := c.length, last := .output [] }
        else pure { st with last := .output (st.pending.drop k) }) s1 := by
      intro k s1
      refine goes_any goes_addTo fun _ s2 => ?_
      split
      · exact goes_any goes_content fun _ _ => goes_pure
      · exact goes_pure
    cases b with
    | true => simp only [if_true]; exact goes_any goes_pure fun k s1 => main k s1
    | false => simp only [Bool.false_eq_true, if_false]; exact goes_any goes_upTo fun k s1 => main k s1

theorem goes_fopen {f : Text} {i o : Bool} {s : Sys} : Goes (Stdio.fopen f i o) s := by
  unfold Stdio.fopen
  refine goes_any goes_failing fun b s1 => ?_
  cases b with
  | true => exact goes_pure
  | false =>
    simp only [Bool.false_eq_true, if_false]
    cases o with
    | true => simp only [if_true]; exact goes_any goes_addTo fun _ _ => goes_any goes_content fun _ _ => goes_any goes_upTo fun _ _ => goes_pure
    | false =>
      simp only [Bool.false_eq_true, if_false]
      cases hd : s1.disk f with
      | none => exact ⟨none, s1, by simp [hd]⟩
      | some c => exact ⟨_, s1, by simp only [hd]; rfl⟩

theorem goes_fclose {st : Stream} {s : Sys} : Goes (Stdio.fclose st) s := by
  unfold Stdio.fclose
  exact goes_any goes_failing fun _ _ => goes_any goes_put fun _ _ => goes_pure

theorem goes_fflush {st : Stream} {s : Sys} : Goes (Stdio.fflush st) s := by
  unfold Stdio.fflush
  refine goes_any goes_failing fun _ _ => goes_any goes_put fun _ _ => ?_
  split <;> exact goes_pure

theorem goes_ftell {st : Stream} {s : Sys} : Goes (Stdio.ftell st) s := by
  unfold Stdio.ftell
  refine goes_any goes_failing fun b _ => ?_
  cases b with
  | true => exact goes_pure
  | false =>
    simp only [Bool.false_eq_true, if_false]
    split
    · exact goes_pure
    · exact goes_any goes_content fun _ _ => goes_pure

theorem goes_fseek {st : Stream} {o : Int} {w : Whence} {s : Sys} : Goes (Stdio.fseek st o w) s := by
  unfold Stdio.fseek
  refine goes_any goes_failing fun _ _ => goes_any goes_put fun _ _ => goes_any goes_content fun _ _ => ?_
  split <;> exact goes_pure

/-- what a stream is being used for -/
def _root_.Dern.Stdio.Stream.mode (st : Stream) : PortUse :=
  match st.last with
  | .idle => .free
  | .input _ => .reading
  | .output _ => .writing

theorem goes_fread {st : Stream} {n : Nat} {s : Sys} (h : st.mode ≠ .writing) : Goes (Stdio.fread st n) s := by
  unfold Stdio.fread
  split
  · exact goes_pure
  · split
    · rename_i hl; exact absurd (by simp [Stream.mode, hl]) h
    · refine goes_any goes_content fun c s1 => goes_any goes_failing fun b s2 => ?_
      cases b with
      | true => simp only [if_true]; exact goes_any goes_upTo fun _ _ => goes_pure
      | false => simp only [Bool.false_eq_true, if_false]; exact goes_any goes_pure fun _ _ => goes_pure

theorem goes_fwrite {st : Stream} {os : List Utf8.Octet} {s : Sys} (h : st.mode ≠ .reading) : Goes (Stdio.fwrite st os) s := by
  unfold Stdio.fwrite
  split
  · exact goes_pure
  · split
    · rename_i hl; exact absurd (by simp [Stream.mode, hl]) h
    · refine goes_any goes_failing fun b s2 => ?_
      cases b with
      | true => simp only [if_true]; exact goes_any goes_upTo fun _ _ => goes_any goes_put fun _ _ => goes_pure
      | false => simp only [Bool.false_eq_true, if_false]; exact goes_any goes_pure fun _ _ => goes_any goes_put fun _ _ => goes_pure

theorem SameSys.reliable {s s' : Sys} (h : SameSys s s') (r : s.Reliable) : s'.Reliable := fun t => by rw [h.fails]; exact r t

theorem AddsTo.reliable {f : Text} {os : List Utf8.Octet} {s s' : Sys} (h : AddsTo f os s s') (r : s.Reliable) : s'.Reliable := fun t => by rw [h.fails]; exact r t

theorem goes_measure {st : Stream} {s : Sys} (r : s.Reliable) : Goes (Ports.measure st) s := by
  unfold Ports.measure
  refine goes_then goes_fseek (Q := fun r s' => r.1 = true ∧ s'.Reliable) (post_fseek fun b st' s' os ha _ _ _ hb _ _ => ⟨(hb (r _)).mpr ?_, ha.reliable r⟩) ?_
  · simp only [from_]; omega
  rintro ⟨b, st1⟩ s1 ⟨rfl, r1⟩
  refine goes_then (m := Ports.verify true) goes_pure (Q := fun _ s' => s'.Reliable) (post_pure r1) fun _ s1' r1' => ?_
  refine goes_then goes_ftell (Q := fun _ s' => s'.Reliable) (post_ftell fun _ s' hs _ _ => hs.reliable r1') fun n s2 r2 => ?_
  refine goes_then goes_fseek (Q := fun r _ => r.1 = true) (post_fseek fun b st' s' os ha _ _ _ hb _ _ => (hb (r2 _)).mpr ?_) ?_
  · simp only [from_]; omega
  rintro ⟨b, st1⟩ s1 rfl
  exact goes_any (m := Ports.verify true) goes_pure fun _ _ => goes_pure

theorem post_and {α : Type} {m : Io α} {s : Sys} {P R Q : α → Sys → Prop} (h : Post m s P) (k : Post m s R) (j : ∀ a s', P a s' → R a s' → Q a s') : Post m s Q :=
  fun a s' e => j a s' (h a s' e) (k a s' e)

theorem post_measure2 {st : Stream} {s : Sys} {Q : Int × Stream → Sys → Prop} (hi : st.last = .idle)
    (h : ∀ (n : Int) st' s', SameSys s s' → st'.last = .idle → (s.Reliable → n = (s.content st.path).length) → Q (n, st') s') : Post (Ports.measure st) s Q := by
  have hp : st.pending = [] := by simp [Stream.pending, hi]
  refine post_and (post_measure (Q := fun r s' => SameSys s s' ∧ r.2.last = .idle) hi fun n st' s' hs _ hl _ _ => ⟨hs, hl⟩)
    (R := fun r _ => s.Reliable → r.1 = ((s.content st.path).length : Int)) ?_ fun r s' h1 h2 => h r.1 r.2 s' h1.1 h1.2 h2
  unfold Ports.measure
  refine post_bind (post_fseek fun b st1 s1 os h1 m1 hb _ _ hs _ => ?_)
  cases b with
  | false => exact post_bind post_throw
  | true =>
    obtain ⟨hl1, hp1⟩ := hb rfl
    have e1 : st1.pending = [] := by simp [Stream.pending, hl1]
    refine post_bind (post_pure (post_bind (post_ftell fun n s2 h2 _ hn => ?_)))
    refine post_bind (post_mono (Q := fun _ _ => True) (fun _ _ _ => trivial) fun _ _ _ => ?_)
    refine post_bind (post_mono (Q := fun _ _ => True) (fun _ _ _ => trivial) fun _ _ _ => post_pure fun hr => ?_)
    show n = _
    rw [hn (h1.reliable hr _), Stream.at_, if_pos e1, hp1]
    simp [from_, hp]

theorem post_opened {f : Text} {i o : Bool} {s : Sys} : Post (Stdio.fopen f i o) s fun r s' =>
    (r ≠ none → s'.disk f ≠ none) ∧ (s.fails s.tick = false → (r = none ↔ o = false ∧ s.disk f = none)) := by
  unfold Stdio.fopen
  refine post_bind (post_failing fun s1 h1 => ?_)
  cases hf : s.fails s.tick with
  | true => exact post_pure ⟨fun e => absurd rfl e, fun e => by cases e⟩
  | false =>
    simp only [Bool.false_eq_true, if_false]
    cases o with
    | true =>
      simp only [if_true]
      refine post_bind (fun _ s2 e => ?_)
      cases e
      refine post_bind (post_content (post_bind (post_upTo fun k s3 _ h3 => post_pure ⟨fun _ => ?_, fun _ => ⟨fun e => (by cases e), fun e => (by cases e.1)⟩⟩)))
      rw [h3.disk]; simp
    | false =>
      simp only [Bool.false_eq_true, if_false]
      intro a s' e
      dsimp only at e
      rw [← h1.disk]
      split at e
      · rename_i hd; cases e; exact ⟨fun e => absurd rfl e, fun _ => ⟨fun _ => ⟨trivial, hd⟩, fun _ => rfl⟩⟩
      · rename_i hd; cases e; exact ⟨fun _ => by rw [hd]; simp, fun _ => ⟨fun e => (by cases e), fun e => by rw [hd] at e; cases e.2⟩⟩

/-- opening an input port -/
theorem post_newInput2 {f : Text} {s : Sys} : Post (Ports.newInput f) s fun p s' => (p.file ≠ none → s'.disk f ≠ none) ∧ (∀ st, p.file = some st → st.mode = .free) ∧
    (s.Reliable → (p.file = none ↔ s.disk f = none) ∧ (p.file ≠ none → p.length = (s.content f).length)) := by
  unfold Ports.newInput
  refine post_bind (post_and post_opened (post_fopen (Q := fun r s' => SameSys s s' ∧ ∀ st, r = some st → st.path = f ∧ st.last = .idle) fun r s' _ hs hr =>
    ⟨hs rfl, fun st e => ⟨(hr st e).1, (hr st e).2.2.2⟩⟩) fun r s1 h1 h2 => ?_)
  obtain ⟨h1, h1'⟩ := h1
  obtain ⟨hs, h2⟩ := h2
  cases r with
  | none => exact post_pure ⟨fun e => absurd rfl e, fun st e => (by cases e), fun hr => ⟨⟨fun _ => ((h1' (hr _)).mp rfl).2, fun _ => rfl⟩, fun e => absurd rfl e⟩⟩
  | some st =>
    obtain ⟨hp, hl⟩ := h2 st rfl
    have hd := h1 (by simp)
    refine post_bind (post_measure2 hl fun n st' s2 hs2 hl' hn => post_pure ⟨fun _ => by rw [hs2.disk]; exact hd, fun st e => (by cases e; simp [Stream.mode, hl']),
      fun hr => ⟨⟨fun e => (by cases e), fun e => absurd (by rw [hs.disk]; exact e) hd⟩, fun _ => ?_⟩⟩)
    rw [hp] at hn
    rw [show s.content f = s1.content f by simp [Sys.content, hs.disk]]
    exact hn (hs.reliable hr)

theorem post_newIo2 {f : Text} {s : Sys} : Post (Ports.newIo f) s fun p s' => (p.file ≠ none → s'.disk f ≠ none) ∧ (∀ st, p.file = some st → st.mode = .free) ∧
    (s.Reliable → p.file ≠ none ∧ p.length = (s.content f).length) := by
  unfold Ports.newIo
  refine post_bind (post_and post_opened (post_fopen (Q := fun r s' => AddsTo f [] s s' ∧ ∀ st, r = some st → st.path = f ∧ st.last = .idle) fun r s' ha _ hr =>
    ⟨ha, fun st e => ⟨(hr st e).1, (hr st e).2.2.2⟩⟩) fun r s1 h1 h2 => ?_)
  obtain ⟨h1, h1'⟩ := h1
  obtain ⟨ha, h2⟩ := h2
  cases r with
  | none => exact post_pure ⟨fun e => absurd rfl e, fun st e => (by cases e), fun hr => absurd ((h1' (hr _)).mp rfl).1 (by decide)⟩
  | some st =>
    obtain ⟨hp, hl⟩ := h2 st rfl
    have hd := h1 (by simp)
    refine post_bind (post_measure2 hl fun n st' s2 hs2 hl' hn => post_pure ⟨fun _ => by rw [hs2.disk]; exact hd, fun st e => (by cases e; simp [Stream.mode, hl']),
      fun hr => ⟨by simp, ?_⟩⟩)
    rw [hp, ha.content, List.append_nil] at hn
    exact hn (ha.reliable hr)

theorem post_newOutput2 {f : Text} {s : Sys} : Post (Ports.newOutput f) s fun p s' => (p.file ≠ none → s'.disk f ≠ none) ∧ (∀ st, p.file = some st → st.mode = .free) ∧
    (s.Reliable → p.file ≠ none) := by
  unfold Ports.newOutput
  refine post_bind (post_and post_opened (post_fopen (Q := fun r s' => ∀ st, r = some st → st.path = f ∧ st.last = .idle) fun r s' ha _ hr =>
    fun st e => ⟨(hr st e).1, (hr st e).2.2.2⟩) fun r s1 h1 h2 => ?_)
  obtain ⟨h1, h1'⟩ := h1
  cases r with
  | none => exact post_pure ⟨fun e => absurd rfl e, fun st e => (by cases e), fun hr => absurd ((h1' (hr _)).mp rfl).1 (by decide)⟩
  | some st =>
    obtain ⟨hp, hl⟩ := h2 st rfl
    have hd := h1 (by simp)
    exact post_bind (post_ftell fun n s2 hs2 _ _ => post_pure ⟨fun _ => by rw [hs2.disk]; exact hd, fun st e => (by cases e; simp [Stream.mode, hl]), fun hr => by simp⟩)

theorem post_copy2 {p : Port} {s : Sys} : Post (Ports.copy p) s fun q s' => (q.file ≠ none → s'.disk p.name ≠ none) ∧ (∀ st, q.file = some st → st.mode = .free) := by
  unfold Ports.copy
  have fin : ∀ i o, Post (Stdio.fopen p.name i o) s fun r s1 => ∀ st, r = some st → s1.disk p.name ≠ none ∧ st.last = .idle := fun i o a s' e st hst =>
    ⟨(post_opened a s' e).1 (by rw [hst]; simp), (post_fopen (Q := fun r s' => ∀ st, r = some st → st.last = .idle) (fun r s' _ _ hr st e => (hr st e).2.2.2)) a s' e st hst⟩
  split
  · refine post_bind (post_mono (fin _ _) fun r s1 h => ?_)
    cases r with
    | none => exact post_throw
    | some st =>
      obtain ⟨hd, hl⟩ := h st rfl
      exact post_bind (post_measure2 hl fun n st' s2 hs2 hl' hn => post_pure ⟨fun _ => by rw [hs2.disk]; exact hd, fun st e => (by cases e; simp [Stream.mode, hl'])⟩)
  · refine post_bind (post_mono (fin _ _) fun r s1 h => ?_)
    cases r with
    | none => exact post_throw
    | some st =>
      obtain ⟨hd, hl⟩ := h st rfl
      exact post_bind (post_measure2 hl fun n st' s2 hs2 hl' hn => post_pure ⟨fun _ => by rw [hs2.disk]; exact hd, fun st e => (by cases e; simp [Stream.mode, hl'])⟩)
  · refine post_bind (post_mono (fin _ _) fun r s1 h => ?_)
    cases r with
    | none => exact post_throw
    | some st =>
      obtain ⟨hd, hl⟩ := h st rfl
      exact post_bind (post_ftell fun n s2 hs2 _ _ => post_pure ⟨fun _ => by rw [hs2.disk]; exact hd, fun st e => (by cases e; simp [Stream.mode, hl])⟩)
  · exact post_pure ⟨fun e => absurd rfl e, fun st e => (by cases e)⟩

theorem goes_open {f : Text} {i o : Bool} {s : Sys} {k : Option Stream → Io Port} (r : s.Reliable) (h : ∀ st s', (∀ st', st = some st' → s'.Reliable) →
    (st = none → o = false ∧ s.disk f = none) → Goes (k st) s') : Goes (Stdio.fopen f i o >>= k) s := by
  refine goes_then goes_fopen (post_and post_opened (post_fopen (Q := fun _ s' => s'.Reliable) fun _ s' ha _ _ => ha.reliable r)
    (Q := fun st s' => s'.Reliable ∧ (st = none → o = false ∧ s.disk f = none)) fun st s' h1 h2 => ⟨h2, fun e => (h1.2 (r _)).mp e⟩) ?_
  intro st s' ⟨h1, h2⟩
  exact h st s' (fun _ _ => h1) h2

theorem goes_newInput {f : Text} {s : Sys} (r : s.Reliable) : Goes (Ports.newInput f) s := by
  refine goes_open r fun st s' h1 _ => ?_
  cases st with
  | none => exact goes_pure
  | some st => exact goes_any (goes_measure (h1 st rfl)) fun _ _ => goes_pure

theorem goes_newIo {f : Text} {s : Sys} (r : s.Reliable) : Goes (Ports.newIo f) s := by
  refine goes_open r fun st s' h1 _ => ?_
  cases st with
  | none => exact goes_pure
  | some st => exact goes_any (goes_measure (h1 st rfl)) fun _ _ => goes_pure

theorem goes_newOutput {f : Text} {s : Sys} (r : s.Reliable) : Goes (Ports.newOutput f) s := by
  refine goes_open r fun st s' h1 _ => ?_
  cases st with
  | none => exact goes_pure
  | some st => exact goes_any goes_ftell fun _ _ => goes_pure

theorem goes_copy {p : Port} {s : Sys} (r : s.Reliable) (hd : p.tag = .input → s.disk p.name ≠ none) : Goes (Ports.copy p) s := by
  unfold Ports.copy
  split
  · refine goes_open r fun st s' h1 h2 => ?_
    cases st with
    | none => exact absurd (h2 rfl).1 (by decide)
    | some st => exact goes_any (goes_measure (h1 st rfl)) fun _ _ => goes_pure
  · rename_i ht
    refine goes_open r fun st s' h1 h2 => ?_
    cases st with
    | none => exact absurd (h2 rfl).2 (hd ht)
    | some st => exact goes_any (goes_measure (h1 st rfl)) fun _ _ => goes_pure
  · refine goes_open r fun st s' h1 h2 => ?_
    cases st with
    | none => exact absurd (h2 rfl).1 (by decide)
    | some st => exact goes_any goes_ftell fun _ _ => goes_pure
  · exact goes_pure

theorem c71_goStream_aux {p : Port} {α : Type} {k : Stream → Io α} {s : Sys} (ok : PortOk p) (ht : p.tag ≠ .notOpen) (h : ∀ st, p.file = some st → Goes (k st) s) :
    Goes (Ports.stream p >>= k) s := by
  unfold Ports.stream
  cases hf : p.file with
  | none => exact absurd (ok.open_.mpr hf) ht
  | some st => exact goes_then goes_pure (Q := fun a s' => a = st ∧ s' = s) (post_pure ⟨rfl, rfl⟩) fun a s' e => by rw [e.1, e.2]; exact h st hf

theorem c71_goes_aux {p : Port} {op : PortOp} {s : Sys} (ok : PortOk p) (r : s.Reliable) (h1 : ∀ n, op = .read n → ∀ st, p.file = some st → st.mode ≠ .writing)
    (h2 : ∀ os, op = .write os → ∀ st, p.file = some st → st.mode ≠ .reading) : Goes (op.perform p) s := by
  cases op with
  | read n =>
    refine goes_any ?_ fun _ _ => goes_pure
    unfold Ports.read
    split
    · rename_i ht
      exact c71_goStream_aux ok (by rcases ht with e | e <;> rw [e] <;> decide) fun st hf => goes_any (goes_fread (h1 n rfl st hf)) fun _ _ => goes_pure
    · exact goes_pure
  | write os =>
    refine goes_any ?_ fun _ _ => goes_pure
    unfold Ports.write
    split
    · rename_i ht
      exact c71_goStream_aux ok (by rcases ht with e | e <;> rw [e] <;> decide) fun st hf => goes_any (goes_fwrite (h2 os rfl st hf)) fun _ _ => goes_pure
    · exact goes_pure
  | seek x y =>
    refine goes_any ?_ fun _ _ => goes_pure
    unfold Ports.seek
    split
    · exact goes_pure
    · rename_i ht
      refine c71_goStream_aux ok (fun e => ht e) fun st hf => ?_
      split
      · exact goes_any goes_fseek fun _ _ => goes_pure
      · exact goes_any goes_fseek fun _ _ => goes_pure
  | flush =>
    refine goes_any ?_ fun _ _ => goes_pure
    unfold Ports.flush
    split
    · exact goes_pure
    · rename_i ht
      exact c71_goStream_aux ok (fun e => ht e) fun st hf => goes_any goes_fflush fun _ _ => goes_pure
  | close =>
    refine goes_any ?_ fun _ _ => goes_pure
    unfold Ports.close
    split
    · exact goes_pure
    · rename_i ht
      exact c71_goStream_aux ok (fun e => ht e) fun st hf => goes_any goes_fclose fun _ _ => goes_pure
  | release =>
    refine goes_any ?_ fun _ _ => goes_pure
    unfold Ports.release
    split
    · exact goes_pure
    · rename_i ht
      refine c71_goStream_aux ok (fun e => ht e) fun st hf => goes_then goes_fclose (Q := fun b _ => b = true) ?_ fun b s' e => by rw [e]; exact goes_pure
      unfold Stdio.fclose
      refine post_bind (post_failing fun s1 _ => post_bind fun _ _ _ => post_pure ?_)
      rw [r]; rfl
  | distance =>
    refine goes_any ?_ fun _ _ => goes_pure
    unfold Ports.distance
    split
    · exact goes_pure
    · rename_i ht
      exact c71_goStream_aux ok (fun e => ht e) fun st hf => goes_ftell
  | length => exact goes_pure
  | supportsOutput =>
    refine goes_any ?_ fun _ _ => goes_pure
    unfold Ports.supportsOutput
    split
    · rename_i ht; exact c71_goStream_aux ok (by rw [ht]; decide) fun _ _ => goes_pure
    · rename_i ht; exact c71_goStream_aux ok (by rw [ht]; decide) fun _ _ => goes_pure
    · exact goes_pure
  | supportsInput =>
    refine goes_any ?_ fun _ _ => goes_pure
    unfold Ports.supportsInput
    split
    · rename_i ht; exact c71_goStream_aux ok (by rw [ht]; decide) fun _ _ => goes_pure
    · rename_i ht; exact c71_goStream_aux ok (by rw [ht]; decide) fun _ _ => goes_pure
    · exact goes_pure

/-- the use of the stream after an operation is free or what `after` says, if it was free or `u` before -/
theorem c71_mode_aux {p : Port} {op : PortOp} {s : Sys} (u : PortUse) (hu : ∀ st, p.file = some st → st.mode = .free ∨ st.mode = u) :
    Post (op.perform p) s fun r _ => ∀ q st', r.2 = some q → q.file = some st' → st'.mode = .free ∨ st'.mode = u.after op r.1 := by
  have idle : ∀ a, u.after op a = u → ∀ q st', some p = some q → q.file = some st' → st'.mode = .free ∨ st'.mode = u.after op a := by
    intro a ha q st' e hf
    cases e
    rw [ha]; exact hu st' hf
  cases op with
  | read n =>
    simp only [PortOp.perform, Ports.read]
    split
    · refine post_bind (post_bind (c71_stream_aux fun st hf => post_bind (post_mono (Q := fun r _ => if n = 0 then r.2 = st else r.2.mode = .reading) ?_ fun r s' h => post_pure (post_pure ?_))))
      · unfold Stdio.fread
        split
        · exact post_pure rfl
        · rename_i hn
          split
          · exact post_throw
          · refine post_bind (post_content (post_bind (post_failing fun s1 _ => ?_)))
            cases s.fails s.tick with
            | true => simp only [if_true]; exact post_bind (post_upTo fun _ _ _ _ => post_pure rfl)
            | false => simp only [Bool.false_eq_true, if_false]; exact post_bind (post_pure (post_pure rfl))
      · intro q st' e hf'
        cases e
        cases hf'
        show _ ∨ _ = if n = 0 ∨ ((r.1.length : Nat) : Int) < 0 then u else .reading
        have : ¬ ((r.1.length : Nat) : Int) < 0 := by omega
        simp only [this, or_false]
        split at h
        · rename_i hn; rw [if_pos hn, h]; exact hu st hf
        · rename_i hn; rw [if_neg hn]; exact .inr h
    · exact post_bind (post_pure (post_pure (idle _ (by simp [PortUse.after]))))
  | write os =>
    simp only [PortOp.perform, Ports.write]
    split
    · refine post_bind (post_bind (c71_stream_aux fun st hf => post_bind (post_mono (Q := fun r _ => if os = [] then r.2 = st else r.2.mode = .writing) ?_ fun r s' h => post_pure (post_pure ?_))))
      · unfold Stdio.fwrite
        split
        · exact post_pure rfl
        · split
          · exact post_throw
          · refine post_bind (post_failing fun s1 _ => ?_)
            have main : ∀ (k : Nat) s2, Post (do
                let st ← Stdio.put { st with last := .output (st.pending ++ os.take k) } false
                pure (k, st)) s2 fun r _ => r.2.mode = .writing := by
              intro k s2
              refine post_bind (post_put fun st' s3 c h3 m _ _ => post_pure ?_)
              show st'.mode = .writing
              by_cases hp : ({ st with last := .output (st.pending ++ os.take k) } : Stream).pending = []
              · rw [m.idle hp]; rfl
              · obtain ⟨r, hr⟩ := m.out hp
                simp [Stream.mode, hr]
            cases s.fails s.tick with
            | true => simp only [if_true]; exact post_bind (post_upTo fun _ _ _ _ => main _ _)
            | false => simp only [Bool.false_eq_true, if_false]; exact post_bind (post_pure (main _ _))
      · intro q st' e hf'
        cases e
        cases hf'
        show _ ∨ _ = if os = [] ∨ ((r.1 : Nat) : Int) < 0 then u else .writing
        have : ¬ ((r.1 : Nat) : Int) < 0 := by omega
        simp only [this, or_false]
        split at h
        · rename_i hn; rw [if_pos hn, h]; exact hu st hf
        · rename_i hn; rw [if_neg hn]; exact .inr h
    · exact post_bind (post_pure (post_pure (idle _ (by simp [PortUse.after]))))
  | seek x y =>
    simp only [PortOp.perform, Ports.seek]
    split
    · exact post_bind (post_pure (post_pure (idle _ rfl)))
    · have fin : ∀ o w, Post (do
          let st ← Ports.stream p
          let (ok, st) ← Stdio.fseek st o w
          pure (ok, { p with file := some st })) s fun r _ => ∀ st', r.2.file = some st' → st'.mode = .free ∨ st'.mode = u.after (.seek x y) (.flag r.1) := by
        intro o w
        refine post_bind (c71_stream_aux fun st hf => ?_)
        unfold Stdio.fseek
        refine post_bind (post_bind (post_failing fun s1 _ => post_bind (post_put fun st1 s2 c h3 m _ _ => post_bind (post_content ?_))))
        split
        · refine post_pure (post_pure fun st' e => ?_)
          cases e
          show _ ∨ _ = u
          by_cases hp : st.pending = []
          · rw [m.idle hp]; exact hu st hf
          · obtain ⟨r, hr⟩ := m.out hp
            have h1 : st1.mode = .writing := by simp [Stream.mode, hr]
            have h2 : st.mode = .writing := by
              unfold Stream.mode
              cases hl : st.last with
              | output r => rfl
              | idle => simp [Stream.pending, hl] at hp
              | input e => simp [Stream.pending, hl] at hp
            have := hu st hf
            rw [h1, ← h2]; exact this
        · refine post_pure (post_pure fun st' e => ?_)
          cases e
          exact .inl rfl
      refine post_bind (post_mono (Q := fun r _ => ∀ st', r.2.file = some st' → st'.mode = .free ∨ st'.mode = u.after (.seek x y) (.flag r.1)) ?_ fun r s' h => post_pure fun q st' e hf => by
        cases e; exact h st' hf)
      by_cases hx : x < 0
      · simp only [if_pos hx]; exact fin _ _
      · simp only [if_neg hx]; exact fin _ _
  | flush =>
    simp only [PortOp.perform, Ports.flush]
    split
    · exact post_bind (post_pure (post_pure (idle _ rfl)))
    · refine post_bind (post_bind (c71_stream_aux fun st hf => ?_))
      unfold Stdio.fflush
      refine post_bind (post_bind (post_failing fun s1 _ => post_bind (post_put fun st1 s2 c h3 m hb _ => ?_)))
      split
      · exact post_pure (post_pure (post_pure fun q st' e hf' => by cases e; cases hf'; exact .inl rfl))
      · rename_i hl
        refine post_pure (post_pure (post_pure fun q st' e hf' => ?_))
        cases e
        cases hf'
        have hmode : st1.mode = st.mode := by
          by_cases hp : st.pending = []
          · rw [m.idle hp]
          · obtain ⟨r, hr⟩ := m.out hp
            have h2 : st.mode = .writing := by
              unfold Stream.mode
              cases hl : st.last with
              | output r => rfl
              | idle => simp [Stream.pending, hl] at hp
              | input e => simp [Stream.pending, hl] at hp
            rw [h2]; simp [Stream.mode, hr]
        show st1.mode = _ ∨ st1.mode = u.after .flush (.flag (!s.fails s.tick))
        cases hbad : s.fails s.tick with
        | true => show _ ∨ _ = u; rw [hmode]; exact hu st hf
        | false =>
          show _ ∨ _ = if u = .writing then .free else u
          rw [hmode]
          rcases hu st hf with e | e
          · exact .inl e
          · by_cases hw : u = .writing
            · exfalso
              have hpend := hb (by rw [hbad]; rfl)
              have : st1.mode = .writing := by rw [hmode, e, hw]
              unfold Stream.mode at this
              split at this <;> cases this
              rename_i r hr
              simp only [Stream.pending, hr] at hpend
              subst hpend
              exact hl hr
            · rw [if_neg hw]; exact .inr e
  | close =>
    simp only [PortOp.perform, Ports.close]
    split
    · exact post_bind (post_pure (post_pure (idle _ rfl)))
    · refine post_bind (post_bind (c71_stream_aux fun st hf => post_bind fun b s' _ => post_pure (post_pure fun q st' e hf' => ?_)))
      cases e
      cases hf'
  | release =>
    simp only [PortOp.perform]
    exact post_bind fun _ _ _ => post_pure fun q st' e => by cases e
  | distance =>
    simp only [PortOp.perform]
    exact post_bind fun _ _ _ => post_pure (idle _ rfl)
  | length => exact post_pure (idle _ rfl)
  | supportsOutput =>
    simp only [PortOp.perform]
    exact post_bind fun _ _ _ => post_pure (idle _ rfl)
  | supportsInput =>
    simp only [PortOp.perform]
    exact post_bind fun _ _ _ => post_pure (idle _ rfl)

/-- one step: a new port, or an operation on a port -/
theorem c71_cases_aux {s0 : Sys} {h : List (PortAct × PortAns)} {st st' : PortState} (inv : HistInv s0 h st) {a : PortAct} {r : PortAns} (e : st.perform a = .ok (r, st')) :
    (∃ p, (∀ j op, a ≠ .use j op) ∧ st'.ports = st.ports ++ [some p] ∧ AddsTo p.name [] st.sys st'.sys ∧ (p.file ≠ none → st'.sys.disk p.name ≠ none) ∧
      ∀ s, p.file = some s → s.mode = .free) ∨
    (∃ j op p q, a = .use j op ∧ st.ports[j]? = some (some p) ∧ op.perform p st.sys = .ok ((r, q), st'.sys) ∧ st'.ports = st.ports.set j q ∧
      OpDone p op st.sys st'.sys r q) := by
  cases a with
  | openInput f =>
    obtain ⟨⟨p, s'⟩, e1, e2⟩ := c71_mapOk_aux e
    cases e2
    have h1 := post_newInput (Q := fun p s' => SameSys st.sys s' ∧ p.name = f) (fun p s' hs _ hn _ _ _ _ => ⟨hs, hn⟩) _ _ e1
    have h2 := post_newInput2 _ _ e1
    exact .inl ⟨p, by simp, rfl, h1.1.adds _, by rw [h1.2]; exact h2.1, h2.2.1⟩
  | openOutput f =>
    obtain ⟨⟨p, s'⟩, e1, e2⟩ := c71_mapOk_aux e
    cases e2
    have h1 := post_newOutput (Q := fun p s' => AddsTo f [] st.sys s' ∧ p.name = f) (fun p s' hs _ hn _ _ => ⟨hs, hn⟩) _ _ e1
    have h2 := post_newOutput2 _ _ e1
    exact .inl ⟨p, by simp, rfl, by rw [h1.2]; exact h1.1, by rw [h1.2]; exact h2.1, h2.2.1⟩
  | openIo f =>
    obtain ⟨⟨p, s'⟩, e1, e2⟩ := c71_mapOk_aux e
    cases e2
    have h1 := post_newIo (Q := fun p s' => AddsTo f [] st.sys s' ∧ p.name = f) (fun p s' hs _ hn _ _ _ _ => ⟨hs, hn⟩) _ _ e1
    have h2 := post_newIo2 _ _ e1
    exact .inl ⟨p, by simp, rfl, by rw [h1.2]; exact h1.1, by rw [h1.2]; exact h2.1, h2.2.1⟩
  | copy i =>
    simp only [PortState.perform] at e
    split at e
    · rename_i p hp
      obtain ⟨⟨q, s'⟩, e1, e2⟩ := c71_mapOk_aux e
      cases e2
      have h1 := post_copy (Q := fun q s' => AddsTo p.name [] st.sys s' ∧ q.name = p.name) (inv.ports i p hp).1 (fun q s' hs _ hn _ _ _ => ⟨hs, hn⟩) _ _ e1
      have h2 := post_copy2 _ _ e1
      exact .inl ⟨q, by simp, rfl, by rw [h1.2]; exact h1.1, by rw [h1.2]; exact h2.1, h2.2⟩
    · cases e
  | use i op =>
    obtain ⟨p, q, hp, h1, h2⟩ := c71_use_inv_aux e
    exact .inr ⟨i, op, p, q, rfl, hp, h1, h2, c71_op_aux (inv.ports i p hp).1 _ _ h1⟩

theorem c71_index_aux {α : Type} {l : List α} {i : Nat} {x : α} (h : l[i]? = some x) : i < l.length := by
  rcases Nat.lt_or_ge i l.length with e | e
  · exact e
  · rw [List.getElem?_eq_none e] at h; cases h

/-- a port that a step does not concern stays as it is -/
theorem c71_others_aux {s0 : Sys} {h : List (PortAct × PortAns)} {st st' : PortState} (inv : HistInv s0 h st) {a : PortAct} {r : PortAns} (e : st.perform a = .ok (r, st'))
    {i : Nat} {x : Option Port} (hx : st.ports[i]? = some x) (hn : ∀ op, a ≠ .use i op) : st'.ports[i]? = some x := by
  rcases c71_cases_aux inv e with ⟨p, _, h1, _⟩ | ⟨j, op, p, q, rfl, _, _, h1, _⟩
  · rw [h1, List.getElem?_append_left (c71_index_aux hx)]; exact hx
  · have : j ≠ i := fun e => hn op (by rw [e])
    rw [h1, List.getElem?_set_ne this]; exact hx

/-- files only grow -/
theorem c71_grow_aux {s0 : Sys} {h : List (PortAct × PortAns)} {st st' : PortState} (inv : HistInv s0 h st) {a : PortAct} {r : PortAns} (e : st.perform a = .ok (r, st')) :
    ∀ f, (∃ c, st'.sys.content f = st.sys.content f ++ c) ∧ (st.sys.disk f ≠ none → st'.sys.disk f ≠ none) := by
  have fin : ∀ g os, AddsTo g os st.sys st'.sys → ∀ f, (∃ c, st'.sys.content f = st.sys.content f ++ c) ∧ (st.sys.disk f ≠ none → st'.sys.disk f ≠ none) := by
    intro g os ha f
    refine ⟨⟨_, ha.contentOf f⟩, fun hd => ?_⟩
    cases hc : st.sys.disk f with
    | none => exact absurd hc hd
    | some c =>
      obtain ⟨c', h⟩ := ha.grows f c hc
      rw [h]; simp
  rcases c71_cases_aux inv e with ⟨p, _, _, ha, _⟩ | ⟨j, op, p, q, _, _, _, _, d⟩
  · exact fin _ _ ha
  · obtain ⟨c, rest, ha, _⟩ := d.effect
    exact fin _ _ ha

theorem useOf_snoc {i : Nat} {h : List (PortAct × PortAns)} {a : PortAct} {r : PortAns} : useOf i (h ++ [(a, r)]) =
    match a with
    | .use j op => if j = i then (useOf i h).after op r else useOf i h
    | _ => useOf i h := by
  unfold useOf
  rw [List.foldl_append]
  rfl

theorem useOf_other {i : Nat} {h : List (PortAct × PortAns)} {a : PortAct} {r : PortAns} (hn : ∀ op, a ≠ .use i op) : useOf i (h ++ [(a, r)]) = useOf i h := by
  rw [useOf_snoc]
  cases a with
  | use j op => exact if_neg fun e => hn op (by rw [e])
  | _ => rfl

/-- more about what a history leads to -/
structure HistMore (s0 : Sys) (h : List (PortAct × PortAns)) (st : PortState) : Prop where
  modes : ∀ (i : Nat) p s, st.ports[i]? = some (some p) → p.file = some s → s.mode = .free ∨ s.mode = useOf i h
  exist : ∀ (i : Nat) p, st.ports[i]? = some (some p) → p.file ≠ none → st.sys.disk p.name ≠ none
  kept : ∀ (i : Nat), i < st.ports.length → (∀ r, (PortAct.use i .release, r) ∉ h) → ∃ p, st.ports[i]? = some (some p)

theorem c71_used_release_aux {p : Port} {op : PortOp} {s s' : Sys} {r : PortAns} (e : op.perform p s = .ok ((r, none), s')) : op = .release := by
  have fin : ∀ {α : Type} {m : Io α} {f : α → PortAns × Option Port}, (∀ a, (f a).2 ≠ none) → (m >>= fun a => pure (f a)) s = .ok ((r, none), s') → False := by
    intro α m f hf e
    have : Post (m >>= fun a => pure (f a)) s fun r _ => r.2 ≠ none := post_bind fun a s1 _ => post_pure (hf a)
    exact this _ _ e rfl
  cases op with
  | release => rfl
  | length => cases e
  | read n => exact (fin (m := Ports.read p n) (f := fun x => (.octets x.1.1 x.1.2, some x.2)) (by simp) e).elim
  | write os => exact (fin (m := Ports.write p os) (f := fun x => (.number x.1, some x.2)) (by simp) e).elim
  | seek x y => exact (fin (m := Ports.seek p x y) (f := fun x => (.flag x.1, some x.2)) (by simp) e).elim
  | flush => exact (fin (m := Ports.flush p) (f := fun x => (.flag x.1, some x.2)) (by simp) e).elim
  | close => exact (fin (m := Ports.close p) (f := fun x => (.flag x.1, some x.2)) (by simp) e).elim
  | distance => exact (fin (m := Ports.distance p) (f := fun x => (.number x, some p)) (by simp) e).elim
  | supportsOutput => exact (fin (m := Ports.supportsOutput p) (f := fun x => (.flag x, some p)) (by simp) e).elim
  | supportsInput => exact (fin (m := Ports.supportsInput p) (f := fun x => (.flag x, some p)) (by simp) e).elim

theorem c71_more_step_aux {s0 : Sys} {h : List (PortAct × PortAns)} {st st' : PortState} (inv : HistInv s0 h st) (more : HistMore s0 h st) {a : PortAct} {r : PortAns}
    (e : st.perform a = .ok (r, st')) : HistMore s0 (h ++ [(a, r)]) st' := by
  have grow := c71_grow_aux inv e
  rcases c71_cases_aux inv e with ⟨p, hn, h1, ha, hd, hm⟩ | ⟨j, op, p, q, rfl, hp, h1, h2, d⟩
  · have look : ∀ (i : Nat) x, st'.ports[i]? = some x → st.ports[i]? = some x ∨ (i = st.ports.length ∧ x = some p) := by
      intro i x hx
      rw [h1] at hx
      rcases Nat.lt_or_ge i st.ports.length with hi | hi
      · rw [List.getElem?_append_left hi] at hx; exact .inl hx
      · rw [List.getElem?_append_right hi] at hx
        have := c71_index_aux hx
        simp at this
        have hi' : i = st.ports.length := by omega
        subst hi'
        simp at hx
        exact .inr ⟨rfl, hx.symm⟩
    refine ⟨fun i p' s hp' hf => ?_, fun i p' hp' hf => ?_, fun i hi hr => ?_⟩
    · rw [useOf_other fun op => hn i op]
      rcases look i _ hp' with hx | ⟨_, hx⟩
      · exact more.modes i p' s hx hf
      · cases hx; exact .inl (hm s hf)
    · rcases look i _ hp' with hx | ⟨_, hx⟩
      · exact (grow _).2 (more.exist i p' hx hf)
      · cases hx; exact hd hf
    · rcases Nat.lt_or_ge i st.ports.length with hi' | hi'
      · obtain ⟨p', hp'⟩ := more.kept i hi' fun r hm => hr r (List.mem_append_left _ hm)
        exact ⟨p', by rw [h1, List.getElem?_append_left hi']; exact hp'⟩
      · rw [h1] at hi ⊢
        simp at hi
        have : i = st.ports.length := by omega
        subst this
        exact ⟨p, by simp⟩
  · have hj := c71_index_aux hp
    refine ⟨fun i p' s hp' hf => ?_, fun i p' hp' hf => ?_, fun i hi hr => ?_⟩
    · by_cases hi : i = j
      · subst hi
        rw [h2, List.getElem?_set_self hj] at hp'
        cases hp'
        rw [useOf_snoc]
        simp only [if_true]
        exact c71_mode_aux (useOf i h) (fun st' e => more.modes i p st' hp e) _ _ h1 _ _ rfl hf
      · rw [useOf_other fun op' e => hi (by cases e; rfl)]
        rw [h2, List.getElem?_set_ne (Ne.symm hi)] at hp'
        exact more.modes i p' s hp' hf
    · by_cases hi : i = j
      · subst hi
        rw [h2, List.getElem?_set_self hj] at hp'
        cases hp'
        rw [(d.port _ rfl).2.1]
        refine (grow _).2 (more.exist i p hp fun hn => ?_)
        rcases (d.closed hn).2 with e | e
        · cases e; exact hf hn
        · cases e
      · rw [h2, List.getElem?_set_ne (Ne.symm hi)] at hp'
        exact (grow _).2 (more.exist i p' hp' hf)
    · by_cases hij : i = j
      · subst hij
        rw [h2, List.getElem?_set_self hj]
        cases q with
        | some q => exact ⟨q, rfl⟩
        | none =>
          have := c71_used_release_aux h1
          subst this
          exact absurd (List.mem_append_right h (List.mem_singleton.mpr rfl)) (hr r)
      · rw [h2, List.length_set] at hi
        obtain ⟨p', hp'⟩ := more.kept i hi fun r hm => hr r (List.mem_append_left _ hm)
        exact ⟨p', by rw [h2, List.getElem?_set_ne (Ne.symm hij)]; exact hp'⟩

theorem c71_more_aux {s0 : Sys} {h : List (PortAct × PortAns)} {st : PortState} (k : Performs (.start s0) h st) : HistMore s0 h st := by
  have : ∀ {st0 h st}, Performs st0 h st → st0 = .start s0 → HistMore s0 h st := by
    intro st0 h st k
    induction k with
    | none =>
      intro hs
      subst hs
      exact ⟨fun i p s e => by simp [PortState.start] at e, fun i p e => by simp [PortState.start] at e, fun i hi => by simp [PortState.start] at hi⟩
    | next k e ih =>
      intro hs
      subst hs
      exact c71_more_step_aux (c71_inv_aux k) (ih rfl) e
  exact this k rfl

theorem received_snoc {i : Nat} {h : List (PortAct × PortAns)} {a : PortAct} {r : PortAns} : received i (h ++ [(a, r)]) = received i h ++
    (match a, r with
    | .use j (.read _), .octets _ os => if i = j then os else []
    | _, _ => []) := by
  unfold received
  rw [List.map_append, List.flatten_append]
  simp only [List.map_cons, List.map_nil, List.flatten_cons, List.flatten_nil, List.append_nil]
  congr 1
  cases a with
  | use j op => cases op <;> cases r <;> rfl
  | _ => rfl

/-- a prefix of what follows a position stays one when the file grows -/
theorem c71_prefix_aux {α : Type} {c d x : List α} {n : Nat} (h : x = (c.drop n).take x.length) : x = ((c ++ d).drop n).take x.length := by
  have hl : x.length ≤ (c.drop n).length := by
    have := congrArg List.length h
    rw [List.length_take] at this
    omega
  by_cases hx : x.length = 0
  · simp [List.eq_nil_of_length_eq_zero hx]
  · rw [List.length_drop] at hl
    rw [List.drop_append_of_le_length (by omega), List.take_append_of_le_length (by rw [List.length_drop]; omega)]
    exact h

/-- the octets read since a moment: `d` was the position then -/
structure Reading (st st' : PortState) (i : Nat) (p : Port) (s : Stream) (got : List Utf8.Octet) : Prop where
  port : ∃ p' s', st'.ports[i]? = some (some p') ∧ p'.file = some s' ∧ p'.name = p.name ∧ s'.pending = s.pending ∧ (s.pending = [] → s'.pos = s.pos + got.length)
  octets : got = ((st'.sys.content p.name).drop s.pos).take got.length
  none_ : s.pending ≠ [] → got = []

theorem c71_asks_aux {p : Port} {op : PortOp} {s : Sys} (h : op.Asks) (hr : ∀ n, op ≠ .read n) : Post (op.perform p) s fun r s' => r.2 = some p ∧ SameSys s s' := by
  cases op with
  | read n => exact absurd rfl (hr n)
  | distance =>
    simp only [PortOp.perform, Ports.distance]
    split
    · exact post_bind (post_pure (post_pure ⟨rfl, SameSys.refl s⟩))
    · exact post_bind (post_bind (c71_stream_aux fun st hf => post_ftell fun n s' hs _ _ => post_pure ⟨rfl, hs⟩))
  | length => exact post_pure ⟨rfl, SameSys.refl s⟩
  | supportsOutput => exact post_mono c71_supports_aux.1 fun r s' h => ⟨h.2.1, by rw [h.2.2]; exact SameSys.refl s⟩
  | supportsInput => exact post_mono c71_supports_aux.2 fun r s' h => ⟨h.2.1, by rw [h.2.2]; exact SameSys.refl s⟩
  | _ => cases h

theorem c71_reading_aux {s0 : Sys} {h : List (PortAct × PortAns)} {st : PortState} (k : Performs (.start s0) h st) {i : Nat} {p : Port} {s : Stream}
    (hp : st.ports[i]? = some (some p)) (hf : p.file = some s) {h' : List (PortAct × PortAns)} {st' : PortState} (k' : Performs st h' st')
    (only : ∀ e ∈ h', ∀ op, e.1 = .use i op → op.Asks) : Reading st st' i p s (received i h') := by
  induction k' with
  | none => exact ⟨⟨p, s, hp, hf, rfl, rfl, fun _ => rfl⟩, by simp [received], fun _ => rfl⟩
  | @next st1 st2 a r h' k1 e ih =>
    have ih := ih fun e he => only e (List.mem_append_left _ he)
    have only := only (a, r) (by simp)
    have kk := c71_trans_aux k k1
    have inv := c71_inv_aux kk
    obtain ⟨p', s', hp', hf', hn', hpend, hpos⟩ := ih.port
    obtain ⟨c, hc⟩ := (c71_grow_aux inv e p.name).1
    have still : received i h' = ((st2.sys.content p.name).drop s.pos).take (received i h').length := by rw [hc]; exact c71_prefix_aux ih.octets
    by_cases ha : ∃ op, a = .use i op
    · obtain ⟨op, rfl⟩ := ha
      have hask := only op rfl
      obtain ⟨p1, q, hp1, h1, h2⟩ := c71_use_inv_aux e
      rw [hp'] at hp1
      cases hp1
      have hi := c71_index_aux hp'
      have ok := (inv.ports i p' hp').1
      by_cases hread : ∃ n, op = .read n
      · obtain ⟨n, rfl⟩ := hread
        obtain ⟨hs, h3⟩ := c71_readOp_aux ok _ _ h1
        have hcont : ∀ f, st2.sys.content f = st1.sys.content f := fun f => by simp [Sys.content, hs.disk]
        rcases h3 with ⟨_, h4, h5⟩ | ⟨_, t, t', os, hft, h4, h5, h6, h7, h8, h9⟩
        · have h4 : r = .octets (-1) [] := h4
          have h5 : q = some p' := h5
          subst h4; subst h5
          have hrec : received i (h' ++ [(.use i (.read n), .octets (-1) [])]) = received i h' := by rw [received_snoc]; simp
          rw [hrec]
          refine ⟨⟨p', s', by rw [h2, List.getElem?_set_self hi], hf', hn', hpend, hpos⟩, still, ih.none_⟩
        · rw [hf'] at hft
          cases hft
          have h4 : r = .octets (os.length : Nat) os := h4
          have h5 : q = some { p' with file := some t' } := h5
          subst h4; subst h5
          have hrec : received i (h' ++ [(.use i (.read n), .octets (os.length : Nat) os)]) = received i h' ++ os := by rw [received_snoc]; simp
          rw [hrec]
          have hpt : t'.pending = s.pending := by
            obtain ⟨c, rest, ha, hb, hq, _⟩ := (c71_op_aux ok _ _ h1).effect
            have hrest : t'.pending = rest := hq _ rfl (by simp)
            have hc0 : c = [] := by
              have := ha.content
              rw [hcont] at this
              simpa using this.symm
            have hb : s'.pending ++ [] = c ++ rest := by simpa [pendingIn, hf', PortOp.took] using hb
            rw [hc0, ← hrest] at hb
            rw [← hpend]; simpa using hb.symm
          have hpath : t'.path = p'.name ∧ s'.path = p'.name := by
            have := (c71_op_aux ok _ _ h1).port _ rfl
            exact ⟨(this.1.stream t' rfl).1, (ok.stream s' hf').1⟩
          by_cases hpe : s.pending = []
          · have e1 : s'.at_ st1.sys = s'.pos := if_pos (hpend.trans hpe)
            have e2 : t'.at_ st2.sys = t'.pos := if_pos (hpt.trans hpe)
            rw [e1, hpos hpe] at h6 h8
            have h8 : t'.at_ st2.sys = s.pos + (received i h').length + os.length := h8
            rw [e2] at h8
            refine ⟨⟨{ p' with file := some t' }, t', by rw [h2, List.getElem?_set_self hi], rfl, hn', hpt, fun _ => by rw [h8, List.length_append]; omega⟩, ?_, fun e => absurd hpe e⟩
            rw [List.length_append, List.take_add, List.drop_drop, ← still, hcont, ← hn', ← h6]
          · have hos : os = [] := by
              have e1 : s'.at_ st1.sys = (st1.sys.content s'.path).length + s'.pending.length := if_neg (by rw [hpend]; exact hpe)
              rw [e1, hpath.2, List.drop_eq_nil_of_le (by omega)] at h6
              simpa using h6
            subst hos
            rw [List.append_nil]
            exact ⟨⟨{ p' with file := some t' }, t', by rw [h2, List.getElem?_set_self hi], rfl, hn', hpt, fun e => absurd e hpe⟩, still, ih.none_⟩
      · have hq := c71_asks_aux hask (fun n e => hread ⟨n, e⟩) _ _ h1
        have h5 : q = some p' := hq.1
        subst h5
        have hrec : received i (h' ++ [(.use i op, r)]) = received i h' := by
          rw [received_snoc]
          cases op with
          | read n => exact absurd ⟨n, rfl⟩ hread
          | _ => simp
        rw [hrec]
        exact ⟨⟨p', s', by rw [h2, List.getElem?_set_self hi], hf', hn', hpend, hpos⟩, still, ih.none_⟩
    · have hn : ∀ op, a ≠ .use i op := fun op e => ha ⟨op, e⟩
      have hrec : received i (h' ++ [(a, r)]) = received i h' := by
        rw [received_snoc]
        cases a with
        | use j op =>
          have hj : i ≠ j := fun e => hn op (by rw [e])
          cases op <;> simp
          cases r <;> simp [hj]
        | _ => simp
      rw [hrec]
      exact ⟨⟨p', s', c71_others_aux inv e hp' hn, hf', hn', hpend, hpos⟩, still, ih.none_⟩

theorem interleaves_one {α : Type} {out : Nat → List α} {s : List α} (h : Interleaves out s) (i : Nat) (hn : ∀ j, j ≠ i → out j = []) : s = out i := by
  induction h with
  | nil => rfl
  | @snoc out s j x h ih =>
    by_cases hj : j = i
    · subst hj
      have := ih fun m hm => by
        have := hn m hm
        simpa [if_neg hm] using this
      simp [this]
    · have := hn j hj
      simp at this

/-! ### Theorems -/

/-- Whatever a program does with ports, what each file has gained is an interleaving of octets that the ports on it have written, in their order: for each
port some of the first octets it has written, and all of them if it has been flushed, moved, closed or released successfully since. -/
theorem c71_contents {s0 : Sys} {h : List (PortAct × PortAns)} {st : PortState} (k : Performs (.start s0) h st) (f : Text) :
    ∃ (out : Nat → List Utf8.Octet) (gained : List Utf8.Octet), st.sys.content f = s0.content f ++ gained ∧ Interleaves out gained ∧
      ∀ i, ((filesOf h)[i]? ≠ some f → out i = []) ∧
        ((filesOf h)[i]? = some f → out i <+: accepted i h ∧ (SettledIn i h → out i = accepted i h)) := by
  obtain ⟨out, s, h1, h2, h3⟩ := (c71_inv_aux k).contents f
  refine ⟨out, s, h1, h2, fun i => ⟨(h3 i).1, fun e => ?_⟩⟩
  obtain ⟨rest, k1, _, k3⟩ := (h3 i).2 e
  refine ⟨⟨rest, k1.symm⟩, fun e => ?_⟩
  rw [k1, k3 e, List.append_nil]

/-- No octet of a file is ever changed or lost, and a file that is not opened for output stays as it is (if it does not exist it is not created). -/
theorem c71_append_only {s0 : Sys} {h : List (PortAct × PortAns)} {st : PortState} (k : Performs (.start s0) h st) (f : Text) :
    (∀ c, s0.disk f = some c → ∃ c', st.sys.disk f = some (c ++ c')) ∧
    ((∀ e ∈ h, e.1 ≠ .openOutput f ∧ e.1 ≠ .openIo f) → st.sys.disk f = s0.disk f) := by
  have inv := c71_inv_aux k
  refine ⟨inv.grows f, fun hn => inv.same f ?_⟩
  rintro ⟨e, he, h1 | h1⟩
  · exact (hn e he).1 h1
  · exact (hn e he).2 h1

/-- After `close`, and when opening has failed, a port refuses everything and nothing changes. -/
theorem c71_closed {s0 : Sys} {h : List (PortAct × PortAns)} {st st' : PortState} (k : Performs (.start s0) h st) {i : Nat} {op : PortOp} {a : PortAns}
    (hc : (∃ r, (PortAct.use i .close, r) ∈ h) ∨ st.position i = none) (e : st.perform (.use i op) = .ok (a, st')) :
    a = refusal op ∧ st'.sys = st.sys ∧ (op ≠ .release → st' = st) := by
  have inv := c71_inv_aux k
  obtain ⟨p, q, hp, h1, h2⟩ := c71_use_inv_aux e
  have hf : p.file = none := by
    rcases hc with ⟨r, hr⟩ | hc
    · exact inv.over i p hp ⟨_, hr, rfl⟩
    · cases hf : p.file with
      | none => rfl
      | some s => simp [PortState.position, hp, hf] at hc
  obtain ⟨e1, e2, e3⟩ := c71_refuses_aux (inv.ports i p hp).1 hf _ _ h1
  refine ⟨e1, e3, fun hn => ?_⟩
  have : q = some p := e2 hn
  subst this
  rw [c71_set_aux hp] at h2
  cases st; cases st'; simp_all

/-- `distance` gives the position, or -1 if the library fails or the port is not open. -/
theorem c71_distance {s0 : Sys} {h : List (PortAct × PortAns)} {st st' : PortState} (k : Performs (.start s0) h st) {i : Nat} {a : PortAns}
    (e : st.perform (.use i .distance) = .ok (a, st')) : (a = .number (-1) ∨ ∃ d, st.position i = some d ∧ a = .number d) ∧
      (s0.Reliable → ∀ d, st.position i = some d → a = .number d) ∧ st'.ports = st.ports ∧ st'.sys.disk = st.sys.disk := by
  have inv := c71_inv_aux k
  obtain ⟨p, q, hp, h1, h2⟩ := c71_use_inv_aux e
  have ok := (inv.ports i p hp).1
  have hr : s0.Reliable → st.sys.Reliable := fun h t => by rw [inv.fails]; exact h t
  cases hf : p.file with
  | none =>
    obtain ⟨e1, e2, e3⟩ := c71_refuses_aux ok hf _ _ h1
    have e2 : q = some p := e2 (by simp)
    subst e2
    refine ⟨.inl e1, fun _ d hd => ?_, by rw [h2, c71_set_aux hp], by rw [e3]⟩
    simp [PortState.position, hp, hf] at hd
  | some s =>
    have ht : p.tag ≠ .notOpen := fun e => by rw [ok.open_.mp e] at hf; cases hf
    have : Post (PortOp.distance.perform p) st.sys fun r s' => SameSys st.sys s' ∧ r.2 = some p ∧ (r.1 = .number (-1) ∨ r.1 = .number (s.at_ st.sys)) ∧
        (st.sys.Reliable → r.1 = .number (s.at_ st.sys)) := by
      simp only [PortOp.perform, Ports.distance]
      refine post_bind (post_bind (c71_stream_aux fun s' hf' => ?_))
      rw [hf] at hf'
      cases hf'
      refine post_ftell fun n s2 hs hn hr => post_pure ⟨hs, rfl, ?_, fun h => by rw [hr (h _)]⟩
      rcases hn with rfl | rfl
      · exact .inl rfl
      · exact .inr rfl
    obtain ⟨e1, e2, e3, e4⟩ := this _ _ h1
    have e2 : q = some p := e2
    subst e2
    have hpos : st.position i = some (s.at_ st.sys) := by simp [PortState.position, hp, hf]
    refine ⟨?_, fun h d hd => ?_, by rw [h2, c71_set_aux hp], e1.disk⟩
    · rcases e3 with e3 | e3
      · exact .inl e3
      · exact .inr ⟨_, hpos, e3⟩
    · rw [hpos] at hd
      cases hd
      exact e4 (hr h)

/-- `read` gives the octets of the file from the position on, at most as many as asked for, and moves the position behind them; it changes no file.  If the
library does not fail it gives as many as there are.  A port that does not support input gives -1. -/
theorem c71_read {s0 : Sys} {h : List (PortAct × PortAns)} {st st' : PortState} (k : Performs (.start s0) h st) {i n : Nat} {a : PortAns}
    (e : st.perform (.use i (.read n)) = .ok (a, st')) : st'.sys.disk = st.sys.disk ∧
    ((a = .octets (-1) [] ∧ st'.ports = st.ports ∧ ∀ b st1, st.perform (.use i .supportsInput) = .ok (b, st1) → b = .flag false) ∨
      ∃ f d os, (filesOf h)[i]? = some f ∧ st.position i = some d ∧ a = .octets (os.length : Nat) os ∧ os = ((st.sys.content f).drop d).take os.length ∧
        os.length ≤ n ∧ st'.position i = some (d + os.length) ∧ (s0.Reliable → os.length = min n ((st.sys.content f).length - d))) := by
  have inv := c71_inv_aux k
  obtain ⟨p, q, hp, h1, h2⟩ := c71_use_inv_aux e
  obtain ⟨ok, hfile, _⟩ := inv.ports i p hp
  have hr : s0.Reliable → st.sys.Reliable := fun h t => by rw [inv.fails]; exact h t
  obtain ⟨hs, h3⟩ := c71_readOp_aux ok _ _ h1
  refine ⟨hs.disk, ?_⟩
  rcases h3 with ⟨ht, h4, h5⟩ | ⟨ht, s, s', os, hf, h4, h5, h6, h7, h8, h9⟩
  · have h5 : q = some p := h5
    subst h5
    refine .inl ⟨h4, by rw [h2, c71_set_aux hp], fun b st1 e1 => ?_⟩
    obtain ⟨p', q', hp', k1, _⟩ := c71_use_inv_aux e1
    rw [hp] at hp'
    cases hp'
    have := (c71_supports_aux.2 _ _ k1).1
    rw [show b = (b, q').1 from rfl, this]
    rcases ht with ht | ht <;> simp [ht]
  · refine .inr ⟨p.name, s.at_ st.sys, os, hfile, by simp [PortState.position, hp, hf], h4, h6, h7, ?_, fun h => h9 (hr h)⟩
    rw [c71_position_aux hp h2]
    have h5 : q = some { p with file := some s' } := h5
    rw [h5]
    simpa using h8

/-- `seek` moves the position: relative to where it is, or to the given distance from the beginning or, for a negative one, from the end (-1 is the end itself).
If the library does not fail it succeeds exactly if the new position is not before the beginning; when it fails with nothing pending nothing changes. -/
theorem c71_seek {s0 : Sys} {h : List (PortAct × PortAns)} {st st' : PortState} (k : Performs (.start s0) h st) {i : Nat} {x : Int} {fromCurrent : Bool} {a : PortAns}
    {f : Text} (hfile : (filesOf h)[i]? = some f) {d : Nat} (hd : st.position i = some d) (e : st.perform (.use i (.seek x fromCurrent)) = .ok (a, st')) :
    ∃ (b : Bool) (target : Int), target = (if fromCurrent then (d : Int) + x else if x < 0 then ((st'.sys.content f).length : Int) + 1 + x else x) ∧ a = .flag b ∧
      (b = true → ∃ t, st'.position i = some t ∧ (t : Int) = target) ∧ (s0.Reliable → (b = true ↔ 0 ≤ target)) := by
  have inv := c71_inv_aux k
  obtain ⟨p, q, hp, h1, h2⟩ := c71_use_inv_aux e
  obtain ⟨ok, hfile', _⟩ := inv.ports i p hp
  have hr : s0.Reliable → st.sys.Reliable := fun h t => by rw [inv.fails]; exact h t
  rw [hfile'] at hfile
  cases hfile
  rcases c71_seekOp_aux ok _ _ h1 with ⟨hf, _⟩ | ⟨s, s', b, hf, h4, h5, h6, h7, h8⟩
  · simp [PortState.position, hp, hf] at hd
  · have hat : s.at_ st.sys = d := by simpa [PortState.position, hp, hf] using hd
    rw [hat] at h6 h8
    have hring : ((st'.sys.content p.name).length : Int) + 1 + x = (st'.sys.content p.name).length + x + 1 := by omega
    refine ⟨b, _, rfl, h4, fun hb => ?_, fun h => by rw [hring]; exact h8 (hr h)⟩
    obtain ⟨e1, e2⟩ := h6 hb
    refine ⟨s'.pos, ?_, by rw [hring]; exact e2⟩
    rw [c71_position_aux hp h2]
    have h5 : q = some { p with file := some s' } := h5
    rw [h5]
    simp [Stream.at_, e1]

/-- `write` on a port that supports output takes some of the first octets, all of them if the library does not fail, and gives their number; on another port it
gives -1 and nothing changes. -/
theorem c71_write {s0 : Sys} {h : List (PortAct × PortAns)} {st st1 st' : PortState} (k : Performs (.start s0) h st) {i : Nat} {os : List Utf8.Octet} {a : PortAns} {b : Bool}
    (hb : st.perform (.use i .supportsOutput) = .ok (.flag b, st1)) (e : st.perform (.use i (.write os)) = .ok (a, st')) :
    if b = true then ∃ n : Nat, a = .number n ∧ n ≤ os.length ∧ (s0.Reliable → n = os.length) else a = .number (-1) ∧ st' = st := by
  have inv := c71_inv_aux k
  obtain ⟨p, q, hp, h1, h2⟩ := c71_use_inv_aux e
  obtain ⟨p', q', hp', k1, _⟩ := c71_use_inv_aux hb
  rw [hp] at hp'
  cases hp'
  have hr : s0.Reliable → st.sys.Reliable := fun h t => by rw [inv.fails]; exact h t
  have hbb : PortAns.flag b = .flag (decide (p.tag = .output ∨ p.tag = .io)) := (c71_supports_aux.1 _ _ k1).1
  cases hbb
  rcases c71_writeOp_aux _ _ h1 with ⟨ht, e1, e2, e3⟩ | ⟨ht, n, e1, e2, e3⟩
  · rw [if_neg (by rcases ht with ht | ht <;> simp [ht])]
    refine ⟨e1, ?_⟩
    have e2 : q = some p := e2
    subst e2
    have e3 : st'.sys = st.sys := e3
    rw [c71_set_aux hp] at h2
    cases st; cases st'; simp_all
  · rw [if_pos (by simpa using ht)]
    exact ⟨n, e1, e2, fun h => e3 (hr h)⟩

/-- If the library does not fail, no step ends the program, as long as input does not follow output, nor output input, without a seek (or a flush after output). -/
theorem c71_progress {s0 : Sys} (rel : s0.Reliable) {h : List (PortAct × PortAns)} {st : PortState} (k : Performs (.start s0) h st) (a : PortAct)
    (hc : ∀ i, a = .copy i → i < (filesOf h).length ∧ ∀ r, (.use i .release, r) ∉ h)
    (hu : ∀ i op, a = .use i op → i < (filesOf h).length ∧ ∀ r, (.use i .release, r) ∉ h)
    (hr : ∀ i n, a = .use i (.read n) → useOf i h ≠ .writing) (hw : ∀ i os, a = .use i (.write os) → useOf i h ≠ .reading) :
    ∃ r st', st.perform a = .ok (r, st') := by
  have inv := c71_inv_aux k
  have more := c71_more_aux k
  have r : st.sys.Reliable := fun t => by rw [inv.fails]; exact rel t
  rw [inv.number] at hc hu
  cases a with
  | openInput f =>
    obtain ⟨p, s', e⟩ := goes_newInput (f := f) r
    exact ⟨.made, ⟨s', st.ports ++ [some p]⟩, by simp [PortState.perform, e, Except.map]⟩
  | openOutput f =>
    obtain ⟨p, s', e⟩ := goes_newOutput (f := f) r
    exact ⟨.made, ⟨s', st.ports ++ [some p]⟩, by simp [PortState.perform, e, Except.map]⟩
  | openIo f =>
    obtain ⟨p, s', e⟩ := goes_newIo (f := f) r
    exact ⟨.made, ⟨s', st.ports ++ [some p]⟩, by simp [PortState.perform, e, Except.map]⟩
  | copy i =>
    obtain ⟨hi, hn⟩ := hc i rfl
    obtain ⟨p, hp⟩ := more.kept i hi hn
    have ok := (inv.ports i p hp).1
    obtain ⟨q, s', e⟩ := goes_copy (p := p) r fun ht => more.exist i p hp fun hf => by rw [ok.open_.mpr hf] at ht; cases ht
    exact ⟨.made, ⟨s', st.ports ++ [some q]⟩, by simp [PortState.perform, hp, e, Except.map]⟩
  | use i op =>
    obtain ⟨hi, hn⟩ := hu i op rfl
    obtain ⟨p, hp⟩ := more.kept i hi hn
    have ok := (inv.ports i p hp).1
    obtain ⟨⟨a, q⟩, s', e⟩ := c71_goes_aux (op := op) ok r (fun n e st' hf hm => by
        subst e
        rcases more.modes i p st' hp hf with e | e
        · rw [e] at hm; cases hm
        · exact hr i n rfl (by rw [← e]; exact hm)) fun os e st' hf hm => by
        subst e
        rcases more.modes i p st' hp hf with e | e
        · rw [e] at hm; cases hm
        · exact hw i os rfl (by rw [← e]; exact hm)
    exact ⟨a, ⟨s', st.ports.set i q⟩, by simp [PortState.perform, hp, e, Except.map]⟩

/-- The octets that a port receives, in however many reads, are those of its file from the position on, whatever the other ports do meanwhile. -/
theorem c71_reads {s0 : Sys} {h : List (PortAct × PortAns)} {st : PortState} (k : Performs (.start s0) h st) {i d : Nat} {f : Text} (hfile : (filesOf h)[i]? = some f)
    (hd : st.position i = some d) {h' : List (PortAct × PortAns)} {st' : PortState} (k' : Performs st h' st') (only : ∀ e ∈ h', ∀ op, e.1 = .use i op → op.Asks) :
    received i h' = ((st'.sys.content f).drop d).take (received i h').length ∧ (received i h' ≠ [] → st'.position i = some (d + (received i h').length)) := by
  have inv := c71_inv_aux k
  unfold PortState.position at hd
  split at hd
  · rename_i p hp
    cases hf : p.file with
    | none => rw [hf] at hd; cases hd
    | some s =>
      rw [hf] at hd
      have hd : s.at_ st.sys = d := by simpa using hd
      have hname := (inv.ports i p hp).2.1
      rw [hname] at hfile
      cases hfile
      have r := c71_reading_aux k hp hf k' only
      by_cases hpe : s.pending = []
      · have e1 : s.pos = d := by rw [← hd, Stream.at_, if_pos hpe]
        rw [← e1]
        refine ⟨r.octets, fun _ => ?_⟩
        obtain ⟨p', s', hp', hf', hn', hpend, hpos⟩ := r.port
        simp [PortState.position, hp', hf', Stream.at_, hpend, hpe, hpos hpe]
      · have := r.none_ hpe
        rw [this]
        exact ⟨by simp, fun e => absurd rfl e⟩
  · cases hd

/-- When only one port is on a file and it has nothing left to put there, the file has gained exactly the octets that the port has written. -/
theorem c71_one_port {s0 : Sys} {h : List (PortAct × PortAns)} {st : PortState} (k : Performs (.start s0) h st) {i : Nat} {f : Text} (hfile : (filesOf h)[i]? = some f)
    (one : ∀ j : Nat, (filesOf h)[j]? = some f → j = i) (settled : SettledIn i h) : st.sys.content f = s0.content f ++ accepted i h := by
  obtain ⟨out, gained, h1, h2, h3⟩ := c71_contents k f
  rw [h1, interleaves_one h2 i fun j hj => (h3 j).1 fun e => hj (one j e), ((h3 i).2 hfile).2 settled]

/-- `length` gives the length that the file had when the port was opened for input (or for input and output), however much the file has grown since; -1 when the
library failed or the port is not open. -/
theorem c71_length {s0 : Sys} {h : List (PortAct × PortAns)} {st st1 st2 st3 : PortState} (k : Performs (.start s0) h st) {f : Text} {a : PortAct}
    (ha : a = .openInput f ∨ a = .openIo f) {r : PortAns} (e : st.perform a = .ok (r, st1)) {h' : List (PortAct × PortAns)} (k' : Performs st1 h' st2) {x : PortAns}
    (e' : st2.perform (.use (filesOf h).length .length) = .ok (x, st3)) :
    (x = .number (-1) ∨ x = .number (st.sys.content f).length) ∧
    (s0.Reliable → (∃ c, st.sys.disk f = some c) → (∀ r, (.use (filesOf h).length .close, r) ∉ h') → x = .number (st.sys.content f).length) := by
  have inv := c71_inv_aux k
  rw [inv.number] at e' ⊢
  have rel : s0.Reliable → st.sys.Reliable := fun h t => by rw [inv.fails]; exact h t
  have first : ∃ p, st1.ports[st.ports.length]? = some (some p) ∧ PortOk p ∧ (p.length = -1 ∨ p.length = (st.sys.content f).length) ∧
      (s0.Reliable → (∃ c, st.sys.disk f = some c) → p.length = (st.sys.content f).length) := by
    rcases ha with rfl | rfl
    · obtain ⟨⟨p, s'⟩, e1, e2⟩ := c71_mapOk_aux e
      cases e2
      obtain ⟨h1, h2⟩ := post_newInput (Q := fun p _ => PortOk p ∧ (p.length = -1 ∨ p.length = (st.sys.content f).length)) (fun p s' _ ok _ _ ht _ hl => ⟨ok, by
        rcases ht with ht | ht
        · exact hl ht
        · exact .inl (ok.length ht)⟩) _ _ e1
      refine ⟨p, by simp, h1, h2, fun hr ⟨c, hc⟩ => ?_⟩
      obtain ⟨h3, h4⟩ := (post_newInput2 _ _ e1).2.2 (rel hr)
      exact h4 fun e => by rw [h3.mp e] at hc; cases hc
    · obtain ⟨⟨p, s'⟩, e1, e2⟩ := c71_mapOk_aux e
      cases e2
      obtain ⟨h1, h2⟩ := post_newIo (Q := fun p _ => PortOk p ∧ (p.length = -1 ∨ p.length = (st.sys.content f).length)) (fun p s' _ ok _ _ ht _ hl => ⟨ok, by
        rcases ht with ht | ht
        · exact hl ht
        · exact .inl (ok.length ht)⟩) _ _ e1
      exact ⟨p, by simp, h1, h2, fun hr _ => ((post_newIo2 _ _ e1).2.2 (rel hr)).2⟩
  obtain ⟨p, hp, ok, hl, hl'⟩ := first
  have step : ∃ x : Option Port, st2.ports[st.ports.length]? = some x ∧ ∀ q, x = some q → q.length = p.length ∨ (q.length = -1 ∧ ∃ r, (PortAct.use st.ports.length .close, r) ∈ h') := by
    have k1 := k.next e
    clear e' e ha hl hl'
    induction k' with
    | none => exact ⟨some p, hp, fun q e => by cases e; exact .inl rfl⟩
    | @next sta stb a r h' ka ea ih =>
      obtain ⟨x, hx, ih⟩ := ih
      have inv := c71_inv_aux (c71_trans_aux k1 ka)
      by_cases hu : ∃ op, a = .use st.ports.length op
      · obtain ⟨op, rfl⟩ := hu
        obtain ⟨p1, q, hp1, h1, h2⟩ := c71_use_inv_aux ea
        rw [hx] at hp1
        cases hp1
        have d := c71_op_aux (inv.ports _ p1 hx).1 _ _ h1
        refine ⟨q, by rw [h2, List.getElem?_set_self (c71_index_aux hx)], fun q' e => ?_⟩
        subst e
        by_cases hop : op = .close
        · subst hop
          obtain ⟨q2, e2, hq2⟩ := d.over rfl
          cases e2
          have ok2 := (d.port _ rfl).1
          exact .inr ⟨ok2.length (ok2.open_.mpr hq2), r, by simp⟩
        · have := d.length q' rfl hop
          rw [this]
          rcases ih p1 rfl with e | ⟨e, r, hr⟩
          · exact .inl e
          · exact .inr ⟨e, r, List.mem_append_left _ hr⟩
      · refine ⟨x, c71_others_aux inv ea hx fun op e => hu ⟨op, e⟩, fun q e => ?_⟩
        rcases ih q e with e | ⟨e, r, hr⟩
        · exact .inl e
        · exact .inr ⟨e, r, List.mem_append_left _ hr⟩
  obtain ⟨x', hx', hq⟩ := step
  obtain ⟨p1, q, hp1, h1, _⟩ := c71_use_inv_aux e'
  rw [hx'] at hp1
  cases hp1
  have hxx : x = .number p1.length := (post_pure (Q := fun r _ => r.1 = PortAns.number p1.length) rfl : Post (PortOp.length.perform p1) st2.sys _) _ _ h1
  subst hxx
  show (PortAns.number p1.length = _ ∨ PortAns.number p1.length = _) ∧ (_ → _ → _ → PortAns.number p1.length = _)
  rcases hq p1 rfl with e | ⟨e, hc⟩
  · rw [e]
    exact ⟨by rcases hl with e | e <;> rw [e] <;> simp, fun hr hd _ => by rw [hl' hr hd]⟩
  · rw [e]
    obtain ⟨r, hr⟩ := hc
    exact ⟨.inl rfl, fun _ _ hn => absurd hr (hn r)⟩

/-- A new port starts at the beginning of its file, or it is not open; without failures it is open unless it is for input only and there is no file. -/
theorem c71_open {s0 : Sys} {h : List (PortAct × PortAns)} {st st1 : PortState} (k : Performs (.start s0) h st) {f : Text} {a : PortAct} {r : PortAns}
    (e : st.perform a = .ok (r, st1)) :
    (a = .openInput f ∨ a = .openIo f → st1.position (filesOf h).length = some 0 ∨ st1.position (filesOf h).length = none) ∧
    (s0.Reliable → (a = .openInput f → (st1.position (filesOf h).length = some 0 ↔ ∃ c, st.sys.disk f = some c)) ∧
      (a = .openIo f → st1.position (filesOf h).length = some 0) ∧ (a = .openOutput f → ∃ d, st1.position (filesOf h).length = some d)) ∧
    (a = .openOutput f ∨ a = .openIo f → st1.position (filesOf h).length ≠ none → st1.sys.disk f = some (st.sys.content f)) := by
  have inv := c71_inv_aux k
  rw [inv.number]
  have rel : s0.Reliable → st.sys.Reliable := fun h t => by rw [inv.fails]; exact h t
  have pos : ∀ {p : Port}, (∀ s, p.file = some s → s.pos = 0 ∧ s.pending = []) → st1.ports = st.ports ++ [some p] →
      (p.file = none → st1.position st.ports.length = none) ∧ (p.file ≠ none → st1.position st.ports.length = some 0) := by
    intro p hz hps
    unfold PortState.position
    rw [hps]
    cases hf : p.file with
    | none => simp [hf]
    | some s => simp [hf, Stream.at_, (hz s hf).1, (hz s hf).2]
  have disk : ∀ s', AddsTo f [] st.sys s' → s'.disk f ≠ none → s'.disk f = some (st.sys.content f) := by
    intro s' ha hn
    rcases ha.file with ⟨_, e⟩ | e
    · rw [e] at hn ⊢
      cases hd : st.sys.disk f with
      | none => exact absurd hd hn
      | some c => simp [Sys.content, hd]
    · simpa using e
  cases a with
  | openInput g =>
    refine ⟨fun e' => ?_, fun hr => ⟨fun e' => ?_, by simp, by simp⟩, by simp⟩
    all_goals
      simp at e'
      subst e'
      obtain ⟨⟨p, s'⟩, e1, e2⟩ := c71_mapOk_aux e
      cases e2
      have h1 := post_newInput (Q := fun p _ => ∀ s, p.file = some s → s.pos = 0 ∧ s.pending = []) (fun p s' _ ok _ hp _ hz _ s hs => ⟨hz s hs, by simpa [pendingIn, hs] using hp⟩) _ _ e1
      obtain ⟨h2, h3⟩ := pos h1 rfl
    · cases hf : p.file with
      | none => exact .inr (h2 hf)
      | some s => exact .inl (h3 (by rw [hf]; simp))
    · obtain ⟨h4, _⟩ := (post_newInput2 _ _ e1).2.2 (rel hr)
      constructor
      · intro e3
        cases hd : st.sys.disk g with
        | none => rw [h2 (h4.mpr hd)] at e3; cases e3
        | some c => exact ⟨c, rfl⟩
      · rintro ⟨c, hc⟩
        exact h3 fun e => by rw [h4.mp e] at hc; cases hc
  | openIo g =>
    refine ⟨fun e' => ?_, fun hr => ⟨by simp, fun e' => ?_, by simp⟩, fun e' hne => ?_⟩
    all_goals
      simp at e'
      subst e'
      obtain ⟨⟨p, s'⟩, e1, e2⟩ := c71_mapOk_aux e
      cases e2
      have h1 := post_newIo (Q := fun p s' => AddsTo g [] st.sys s' ∧ ∀ s, p.file = some s → s.pos = 0 ∧ s.pending = []) (fun p s' ha ok _ hp _ hz _ => ⟨ha, fun s hs => ⟨hz s hs, by simpa [pendingIn, hs] using hp⟩⟩) _ _ e1
      obtain ⟨h2, h3⟩ := pos h1.2 rfl
    · cases hf : p.file with
      | none => exact .inr (h2 hf)
      | some s => exact .inl (h3 (by rw [hf]; simp))
    · exact h3 ((post_newIo2 _ _ e1).2.2 (rel hr)).1
    · exact disk s' h1.1 ((post_newIo2 _ _ e1).1 fun e => hne (h2 e))
  | openOutput g =>
    refine ⟨by simp, fun hr => ⟨by simp, by simp, fun e' => ?_⟩, fun e' hne => ?_⟩
    all_goals
      simp at e'
      subst e'
      obtain ⟨⟨p, s'⟩, e1, e2⟩ := c71_mapOk_aux e
      cases e2
    · have := (post_newOutput2 _ _ e1).2.2 (rel hr)
      cases hf : p.file with
      | none => exact absurd hf this
      | some s => exact ⟨s.at_ s', by simp [PortState.position, hf]⟩
    · have h1 := post_newOutput (Q := fun p s' => AddsTo g [] st.sys s') (fun p s' ha _ _ _ _ => ha) _ _ e1
      refine disk s' h1 ((post_newOutput2 _ _ e1).1 fun e => hne ?_)
      simp [PortState.position, e]
  | copy i => simp
  | use i op => simp

/-- Reading directly after writing (only other ports are used between) is undefined behaviour, although both succeed when tried alone. -/
theorem c71_write_read_undefined {s0 : Sys} {h : List (PortAct × PortAns)} {st st1 st2 : PortState} (k : Performs (.start s0) h st) {i : Nat} {os : List Utf8.Octet} {m : Nat}
    (hos : os ≠ []) (e : st.perform (.use i (.write os)) = .ok (.number m, st1)) {h' : List (PortAct × PortAns)} (k' : Performs st1 h' st2)
    (others : ∀ e ∈ h', ∀ op, e.1 ≠ .use i op) {st3 : PortState} (hin : st2.perform (.use i .supportsInput) = .ok (.flag true, st3)) {n : Nat} (hn : n ≠ 0) :
    st2.perform (.use i (.read n)) = .error .ub := by
  have inv := c71_inv_aux k
  obtain ⟨p, q, hp, h1, h2⟩ := c71_use_inv_aux e
  have first : ∃ p1 s1, st1.ports[i]? = some (some p1) ∧ p1.file = some s1 ∧ ∃ r, s1.last = .output r := by
    have hq : ∃ p1 s1, q = some p1 ∧ p1.file = some s1 ∧ ∃ r, s1.last = .output r := by
      have : Post ((PortOp.write os).perform p) st.sys fun r _ => r.1 = .number m → ∃ p1 s1, r.2 = some p1 ∧ p1.file = some s1 ∧ ∃ r, s1.last = .output r := by
        simp only [PortOp.perform, Ports.write]
        split
        · refine post_bind (post_bind (c71_stream_aux fun s hf => post_bind (post_mono (Q := fun r _ => ∃ x, r.2.last = .output x) ?_ fun r s' ⟨x, hx⟩ => post_pure (post_pure fun _ => ⟨_, r.2, rfl, rfl, x, hx⟩))))
          unfold Stdio.fwrite
          rw [if_neg hos]
          split
          · exact post_throw
          · refine post_bind (post_failing fun s1 _ => ?_)
            have main : ∀ (k : Nat) s2, Post (do
                let st ← Stdio.put { s with last := .output (s.pending ++ os.take k) } false
                pure (k, st)) s2 fun r _ => ∃ x, r.2.last = .output x := by
              intro k s2
              refine post_bind (post_put fun st' s3 c h3 m _ _ => post_pure ?_)
              by_cases hp : ({ s with last := .output (s.pending ++ os.take k) } : Stream).pending = []
              · exact ⟨_, by rw [m.idle hp]⟩
              · exact m.out hp
            cases st.sys.fails st.sys.tick with
            | true => simp only [if_true]; exact post_bind (post_upTo fun _ _ _ _ => main _ _)
            | false => simp only [Bool.false_eq_true, if_false]; exact post_bind (post_pure (main _ _))
        · refine post_bind (post_pure (post_pure fun e => ?_))
          simp at e
      exact this _ _ h1 rfl
    obtain ⟨p1, s1, rfl, hf, hr⟩ := hq
    exact ⟨p1, s1, by rw [h2, List.getElem?_set_self (c71_index_aux hp)], hf, hr⟩
  obtain ⟨p1, s1, hp1, hf1, x, hx⟩ := first
  have later : st2.ports[i]? = some (some p1) := by
    have k1 := k.next e
    clear hin
    induction k' with
    | none => exact hp1
    | @next sta stb a r h' ka ea ih =>
      have ih := ih (fun e he => others e (List.mem_append_left _ he))
      exact c71_others_aux (c71_inv_aux (c71_trans_aux k1 ka)) ea ih fun op => others (a, r) (by simp) op
  obtain ⟨p', q', hp', h3, _⟩ := c71_use_inv_aux hin
  rw [later] at hp'
  cases hp'
  have ht := (c71_supports_aux.2 _ _ h3).1
  have ht : p1.tag = .input ∨ p1.tag = .io := by simpa using ht
  have : (PortOp.read n).perform p1 st2.sys = .error .ub := by
    simp only [PortOp.perform, Ports.read, if_pos ht, Ports.stream, hf1, Stdio.fread, if_neg hn, pure_bind, hx]
    rfl
  simp [PortState.perform, later, this, Except.map]

/-- A port can be copied only if its file can be opened again: otherwise the program uses a null pointer. -/
theorem c71_copy_fails {st : PortState} {i d : Nat} {s0 : Sys} {h : List (PortAct × PortAns)} (k : Performs (.start s0) h st) (ho : st.position i = some d)
    (hf : st.sys.fails st.sys.tick = true) : st.perform (.copy i) = .error .null := by
  have inv := c71_inv_aux k
  unfold PortState.position at ho
  split at ho
  · rename_i p hp
    have ok := (inv.ports i p hp).1
    have none : ∀ f x y, Stdio.fopen f x y st.sys = .ok (none, { st.sys with tick := st.sys.tick + 1 }) := by
      intro f x y
      simp only [Stdio.fopen]
      show (if st.sys.fails st.sys.tick = true then (pure Option.none : Io (Option Stream)) else _) _ = _
      rw [if_pos hf]; rfl
    have : Ports.copy p st.sys = .error .null := by
      cases ht : p.tag with
      | notOpen => rw [ok.open_.mp ht] at ho; cases ho
      | _ =>
        simp only [Ports.copy, ht]
        show (Stdio.fopen _ _ _ st.sys >>= _) = _
        rw [none]; rfl
    simp [PortState.perform, hp, this, Except.map]
  · cases ho

/-! ### Examples -/

/-- does several steps -/
def playPorts : PortState → List PortAct → Except Fault (List PortAns × PortState)
  | st, [] => .ok ([], st)
  | st, a :: as =>
    match st.perform a with
    | .error x => .error x
    | .ok (r, st1) =>
      match playPorts st1 as with
      | .error x => .error x
      | .ok (rs, st2) => .ok (r :: rs, st2)

theorem performs_play : ∀ (as : List PortAct) {st st' : PortState} {rs : List PortAns}, playPorts st as = .ok (rs, st') → Performs st (as.zip rs) st'
  | [], st, st', rs, e => by cases e; exact .none
  | a :: as, st, st', rs, e => by
    unfold playPorts at e
    split at e
    · cases e
    · rename_i r st1 h1
      split at e
      · cases e
      · rename_i rs' st2 h2
        cases e
        exact c71_trans_aux (Performs.none.next h1) (performs_play as h2)

/-- what the steps answer, what is then in the file and where port `i` is -/
def playedOn (s : Sys) (as : List PortAct) (f : Text) (i : Nat) : Except Fault (List PortAns × List Utf8.Octet × Option Nat) :=
  (playPorts (.start s) as).map fun x => (x.1, x.2.sys.content f, x.2.position i)

theorem play_exists {s : Sys} {h : List (PortAct × PortAns)} {f : Text} {i : Nat} {c : List Utf8.Octet} {d : Option Nat}
    (e : playedOn s (h.map Prod.fst) f i = .ok (h.map Prod.snd, c, d)) : ∃ st, Performs (.start s) h st ∧ st.sys.content f = c ∧ st.position i = d := by
  obtain ⟨⟨rs', st⟩, e1, e2⟩ := c71_mapOk_aux e
  cases e2
  have := performs_play _ e1
  rw [show (h.map Prod.fst).zip (h.map Prod.snd) = h by
    clear e1 this e
    induction h with
    | nil => rfl
    | cons x h ih => simp [ih]] at this
  exact ⟨st, this, rfl, rfl⟩

/-- a file of three octets, a library that never fails and keeps everything in its buffers as long as it can -/
def exSys : Sys := { disk := fun f => if f = txt "a" then some [1, 2, 3] else none, fails := fun _ => false, amount := fun _ => 0, tick := 0 }

/-- a library whose fourth choice is a failure -/
def badSys : Sys := { exSys with fails := fun t => t = 3, amount := fun _ => 1 }

theorem c71_exSys_aux : exSys.Reliable := fun _ => rfl

/-- write, seek and read what was written; the length is still the old one (`c71_contents`, `c71_read`, `c71_seek`, `c71_write`, `c71_length`, `c71_open`, `c71_one_port`) -/
example : ∃ st, Performs (.start exSys) [(.openIo (txt "a"), .made), (.use 0 (.write [4, 5]), .number 2), (.use 0 .distance, .number 5), (.use 0 (.seek 2 false), .flag true),
    (.use 0 (.read 9), .octets 3 [3, 4, 5]), (.use 0 .length, .number 3), (.use 0 .close, .flag true), (.use 0 (.read 1), .octets (-1) [])] st ∧
    st.sys.content (txt "a") = [1, 2, 3, 4, 5] ∧ st.position 0 = none :=
  play_exists (by decide +kernel)

/-- two ports on a file: what is written first is put into the file last -/
example : ∃ st, Performs (.start exSys) [(.openOutput (txt "a"), .made), (.openOutput (txt "a"), .made), (.use 0 (.write [4, 5]), .number 2), (.use 1 (.write [6]), .number 1),
    (.use 1 .flush, .flag true), (.use 0 .flush, .flag true)] st ∧ st.sys.content (txt "a") = [1, 2, 3, 6, 4, 5] ∧ st.position 1 = some 4 :=
  play_exists (by decide +kernel)

/-- a reader and a writer (`c71_reads`); a seek from the end: -1 is the end, -3 two octets before it -/
example : ∃ st, Performs (.start exSys) [(.openInput (txt "a"), .made), (.openOutput (txt "a"), .made), (.use 0 (.read 2), .octets 2 [1, 2]), (.use 1 (.write [7, 8]), .number 2),
    (.use 1 .flush, .flag true), (.use 0 (.read 2), .octets 2 [3, 7]), (.use 0 (.seek (-3) false), .flag true), (.use 0 (.read 5), .octets 2 [7, 8]),
    (.use 0 (.seek (-9) true), .flag false), (.copy 0, .made), (.use 2 (.read 1), .octets 1 [1]), (.use 1 .release, .nothing)] st ∧
    st.sys.content (txt "a") = [1, 2, 3, 7, 8] ∧ st.position 2 = some 1 :=
  play_exists (by decide +kernel)

/-- reading after writing is undefined (`c71_write_read_undefined`), reading after writing and flushing is not (`c71_progress`) -/
example : playedOn exSys [.openIo (txt "a"), .use 0 (.write [4]), .use 0 (.read 1)] (txt "a") 0 = .error .ub ∧
    playedOn exSys [.openIo (txt "a"), .use 0 (.write [4]), .use 0 .flush, .use 0 (.read 1)] (txt "a") 0 = .ok ([.made, .number 1, .flag true, .octets 0 []], [1, 2, 3, 4], some 4) := by
  decide +kernel

/-- a failure: the fourth choice of the library is how much to write -/
example : playedOn badSys [.openOutput (txt "b"), .use 0 (.write [4, 5]), .use 0 .close] (txt "b") 0 = .ok ([.made, .number 1, .flag true], [4], none) := by
  decide +kernel

/-- a port cannot be copied when the file cannot be opened (`c71_copy_fails`); there is no file to open for input -/
example : playedOn { exSys with fails := fun t => t = 4 } [.openInput (txt "a"), .copy 0] (txt "a") 0 = .error .null ∧
    playedOn exSys [.openInput (txt "b"), .use 0 .length, .copy 0] (txt "b") 1 = .ok ([.made, .number (-1), .made], [], none) := by
  decide +kernel

/-- the hypotheses of `c71_progress` for the history of the first example -/
example : useOf 0 [(.openIo (txt "a"), .made), (.use 0 (.write [4, 5]), .number 2)] = .writing ∧
    useOf 0 [(.openIo (txt "a"), .made), (.use 0 (.write [4, 5]), .number 2), (.use 0 (.seek 2 false), .flag true)] = .free := by
  decide +kernel

end Dern.Props
