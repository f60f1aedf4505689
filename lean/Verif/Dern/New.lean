import Verif.Dern.Sound
/-
The virtual machine as octaspire_dern_vm_new_with_config creates it (vm.c:109-1688), and the states
an embedding program can bring it into.
-/
namespace Dern
open Prog (Library)

/-- the names of the standard library with their values, in the order of registration, and whether
`howto` may use them, vm.c:327-1688 -/
def stdTable : List (String × Obj × Bool) := [
  ("host-get-command-line-arguments", .builtin (.other "host-get-command-line-arguments"), false),
  ("host-get-environment-variables", .builtin (.other "host-get-environment-variables"), false),
  ("ln@", .builtin .lnAt, true),
  ("cp@", .builtin .cpAt, true),
  ("require", .builtin (.other "require"), false),
  ("input-file-open", .builtin (.other "input-file-open"), false),
  ("output-file-open", .builtin (.other "output-file-open"), false),
  ("io-file-open", .builtin (.other "io-file-open"), false),
  ("port-supports-output?", .builtin (.other "port-supports-output?"), false),
  ("port-supports-input?", .builtin (.other "port-supports-input?"), false),
  ("port-close", .builtin (.other "port-close"), false),
  ("port-read", .builtin (.other "port-read"), false),
  ("port-write", .builtin (.other "port-write"), false),
  ("port-seek", .builtin (.other "port-seek"), false),
  ("port-dist", .builtin (.other "port-dist"), false),
  ("port-length", .builtin (.other "port-length"), false),
  ("port-flush", .builtin (.other "port-flush"), false),
  ("not", .builtin .not, true),
  ("abort", .builtin .abort, false),
  ("return", .builtin .return, false),
  ("vector", .builtin .vector, true),
  ("and", .special .and, true),
  ("or", .special .or, true),
  ("do", .special .do, false),
  ("starts-with?", .builtin .startsWith, true),
  ("=", .builtin .assign, false),
  ("string-format", .builtin .stringFormat, true),
  ("to-string", .builtin .toString, true),
  ("to-integer", .builtin .toInteger, true),
  ("to-real", .builtin .toReal, true),
  ("print-readably", .builtin .printReadably, false),
  ("print", .builtin .print, false),
  ("println", .builtin .println, false),
  ("env-new", .builtin .envNew, false),
  ("env-current", .builtin .envCurrent, false),
  ("env-global", .builtin .envGlobal, false),
  ("-=", .builtin .minusEq, false),
  ("-==", .builtin .minusEqEq, false),
  ("pop-back", .builtin .popBack, false),
  ("pop-front", .builtin .popFront, false),
  ("distance", .builtin .distance, false),
  ("max", .builtin .max, false),
  ("min", .builtin .min, false),
  ("cos", .builtin (.math .cos), false),
  ("sin", .builtin (.math .sin), false),
  ("tan", .builtin (.math .tan), false),
  ("asin", .builtin (.math .asin), false),
  ("acos", .builtin (.math .acos), false),
  ("atan", .builtin (.math .atan), false),
  ("pow", .builtin (.math .pow), false),
  ("sqrt", .builtin (.math .sqrt), false),
  ("+=", .builtin .plusEq, false),
  ("++", .builtin .plusPlus, false),
  ("--", .builtin .minusMinus, false),
  ("mod", .builtin .mod, true),
  ("/", .builtin .slash, true),
  ("*", .builtin .times, true),
  ("+", .builtin .plus, true),
  ("-", .builtin .minus, true),
  ("find", .builtin .find, true),
  ("split", .builtin .split, true),
  ("hash-map", .builtin .hashMap, true),
  ("queue", .builtin .queue, true),
  ("queue-with-max-length", .builtin .queueMax, true),
  ("list", .builtin .list, true),
  ("exit", .builtin .exit, false),
  ("doc", .builtin .doc, true),
  ("len", .builtin .len, true),
  ("read-and-eval-path", .builtin (.other "read-and-eval-path"), false),
  ("read-and-eval-string", .builtin (.other "read-and-eval-string"), true),
  ("copy", .builtin .copy, true),
  ("define", .special .define, false),
  ("eval", .special .eval, true),
  ("generate", .special .generate, true),
  ("quote", .special .quote, true),
  ("select", .special .select, true),
  ("if", .special .if, true),
  ("while", .special .while, true),
  ("for", .special .for, true),
  ("==", .special .eq, true),
  ("===", .special .eqq, true),
  ("!=", .special .ne, true),
  ("<", .special .lt, true),
  (">", .special .gt, true),
  ("<=", .special .le, true),
  (">=", .special .ge, true),
  ("template", .special .template, true),
  ("fn", .special .fn, true),
  ("macro", .special .macro, true),
  ("uid", .builtin .uid, false),
  ("integer?", .builtin (.isA .integer), true),
  ("real?", .builtin (.isA .real), true),
  ("number?", .builtin (.isA .number), true),
  ("nil?", .builtin (.isA .nil), true),
  ("boolean?", .builtin (.isA .boolean), true),
  ("character", .builtin .character, true),
  ("character?", .builtin (.isA .character), true),
  ("string?", .builtin (.isA .string), true),
  ("symbol?", .builtin (.isA .symbol), true),
  ("vector?", .builtin (.isA .vector), true),
  ("hash-map?", .builtin (.isA .hashMap), true),
  ("howto", .special .howto, true)
]

/-- the first ten values, vm.c:174-321: the global environment, then nil, true and false, each
followed by its documentation string and its symbol -/
def baseCells (p : Nat → Ref) : List Cell := [
  { obj := .env [⟨txt "nil", p 3, p 1⟩, ⟨txt "true", p 6, p 4⟩, ⟨txt "false", p 9, p 7⟩] none, uid := 0 },
  { obj := .nil, uid := 1, docstr := some (p 2) },
  { obj := .str (txt "Represents missing value."), uid := 2 },
  { obj := .sym (txt "nil"), uid := 3 },
  { obj := .bool true, uid := 4, docstr := some (p 5) },
  { obj := .str (txt "Boolean true value. Opposite of false."), uid := 5 },
  { obj := .sym (txt "true"), uid := 6 },
  { obj := .bool false, uid := 7, docstr := some (p 8) },
  { obj := .str (txt "Boolean false value. Opposite of true."), uid := 8 },
  { obj := .sym (txt "false"), uid := 9 }]

/-- a memory holding the given values at the addresses of the first allocations -/
def memAt (p : Nat → Ref) (cs : List Cell) : Mem := fun r =>
  match (List.range cs.length).find? fun i => p i = r with
  | some i => cs[i]?
  | none => none

/-- The state before the standard library is registered, vm.c:109-321: the stack holds the global
environment (it stays there); ten values have been allocated. -/
def Vm.base (A : Malloc) : Vm where
  mem := memAt A.pick (baseCells A.pick)
  all := (List.range 10).map A.pick
  stack := [A.pick 0]
  nextUid := 10
  sinceGc := 10
  globalEnv := A.pick 0
  valueNil := A.pick 1
  valueTrue := A.pick 4
  valueFalse := A.pick 7
  births := 10

/-- octaspire_dern_vm_create_and_register_new_builtin, vm.c:4498-4549, and
octaspire_dern_vm_create_and_register_new_special, vm.c:4551-4600, with the global environment -/
def Prog.register (name : String) (o : Obj) (howto : Bool) : Prog Unit := do
  let sym ← alloc (.sym (txt name))
  push sym
  let r ← alloc o
  setHowto r howto
  push r
  let t ← text "documentation"
  let d ← alloc (.str t)
  let c ← read r
  setDoc r (some d) c.docvec
  pop r
  push r
  let env ← root .globalEnv
  envSet env sym r
  pop r
  pop sym

/-- registering a table -/
def Prog.registerAll : List (String × Obj × Bool) → Prog Unit
  | [] => pure ()
  | (name, o, howto) :: l => do
    register name o howto
    registerAll l

/-- The states an embedding program can bring the virtual machine into, from the state `v`.  It may
perform any sequence of operations (creating, reading and changing values, evaluating forms,
registering functions …), as long as it only uses references it got from the virtual machine and
only pops what is on top of the stack (`Prog.Ok`), and may set the parameters of the collector. -/
inductive Vm.Leads (W : World) (L : Library) (v : Vm) : Vm → Prop
  | refl : Leads W L v v
  | host {w u : Vm} {α : Type} {p : Prog α} {a : α} {tr : List Event} {n : Nat} : Leads W L v w →
      (∀ P : Ref → Prop, (∀ x, w.Old W x → P x) → Prog.Ok P p w.stack fun _ _ => True) →
      run W n (handler W (Prog.body L) n) p w = .ok (a, u, tr) → Leads W L v u
  | tune {w : Vm} (limit : Nat) (prevent : Bool) : Leads W L v w →
      Leads W L v { w with gcLimit := limit, preventGc := prevent }

/-- the states that can be reached from a new virtual machine -/
def Vm.Reached (W : World) (L : Library) (v : Vm) : Prop := Vm.Leads W L (Vm.base W.malloc) v

theorem memAt_some {A : Malloc} {cs : List Cell} {r : Ref} {c : Cell} (h : memAt A.pick cs r = some c) :
    ∃ i, cs[i]? = some c ∧ A.pick i = r := by
  unfold memAt at h
  split at h
  · rename_i i e
    exact ⟨i, h, by simpa using List.find?_some e⟩
  · cases h

theorem memAt_pick {A : Malloc} {cs : List Cell} {i : Nat} (h : i < cs.length) :
    memAt A.pick cs (A.pick i) = cs[i]? := by
  unfold memAt
  cases e : (List.range cs.length).find? fun k => A.pick k = A.pick i with
  | none =>
    rw [List.find?_eq_none] at e
    exact absurd (e i (by simpa using h)) (by simp)
  | some k =>
    have := List.find?_some e
    simp at this
    rw [A.inj _ _ this]

theorem base_uid {p : Nat → Ref} {i : Nat} {c : Cell} (h : (baseCells p)[i]? = some c) : i < 10 ∧ c.uid = i ∧
    c.mark = false := by
  have : i < 10 := by
    have := (List.getElem?_eq_some_iff.mp h).1
    simpa [baseCells] using this
  refine ⟨this, ?_⟩
  match i, this with
  | 0, _ | 1, _ | 2, _ | 3, _ | 4, _ | 5, _ | 6, _ | 7, _ | 8, _ | 9, _ =>
    simp [baseCells] at h; subst h; simp

theorem base_old {W : World} {i : Nat} (h : i < 10) : (Vm.base W.malloc).Old W (W.malloc.pick i) := ⟨i, h, rfl⟩

theorem base_sane (W : World) : (Vm.base W.malloc).Sane W where
  nodup := by
    show ((List.range 10).map W.malloc.pick).Nodup
    exact List.pairwise_map.mpr (List.nodup_range.imp fun h e => h (W.malloc.inj _ _ e))
  dom := by
    intro r
    show r ∈ (List.range 10).map W.malloc.pick ↔ (memAt W.malloc.pick (baseCells W.malloc.pick) r).isSome
    constructor
    · intro h
      obtain ⟨i, hi, rfl⟩ := List.mem_map.mp h
      have hi : i < (baseCells W.malloc.pick).length := by simpa [baseCells] using hi
      rw [memAt_pick hi]
      simp [hi]
    · intro h
      obtain ⟨c, hc⟩ := Option.isSome_iff_exists.mp h
      obtain ⟨i, hi, rfl⟩ := memAt_some hc
      exact List.mem_map.mpr ⟨i, by simpa using (base_uid hi).1, rfl⟩
  unmarked := by
    intro r c h
    obtain ⟨i, hi, rfl⟩ := memAt_some h
    exact (base_uid hi).2.2
  old := by
    intro r c h
    obtain ⟨i, hi, rfl⟩ := memAt_some h
    exact base_old (base_uid hi).1
  uidLt := by
    intro r c h
    obtain ⟨i, hi, rfl⟩ := memAt_some h
    rw [(base_uid hi).2.1]; exact (base_uid hi).1
  uidInj := by
    intro r c r' c' h h' e
    obtain ⟨i, hi, rfl⟩ := memAt_some h
    obtain ⟨j, hj, rfl⟩ := memAt_some h'
    rw [(base_uid hi).2.1, (base_uid hj).2.1] at e
    rw [e]

theorem base_closed (W : World) : (Vm.base W.malloc).Closed W fun _ => False := by
  have cells : ∀ r c, (Vm.base W.malloc).mem r = some c → PubCell ((Vm.base W.malloc).Old W) c := by
    intro r c h
    obtain ⟨i, hi, rfl⟩ := memAt_some h
    have o : ∀ {i}, i < 10 → (Vm.base W.malloc).Old W (W.malloc.pick i) := fun h => base_old h
    match i, (base_uid hi).1 with
    | 0, _ | 1, _ | 2, _ | 3, _ | 4, _ | 5, _ | 6, _ | 7, _ | 8, _ | 9, _ =>
      simp [baseCells] at hi
      subst hi
      constructor <;> simp [PubObj, PubOpt, o]
  have pub : ∀ {r}, (Vm.base W.malloc).Old W r → (Vm.base W.malloc).Pub W (fun _ => False) r := fun h => ⟨h, id⟩
  refine ⟨cells, fun r c h _ => (cells r c h).mono fun x h => pub h, ?_, ?_, ?_, fun _ h => h.elim⟩
  · intro x hx
    simp only [Vm.base, List.mem_singleton] at hx
    rw [hx]; exact base_old (by decide)
  · rintro x ⟨⟩
  · intro which
    refine pub ?_
    cases which <;> exact base_old (by decide)

theorem Vm.Leads.good {W : World} {L : Library} (hL : L.Safe) {v w : Vm} (sv : v.Sane W)
    (cv : v.Closed W fun _ => False) (h : Vm.Leads W L v w) : Vm.Good W (fun _ => False) v w := by
  induction h with
  | refl => exact ⟨sv, cv, .refl v⟩
  | @host w u α p a tr n _ ok run ih =>
    have := run_sound (X := fun _ => False) (n := n) (handler_sound hL n) p w w.stack [] (fun _ _ _ => True) ih.1 ih.2 (by simp)
      (fun P hP => ok P fun x hx => hP x ⟨hx, id⟩)
    rw [run] at this
    exact ih.trans sv this.1
  | tune limit prevent _ ih =>
    obtain ⟨s, c, l⟩ := ih
    exact ⟨⟨s.nodup, s.dom, s.unmarked, s.old, s.uidLt, s.uidInj⟩,
      ⟨c.cells, c.pub, c.stack, c.ret, fun which => by have := c.roots which; cases which <;> exact this, c.known⟩,
      ⟨l.births, l.nextUid, l.priv, l.gone, l.uid, l.new, fun which => by have := l.roots which; cases which <;> exact this⟩⟩

/-- every reachable state satisfies the invariants -/
theorem Vm.Reached.good {W : World} {L : Library} (hL : L.Safe) {v : Vm} (h : v.Reached W L) :
    v.Sane W ∧ v.Closed W fun _ => False :=
  have := Vm.Leads.good hL (base_sane W) (base_closed W) h
  ⟨this.sane, this.closed⟩

end Dern
