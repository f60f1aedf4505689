import Verif.Dern.GcLemmas
import Verif.Dern.Agree
import Verif.Props.C13
/-
C22: garbage collection keeps exactly the reachable values.

`Holds m x y`: the value `x` holds a reference to the value `y` that the program may follow.  For
every well-formed heap, including cyclic ones, a collection returns, keeps every value reachable
from the stack through such references unchanged and unmarked, releases every other value, and
changes nothing else.

Not covered by `Holds` and not kept (negative results): the documentation vector of a function
(value->docvec) and the value of a pending `return` (vm->functionReturn).
-/
namespace Dern.Props
open Dern Dern.Spec

/-- the references a value holds, by kind -/
inductive Holds (m : Mem) : Ref → Ref → Prop
  | doc {x c y} : m x = some c → c.docstr = some y → Holds m x y
  | vec {x c es y} : m x = some c → c.obj = .vec es → y ∈ es → Holds m x y
  | queue {x c mx es y} : m x = some c → c.obj = .queue mx es → y ∈ es → Holds m x y
  | list {x c es y} : m x = some c → c.obj = .list es → y ∈ es → Holds m x y
  | mapKey {x c nb es k w} : m x = some c → c.obj = .hmap nb es → (k, w) ∈ es → Holds m x k
  | mapVal {x c nb es k w} : m x = some c → c.obj = .hmap nb es → (k, w) ∈ es → Holds m x w
  | envKey {x c bs e b} : m x = some c → c.obj = .env bs e → b ∈ bs → Holds m x b.key
  | envVal {x c bs e b} : m x = some c → c.obj = .env bs e → b ∈ bs → Holds m x b.val
  | enclosing {x c bs y} : m x = some c → c.obj = .env bs (some y) → Holds m x y
  | formals {x c f} : m x = some c → c.obj = .fn f ∨ c.obj = .mac f → Holds m x f.formals
  | body {x c f} : m x = some c → c.obj = .fn f ∨ c.obj = .mac f → Holds m x f.body
  | defEnv {x c f} : m x = some c → c.obj = .fn f ∨ c.obj = .mac f → Holds m x f.env

theorem c22_edges_aux (m : Mem) (x y : Ref) : m.Edge x y ↔ Holds m x y := by
  constructor
  · rintro ⟨c, hc, hy⟩
    unfold Cell.edges at hy
    rcases List.mem_append.mp hy with h | h
    · cases hd : c.docstr with
      | none => rw [hd] at h; simp at h
      | some z => rw [hd] at h; simp at h; subst h; exact .doc hc hd
    · cases ho : c.obj with
      | vec es => rw [ho] at h; exact .vec hc ho h
      | queue mx es => rw [ho] at h; exact .queue hc ho h
      | list es => rw [ho] at h; exact .list hc ho h
      | hmap nb es =>
        rw [ho] at h
        simp only [Obj.children, List.mem_flatMap] at h
        obtain ⟨⟨k, w⟩, he, h⟩ := h
        simp at h
        rcases h with rfl | rfl
        · exact .mapKey hc ho he
        · exact .mapVal hc ho he
      | env bs e =>
        rw [ho] at h
        simp only [Obj.children, List.mem_append, List.mem_flatMap] at h
        rcases h with ⟨b, hb, h⟩ | h
        · simp at h
          rcases h with rfl | rfl
          · exact .envKey hc ho hb
          · exact .envVal hc ho hb
        · cases e with
          | none => simp at h
          | some z => simp at h; subst h; exact .enclosing hc ho
      | fn f =>
        rw [ho] at h
        simp [Obj.children] at h
        rcases h with rfl | rfl | rfl
        · exact .formals hc (.inl ho)
        · exact .body hc (.inl ho)
        · exact .defEnv hc (.inl ho)
      | mac f =>
        rw [ho] at h
        simp [Obj.children] at h
        rcases h with rfl | rfl | rfl
        · exact .formals hc (.inr ho)
        · exact .body hc (.inr ho)
        · exact .defEnv hc (.inr ho)
      | _ => rw [ho] at h; simp [Obj.children] at h
  · intro h
    cases h with
    | doc hc hd => exact ⟨_, hc, by simp [Cell.edges, hd]⟩
    | vec hc ho hy => exact ⟨_, hc, by simp [Cell.edges, ho, Obj.children, hy]⟩
    | queue hc ho hy => exact ⟨_, hc, by simp [Cell.edges, ho, Obj.children, hy]⟩
    | list hc ho hy => exact ⟨_, hc, by simp [Cell.edges, ho, Obj.children, hy]⟩
    | mapKey hc ho he =>
      exact ⟨_, hc, List.mem_append_right _ (by rw [ho]; exact List.mem_flatMap.mpr ⟨_, he, by simp⟩)⟩
    | mapVal hc ho he =>
      exact ⟨_, hc, List.mem_append_right _ (by rw [ho]; exact List.mem_flatMap.mpr ⟨_, he, by simp⟩)⟩
    | envKey hc ho he =>
      exact ⟨_, hc, List.mem_append_right _ (by
        rw [ho]; exact List.mem_append_left _ (List.mem_flatMap.mpr ⟨_, he, by simp⟩))⟩
    | envVal hc ho he =>
      exact ⟨_, hc, List.mem_append_right _ (by
        rw [ho]; exact List.mem_append_left _ (List.mem_flatMap.mpr ⟨_, he, by simp⟩))⟩
    | enclosing hc ho =>
      exact ⟨_, hc, List.mem_append_right _ (by rw [ho]; exact List.mem_append_right _ (by simp))⟩
    | formals hc ho => exact ⟨_, hc, by rcases ho with ho | ho <;> simp [Cell.edges, ho, Obj.children]⟩
    | body hc ho => exact ⟨_, hc, by rcases ho with ho | ho <;> simp [Cell.edges, ho, Obj.children]⟩
    | defEnv hc ho => exact ⟨_, hc, by rcases ho with ho | ho <;> simp [Cell.edges, ho, Obj.children]⟩

/-- reachable from the stack -/
def Reachable (v : Vm) : Ref → Prop := Reach (Holds v.mem) (· ∈ v.stack)

theorem c22_kept_aux (v : Vm) (r : Ref) : v.Kept r ↔ Reachable v r :=
  ⟨Reach.congr fun x y h => (c22_edges_aux _ x y).mp h, Reach.congr fun x y h => (c22_edges_aux _ x y).mpr h⟩

/-- A well-formed virtual machine: `all` lists the live values, each once, nothing is marked, and
everything reachable is live. -/
structure WellFormed (v : Vm) : Prop where
  nodup : v.all.Nodup
  dom : ∀ r, r ∈ v.all ↔ (v.mem r).isSome
  unmarked : ∀ r c, v.mem r = some c → c.mark = false
  live : ∀ r, Reachable v r → (v.mem r).isSome

theorem c22_wf_aux (v : Vm) : v.Wf ↔ WellFormed v := by
  constructor
  · rintro ⟨h1, h2, h3, h4⟩
    exact ⟨h1, h2, h3, fun r hr => h4 r ((c22_kept_aux v r).mpr hr)⟩
  · rintro ⟨h1, h2, h3, h4⟩
    exact ⟨h1, h2, h3, fun r hr => h4 r ((c22_kept_aux v r).mp hr)⟩

/-- A collection of a well-formed heap returns; it keeps the reachable values unchanged and
unmarked, releases all others, and leaves a well-formed heap with the same reachable values. -/
theorem c22_collect_partial (v : Vm) (wf : WellFormed v) : ∃ w, gc v = .ok ((), w) ∧
    (∀ r, Reachable v r → ∃ c, w.mem r = some c ∧ v.mem r = some c ∧ c.mark = false) ∧
    (∀ r, ¬ Reachable v r → w.mem r = none ∧ r ∉ w.all) ∧
    WellFormed w ∧ (∀ r, Reachable w r ↔ Reachable v r) ∧
    w = { v with mem := w.mem, all := w.all } := by
  have wf' := (c22_wf_aux v).mpr wf
  obtain ⟨m, all, e, _⟩ := gc_spec wf'
  obtain ⟨h1, h2, h3, h4, h5, h6⟩ := gc_wf wf' e
  refine ⟨_, e, ?_, ?_, (c22_wf_aux _).mp h1, ?_, h6⟩
  · intro r hr
    obtain ⟨c, hc⟩ := Option.isSome_iff_exists.mp (wf.live r hr)
    exact ⟨c, by rw [h2 r ((c22_kept_aux v r).mpr hr), hc], hc, wf.unmarked r c hc⟩
  · intro r hr
    have := h4 r (fun h => hr ((c22_kept_aux v r).mp h))
    exact ⟨this, fun h => by rw [h1.dom, this] at h; cases h⟩
  · intro r
    rw [← c22_kept_aux, ← c22_kept_aux]; exact h3 r

theorem c22_denotes_aux (v w : Vm) (wf : WellFormed v) (h : gc v = .ok ((), w)) (r : Ref)
    (hr : Reachable v r) (d : Data) : Denotes v.mem r d → Denotes w.mem r d := by
  obtain ⟨w', e, h1, _⟩ := c22_collect_partial v wf
  rw [e] at h
  cases h
  have keep : ∀ x, Reachable v x → ∀ c, v.mem x = some c → w.mem x = some c := by
    intro x hx c hc
    obtain ⟨c', h2, h3, _⟩ := h1 x hx
    rw [h3] at hc; cases hc; exact h2
  intro hd
  induction hd with
  | @atom r c d hc ha => exact .atom (keep r hr c hc) ha
  | @vec r c rs ds hc ho hl hd ih =>
    exact .vec (keep r hr c hc) ho hl fun i x d hx hdx =>
      ih i x d hx hdx (hr.step (.vec hc ho (List.mem_of_getElem? hx)))
  | @queue r c rs ds mx hc ho hl hd ih =>
    exact .queue (keep r hr c hc) ho hl fun i x d hx hdx =>
      ih i x d hx hdx (hr.step (.queue hc ho (List.mem_of_getElem? hx)))
  | @list r c rs ds hc ho hl hd ih =>
    exact .list (keep r hr c hc) ho hl fun i x d hx hdx =>
      ih i x d hx hdx (hr.step (.list hc ho (List.mem_of_getElem? hx)))
  | @hmap r c nb es ds hc ho hl hk hv ihk ihv =>
    exact .hmap (keep r hr c hc) ho hl
      (fun i e d he hde => ihk i e d he hde (hr.step (.mapKey hc ho (List.mem_of_getElem? he))))
      (fun i e d he hde => ihv i e d he hde (hr.step (.mapVal hc ho (List.mem_of_getElem? he))))

/-- Everything that can be observed of reachable values is unchanged by a collection: what they
denote, how two of them compare (with the same number of steps, also for cyclic values), their
hashes and their unique ids. -/
theorem c22_observations (v w : Vm) (wf : WellFormed v) (h : gc v = .ok ((), w)) (r : Ref)
    (hr : Reachable v r) :
    (∀ d, Denotes v.mem r d → Denotes w.mem r d) ∧
    (∀ n s, Reachable v s → compareRef w.mem n r s = compareRef v.mem n r s) ∧
    hashRef w.mem r = hashRef v.mem r ∧
    (w.mem r).map (·.uid) = (v.mem r).map (·.uid) := by
  refine ⟨fun d => c22_denotes_aux v w wf h r hr d, ?_⟩
  obtain ⟨w', e, h1, _⟩ := c22_collect_partial v wf
  rw [e] at h
  cases h
  have keep : ∀ x, Reachable v x → v.mem x = w.mem x := by
    intro x hx
    obtain ⟨c', h2, h3, _⟩ := h1 x hx
    rw [h2, h3]
  refine ⟨fun n s hs => ?_, ?_, ?_⟩
  · exact (compareRef_agree (P := Reachable v) keep
      (fun x c hx hc y hy => hx.step ((c22_edges_aux _ _ _).mp
        ⟨c, hc, List.mem_append_right _ hy⟩)) n r s hr hs).symm
  · unfold hashRef Mem.read; rw [keep r hr]
  · rw [keep r hr]

/-! ### what is not kept, and an example -/

/-- cells at the addresses 0, 1, 2 … -/
def cellsOf (cs : List Cell) : Mem := fun r => cs[r]?

/-- an environment that contains a function defined in it (a cycle), the parts of the function, its
documentation vector, and an unreachable cycle of two vectors -/
def c22_cells : List Cell := [
  { obj := .env [⟨txt "f", 1, 2⟩] none, uid := 0 },
  { obj := .sym (txt "f"), uid := 1 },
  { obj := .fn ⟨txt "f", txt "doc", 3, 4, 0, true⟩, uid := 2, docstr := some 5, docvec := some 6 },
  { obj := .vec [], uid := 3 },
  { obj := .vec [3], uid := 4 },
  { obj := .str (txt "doc"), uid := 5 },
  { obj := .vec [], uid := 6 },
  { obj := .vec [8], uid := 7 },
  { obj := .vec [7], uid := 8 }]

def c22_vm : Vm where
  mem := cellsOf c22_cells
  all := [0, 1, 2, 3, 4, 5, 6, 7, 8]
  stack := [0]
  nextUid := 9
  functionReturn := some 7
  globalEnv := 0
  valueNil := 0
  valueTrue := 0
  valueFalse := 0

/-- the addresses 0 … 5 -/
def c22_low : List Ref := [0, 1, 2, 3, 4, 5]

theorem c22_reach_vm_aux (r : Ref) (h : c22_vm.Kept r) : r ∈ c22_low := by
  refine h.closed (P := fun r => r ∈ c22_low) (fun x hx => ?_) ?_
  · simp [c22_vm] at hx; subst hx; decide
  · rintro x y hx ⟨c, hc, hy⟩
    simp [c22_low] at hx
    rcases hx with rfl | rfl | rfl | rfl | rfl | rfl <;> simp [c22_vm, cellsOf, c22_cells] at hc <;>
      subst hc <;> simp [Cell.edges, Obj.children] at hy
    · rcases hy with rfl | rfl <;> decide
    · rcases hy with rfl | rfl | rfl | rfl <;> decide
    · subst hy; decide

theorem c22_vm_wf_aux : WellFormed c22_vm := by
  rw [← c22_wf_aux]
  refine ⟨by decide, ?_, ?_, ?_⟩
  · intro r
    have e : c22_vm.all = List.range c22_cells.length := rfl
    rw [e, List.mem_range]
    simp only [c22_vm, cellsOf]
    simp
  · intro r c hc
    simp only [c22_vm, cellsOf] at hc
    have := List.mem_of_getElem? hc
    simp [c22_cells] at this
    rcases this with rfl | rfl | rfl | rfl | rfl | rfl | rfl | rfl | rfl <;> rfl
  · intro r hr
    have := c22_reach_vm_aux r hr
    simp [c22_low] at this
    rcases this with rfl | rfl | rfl | rfl | rfl | rfl <;> decide

/-- The hypotheses can be met: here the environment, the function and its parts are kept, and the
unreachable cycle is released. -/
example : WellFormed c22_vm ∧ Reachable c22_vm 4 ∧ Reachable c22_vm 5 ∧ ¬ Reachable c22_vm 7 := by
  refine ⟨c22_vm_wf_aux, ?_, ?_, ?_⟩
  · have h2 : Reachable c22_vm 2 := Reach.step (x := 0) (.root (by simp [c22_vm]))
      (.envVal (c := { obj := .env [⟨txt "f", 1, 2⟩] none, uid := 0 }) (b := ⟨txt "f", 1, 2⟩) rfl rfl (by simp))
    exact h2.step (.body (f := ⟨txt "f", txt "doc", 3, 4, 0, true⟩) rfl (.inl rfl))
  · have h2 : Reachable c22_vm 2 := Reach.step (x := 0) (.root (by simp [c22_vm]))
      (.envVal (c := { obj := .env [⟨txt "f", 1, 2⟩] none, uid := 0 }) (b := ⟨txt "f", 1, 2⟩) rfl rfl (by simp))
    exact h2.step (.doc rfl rfl)
  · intro h
    exact absurd (c22_reach_vm_aux 7 ((c22_kept_aux _ _).mpr h)) (by decide)

/-- The documentation vector of a reachable function is released: the function stays with a pointer
to a value that is gone. -/
theorem c22_docvec_released : ∃ v w f c d, WellFormed v ∧ gc v = .ok ((), w) ∧ Reachable v f ∧
    w.mem f = some c ∧ c.docvec = some d ∧ (v.mem d).isSome ∧ w.mem d = none := by
  obtain ⟨w, e, h1, h2, _⟩ := c22_collect_partial c22_vm c22_vm_wf_aux
  have hf : Reachable c22_vm 2 := Reach.step (x := 0) (.root (by simp [c22_vm]))
    (.envVal (c := { obj := .env [⟨txt "f", 1, 2⟩] none, uid := 0 }) (b := ⟨txt "f", 1, 2⟩) rfl rfl (by simp))
  obtain ⟨c, hc, hc', _⟩ := h1 2 hf
  refine ⟨c22_vm, w, 2, c, 6, c22_vm_wf_aux, e, hf, hc, ?_, rfl, ?_⟩
  · cases hc'; rfl
  · exact (h2 6 fun h => absurd (c22_reach_vm_aux 6 ((c22_kept_aux _ _).mpr h)) (by decide)).1

/-- The value of a pending `return` is not a root: a collection releases it. -/
theorem c22_function_return_released : ∃ v w r, WellFormed v ∧ gc v = .ok ((), w) ∧
    v.functionReturn = some r ∧ (v.mem r).isSome ∧ w.functionReturn = some r ∧ w.mem r = none := by
  obtain ⟨w, e, h1, h2, _, _, h3⟩ := c22_collect_partial c22_vm c22_vm_wf_aux
  refine ⟨c22_vm, w, 7, c22_vm_wf_aux, e, rfl, rfl, by rw [h3]; rfl, ?_⟩
  exact (h2 7 fun h => absurd (c22_reach_vm_aux 7 ((c22_kept_aux _ _).mpr h)) (by decide)).1

end Dern.Props
