import Verif.Dern.CopyData
import Verif.Props.C13
import Verif.Props.Machine
/-
C16: copies are equal and independent.

`CopyReturns W L v x r w`: octaspire_dern_vm_create_new_value_copy, called in the state `v` with the value
`x`, returns the value `r` and leaves the state `w` (it may allocate, and so collect).

`Mem.Part m x y`: `y` is an element of `x`, a key or a value of the hash map `x` …; its closure `Reach`
gives all parts of a value.

Partial: only for data in the sense of `Denotes` whose parts are not special forms, builtin functions
or ports.  Copying never terminates normally for environments, functions and macros (below), and ports
are not modelled.  Negative: the copy of a queue has no maximal length, even if the original has one.
-/
namespace Dern.Props
open Dern Dern.Spec
open Dern.Prog (Library)
variable {W : World} {L : Library}

/-- a call of octaspire_dern_vm_create_new_value_copy that returns -/
def CopyReturns (W : World) (L : Library) (v : Vm) (x r : Ref) (w : Vm) : Prop :=
  ∃ n, run W n (handler W (Prog.body L) n) (Prog.copyValue x) v = .ok (some r, w, [])

theorem c16_ok_aux {v w : Vm} {x r : Ref} (hL : L.Safe) (hv : v.Reached W L) (hx : v.Old W x)
    (h : CopyReturns W L v x r w) : CopyOk W v x r w := by
  obtain ⟨n, h⟩ := h
  obtain ⟨s, c⟩ := hv.good hL
  obtain ⟨_, r', e, k⟩ := wp_copyValue (n := n) (handler_copies n) s c hx _ _ _ h
  cases e
  exact k

/-- The copy denotes the same data as the original did, up to the order of the entries of hash maps. -/
theorem c16_data_partial (hL : L.Safe) {v w : Vm} (hv : v.Reached W L) {x r : Ref} (hx : v.Old W x)
    (h : CopyReturns W L v x r w) {d : Data} (hd : Denotes v.mem x d) (hp : d.Plainly) :
    ∃ d', Denotes w.mem r d' ∧ d.Reordered d' :=
  (c16_ok_aux hL hv hx h).copied.denotes d hd hp

/-- Copying does not change any value in use: not the original, if it is in use, and nothing else
either.  A value not in use is not changed but may be collected; the stack stays as it is. -/
theorem c16_original_unchanged (hL : L.Safe) {v w : Vm} (hv : v.Reached W L) {x r : Ref} (hx : v.Old W x)
    (h : CopyReturns W L v x r w) : w.stack = v.stack ∧ (∀ y, v.Kept y → w.mem y = v.mem y) ∧
      ∀ y c, v.mem y = some c → w.mem y = some c ∨ w.mem y = none := by
  have k := c16_ok_aux hL hv hx h
  exact ⟨k.stack, k.pure.kept, k.pure.cells⟩

/-- All parts of the copy are new values: none of them existed before the call. -/
theorem c16_fresh (hL : L.Safe) {v w : Vm} (hv : v.Reached W L) {x r : Ref} (hx : v.Old W x)
    (h : CopyReturns W L v x r w) {z : Ref} (hz : Reach w.mem.Part (· = r) z) : ¬ v.Old W z ∧ v.mem z = none := by
  have k := c16_ok_aux hL hv hx h
  have fr := k.copied.parts z hz
  refine ⟨fr, ?_⟩
  cases e : v.mem z with
  | none => rfl
  | some c => exact absurd ((hv.good hL).1.old z c e) fr

/-- The copy and any value that existed before have no part in common. -/
theorem c16_disjoint (hL : L.Safe) {v w : Vm} (hv : v.Reached W L) {x r : Ref} (hx : v.Old W x)
    (h : CopyReturns W L v x r w) {y z : Ref} (hy : v.Old W y) (hz : Reach w.mem.Part (· = r) z)
    (hz' : Reach w.mem.Part (· = y) z) : False := by
  have k := c16_ok_aux hL hv hx h
  refine (c16_fresh hL hv hx h hz).1 ?_
  refine Reach.closed (P := v.Old W) (by rintro a rfl; exact hy) ?_ hz'
  rintro a b ha ⟨c, hc, hb⟩
  cases e : v.mem a with
  | none => rw [k.pure.gone a ha e] at hc; cases hc
  | some d =>
    rcases k.pure.cells a d e with e' | e'
    · rw [e'] at hc; cases hc; exact ((hv.good hL).2.cells a _ e).obj.children hb
    · rw [e'] at hc; cases hc

/-- Independence: however the memory is changed later, as long as the parts of the copy are left alone
the copy denotes the same data, and as long as the parts of the original are left alone the original
does.  By `c16_disjoint` changing the parts of the one leaves the parts of the other alone. -/
theorem c16_independent (hL : L.Safe) {v w : Vm} (hv : v.Reached W L) {x r : Ref} (hx : v.Old W x)
    (h : CopyReturns W L v x r w) (m : Mem) :
    ((∀ z, ¬ Reach w.mem.Part (· = x) z → m z = w.mem z) → ∀ d, Denotes w.mem r d → Denotes m r d) ∧
    ((∀ z, ¬ Reach w.mem.Part (· = r) z → m z = w.mem z) → ∀ d, Denotes w.mem x d → Denotes m x d) :=
  ⟨fun hm _ hd => hd.parts fun z hz => hm z fun hz' => c16_disjoint hL hv hx h hx hz hz',
    fun hm _ hd => hd.parts fun z hz => hm z fun hz' => c16_disjoint hL hv hx h hx hz' hz⟩

/-- If the original is in use and has regular data (see C13), then afterwards the program's equality says
that the copy is equal to it. -/
theorem c16_equal_partial (hL : L.Safe) {v w : Vm} (hv : v.Reached W L) {x r : Ref} (hx : v.Kept x)
    (h : CopyReturns W L v x r w) {lo : Int} {d : Data} (hd : Comparable v.mem lo x d) (hp : d.Plainly) :
    Equal w.mem x r true ∧ Equal w.mem r x true := by
  have hx' := kept_old (hv.good hL).2 hx
  obtain ⟨d', h1, h2⟩ := c16_data_partial hL hv hx' h hd.1 hp
  obtain ⟨hr, hs⟩ := Reordered.regular h2 hd.2.1
  have hxw : Denotes w.mem x d := hd.1.parts fun z hz =>
    (c16_original_unchanged hL hv hx' h).2.1 z (by
      induction hz with
      | root e => cases e; exact hx
      | step _ he ih =>
        obtain ⟨c, hc, hb⟩ := he
        exact ih.step ⟨c, hc, by unfold Cell.edges; exact List.mem_append_right _ hb⟩)
  have a : Comparable w.mem lo x d := ⟨hxw, hd.2⟩
  have b : Comparable w.mem lo r d' := ⟨h1, hr, Reordered.window h2 hd.2.2⟩
  exact ⟨(c13_decides_partial a b).1.mpr hs, (c13_decides_partial b a).1.mpr (same_symm hs hd.2.1 hr)⟩

/-! ### negative results -/

/-- copying a function, a macro or an environment never returns -/
theorem c16_functions_crash {v w : Vm} {x r : Ref} {c : Cell} (hc : v.mem x = some c)
    (ho : (∃ f, c.obj = .fn f) ∨ (∃ f, c.obj = .mac f) ∨ ∃ es enc, c.obj = .env es enc) (hL : L.Safe)
    (hv : v.Reached W L) (hx : v.Old W x) : ¬ CopyReturns W L v x r w := by
  intro h
  have k := (c16_ok_aux hL hv hx h).copied
  cases k with
  | simple h1 h2 h3 h4 h5 =>
    obtain rfl := same_cell hc h1
    rcases ho with ⟨f, e⟩ | ⟨f, e⟩ | ⟨es, enc, e⟩ <;> rw [e] at h4 <;> cases h4
  | seq h1 h2 h3 h4 h5 _ =>
    obtain rfl := same_cell hc h1
    rcases ho with ⟨f, e⟩ | ⟨f, e⟩ | ⟨es, enc, e⟩ <;> rw [e] at h4 <;> cases h4
  | hmap h1 h2 h3 h4 h5 h6 _ _ =>
    obtain rfl := same_cell hc h1
    rcases ho with ⟨f, e⟩ | ⟨f, e⟩ | ⟨es, enc, e⟩ <;> rw [e] at h4 <;> cases h4

/-- the copy of a queue has no maximal length -/
theorem c16_queue_loses_maximum (hL : L.Safe) {v w : Vm} (hv : v.Reached W L) {x r : Ref} (hx : v.Old W x)
    (h : CopyReturns W L v x r w) {c : Cell} {mx : Option Nat} {es : List Ref} (hc : v.mem x = some c)
    (ho : c.obj = .queue mx es) : ∃ c' es', w.mem r = some c' ∧ c'.obj = .queue none es' := by
  have k := (c16_ok_aux hL hv hx h).copied
  cases k with
  | simple h1 h2 h3 h4 h5 => obtain rfl := same_cell hc h1; rw [ho] at h4; cases h4
  | @seq _ _ _ c' ps h1 h2 h3 h4 h5 _ =>
    obtain rfl := same_cell hc h1
    rw [ho] at h5
    exact ⟨c', _, h2, h5⟩
  | hmap h1 h2 h3 h4 h5 h6 _ _ => obtain rfl := same_cell hc h1; rw [ho] at h4; cases h4

/-! ### the hypotheses can be met -/

def c16_returnsCheck (v : Vm) (x : Ref) : Bool :=
  match run world 20 (handler world (Prog.body library) 20) (Prog.copyValue x) v with
  | .ok (some r, w, []) => objAt w (some r) == some (.vec [15, 16])
  | _ => false

/-- a reachable state in which the vector [5, ["a"]] is on the stack, and a call that copies it -/
example : ∃ (v w : Vm) (x r : Ref) (d : Data), v.Reached world library ∧ v.Kept x ∧ v.Old world x ∧
    CopyReturns world library v x r w ∧ Comparable v.mem 0 x d ∧ d.Plainly ∧ d = .vec [.int 5, .vec [.str (txt "a")]] := by
  obtain ⟨v, x, hv, h⟩ := build_exists (f := .vec [.int 5, .vec [.str "a"]]) (fuel := 20)
    (P := fun v x => x == 13 && v.stack.contains 13 && objAt v (some 10) == some (.int 5) && objAt v (some 11) == some (.str (txt "a")) &&
      objAt v (some 12) == some (.vec [11]) && objAt v (some 13) == some (.vec [10, 12]) && c16_returnsCheck v x)
    (by decide +kernel)
  simp only [Bool.and_eq_true, beq_iff_eq, List.contains_iff_mem] at h
  obtain ⟨⟨⟨⟨⟨⟨hx, hs⟩, h10⟩, h11⟩, h12⟩, h13⟩, hc⟩ := h
  subst hx
  have at' : ∀ {r : Ref} {o : Obj}, objAt v (some r) = some o → ∃ c, v.mem r = some c ∧ c.obj = o := by
    intro r o h
    simpa [objAt, Option.map_eq_some_iff] using h
  obtain ⟨c10, m10, o10⟩ := at' h10
  obtain ⟨c11, m11, o11⟩ := at' h11
  obtain ⟨c12, m12, o12⟩ := at' h12
  obtain ⟨c13, m13, o13⟩ := at' h13
  have kept : v.Kept 13 := .root hs
  have d12 : Denotes v.mem 12 (.vec [.str (txt "a")]) := by
    refine .vec m12 o12 rfl ?_
    rintro (_ | i) y d hy hd <;> simp at hy hd
    subst hy hd
    exact .atom m11 (by rw [o11]; rfl)
  have d13 : Denotes v.mem 13 (.vec [.int 5, .vec [.str (txt "a")]]) := by
    refine .vec m13 o13 rfl ?_
    rintro (_ | _ | i) y d hy hd <;> simp at hy hd
    · subst hy hd; exact .atom m10 (by rw [o10]; rfl)
    · subst hy hd; exact d12
  have pa : Printable (txt "a") := by unfold Printable; decide
  unfold c16_returnsCheck at hc
  split at hc
  · rename_i r w e
    refine ⟨v, w, 13, r, _, hv, kept, kept_old (hv.good library_safe).2 kept, ⟨20, e⟩, ⟨d13, ?_, ?_⟩, ?_, rfl⟩
    · refine .plain (.vec (by simp) ?_)
      intro d hd; simp at hd
      rcases hd with rfl | rfl
      · exact .int
      · refine .vec (by simp) ?_
        intro d hd; simp at hd; subst hd; exact .str pa
    · refine .vec ?_
      intro d hd; simp at hd
      rcases hd with rfl | rfl
      · exact .int (by decide) (by decide)
      · refine .vec ?_
        intro d hd; simp at hd; subst hd; exact .leaf (by simp) (by simp [Leaf, dataTag])
    · refine .vec ?_
      intro d hd; simp at hd
      rcases hd with rfl | rfl
      · exact .int
      · refine .vec ?_
        intro d hd; simp at hd; subst hd; exact .str
  · cases hc

end Dern.Props
