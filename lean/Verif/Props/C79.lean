import Verif.Dern.Release
import Verif.Props.C18
import Verif.Props.C22
import Verif.Props.Machine
/-
C79: every value is given back to the allocator exactly once.
-/
namespace Dern.Props
open Dern Dern.Release Dern.Spec
open Dern.Spec (position)

/-! ### Specification -/

/-- a vector holds these values -/
def Stores (v : Vec Ref) (rs : List Ref) : Prop := v.Inv ∧ v.elems = rs.map some

/-! ### Proofs -/

theorem c79_num_aux {v : Vec Ref} {rs : List Ref} (h : Stores v rs) : v.num = rs.length := by
  rw [← Vec.elems_length h.1, h.2, List.length_map]

theorem c79_index_aux {v : Vec Ref} {rs : List Ref} (h : Stores v rs) {i : Nat} (hi : i < rs.length) : v.index (i : Int) = some i := by
  rw [Vec.index_eq, c79_num_aux h]
  unfold position
  rw [if_pos (by omega), if_pos (by omega)]
  simp

theorem c79_get_aux {v : Vec Ref} {rs : List Ref} (h : Stores v rs) {i : Nat} {r : Ref} (hi : rs[i]? = some r) : v.getAt (i : Int) = some (some (some r)) := by
  have hl : i < rs.length := (List.getElem?_eq_some_iff.mp hi).1
  have e := Vec.elems_get (v := v) i
  rw [c79_num_aux h, if_pos hl, h.2, List.getElem?_map, hi] at e
  unfold Vec.getAt
  rw [c79_index_aux h hl]
  simp only [← e, Option.map_some]

theorem c79_remove_aux {v : Vec Ref} {pre post : List Ref} {r : Ref} (h : Stores v (pre ++ r :: post)) :
    ∃ w, v.removeAt (pre.length : Int) = some (w, true) ∧ Stores w (pre ++ post) := by
  obtain ⟨w, h1, h2, _, h4, _⟩ := Vec.removeAt_ok h.1 _ (c79_index_aux h (i := pre.length) (by simp))
  refine ⟨w, h1, h2, ?_⟩
  rw [h4, h.2]
  simp [List.drop_append]

/-- the loop over the vector is the pass over the list -/
theorem c79_sweep_aux : ∀ (rest kept : List Ref) (m m' : Mem) (keep : List Ref) (all : Vec Ref) (n : Nat), rest.length ≤ n → Stores all (kept ++ rest) →
    sweepFrom m rest = .ok (m', keep) →
    ∃ all' gone, sweepLoop n m all kept.length = .ok (m', all', gone) ∧ Stores all' (kept ++ keep) ∧ (gone ++ keep).Perm rest ∧ gone.Sublist rest := by
  intro rest
  induction rest with
  | nil =>
    intro kept m m' keep all n _ hs h
    simp only [sweepFrom] at h
    cases h
    have hn : ¬ kept.length < all.num := by rw [c79_num_aux hs]; simp
    refine ⟨all, [], ?_, hs, .nil, .slnil⟩
    cases n <;> simp only [sweepLoop, if_neg hn]
  | cons r rest ih =>
    intro kept m m' keep all n hn hs h
    cases n with
    | zero => simp at hn
    | succ n =>
      simp only [List.length_cons] at hn
      have hlt : kept.length < all.num := by rw [c79_num_aux hs]; simp
      have hg := c79_get_aux hs (i := kept.length) (r := r) (by simp)
      simp only [sweepFrom] at h
      cases hr : m.read r with
      | error e => rw [hr] at h; cases h
      | ok c =>
        rw [hr] at h
        change (if c.mark = true then _ else _) = _ at h
        by_cases hc : c.mark = true
        · rw [if_pos hc] at h
          cases hsw : sweepFrom (m.set r { c with mark := false }) rest with
          | error e => rw [hsw] at h; cases h
          | ok x =>
            obtain ⟨m1, k1⟩ := x
            rw [hsw] at h
            cases h
            obtain ⟨all', gone, g1, g2, g3, g4⟩ := ih (kept ++ [r]) _ _ _ all n (by omega) (by simpa using hs) hsw
            refine ⟨all', gone, ?_, by simpa using g2, ?_, g4.cons _⟩
            · simp only [sweepLoop, if_pos hlt, hg, hr]
              show (if c.mark = true then _ else _) = _
              rw [if_pos hc]
              simpa using g1
            · exact List.perm_middle.trans (g3.cons r)
        · rw [if_neg hc] at h
          obtain ⟨w, r1, r2⟩ := c79_remove_aux hs
          obtain ⟨all', gone, g1, g2, g3, g4⟩ := ih kept _ _ _ w n (by omega) r2 h
          refine ⟨all', r :: gone, ?_, g2, g3.cons r, g4.cons_cons r⟩
          simp only [sweepLoop, if_pos hlt, hg, hr]
          show (if c.mark = true then _ else _) = _
          rw [if_neg hc]
          simp only [releaseValue, hr, bind, Except.bind, if_true, r1, g1]

theorem c79_mark_aux (depth : Nat) {stack : Vec Ref} : ∀ (rest seen : List Ref) (m m' : Mem) (n : Nat), rest.length ≤ n → Stores stack (seen ++ rest) →
    markList (markRef depth) m rest = .ok m' → markLoop depth stack n m seen.length = .ok m' := by
  intro rest
  induction rest with
  | nil =>
    intro seen m m' n _ hs h
    cases h
    have hn : ¬ seen.length < stack.num := by rw [c79_num_aux hs]; simp
    cases n <;> simp only [markLoop, if_neg hn]
  | cons r rest ih =>
    intro seen m m' n hn hs h
    cases n with
    | zero => simp at hn
    | succ n =>
      simp only [List.length_cons] at hn
      have hlt : seen.length < stack.num := by rw [c79_num_aux hs]; simp
      simp only [markList] at h
      cases hr : markRef depth m r with
      | error e => rw [hr] at h; cases h
      | ok m1 =>
        rw [hr] at h
        have := ih (seen ++ [r]) m1 m' n (by omega) (by simpa using hs) h
        simp only [markLoop, if_pos hlt, c79_get_aux hs (i := seen.length) (r := r) (by simp), hr]
        rw [List.length_append] at this
        exact this

theorem c79_collect_aux {v w : Vm} (h : gc v = .ok ((), w)) {all stack : Vec Ref} (ha : Stores all v.all) (hs : Stores stack v.stack.reverse) :
    ∃ all' gone, collect v.mem all stack = .ok (w.mem, all', gone) ∧ Stores all' w.all ∧ (gone ++ w.all).Perm v.all ∧ gone.Sublist v.all := by
  unfold gc at h
  cases h1 : markList (markRef (v.all.length + 1)) v.mem v.stack.reverse with
  | error e => simp only [h1] at h; cases h
  | ok m1 =>
    simp only [h1] at h
    cases h2 : sweepFrom m1 v.all with
    | error e => simp only [bind, Except.bind, h2] at h; cases h
    | ok x =>
      obtain ⟨m2, keep⟩ := x
      simp only [bind, Except.bind, h2] at h
      cases h
      obtain ⟨all', gone, g1, g2, g3, g4⟩ := c79_sweep_aux v.all [] m1 m2 keep all v.all.length (Nat.le_refl _) ha h2
      refine ⟨all', gone, ?_, g2, g3, g4⟩
      have := c79_mark_aux (v.all.length + 1) v.stack.reverse [] v.mem m1 v.stack.reverse.length (Nat.le_refl _) hs h1
      simp only [collect, c79_num_aux ha, c79_num_aux hs]
      simp only [List.length_nil] at this g1
      rw [this]
      exact g1

theorem c79_clear_aux {v : Vec Ref} {rs : List Ref} (h : Stores v rs) : ∃ w, v.clear = some (w, true) ∧ Stores w [] := by
  obtain ⟨w, h1, h2, h3, _⟩ := c18_step_aux Growth.exact v rs .clear h.1 h.2
  exact ⟨w, h1, h2, h3⟩

/-! ### Theorems -/

/-- A collection with the vectors of the code does what the collection of `Vm.lean` does; the values that were released and those that stay are together the values there were, each
once. -/
theorem c79_collection {v w : Vm} (wf : WellFormed v) (h : gc v = .ok ((), w)) {all stack : Vec Ref} (ha : Stores all v.all) (hs : Stores stack v.stack.reverse) :
    ∃ all' gone, collect v.mem all stack = .ok (w.mem, all', gone) ∧ Stores all' w.all ∧ gone.Nodup ∧
      ∀ r, r ∈ gone ↔ (v.mem r).isSome ∧ ¬ Reachable v r := by
  obtain ⟨all', gone, g1, g2, g3, g4⟩ := c79_collect_aux h ha hs
  obtain ⟨w', e, c1, c2, c3, _⟩ := c22_collect_partial v wf
  rw [h] at e; cases e
  refine ⟨all', gone, g1, g2, g4.nodup wf.nodup, fun r => ?_⟩
  have hnd : (gone ++ w.all).Nodup := g3.nodup_iff.mpr wf.nodup
  have hm : r ∈ gone ∨ r ∈ w.all ↔ (v.mem r).isSome := by rw [← wf.dom, ← g3.mem_iff, List.mem_append]
  constructor
  · intro hr
    refine ⟨hm.mp (.inl hr), fun hk => ?_⟩
    obtain ⟨c, hc, _⟩ := c1 r hk
    exact (List.nodup_append.mp hnd).2.2 r hr r ((c3.dom r).mpr (by rw [hc]; rfl)) rfl
  · rintro ⟨h1, h2⟩
    exact (hm.mpr h1).resolve_right fun h3 => (c2 r h2).2 h3

theorem c79_release_aux {v : Vm} (nodup : v.all.Nodup) (dom : ∀ r, r ∈ v.all ↔ (v.mem r).isSome) (unmarked : ∀ r c, v.mem r = some c → c.mark = false) {all stack : Vec Ref} (ha : Stores all v.all) (hs : Stores stack v.stack.reverse) :
    ∃ m all' gone, release v.mem all stack = .ok (m, all', gone) ∧ (∀ r, m r = none) ∧ Stores all' [] ∧ gone.Nodup ∧ ∀ r, r ∈ gone ↔ (v.mem r).isSome := by
  obtain ⟨empty, e1, e2⟩ := c79_clear_aux hs
  have none_ : ∀ r, ¬ Reachable { v with stack := [] } r := by
    intro r hr
    induction hr with
    | root h => cases h
    | step _ _ ih => exact ih
  have wf' : WellFormed { v with stack := [] } := ⟨nodup, dom, unmarked, fun r hr => (none_ r hr).elim⟩
  obtain ⟨w, h, _, h2, h3, _⟩ := c22_collect_partial _ wf'
  obtain ⟨all', gone, g1, g2, g3, g4⟩ := c79_collection wf' h ha e2
  have hall : w.all = [] := by
    cases hw : w.all with
    | nil => rfl
    | cons r _ => exact absurd (by rw [hw]; exact .head _) (h2 r (none_ r)).2
  rw [hall] at g2
  refine ⟨w.mem, all', gone, ?_, fun r => (h2 r (none_ r)).1, g2, g3, fun r => (g4 r).trans ⟨And.left, fun h => ⟨h, none_ r⟩⟩⟩
  simp only [release, e1]
  exact g1

/-- Releasing a machine, whatever a host program did with it before and whatever is on its stack, gives back every value there is, each exactly once, and nothing is left. -/
theorem c79_release {W : World} {L : Prog.Library} (hL : L.Safe) {v : Vm} (hr : v.Reached W L) {all stack : Vec Ref} (ha : Stores all v.all) (hs : Stores stack v.stack.reverse) :
    ∃ m all' gone, release v.mem all stack = .ok (m, all', gone) ∧ (∀ r, m r = none) ∧ Stores all' [] ∧ gone.Nodup ∧ ∀ r, r ∈ gone ↔ (v.mem r).isSome := by
  obtain ⟨sv, _⟩ := hr.good hL
  exact c79_release_aux sv.nodup sv.dom sv.unmarked ha hs

/-- A value that has been released is never there again, so what is released at the end has not been released before. -/
theorem c79_once {W : World} {L : Prog.Library} (hL : L.Safe) {v w : Vm} (hr : v.Reached W L) (hl : Vm.Leads W L v w) {r : Ref} (ho : v.Old W r) (hg : v.mem r = none) {all stack : Vec Ref}
    (ha : Stores all w.all) (hs : Stores stack w.stack.reverse) : w.mem r = none ∧ ∃ m all' gone, release w.mem all stack = .ok (m, all', gone) ∧ r ∉ gone := by
  obtain ⟨sv, cv⟩ := hr.good hL
  have hw := Vm.Leads.good hL sv cv hl
  have hn := hw.later.gone r ho hg
  obtain ⟨m, all', gone, g1, _, _, _, g4⟩ := c79_release_aux hw.sane.nodup hw.sane.dom hw.sane.unmarked ha hs
  exact ⟨hn, m, all', gone, g1, fun h => by have := (g4 r).mp h; rw [hn] at this; cases this⟩

/-! ### Examples -/

/-- every list of values is stored in some vector -/
theorem c79_stored_aux (rs : List Ref) : ∃ v, Stores v rs := by
  have : ∀ (rs : List Ref) (v : Vec Ref) (pre : List Ref), Stores v pre → ∃ w, Stores w (pre ++ rs) := by
    intro rs
    induction rs with
    | nil => intro v pre h; exact ⟨v, by simpa using h⟩
    | cons r rs ih =>
      intro v pre h
      obtain ⟨w, _, h2, h3, _⟩ := c18_step_aux Growth.exact v pre (.pushBack r) h.1 h.2
      obtain ⟨u, hu⟩ := ih w (pre ++ [r]) ⟨h2, h3⟩
      exact ⟨u, by simpa using hu⟩
  exact this rs (Vec.new 1) [] ⟨c18_new_aux _, by simp [Vec.elems, Vec.new]⟩

/-- a machine with a vector of two vectors on its stack: fifteen values are released -/
example : ∃ (v : Vm) (all stack : Vec Ref) (m : Mem) (all' : Vec Ref) (gone : List Ref), v.Reached world library ∧ v.stack.length = 2 ∧ release v.mem all stack = .ok (m, all', gone) ∧ (∀ r, m r = none) ∧ gone.Nodup ∧
    15 ≤ gone.length := by
  obtain ⟨v, r, h1, h2⟩ := build_exists (f := .vec [.vec [.int 1, .int 2], .vec [.str "a"]]) (fuel := 5)
    (P := fun v _ => decide (v.stack.length = 2) && decide (15 ≤ v.all.length)) (by decide +kernel)
  simp only [Bool.and_eq_true, decide_eq_true_eq] at h2
  obtain ⟨all, ha⟩ := c79_stored_aux v.all
  obtain ⟨stack, hs⟩ := c79_stored_aux v.stack.reverse
  obtain ⟨m, all', gone, g1, g2, g3, g4, g5⟩ := c79_release library_safe h1 ha hs
  refine ⟨v, all, stack, m, all', gone, h1, h2.1, g1, g2, g4, ?_⟩
  have hp : gone.Perm v.all := (List.perm_ext_iff_of_nodup g4 (h1.good library_safe).1.nodup).mpr fun r =>
    (g5 r).trans ((h1.good library_safe).1.dom r).symm
  rw [hp.length_eq]
  exact h2.2

/-- a collection in the heap of C22: some values stay and some go -/
example : ∃ w all stack all' gone, gc c22_vm = .ok ((), w) ∧ collect c22_vm.mem all stack = .ok (w.mem, all', gone) ∧ 7 ∈ gone ∧ 2 ∉ gone := by
  obtain ⟨w, e, _⟩ := c22_collect_partial c22_vm c22_vm_wf_aux
  obtain ⟨all, ha⟩ := c79_stored_aux c22_vm.all
  obtain ⟨stack, hs⟩ := c79_stored_aux c22_vm.stack.reverse
  obtain ⟨all', gone, g1, _, _, g4⟩ := c79_collection c22_vm_wf_aux e ha hs
  refine ⟨w, all, stack, all', gone, e, g1, (g4 7).mpr ⟨rfl, fun h => absurd (c22_reach_vm_aux 7 ((c22_kept_aux _ _).mpr h)) (by decide)⟩, fun h => ?_⟩
  refine ((g4 2).mp h).2 (Reach.step (x := 0) (.root (by simp [c22_vm])) ?_)
  exact .envVal (c := { obj := .env [⟨txt "f", 1, 2⟩] none, uid := 0 }) (b := ⟨txt "f", 1, 2⟩) rfl rfl (by simp)

end Dern.Props
