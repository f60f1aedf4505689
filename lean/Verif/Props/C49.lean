import Verif.Props.Watching
import Verif.Props.C48
import Verif.Props.C13
/-
C49: elements of containers: `len`, `ln@` on vectors and lists, `find` in a vector and `-=` on a vector.

Two values that denote data are equal if these are the same (`Data.Same`, C13).  `find` gives the positions of all equal
elements, `-=` removes all of them; lengths count elements and characters; `ln@` gives the element itself.
-/
namespace Dern.Props
open Dern
open Dern.Spec (Reach Data)
open Dern.Prog (Library)
variable {W : World} {L : Library}

/-! ### Specification -/

/-- `x` is a value that consists of data on which equality is an equivalence (see C13) -/
def IsData (v : Vm) (x : Ref) : Prop := ∃ d, Denotes v.mem x d ∧ Regular d

/-- the two values are equal data -/
def EqualData (v : Vm) (x y : Ref) : Prop := ∃ d e, Denotes v.mem x d ∧ Denotes v.mem y e ∧ d.Same e

/-- the first value is a vector of data, and there is one more value, that is data -/
def FindData (ts : List Ref) (v : Vm) : Prop := ∃ x y es, ts = [x, y] ∧ v.HasVec x es ∧ (∀ e ∈ es, IsData v e) ∧ IsData v y

/-- what `find` does with a vector and one key -/
inductive FindVecRun (W : World) (ts : List Ref) (v : Vm) (r : Ref) (w : Vm) (tr : List Event) : Prop
  | find {x y es} : ts = [x, y] → v.HasVec x es → GivesPositions W (fun k => ∃ e, es[k]? = some e ∧ EqualData v e y) v r w tr →
      FindVecRun W ts v r w tr

/-- the first value is a vector of data, the others are data that do not contain this vector -/
def MinusData (ts : List Ref) (v : Vm) : Prop := ∃ x ys, ts = x :: ys ∧ (∃ es, v.HasVec x es) ∧ IsData v x ∧
  ∀ y ∈ ys, IsData v y ∧ ¬ Reach v.mem.Part (· = y) x

/-- what `-=` does with a vector and more values: every element equal to one of these is removed, the others stay in order -/
inductive MinusRun (W : World) (ts : List Ref) (v : Vm) (r : Ref) (w : Vm) (tr : List Event) : Prop
  | minus {x ys es} {p : Ref → Bool} : ts = x :: ys → v.HasVec x es → (∀ e ∈ es, p e = true ↔ ∀ y ∈ ys, ¬ EqualData v e y) → r = x →
      Becomes W (.vec (es.filter p)) v x w tr → MinusRun W ts v r w tr

/-- the formals of a function that count: those before a dot -/
def CountedFormals (v : Vm) (fs : List Ref) (n : Nat) : Prop :=
  n ≤ fs.length ∧ (∀ x ∈ fs.take n, ∃ t, v.HasObj x (.sym t) ∧ t ≠ txt ".") ∧ ∀ x, fs[n]? = some x → v.HasObj x (.sym (txt "."))

/-- the length of a value: the number of its characters or elements; 0 for nil and 1 for other atoms; for functions the number
of arguments -/
inductive HasLength (v : Vm) (x : Ref) : Nat → Prop
  | nil : v.HasObj x .nil → HasLength v x 0
  | atom {o} : v.HasObj x o → ((∃ b, o = .bool b) ∨ (∃ n, o = .int n) ∨ (∃ d, o = .real d) ∨ (∃ t, o = .chr t) ∨ ∃ c, o = .cdata c) → HasLength v x 1
  | str {s} : v.HasObj x (.str s) → HasLength v x s.length
  | sym {s} : v.HasObj x (.sym s) → HasLength v x s.length
  | err {m l} : v.HasObj x (.err m l) → HasLength v x m.length
  | vec {es} : v.HasVec x es → HasLength v x es.length
  | queue {max es} : v.HasObj x (.queue max es) → HasLength v x es.length
  | list {es} : v.HasObj x (.list es) → HasLength v x es.length
  | hmap {nb es} : v.HasObj x (.hmap nb es) → HasLength v x es.length
  | env {bs en} : v.HasObj x (.env bs en) → HasLength v x bs.length
  | semver {s} : v.HasObj x (.semver s) → HasLength v x (3 + s.pre.length + s.build.length)
  | special {s} : v.HasObj x (.special s) → HasLength v x s.arity
  | builtin {b} : v.HasObj x (.builtin b) → HasLength v x b.arity
  | fn {f fs n} : (v.HasObj x (.fn f) ∨ v.HasObj x (.mac f)) → v.HasVec f.formals fs → CountedFormals v fs n → HasLength v x n

/-- what `len` does with the values `ts`: lengths are given as int32_t -/
inductive LenRun (W : World) (ts : List Ref) (v : Vm) (r : Ref) (w : Vm) (tr : List Event) : Prop
  | count : ts = [] → GivesError W v r w tr → LenRun W ts v r w tr
  | one {x n} : ts = [x] → HasLength v x n → Gives W (.int (Int.bmod n (2 ^ 32))) v r w tr → LenRun W ts v r w tr
  | more {ns : List Nat} : 2 ≤ ts.length → List.Forall₂ (HasLength v) ts ns →
      GivesVec W (ns.map fun (n : Nat) => .int (Int.bmod n (2 ^ 32))) v r w tr → LenRun W ts v r w tr

/-- the element that an index denotes; negative ones count from the back -/
inductive ElementAt {α : Type} (es : List α) (i : Int) (e : α) : Prop
  | front {k : Nat} : i = k → es[k]? = some e → ElementAt es i e
  | back {k : Nat} : i = -(k + 1) → es.reverse[k]? = some e → ElementAt es i e

/-- what `ln@` does with a vector or list and more values; there is no result for an index outside of a list -/
inductive LnAtRun (W : World) (ts : List Ref) (v : Vm) (r : Ref) (w : Vm) (tr : List Event) : Prop
  | element {x y es i e} : ts = [x, y] → (v.HasVec x es ∨ v.HasObj x (.list es)) → v.HasObj y (.int i) → ElementAt es i e →
      Returns W e v r w tr → LnAtRun W ts v r w tr
  | outside {x y es i} : ts = [x, y] → v.HasVec x es → v.HasObj y (.int i) → (∀ e, ¬ ElementAt es i e) → GivesError W v r w tr →
      LnAtRun W ts v r w tr
  | index {x y} : ts = [x, y] → (∀ i, ¬ v.HasObj y (.int i)) → GivesError W v r w tr → LnAtRun W ts v r w tr
  | count : ts.length ≠ 2 → GivesError W v r w tr → LnAtRun W ts v r w tr

/-- the first value is a vector or list -/
def Indexed (ts : List Ref) (v : Vm) : Prop := ∃ x xs es, ts = x :: xs ∧ (v.HasVec x es ∨ v.HasObj x (.list es))

/-! ### Proofs -/

theorem c49_equal_aux {n : Nat} {h : Handler} {v u : Vm} {x y : Ref} {dx dy : Data} (hx : Denotes v.mem x dx) (hy : Denotes v.mem y dy)
    (rx : Regular dx) (ry : Regular dy) (hux : Denotes u.mem x dx) (huy : Denotes u.mem y dy) {Q : Bool → Vm → List Event → Prop}
    (hq : ∀ b, (b = true ↔ EqualData v x y) → Q b u []) : Wp W n h (Prog.equalValues x y) u Q := by
  unfold Prog.equalValues
  refine wp_bind (wp_compare fun c hc => wp_pure (hq _ ?_))
  rw [beq_iff_eq, compareRef_zero _ _ _ _ _ _ _ hux huy rx ry hc]
  constructor
  · exact fun h => ⟨dx, dy, hx, hy, h⟩
  · rintro ⟨d, e, hd, he, hs⟩
    cases hx.unique _ hd; cases hy.unique _ he
    exact hs

theorem c49_findInVec_aux {n : Nat} {h : Handler} {v : Vm} {args key r : Ref} {ts : List Ref} (hk : key ∈ ts) (dk : IsData v key) :
    ∀ (xs pre : List Ref) (l : List Nat) (u : Vm), (∀ x ∈ xs, Reach v.mem.Part (· ∈ ts) x ∧ IsData v x) →
    Watching W v args ts u → Building W (fun z => z = args) v r (l.map fun (k : Nat) => .int (Int.bmod k (2 ^ 32))) u →
    l.Pairwise (· < ·) → (∀ k, k ∈ l ↔ ∃ e, pre[k]? = some e ∧ EqualData v e key) →
    Wp W n h (Prog.findInVec key r pre.length xs) u fun _ w t => t = [] ∧ w.stack = u.stack ∧ ∃ l' : List Nat,
      Building W (fun z => z = args) v r (l'.map fun (k : Nat) => .int (Int.bmod k (2 ^ 32))) w ∧ l'.Pairwise (· < ·) ∧
      ∀ k, k ∈ l' ↔ ∃ e, (pre ++ xs)[k]? = some e ∧ EqualData v e key := by
  intro xs
  induction xs with
  | nil => intro pre l u _ f b hl hm; exact wp_pure ⟨rfl, rfl, l, b, hl, by simpa using hm⟩
  | cons x xs ih =>
    intro pre l u hx f b hl hm
    unfold Prog.findInVec
    obtain ⟨dy, hy, ry⟩ := dk
    obtain ⟨hrx, dx, hdx, rx⟩ := hx x (by simp)
    have hbound : ∀ k ∈ l, k < pre.length := fun k hk' => by
      obtain ⟨e, he, _⟩ := (hm k).mp hk'
      exact (List.getElem?_eq_some_iff.mp he).1
    refine wp_bind (c49_equal_aux hdx hy rx ry (f.denotes hrx hdx) (f.denotes (.root hk) hy) fun q hq => ?_)
    have next := fun l => ih (pre ++ [x]) l
    simp only [List.length_append, List.length_singleton, List.append_assoc, List.singleton_append] at next
    split
    · rename_i hqt
      refine f.put b (o := .int (Int.bmod pre.length (2 ^ 32))) (by simp [PubObj]) fun w fw bw hs => ?_
      refine Wp.mono (next (l ++ [pre.length]) w (fun z hz => hx z (by simp [hz])) fw (by simpa using bw) ?_ ?_)
          fun _ w' t h => ⟨by simpa using h.1, h.2.1.trans hs, h.2.2⟩
      · rw [List.pairwise_append]
        refine ⟨hl, by simp, fun a ha b hb => ?_⟩
        simp only [List.mem_singleton] at hb
        subst hb; exact hbound a ha
      · intro k
        rw [List.mem_append, hm]
        constructor
        · rintro (⟨e, he, h'⟩ | hk')
          · exact ⟨e, by rw [List.getElem?_append_left (List.getElem?_eq_some_iff.mp he).1]; exact he, h'⟩
          · simp only [List.mem_singleton] at hk'
            subst hk'
            exact ⟨x, by simp, hq.mp hqt⟩
        · rintro ⟨e, he, h'⟩
          by_cases hlt : k < pre.length
          · exact .inl ⟨e, by rwa [List.getElem?_append_left hlt] at he, h'⟩
          · have := (List.getElem?_eq_some_iff.mp he).1
            simp at this
            right; simp; omega
    · rename_i hqf
      refine Wp.mono (next l u (fun z hz => hx z (by simp [hz])) f b hl ?_) fun _ _ _ h => by simpa using h
      intro k
      rw [hm]
      constructor
      · rintro ⟨e, he, h'⟩
        exact ⟨e, by rw [List.getElem?_append_left (List.getElem?_eq_some_iff.mp he).1]; exact he, h'⟩
      · rintro ⟨e, he, h'⟩
        by_cases hlt : k < pre.length
        · exact ⟨e, by rwa [List.getElem?_append_left hlt] at he, h'⟩
        · have := (List.getElem?_eq_some_iff.mp he).1
          simp at this
          obtain rfl : k = pre.length := by omega
          simp at he
          subst he
          exact absurd (hq.mpr h') hqf

theorem c49_findRun_aux {n : Nat} {h : Handler} {args env : Ref} {ts : List Ref} {v : Vm} (k : Held W args ts env v) (hp : FindData ts v) :
    Wp W n h (Prog.biFind args env) v fun a u tr => KeepsBuiltins v u ∧ ∀ r w, a = some r → Ends u w → FindVecRun W ts v r w tr := by
  obtain ⟨x, y, es, rfl, ⟨c0, hc0, ho0⟩, hes, hy⟩ := hp
  unfold Prog.biFind
  refine first_aux k fun hv => ?_
  refine wp_bind (wp_push (wp_bind (wp_push ?_)))
  have g1 := (k.here (E := nobody)).push k.old
  have g2 : Vm.Step W (fun z => z = args) nobody v { v with stack := env :: args :: v.stack } := g1.push (r := env) k.env.1
  unfold Prog.findFrom
  simp only [bind_assoc]
  refine wp_bind (wp_read fun c hc => ?_)
  obtain rfl := same_cell hc0 hc
  simp only [ho0, bind_assoc]
  refine wp_bind (wp_alloc g2.sane fun r u a => wp_bind (wp_push ?_))
  have f0 : Watching W v args [x, y] { v with stack := env :: args :: v.stack } := .start k hv (by simp) rfl
  have b := Building.start g2 a
  refine wp_bind (Wp.mono (c49_findInVec_aux (ts := [x, y]) (args := args) (by simp) hy es [] [] _
    (fun z hz => ⟨.step (.root (by simp)) ⟨_, hc0, by rw [ho0]; exact hz⟩, hes z hz⟩) ((f0.alloc (Nat.le_refl _) a).push r) b (by simp) (by simp)) ?_)
  rintro _ w t ⟨rfl, hs, l, bw, hl, hm⟩
  refine wp_bind (wp_pop fun s1 hs1 => wp_bind (wp_pure (wp_bind (wp_pop fun s2 hs2 => wp_bind (wp_pop fun s3 hs3 => wp_pure ⟨keeps_mem bw.step.quiet rfl, ?_⟩)))))
  rintro _ w' ⟨⟩ e
  refine .find rfl ⟨_, hc0, ho0⟩ ⟨l, hl, by simpa using hm, Building.finish bw (fun o ho => ?_) ((Ends.pop (s := s3)).trans e)⟩
  simp only [List.mem_map] at ho
  obtain ⟨k, _, rfl⟩ := ho
  simp

/-- the parts of data denote smaller data -/
theorem c49_part_aux {m : Mem} {r b : Ref} {d : Data} (h : Denotes m r d) (hp : m.Part r b) : ∃ d', Denotes m b d' ∧ sizeOf d' < sizeOf d := by
  obtain ⟨c, hc, hb⟩ := hp
  have key : ∀ {rs : List Ref} {ds : List Data}, rs.length = ds.length → (∀ (i : Nat) (x : Ref) (d : Data), rs[i]? = some x → ds[i]? = some d → Denotes m x d) →
      b ∈ rs → ∃ d', Denotes m b d' ∧ d' ∈ ds := by
    intro rs ds hl hd hb
    obtain ⟨i, hi, rfl⟩ := List.getElem_of_mem hb
    exact ⟨ds[i], hd i _ _ (List.getElem?_eq_getElem hi) (List.getElem?_eq_getElem (hl ▸ hi)), List.getElem_mem _⟩
  cases h with
  | atom h1 h2 =>
    cases same_cell hc h1
    cases ho : c.obj <;> rw [ho] at hb h2 <;> first | (simp [Obj.children] at hb; done) | (cases h2)
  | vec h1 h2 h3 h4 =>
    cases same_cell hc h1
    rw [h2] at hb
    obtain ⟨d', h5, h6⟩ := key h3 h4 hb
    have := List.sizeOf_lt_of_mem h6
    exact ⟨d', h5, by simp; omega⟩
  | queue h1 h2 h3 h4 =>
    cases same_cell hc h1
    rw [h2] at hb
    obtain ⟨d', h5, h6⟩ := key h3 h4 hb
    have := List.sizeOf_lt_of_mem h6
    exact ⟨d', h5, by simp; omega⟩
  | list h1 h2 h3 h4 =>
    cases same_cell hc h1
    rw [h2] at hb
    obtain ⟨d', h5, h6⟩ := key h3 h4 hb
    have := List.sizeOf_lt_of_mem h6
    exact ⟨d', h5, by simp; omega⟩
  | @hmap _ _ nb es ds h1 h2 h3 h4 h5 =>
    cases same_cell hc h1
    rw [h2] at hb
    simp only [Obj.children, List.mem_flatMap] at hb
    obtain ⟨e, he, hb⟩ := hb
    obtain ⟨i, hi, rfl⟩ := List.getElem_of_mem he
    have hmem : ds[i]'(h3 ▸ hi) ∈ ds := List.getElem_mem _
    have := List.sizeOf_lt_of_mem hmem
    have hs : sizeOf (ds[i]'(h3 ▸ hi)) = 1 + sizeOf (ds[i]'(h3 ▸ hi)).1 + sizeOf (ds[i]'(h3 ▸ hi)).2 := by
      cases ds[i]'(h3 ▸ hi); simp
    simp at hb
    rcases hb with rfl | rfl
    · exact ⟨_, h4 i _ _ (List.getElem?_eq_getElem hi) (List.getElem?_eq_getElem (h3 ▸ hi)), by simp; omega⟩
    · exact ⟨_, h5 i _ _ (List.getElem?_eq_getElem hi) (List.getElem?_eq_getElem (h3 ▸ hi)), by simp; omega⟩

/-- data do not contain themselves -/
theorem c49_acyclic_aux {m : Mem} {r e : Ref} {d : Data} (h : Denotes m r d) (he : m.Part r e) : ¬ Reach m.Part (· = e) r := by
  obtain ⟨d', h', hlt⟩ := c49_part_aux h he
  intro hr
  have : ∀ z, Reach m.Part (· = e) z → ∃ d'', Denotes m z d'' ∧ sizeOf d'' ≤ sizeOf d' := by
    intro z hz
    induction hz with
    | root h => subst h; exact ⟨d', h', Nat.le_refl _⟩
    | step _ hp ih =>
      obtain ⟨d1, h1, l1⟩ := ih
      obtain ⟨d2, h2, l2⟩ := c49_part_aux h1 hp
      exact ⟨d2, h2, by omega⟩
  obtain ⟨d2, h2, l2⟩ := this r hr
  cases h.unique _ h2
  omega

theorem c49_removeLoop_aux {n : Nat} {h : Handler} {v : Vm} {x y : Ref} (dy : IsData v y) (hy : ¬ Reach v.mem.Part (· = y) x) {p : Ref → Bool} :
    ∀ (xs kept : List Ref) (u : Vm), Changing W x v u (.vec (kept ++ xs)) → (∀ z ∈ kept ++ xs, v.Old W z) →
    (∀ z ∈ xs, IsData v z ∧ ¬ Reach v.mem.Part (· = z) x ∧ (p z = true ↔ EqualData v y z)) →
    Wp W n h (Prog.removeLoop (fun z => Prog.equalValues y z) x kept xs) u fun _ w t => t = [] ∧ Changing W x v w (.vec (kept ++ xs.filter (!p ·))) := by
  intro xs
  induction xs with
  | nil => intro kept u f _ _; exact wp_pure ⟨rfl, by simpa using f⟩
  | cons z zs ih =>
    intro kept u f hold hd
    unfold Prog.removeLoop
    obtain ⟨⟨dz, hdz, rz⟩, hz, hpz⟩ := hd z (by simp)
    obtain ⟨ey, hdy, ry⟩ := dy
    have still : ∀ {q d}, Denotes v.mem q d → ¬ Reach v.mem.Part (· = q) x → Denotes u.mem q d := fun hq hn =>
      hq.parts fun s hs => f.other s fun e => hn (e ▸ hs)
    refine wp_bind (c49_equal_aux hdy hdz ry rz (still hdy hy) (still hdz hz) fun b hb => ?_)
    split
    · rename_i he
      refine wp_bind (wp_setObj fun c hc => ?_)
      refine Wp.mono (ih kept _ (f.set hc (o' := .vec (kept ++ zs)) fun q hq => hold q (by simp at hq ⊢; tauto)) (fun q hq => hold q (by simp at hq ⊢; tauto))
        fun q hq => hd q (by simp [hq])) ?_
      rintro _ w t ⟨rfl, f'⟩
      have : p z = true := hpz.mpr (hb.mp he)
      exact ⟨rfl, by simpa [this] using f'⟩
    · rename_i he
      refine Wp.mono (ih (kept ++ [z]) _ (by simpa using f) (by simpa using hold) fun q hq => hd q (by simp [hq])) ?_
      rintro _ w t ⟨rfl, f'⟩
      have : p z = false := by cases hp : p z; · rfl
                               · exact absurd (hb.mpr (hpz.mp hp)) he
      exact ⟨rfl, by simpa [this] using f'⟩

theorem c49_minus_aux {n : Nat} {h : Handler} {v : Vm} {x : Ref} {p : Ref → Ref → Bool} : ∀ (ys es : List Ref) (u : Vm), Changing W x v u (.vec es) →
    (∀ z ∈ es, v.Old W z) → (∀ y ∈ ys, IsData v y ∧ ¬ Reach v.mem.Part (· = y) x) → (∀ z ∈ es, IsData v z ∧ ¬ Reach v.mem.Part (· = z) x) →
    (∀ y ∈ ys, ∀ z ∈ es, p y z = true ↔ EqualData v y z) →
    Wp W n h (Prog.each (fun y => Prog.removeElements (fun z => Prog.equalValues y z) x) ys) u fun _ w t => t = [] ∧
      Changing W x v w (.vec (es.filter fun e => ys.all fun y => !p y e)) := by
  intro ys
  induction ys with
  | nil => intro es u f _ _ _ _; exact wp_pure ⟨rfl, by simpa using f⟩
  | cons y ys ih =>
    intro es u f hes hys hd hp
    unfold Prog.each Prog.removeElements
    refine wp_bind (wp_bind (wp_read fun c hc => ?_))
    obtain ⟨c', hc', ho'⟩ := f.cell
    cases same_cell hc hc'
    simp only [ho']
    refine Wp.mono (c49_removeLoop_aux (p := p y) (hys y (by simp)).1 (hys y (by simp)).2 es [] u (by simpa using f) (by simpa using hes)
      fun z hz => ⟨(hd z hz).1, (hd z hz).2, hp y (by simp) z hz⟩) ?_
    rintro _ u1 t ⟨rfl, f1⟩
    have sub : ∀ z ∈ es.filter (!p y ·), z ∈ es := fun z hz => (List.mem_filter.mp hz).1
    refine Wp.mono (ih _ u1 (by simpa using f1) (fun z hz => hes z (sub z hz)) (fun q hq => hys q (by simp [hq])) (fun z hz => hd z (sub z hz))
      fun q hq z hz => hp q (by simp [hq]) z (sub z hz)) ?_
    rintro _ w t ⟨rfl, f'⟩
    refine ⟨rfl, ?_⟩
    rw [List.filter_filter] at f'
    have e : (es.filter fun a => (ys.all fun y => !p y a) && !p y a) = es.filter fun e => (y :: ys).all fun y => !p y e := by
      congr 1; funext a; simp [Bool.and_comm]
    rw [← e]; exact f'

open Classical in
theorem c49_minusRun_aux {n : Nat} {h : Handler} {args env : Ref} {ts : List Ref} {v : Vm} (k : Held W args ts env v) (hp : MinusData ts v) :
    Wp W n h (Prog.biMinusEq args env) v fun a u tr => KeepsBuiltins v u ∧ ∀ r w, a = some r → Ends u w → MinusRun W ts v r w tr := by
  obtain ⟨x, xs, rfl, ⟨es, c0, hc0, ho0⟩, ⟨d, hd, rd⟩, hys⟩ := hp
  unfold Prog.biMinusEq
  refine c34_first_aux k ?_
  refine wp_bind (wp_read fun c hc => ?_)
  obtain rfl := same_cell hc0 hc
  simp only [ho0, List.nil_append]
  have pub := (k.closed.cells x _ hc).obj
  rw [ho0] at pub
  have hes : ∀ z ∈ es, IsData v z ∧ ¬ Reach v.mem.Part (· = z) x := by
    intro z hz
    have hpart : v.mem.Part x z := ⟨_, hc0, by rw [ho0]; exact hz⟩
    refine ⟨?_, c49_acyclic_aux hd hpart⟩
    cases hd with
    | atom h1 h2 => cases same_cell hc0 h1; rw [ho0] at h2; cases h2
    | vec h1 h2 h3 h4 =>
      cases same_cell hc0 h1
      rw [ho0] at h2; cases h2
      obtain ⟨i, hi, rfl⟩ := List.getElem_of_mem hz
      exact ⟨_, h4 i _ _ (List.getElem?_eq_getElem hi) (List.getElem?_eq_getElem (h3 ▸ hi)), rd.vec_inv.2 _ (List.getElem_mem _)⟩
    | queue h1 h2 => cases same_cell hc0 h1; rw [ho0] at h2; cases h2
    | list h1 h2 => cases same_cell hc0 h1; rw [ho0] at h2; cases h2
    | hmap h1 h2 => cases same_cell hc0 h1; rw [ho0] at h2; cases h2
  refine wp_bind (Wp.mono (c49_minus_aux (p := fun y z => decide (EqualData v y z)) xs es v (.start k.sane k.closed.all ⟨_, hc, ho0⟩) pub hys hes
    fun _ _ _ _ => decide_eq_true_iff) ?_)
  rintro _ u t ⟨rfl, f⟩
  refine wp_pure ⟨f.keeps (by simp), ?_⟩
  rintro r w ⟨⟩ e
  refine .minus rfl ⟨_, hc, ho0⟩ ?_ rfl (by simpa using f.finish (by simp) e)
  intro z hz
  obtain ⟨⟨dz, hz1, hz2⟩, _⟩ := hes z hz
  have sym : ∀ y ∈ xs, EqualData v y z ↔ EqualData v z y := by
    intro y hy
    obtain ⟨⟨ey, hy1, hy2⟩, _⟩ := hys y hy
    constructor
    · rintro ⟨a, b, h1, h2, h3⟩
      cases hz1.unique _ h2; cases hy1.unique _ h1
      exact ⟨_, _, h2, h1, same_symm h3 hy2 hz2⟩
    · rintro ⟨a, b, h1, h2, h3⟩
      cases hz1.unique _ h1; cases hy1.unique _ h2
      exact ⟨_, _, h2, h1, same_symm h3 hz2 hy2⟩
  simp only [List.all_eq_true, Bool.not_eq_true', decide_eq_false_iff_not]
  exact ⟨fun h y hy hn => h y hy ((sym y hy).mpr hn), fun h y hy hn => h y hy ((sym y hy).mp hn)⟩

theorem c49_formals_aux {n : Nat} {h : Handler} {v u : Vm} : ∀ (fs : List Ref), (∀ x ∈ fs, u.mem x = v.mem x) → {Q : Nat → Vm → List Event → Prop} →
    (∀ k, CountedFormals v fs k → Q k u []) → Wp W n h (Prog.countFormals fs) u Q := by
  intro fs
  induction fs with
  | nil => intro _ Q hq; exact wp_pure (hq 0 ⟨by simp, by simp, by simp⟩)
  | cons x xs ih =>
    intro hs Q hq
    unfold Prog.countFormals
    refine wp_bind (wp_read fun c hc => ?_)
    rw [hs x (by simp)] at hc
    split
    · rename_i t ho
      split
      · rename_i ht
        subst ht
        exact wp_pure (hq 0 ⟨by simp, by simp, fun y hy => by simp at hy; subst hy; exact ⟨c, hc, ho⟩⟩)
      · rename_i ht
        refine wp_bind (ih (fun y hy => hs y (by simp [hy])) fun k hk => wp_pure ?_)
        refine Eq.mpr (by simp) (hq (k + 1) ⟨by simp; exact hk.1, ?_, ?_⟩)
        · intro y hy
          simp only [List.take_succ_cons, List.mem_cons] at hy
          rcases hy with rfl | hy
          · exact ⟨t, ⟨c, hc, ho⟩, ht⟩
          · exact hk.2.1 y hy
        · intro y hy
          exact hk.2.2 y (by simpa using hy)
    · exact wp_fail

theorem c49_length_aux {n : Nat} {h : Handler} {v u : Vm} {args x : Ref} {ts : List Ref} (hs : ∀ z, Reach v.mem.Part (· ∈ ts) z → u.mem z = v.mem z)
    (hx : x ∈ ts) {Q : Int → Vm → List Event → Prop}
    (hq : ∀ k : Nat, HasLength v x k → Q (Int.bmod k (2 ^ 32)) u []) : Wp W n h (Prog.lengthOf x) u Q := by
  unfold Prog.lengthOf
  refine wp_bind (wp_read fun c hc => ?_)
  rw [hs x (.root hx)] at hc
  have formals : ∀ f : FnData, (c.obj = .fn f ∨ c.obj = .mac f) → Wp W n h (do let fs ← Prog.verifyVec f.formals; let k ← Prog.countFormals fs; pure (Int.bmod k (2 ^ 32))) u Q := by
    intro f hf
    have hpart : v.mem.Part x f.formals := ⟨c, hc, by rcases hf with hf | hf <;> rw [hf] <;> simp [Obj.children]⟩
    refine wp_bind (wp_verifyVec fun d fs hd hdo => ?_)
    rw [hs _ (.step (.root hx) hpart)] at hd
    refine wp_bind (c49_formals_aux (v := v) fs (fun y hy => hs y (.step (.step (.root hx) hpart) ⟨d, hd, by rw [hdo]; exact hy⟩)) fun k hk => wp_pure ?_)
    exact hq k (.fn (hf.imp (fun h => ⟨c, hc, h⟩) fun h => ⟨c, hc, h⟩) ⟨d, hd, hdo⟩ hk)
  have one : ∀ {m : Nat}, Prog.objLength c.obj = some m → HasLength v x m := by
    intro m hm
    cases ho : c.obj <;> rw [ho] at hm <;> simp only [Prog.objLength, Option.some.injEq, reduceCtorEq] at hm <;> subst hm
    · exact .nil ⟨c, hc, ho⟩
    all_goals first
      | exact .atom ⟨c, hc, ho⟩ (by simp)
      | exact .str ⟨c, hc, ho⟩ | exact .sym ⟨c, hc, ho⟩ | exact .err ⟨c, hc, ho⟩ | exact .vec ⟨c, hc, ho⟩ | exact .queue ⟨c, hc, ho⟩
      | exact .list ⟨c, hc, ho⟩ | exact .hmap ⟨c, hc, ho⟩ | exact .env ⟨c, hc, ho⟩ | exact .semver ⟨c, hc, ho⟩
      | exact .special ⟨c, hc, ho⟩ | exact .builtin ⟨c, hc, ho⟩
  cases hm : Prog.objLength c.obj with
  | some m => exact wp_bind (wp_pure (wp_pure (hq m (one hm))))
  | none =>
    cases ho : c.obj <;> rw [ho] at hm <;> simp only [Prog.objLength, reduceCtorEq] at hm
    · simpa [Prog.fnLength] using formals _ (.inl ho)
    · simpa [Prog.fnLength] using formals _ (.inr ho)
    · exact wp_bind (wp_fail (W := W) (n := n) (h := h) (v := u))

theorem c49_lenLoop_aux {n : Nat} {h : Handler} {v : Vm} {args r : Ref} {ts : List Ref} : ∀ (xs pre : List Ref) (ns : List Nat) (u : Vm), pre ++ xs = ts →
    Watching W v args ts u → Building W (fun z => z = args) v r (ns.map fun (k : Nat) => .int (Int.bmod k (2 ^ 32))) u → List.Forall₂ (HasLength v) pre ns →
    Wp W n h (Prog.lenLoop r xs) u fun _ w t => t = [] ∧ w.stack = u.stack ∧ ∃ ns' : List Nat,
      Building W (fun z => z = args) v r (ns'.map fun (k : Nat) => .int (Int.bmod k (2 ^ 32))) w ∧ List.Forall₂ (HasLength v) ts ns' := by
  intro xs
  induction xs with
  | nil => intro pre ns u he f b hf; rw [List.append_nil] at he; subst he; exact wp_pure ⟨rfl, rfl, ns, b, hf⟩
  | cons x xs ih =>
    intro pre ns u he f b hf
    unfold Prog.lenLoop
    refine wp_bind (c49_length_aux (args := args) f.src (x := x) (by rw [← he]; simp) fun k hk => ?_)
    refine Wp.mono (f.put b (o := .int (Int.bmod k (2 ^ 32))) (by simp [PubObj]) (Q := fun _ w t => t = [] ∧ w.stack = u.stack ∧ ∃ ns' : List Nat,
      Building W (fun z => z = args) v r (ns'.map fun (k : Nat) => .int (Int.bmod k (2 ^ 32))) w ∧ List.Forall₂ (HasLength v) ts ns') fun w fw bw hs => ?_)
      fun _ _ _ h => by simpa using h
    exact Wp.mono (ih (pre ++ [x]) (ns ++ [k]) w (by simpa using he) fw (by simpa using bw) (forall₂_snoc hf hk)) fun _ w' t h => ⟨h.1, h.2.1.trans hs, h.2.2⟩

theorem c49_lenRun_aux {n : Nat} {h : Handler} {args env : Ref} {ts : List Ref} {v : Vm} (k : Held W args ts env v) (top : args ∈ v.stack) :
    Wp W n h (Prog.biLen args env) v fun a u tr => KeepsBuiltins v u ∧ ∀ r w, a = some r → Ends u w → LenRun W ts v r w tr := by
  unfold Prog.biLen
  refine first_aux k fun hv => ?_
  split
  · exact giveMono_aux (c34_error_aux k _) (Q := fun v r w tr => LenRun W [] v r w tr) fun r w tr g => .count rfl g
  · rename_i x
    refine wp_bind (c49_length_aux (v := v) (args := args) (ts := [x]) (fun _ _ => rfl) (by simp) fun m hm => ?_)
    exact giveMono_aux (give_aux k (by simp)) (Q := fun v r w tr => LenRun W [x] v r w tr) fun r w tr g => .one rfl hm g
  · rename_i h0 h1
    refine wp_bind (wp_alloc k.sane fun r u a => wp_bind (wp_push ?_))
    have f0 : Watching W v args ts v := .start k hv top rfl
    refine wp_bind (Wp.mono (c49_lenLoop_aux (args := args) (ts := ts) ts [] [] _ rfl ((f0.alloc (Nat.le_refl _) a).push r) (Building.start (k.here (E := nobody)) a) .nil) ?_)
    rintro _ w t ⟨rfl, hs, ns, bw, hns⟩
    refine wp_bind (wp_pop fun s1 hs1 => wp_pure ⟨keeps_mem bw.step.quiet rfl, ?_⟩)
    rintro _ w' ⟨⟩ e
    refine .more ?_ hns (Building.finish bw (fun o ho => ?_) ((Ends.pop (s := s1)).trans e))
    · match ts, h0, h1 with
      | [], h0, _ => exact absurd rfl h0
      | [x], _, h1 => exact absurd rfl (h1 x)
      | _ :: _ :: _, _, _ => simp
    · simp only [List.mem_map] at ho
      obtain ⟨k, _, rfl⟩ := ho
      simp

theorem c49_indexIn_aux {α : Type} (es : List α) (i : Int) (e : α) : (Prog.indexIn es.length i).bind (es[·]?) = some e ↔ ElementAt es i e := by
  unfold Prog.indexIn
  constructor
  · intro h
    split at h
    · split at h
      · exact .front (k := i.toNat) (by omega) (by simpa using h)
      · cases h
    · split at h
      · cases h
      · rename_i h1 h2
        refine .back (k := (-i - 1).toNat) (by omega) ?_
        rw [List.getElem?_reverse (by omega)]
        rw [← h]
        simp only [Option.bind_some]
        congr 1
        omega
  · rintro (⟨rfl, h⟩ | ⟨rfl, h⟩)
    · rename_i k
      have := (List.getElem?_eq_some_iff.mp h).1
      rw [if_pos (by omega), if_pos (by omega)]
      simpa using h
    · rename_i k
      have hk := (List.getElem?_eq_some_iff.mp h).1
      simp at hk
      rw [List.getElem?_reverse hk] at h
      rw [if_neg (by omega), if_neg (by omega)]
      simp only [Option.bind_some]
      rw [← h]
      congr 1
      omega

theorem c49_lnAtRun_aux {n : Nat} {h : Handler} {args env : Ref} {ts : List Ref} {v : Vm} (k : Held W args ts env v) (hp : Indexed ts v) :
    Wp W n h (Prog.biLnAt args env) v fun a u tr => KeepsBuiltins v u ∧ ∀ r w, a = some r → Ends u w → LnAtRun W ts v r w tr := by
  obtain ⟨x, xs, es, rfl, hx⟩ := hp
  unfold Prog.biLnAt
  refine c34_first_aux k ?_
  cases xs with
  | nil => exact giveMono_aux (c34_error_aux k _) (Q := fun v r w tr => LnAtRun W [x] v r w tr) fun r w tr g => .count (by simp) g
  | cons y rest =>
    simp only
    refine wp_bind (wp_read fun c hc => ?_)
    simp only [List.nil_append]
    by_cases hr : rest = []
    · subst hr
      rcases hx with ⟨c', hc', ho⟩ | ⟨c', hc', ho⟩
      · obtain rfl := same_cell hc' hc
        simp only [ho, ne_eq, not_true_eq_false, if_false]
        refine wp_bind (wp_read fun d hd => ?_)
        simp only [List.nil_append]
        split
        · rename_i i hi
          split
          · rename_i e he
            exact giveMono_aux (giveSelf_aux k.sane) (Q := fun v r w tr => LnAtRun W [x, y] v r w tr) fun r w tr g =>
              .element rfl (.inl ⟨_, hc, ho⟩) ⟨d, hd, hi⟩ ((c49_indexIn_aux _ _ _).mp he) g
          · rename_i he
            exact giveMono_aux (c34_error_aux k _) (Q := fun v r w tr => LnAtRun W [x, y] v r w tr) fun r w tr g =>
              .outside rfl ⟨_, hc, ho⟩ ⟨d, hd, hi⟩ (fun e h => by rw [← c49_indexIn_aux, he] at h; cases h) g
        · rename_i hno
          refine giveMono_aux (c34_error_aux k _) (Q := fun v r w tr => LnAtRun W [x, y] v r w tr) fun r w tr g => .index rfl ?_ g
          rintro i ⟨d', hd', hi⟩
          cases same_cell hd hd'
          exact hno i hi
      · obtain rfl := same_cell hc' hc
        simp only [ho, ne_eq, not_true_eq_false, if_false]
        refine wp_bind (wp_read fun d hd => ?_)
        simp only [List.nil_append]
        split
        · rename_i i hi
          refine wp_pure ⟨keeps_of_quiet (W := W) (.refl _), fun r w hr e => ?_⟩
          exact .element rfl (.inr ⟨_, hc, ho⟩) ⟨d, hd, hi⟩ ((c49_indexIn_aux _ _ _).mp hr) ⟨rfl, rfl, e.quiet⟩
        · rename_i hno
          refine giveMono_aux (c34_error_aux k _) (Q := fun v r w tr => LnAtRun W [x, y] v r w tr) fun r w tr g => .index rfl ?_ g
          rintro i ⟨d', hd', hi⟩
          cases same_cell hd hd'
          exact hno i hi
    · have hlen : (x :: y :: rest).length ≠ 2 := by simp; exact hr
      rcases hx with ⟨c', hc', ho⟩ | ⟨c', hc', ho⟩
      · obtain rfl := same_cell hc' hc
        simp only [ho, if_pos hr]
        exact giveMono_aux (c34_error_aux k _) (Q := fun v r w tr => LnAtRun W (x :: y :: rest) v r w tr) fun r w tr g => .count hlen g
      · obtain rfl := same_cell hc' hc
        simp only [ho, if_pos hr]
        exact giveMono_aux (c34_error_aux k _) (Q := fun v r w tr => LnAtRun W (x :: y :: rest) v r w tr) fun r w tr g => .count hlen g

/-! ### Theorems -/

/-- `find` in a vector of data -/
theorem c49_find (hL : L.Safe) {v w : Vm} (rv : v.Reached W L) {form env op : Ref} {name : Text} {xs : List Ref}
    (nc : NamedCall W v form env name op xs) (hop : v.HasObj op (.builtin .find)) {r : Option Ref} {tr : List Event}
    (ev : Evaluates W L v form env r w tr) :
    NamedOpCall W (ArgumentsFirst W form env (Runs .find op fun ts u r w tr => FindData ts u → FindVecRun W ts u r w tr)) v env op r w tr :=
  namedBuiltinPre_aux hL (by simp) (fun _ _ _ _ _ _ _ k hp => c49_findRun_aux k hp) rv nc hop ev

/-- `-=` on a vector of data -/
theorem c49_minus (hL : L.Safe) {v w : Vm} (rv : v.Reached W L) {form env op : Ref} {name : Text} {xs : List Ref}
    (nc : NamedCall W v form env name op xs) (hop : v.HasObj op (.builtin .minusEq)) {r : Option Ref} {tr : List Event}
    (ev : Evaluates W L v form env r w tr) :
    NamedOpCall W (ArgumentsFirst W form env (Runs .minusEq op fun ts u r w tr => MinusData ts u → MinusRun W ts u r w tr)) v env op r w tr :=
  namedBuiltinPre_aux hL (by simp) (fun _ _ _ _ _ _ _ k hp => c49_minusRun_aux k hp) rv nc hop ev

/-- `len` -/
theorem c49_len (hL : L.Safe) {v w : Vm} (rv : v.Reached W L) {form env op : Ref} {name : Text} {xs : List Ref}
    (nc : NamedCall W v form env name op xs) (hop : v.HasObj op (.builtin .len)) {r : Option Ref} {tr : List Event}
    (ev : Evaluates W L v form env r w tr) :
    NamedOpCall W (ArgumentsFirst W form env (Runs .len op (LenRun W))) v env op r w tr :=
  namedBuiltinStack_aux hL (by simp) (fun _ _ _ _ _ _ _ k top => c49_lenRun_aux k top) rv nc hop ev

/-- `ln@` on a vector or list -/
theorem c49_element (hL : L.Safe) {v w : Vm} (rv : v.Reached W L) {form env op : Ref} {name : Text} {xs : List Ref}
    (nc : NamedCall W v form env name op xs) (hop : v.HasObj op (.builtin .lnAt)) {r : Option Ref} {tr : List Event}
    (ev : Evaluates W L v form env r w tr) :
    NamedOpCall W (ArgumentsFirst W form env (Runs .lnAt op fun ts u r w tr => Indexed ts u → LnAtRun W ts u r w tr)) v env op r w tr :=
  namedBuiltinPre_aux hL (by simp) (fun _ _ _ _ _ _ _ k hp => c49_lnAtRun_aux k hp) rv nc hop ev

/-- names for the examples -/
def kit6 : List (String × Obj × Bool) :=
  kit5 ++ [("len", .builtin .len, true), ("-=", .builtin .minusEq, true), ("ln@", .builtin .lnAt, true)]

theorem kit6_plain : ∀ x ∈ kit6, x.2.1.children = [] := by decide

/-- `(find (vector 1 "a" 1 (vector 1)) 1)` -/
example : ∃ (v w : Vm) (form op : Ref) (xs : List Ref) (r : Option Ref) (tr : List Event), v.Reached world library ∧
    NamedCall world v form v.globalEnv (txt "find") op xs ∧ v.HasObj op (.builtin .find) ∧
    Evaluates world library v form v.globalEnv r w tr ∧ elemsAt w r = some [some (.int 0), some (.int 2)] := by
  obtain ⟨v, form, r, w, tr, hr, of, oe, ev, h⟩ := stage_exists (table := kit6) (forms := []) (fuel := 60)
    (last := .vec [.sym "find", .vec [.sym "vector", .int 1, .str "a", .int 1, .vec [.sym "vector", .int 1]], .int 1])
    (P := fun v f r w tr => namedCheck v f "find" (.builtin .find) && decide (elemsAt w r = some [some (.int 0), some (.int 2)])) kit6_plain (by decide +kernel)
  simp only [Bool.and_eq_true, decide_eq_true_eq] at h
  obtain ⟨op, xs, h1, h2, h3⟩ := named_of_check h.1 of oe
  exact ⟨v, w, form, op, xs, r, tr, hr, h1, h2, ev, h.2⟩

/-- `(-= (vector 1 "a" 1 (vector 1)) 1 (vector 1))` -/
example : ∃ (v w : Vm) (form op : Ref) (xs : List Ref) (r : Option Ref) (tr : List Event), v.Reached world library ∧
    NamedCall world v form v.globalEnv (txt "-=") op xs ∧ v.HasObj op (.builtin .minusEq) ∧
    Evaluates world library v form v.globalEnv r w tr ∧ elemsAt w r = some [some (.str (txt "a"))] := by
  obtain ⟨v, form, r, w, tr, hr, of, oe, ev, h⟩ := stage_exists (table := kit6) (forms := []) (fuel := 60)
    (last := .vec [.sym "-=", .vec [.sym "vector", .int 1, .str "a", .int 1, .vec [.sym "vector", .int 1]], .int 1, .vec [.sym "vector", .int 1]])
    (P := fun v f r w tr => namedCheck v f "-=" (.builtin .minusEq) && decide (elemsAt w r = some [some (.str (txt "a"))])) kit6_plain (by decide +kernel)
  simp only [Bool.and_eq_true, decide_eq_true_eq] at h
  obtain ⟨op, xs, h1, h2, h3⟩ := named_of_check h.1 of oe
  exact ⟨v, w, form, op, xs, r, tr, hr, h1, h2, ev, h.2⟩

/-- `(len (vector 1 "a" 1 (vector 1)) "abc")` -/
example : ∃ (v w : Vm) (form op : Ref) (xs : List Ref) (r : Option Ref) (tr : List Event), v.Reached world library ∧
    NamedCall world v form v.globalEnv (txt "len") op xs ∧ v.HasObj op (.builtin .len) ∧
    Evaluates world library v form v.globalEnv r w tr ∧ elemsAt w r = some [some (.int 4), some (.int 3)] := by
  obtain ⟨v, form, r, w, tr, hr, of, oe, ev, h⟩ := stage_exists (table := kit6) (forms := []) (fuel := 60)
    (last := .vec [.sym "len", .vec [.sym "vector", .int 1, .str "a", .int 1, .vec [.sym "vector", .int 1]], .str "abc"])
    (P := fun v f r w tr => namedCheck v f "len" (.builtin .len) && decide (elemsAt w r = some [some (.int 4), some (.int 3)])) kit6_plain (by decide +kernel)
  simp only [Bool.and_eq_true, decide_eq_true_eq] at h
  obtain ⟨op, xs, h1, h2, h3⟩ := named_of_check h.1 of oe
  exact ⟨v, w, form, op, xs, r, tr, hr, h1, h2, ev, h.2⟩

/-- `(ln@ (vector 1 "a" 1 (vector 1)) -3)` -/
example : ∃ (v w : Vm) (form op : Ref) (xs : List Ref) (r : Option Ref) (tr : List Event), v.Reached world library ∧
    NamedCall world v form v.globalEnv (txt "ln@") op xs ∧ v.HasObj op (.builtin .lnAt) ∧
    Evaluates world library v form v.globalEnv r w tr ∧ objAt w r = some (.str (txt "a")) := by
  obtain ⟨v, form, r, w, tr, hr, of, oe, ev, h⟩ := stage_exists (table := kit6) (forms := []) (fuel := 60)
    (last := .vec [.sym "ln@", .vec [.sym "vector", .int 1, .str "a", .int 1, .vec [.sym "vector", .int 1]], .int (-3)])
    (P := fun v f r w tr => namedCheck v f "ln@" (.builtin .lnAt) && decide (objAt w r = some (.str (txt "a")))) kit6_plain (by decide +kernel)
  simp only [Bool.and_eq_true, decide_eq_true_eq] at h
  obtain ⟨op, xs, h1, h2, h3⟩ := named_of_check h.1 of oe
  exact ⟨v, w, form, op, xs, r, tr, hr, h1, h2, ev, h.2⟩

/-- what `find` and `-=` require is met: the vector `[7, 8]` and the integer 8 -/
example (v : Vm) : ∃ u : Vm, FindData [0, 3] u ∧ MinusData [0, 3] u := by
  let m : Mem := fun x => if x = 0 then some { obj := .vec [1, 2], uid := 0 } else if x = 1 then some { obj := .int 7, uid := 1 } else
    if x = 2 then some { obj := .int 8, uid := 2 } else if x = 3 then some { obj := .int 8, uid := 3 } else none
  have i1 : IsData { v with mem := m } 1 := ⟨.int 7, .atom (c := { obj := .int 7, uid := 1 }) rfl rfl, .plain .int⟩
  have i2 : IsData { v with mem := m } 2 := ⟨.int 8, .atom (c := { obj := .int 8, uid := 2 }) rfl rfl, .plain .int⟩
  have i3 : IsData { v with mem := m } 3 := ⟨.int 8, .atom (c := { obj := .int 8, uid := 3 }) rfl rfl, .plain .int⟩
  have hv : Vm.HasVec { v with mem := m } 0 [1, 2] := ⟨{ obj := .vec [1, 2], uid := 0 }, rfl, rfl⟩
  refine ⟨{ v with mem := m }, ⟨0, 3, [1, 2], rfl, hv, by simp [i1, i2], i3⟩, 0, [3], rfl, ⟨_, hv⟩, ⟨.vec [.int 7, .int 8], ?_, ?_⟩, ?_⟩
  · refine .vec (c := { obj := .vec [1, 2], uid := 0 }) rfl rfl rfl fun i x d hx hd => ?_
    match i with
    | 0 => cases hx; cases hd; exact .atom (c := { obj := .int 7, uid := 1 }) rfl rfl
    | 1 => cases hx; cases hd; exact .atom (c := { obj := .int 8, uid := 2 }) rfl rfl
    | n + 2 => cases hx
  · refine .vec (by simp) fun d hd => ?_
    simp at hd
    rcases hd with rfl | rfl <;> exact .plain .int
  · intro y hy
    simp only [List.mem_singleton] at hy
    subst hy
    refine ⟨i3, fun h => ?_⟩
    have : ∀ z, Reach m.Part (· = 3) z → z = 3 := by
      intro z hz
      induction hz with
      | root h => exact h
      | step _ e ih =>
        subst ih
        obtain ⟨c, hc, hb⟩ := e
        cases hc
        simp [Obj.children] at hb
    have := this 0 h
    cases this

end Dern.Props
