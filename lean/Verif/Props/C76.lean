import Verif.Props.C47
import Verif.Props.C49
/-
C76: `find` with several keys.

The answer is a new vector with one element for every key: a new vector of the positions that the key has in the text or in the
vector that is searched.  The positions that were found first are still there after the searches that follow (each of them may
collect garbage).
-/
namespace Dern.Props
open Dern
open Dern.Spec (Reach Data OccursAt)
open Dern.Prog (Library)
variable {W : World} {L : Library}

/-! ### Specification -/

/-- `P` says where `key` is in `x`: equal elements of a vector; a code point in a text; a text, or a number as a text, in a text -/
inductive Finds (v : Vm) (x key : Ref) : (Nat → Prop) → Prop
  | vec {es} : v.HasVec x es → Finds v x key fun k => ∃ e, es[k]? = some e ∧ EqualData v e key
  | char {s c cs} : (v.HasObj x (.str s) ∨ v.HasObj x (.sym s)) → v.HasObj key (.chr (c :: cs)) → Finds v x key fun k => s[k]? = some c
  | text {s t} : (v.HasObj x (.str s) ∨ v.HasObj x (.sym s)) → (∀ t, ¬ v.HasObj key (.chr t)) → SearchKey v key t → t ≠ [] →
      Finds v x key (OccursAt t s)
  | empty {s} : v.HasObj x (.str s) → v.HasObj key (.str []) → Finds v x key fun _ => False

/-- what `y` is in `w`: a vector of integers (with the elements `is`), the positions of `key` in `x` in ascending order; or an error,
when texts cannot be searched for a value like `key` -/
inductive FoundAt (v : Vm) (x key : Ref) (w : Vm) (y : Ref) (is : List Ref) : Prop
  | places {P} {l : List Nat} : Finds v x key P → l.Pairwise (· < ·) → (∀ k, k ∈ l ↔ P k) → w.HasVec y is →
      List.Forall₂ w.HasObj is (l.map fun (k : Nat) => .int (Int.bmod k (2 ^ 32))) → FoundAt v x key w y is
  | refused : (∀ es, ¬ v.HasVec x es) → (∀ t, ¬ SearchKey v key t) → w.IsErr y → is = [] → FoundAt v x key w y is

/-- what `find` does with a text or a vector and more than one key: a new vector of new values, one for every key; no two of all these
values (or of the positions in them) are the same value -/
def FindManyRun (W : World) (ts : List Ref) (v : Vm) (r : Ref) (w : Vm) (tr : List Event) : Prop :=
  tr = [] ∧ Vm.Quiet W nobody v w ∧ ∃ (x : Ref) (keys ys : List Ref) (iss : List (List Ref)), ts = x :: keys ∧ w.HasVec r ys ∧
    ys.length = keys.length ∧ iss.length = keys.length ∧ (r :: (ys ++ iss.flatten)).Nodup ∧ (∀ z ∈ r :: (ys ++ iss.flatten), ¬ v.Old W z) ∧
    ∀ (i : Nat) key y is, keys[i]? = some key → ys[i]? = some y → iss[i]? = some is → FoundAt v x key w y is

/-- the first value is a text, or a vector of data; two or more follow, data if it is a vector -/
def FindMany (ts : List Ref) (v : Vm) : Prop := ∃ x keys, ts = x :: keys ∧ 2 ≤ keys.length ∧
  ((∃ s, v.HasObj x (.str s) ∨ v.HasObj x (.sym s)) ∨ ∃ es, v.HasVec x es ∧ (∀ e ∈ es, IsData v e) ∧ ∀ y ∈ keys, IsData v y)

/-! ### Proofs -/

/-- watching from a later state on -/
theorem Watching.parts {v u : Vm} {args : Ref} {ts : List Ref} (f : Watching W v args ts u) {z : Ref} (h : Reach u.mem.Part (· ∈ ts) z) :
    Reach v.mem.Part (· ∈ ts) z := by
  induction h with
  | root h => exact .root h
  | step _ e ih =>
    obtain ⟨c, hc, hb⟩ := e
    exact .step ih ⟨c, by rw [← f.src _ ih]; exact hc, hb⟩

theorem Watching.rebase {v u : Vm} {args : Ref} {ts : List Ref} (f : Watching W v args ts u) (hb : v.births ≤ u.births) : Watching W u args ts u :=
  ⟨f.vec, f.top, f.known.mono hb, fun z hz => (f.old z (f.parts hz)).mono hb, fun _ _ => rfl⟩

theorem Watching.forth {v u : Vm} {args : Ref} {ts : List Ref} (f : Watching W v args ts u) {z : Ref} (h : Reach v.mem.Part (· ∈ ts) z) :
    Reach u.mem.Part (· ∈ ts) z := by
  induction h with
  | root h => exact .root h
  | step h e ih =>
    obtain ⟨c, hc, hb⟩ := e
    exact .step ih ⟨c, by rw [f.src _ h]; exact hc, hb⟩

theorem Watching.compose {v u w : Vm} {args : Ref} {ts : List Ref} (f : Watching W v args ts u) (g : Watching W u args ts w) : Watching W v args ts w :=
  ⟨g.vec, g.top, f.known, f.old, fun z hz => by rw [g.src z (f.forth hz), f.src z hz]⟩

/-- watching the elements of a known vector on the stack -/
theorem Watching.new {v : Vm} {X : Ref → Prop} (cv : v.Closed W X) {r : Ref} {es : List Ref} (hv : v.HasVec r es) (top : r ∈ v.stack) : Watching W v r es v where
  vec := hv
  top := top
  known := cv.stack _ top
  old := fun z hz => by
    induction hz with
    | root h =>
      obtain ⟨c, hc, ho⟩ := hv
      exact (cv.cells _ _ hc).obj.children (by rw [ho]; exact h)
    | step _ e _ =>
      obtain ⟨c, hc, hb⟩ := e
      exact (cv.cells _ _ hc).obj.children hb
  src := fun _ _ => rfl

theorem c76_appendInts_aux {n : Nat} {h : Handler} {X : Ref → Prop} {v : Vm} {r a1 a2 : Ref} {t1 t2 : List Ref} : ∀ (ns : List Nat) (os : List Obj) (u : Vm),
    Building W X v r os u → Watching W v a1 t1 u → Watching W v a2 t2 u →
    Wp W n h (Prog.appendInts r ns) u fun _ w t => t = [] ∧ w.stack = u.stack ∧ Watching W v a1 t1 w ∧ Watching W v a2 t2 w ∧
      Building W X v r (os ++ ns.map fun (k : Nat) => .int (Int.bmod k (2 ^ 32))) w := by
  intro ns
  induction ns with
  | nil => intro os u b f1 f2; exact wp_pure ⟨rfl, rfl, f1, f2, by simpa using b⟩
  | cons k ns ih =>
    intro os u b f1 f2
    unfold Prog.appendInts
    refine b.putKept (fun _ => trivial) fun w b' hs hk => Wp.mono (ih _ w b' (f1.same hs hk) (f2.same hs hk)) ?_
    rintro _ w' t ⟨ht, hst, g1, g2, hb⟩
    exact ⟨ht, hst.trans hs, g1, g2, by simpa using hb⟩

/-- what a search leaves behind: a new value `y` that is not on the stack, with new elements `is` -/
structure Answered (W : World) (X : Ref → Prop) (v w : Vm) (y : Ref) (is : List Ref) : Prop where
  step : Vm.Step W X nobody v w
  stack : w.stack = v.stack
  nodup : (y :: is).Nodup
  fresh : ∀ z ∈ y :: is, ¬ v.Old W z
  old : ∀ z ∈ y :: is, w.Old W z

theorem Building.answered {X : Ref → Prop} {v u w : Vm} {r : Ref} {os : List Obj} (b : Building W X v r os u) (g : Vm.Step W X nobody v w) (hm : w.mem = u.mem)
    (hs : w.stack = v.stack) : ∃ is, Answered W X v w r is ∧ w.HasVec r is ∧ List.Forall₂ w.HasObj is os := by
  obtain ⟨es, ⟨c, hc, ho⟩, h2, h3⟩ := b.elems
  have h4 : ∀ z ∈ es, ¬ v.Old W z := by
    have : ∀ {es : List Ref} {os : List Obj}, List.Forall₂ (fun x o => ¬ v.Old W x ∧ u.HasObj x o) es os → ∀ z ∈ es, ¬ v.Old W z := by
      intro es os h3
      induction h3 with
      | nil => simp
      | cons h1 _ ih =>
        intro z hz
        rcases List.mem_cons.mp hz with rfl | hz
        · exact h1.1
        · exact ih z hz
    exact this h3
  have hc' : w.mem r = some c := by rw [hm]; exact hc
  refine ⟨es, ⟨g, hs, h2, ?_, ?_⟩, ⟨c, hc', ho⟩, ?_⟩
  · intro z hz
    rcases List.mem_cons.mp hz with rfl | hz
    · exact b.fresh
    · exact h4 z hz
  · intro z hz
    rcases List.mem_cons.mp hz with rfl | hz
    · exact g.sane.old _ _ hc'
    · exact (g.closed.cells _ _ hc').obj.children (by rw [ho]; exact hz)
  · exact forall₂_imp h3 fun z o _ hz => by
      obtain ⟨d, hd, hdo⟩ := hz.2
      exact ⟨d, by rw [hm]; exact hd, hdo⟩

/-- a new vector of integers -/
theorem c76_indexVector_aux {n : Nat} {h : Handler} {X : Ref → Prop} {v u : Vm} {a1 a2 : Ref} {t1 t2 : List Ref} (g : Vm.Step W X nobody v u) (hs : u.stack = v.stack)
    (f1 : Watching W v a1 t1 u) (f2 : Watching W v a2 t2 u) {f : Option (List Nat)} :
    Wp W n h (Prog.indexVector f) u fun a w t => t = [] ∧ Watching W v a1 t1 w ∧ Watching W v a2 t2 w ∧ ∃ l, f = some l ∧ ∃ r, a = some r ∧
      ∃ is, Answered W X v w r is ∧ w.HasVec r is ∧ List.Forall₂ w.HasObj is (l.map fun (k : Nat) => .int (Int.bmod k (2 ^ 32))) := by
  unfold Prog.indexVector
  split
  · exact wp_fail
  · rename_i ns
    refine wp_bind (wp_alloc g.sane fun r w a => wp_bind (wp_push ?_))
    have b := Building.start g a
    have hb := g.quiet.births
    refine wp_bind (Wp.mono (c76_appendInts_aux ns [] _ b ((f1.alloc hb a).push r) ((f2.alloc hb a).push r)) ?_)
    rintro _ w1 t ⟨rfl, hs', g1, g2, b1⟩
    refine wp_bind (wp_pop fun s hs1 => wp_pure ?_)
    have e : s = u.stack := by
      have := hs'.symm.trans hs1
      simp only [List.cons.injEq, true_and] at this
      rw [← this, a.stack]
    have mem : ∀ {a ts}, a ∈ v.stack → Watching W v a ts w1 → Watching W v a ts { w1 with stack := s } := fun ha g =>
      ⟨g.vec, by show _ ∈ s; rw [e, hs]; exact ha, g.known, g.old, g.src⟩
    obtain ⟨is, h1, h2, h3⟩ := b1.answered (w := { w1 with stack := s }) (b1.step.pop hs1) rfl (e.trans hs)
    exact ⟨rfl, mem (by rw [← hs]; exact f1.top) g1, mem (by rw [← hs]; exact f2.top) g2, ns, rfl, r, rfl, is, h1, h2, by simpa using h3⟩

theorem c76_equal_aux {v u : Vm} {args : Ref} {ts : List Ref} (f : Watching W v args ts u) {x y : Ref} (rx : Reach v.mem.Part (· ∈ ts) x)
    (ry : Reach v.mem.Part (· ∈ ts) y) (dx : IsData v x) (dy : IsData v y) : EqualData u x y ↔ EqualData v x y := by
  obtain ⟨a, ha, _⟩ := dx
  obtain ⟨b, hb, _⟩ := dy
  constructor <;> rintro ⟨a', b', h1, h2, h3⟩
  · cases h1.unique _ (f.denotes rx ha); cases h2.unique _ (f.denotes ry hb); exact ⟨_, _, ha, hb, h3⟩
  · cases h1.unique _ ha; cases h2.unique _ hb; exact ⟨_, _, f.denotes rx ha, f.denotes ry hb, h3⟩

theorem c76_findInVec_aux {n : Nat} {h : Handler} {v : Vm} {args key r a2 : Ref} {ts t2 : List Ref} (hk : key ∈ ts) (dk : IsData v key) :
    ∀ (xs pre : List Ref) (l : List Nat) (u : Vm), (∀ x ∈ xs, Reach v.mem.Part (· ∈ ts) x ∧ IsData v x) →
    Watching W v args ts u → Watching W v a2 t2 u → Building W (fun z => z = args) v r (l.map fun (k : Nat) => .int (Int.bmod k (2 ^ 32))) u →
    l.Pairwise (· < ·) → (∀ k, k ∈ l ↔ ∃ e, pre[k]? = some e ∧ EqualData v e key) →
    Wp W n h (Prog.findInVec key r pre.length xs) u fun _ w t => t = [] ∧ w.stack = u.stack ∧ Watching W v args ts w ∧ Watching W v a2 t2 w ∧ ∃ l' : List Nat,
      Building W (fun z => z = args) v r (l'.map fun (k : Nat) => .int (Int.bmod k (2 ^ 32))) w ∧ l'.Pairwise (· < ·) ∧
      ∀ k, k ∈ l' ↔ ∃ e, (pre ++ xs)[k]? = some e ∧ EqualData v e key := by
  intro xs
  induction xs with
  | nil => intro pre l u _ f f2 b hl hm; exact wp_pure ⟨rfl, rfl, f, f2, l, b, hl, by simpa using hm⟩
  | cons x xs ih =>
    intro pre l u hx f f2 b hl hm
    unfold Prog.findInVec
    obtain ⟨dy, hy, ry⟩ := dk
    obtain ⟨hrx, dx, hdx, rx⟩ := hx x (by simp)
    have hbound : ∀ k ∈ l, k < pre.length := fun k hk' => by
      obtain ⟨e, he, _⟩ := (hm k).mp hk'
      exact (List.getElem?_eq_some_iff.mp he).1
    refine wp_bind (c49_equal_aux hdx hy rx ry (f.denotes hrx hdx) (f.denotes (.root hk) hy) fun q hq => ?_)
    have next := fun l => ih (pre ++ [x]) l
    simp only [List.length_append, List.length_singleton, List.append_assoc, List.singleton_append] at next
    split
    · rename_i hqt
      refine b.putKept (o := .int (Int.bmod pre.length (2 ^ 32))) (by simp [PubObj]) fun w bw hs hk => ?_
      refine Wp.mono (next (l ++ [pre.length]) w (fun z hz => hx z (by simp [hz])) (f.same hs hk) (f2.same hs hk) (by simpa using bw) ?_ ?_)
          fun _ w' t h => ⟨by simpa using h.1, h.2.1.trans hs, h.2.2⟩
      · rw [List.pairwise_append]
        refine ⟨hl, by simp, fun a ha b hb => ?_⟩
        simp only [List.mem_singleton] at hb
        subst hb; exact hbound a ha
      · intro k
        rw [List.mem_append, hm]
        constructor
        · rintro (⟨e, he, h'⟩ | hk')
          · exact ⟨e, by rw [List.getElem?_append_left (List.getElem?_eq_some_iff.mp he).1]; exact he, h'⟩
          · simp only [List.mem_singleton] at hk'
            subst hk'
            exact ⟨x, by simp, hq.mp hqt⟩
        · rintro ⟨e, he, h'⟩
          by_cases hlt : k < pre.length
          · exact .inl ⟨e, by rwa [List.getElem?_append_left hlt] at he, h'⟩
          · have := (List.getElem?_eq_some_iff.mp he).1
            simp at this
            right; simp; omega
    · rename_i hqf
      refine Wp.mono (next l u (fun z hz => hx z (by simp [hz])) f f2 b hl ?_) fun _ _ _ h => by simpa using h
      intro k
      rw [hm]
      constructor
      · rintro ⟨e, he, h'⟩
        exact ⟨e, by rw [List.getElem?_append_left (List.getElem?_eq_some_iff.mp he).1]; exact he, h'⟩
      · rintro ⟨e, he, h'⟩
        by_cases hlt : k < pre.length
        · exact ⟨e, by rwa [List.getElem?_append_left hlt] at he, h'⟩
        · have := (List.getElem?_eq_some_iff.mp he).1
          simp at this
          obtain rfl : k = pre.length := by omega
          simp at he
          subst he
          exact absurd (hq.mpr h') hqf

/-- one search, from the state `u` on -/
theorem c76_from_aux {n : Nat} {h : Handler} {v u : Vm} {args r x key : Ref} {ts ys : List Ref} (g : Vm.Step W (fun z => z = args) nobody v u)
    (f1 : Watching W v args ts u) (f2 : Watching W u r ys u) (hx : x ∈ ts) (hk : key ∈ ts)
    (hp : (∃ s, v.HasObj x (.str s) ∨ v.HasObj x (.sym s)) ∨ ∃ es, v.HasVec x es ∧ (∀ e ∈ es, IsData v e) ∧ IsData v key) :
    Wp W n h (Prog.findFrom x key) u fun a w t => t = [] ∧ Watching W u args ts w ∧ Watching W u r ys w ∧ ∃ y, a = some y ∧
      ∃ is, Answered W (fun z => z = args) u w y is ∧ FoundAt v x key w y is := by
  have fu := f1.rebase g.quiet.births
  have here : Vm.Step W (fun z => z = args) nobody u u := .refl g.sane g.closed
  unfold Prog.findFrom
  refine wp_bind (wp_read fun c hc => ?_)
  have hcv : v.mem x = some c := by rw [← f1.src x (.root hx)]; exact hc
  rcases hp with ⟨s, hs⟩ | ⟨es, ⟨c0, hc0, ho0⟩, hes, dk⟩
  · have hcs : c.obj = .str s ∨ c.obj = .sym s := by
      rcases hs with ⟨c', hc', ho⟩ | ⟨c', hc', ho⟩ <;> cases same_cell hcv hc'
      · exact .inl ho
      · exact .inr ho
    have novec : ∀ es, ¬ v.HasVec x es := by
      rintro es ⟨c', hc', ho⟩
      cases same_cell hcv hc'
      rcases hcs with e | e <;> rw [e] at ho <;> cases ho
    have whole : ∀ {t : Text} {u'}, (∀ t, ¬ v.HasObj key (.chr t)) → SearchKey v key t → Vm.Step W (fun z => z = args) nobody u u' → u'.stack = u.stack →
        Watching W u args ts u' → Watching W u r ys u' →
        Wp W n h (Prog.indexVector (Prog.findWhole s t)) u' fun a w t => t = [] ∧ Watching W u args ts w ∧ Watching W u r ys w ∧ ∃ y, a = some y ∧
          ∃ is, Answered W (fun z => z = args) u w y is ∧ FoundAt v x key w y is := by
      intro t u' hn hk g' hs' w1 w2
      refine Wp.mono (c76_indexVector_aux g' hs' w1 w2) ?_
      rintro a w tr ⟨rfl, k1, k2, l, hl, y, rfl, is, k3, k4, k5⟩
      obtain ⟨h1, h2, h3⟩ := c47_whole_aux hl
      exact ⟨rfl, k1, k2, y, rfl, is, k3, .places (.text hs hn hk h1) h2 h3 k4 k5⟩
    have text : ∀ b : Bool, (b = false → v.HasObj x (.str s)) → Wp W n h (Prog.findInText b s key) u fun a w t => t = [] ∧ Watching W u args ts w ∧ Watching W u r ys w ∧ ∃ y, a = some y ∧
          ∃ is, Answered W (fun z => z = args) u w y is ∧ FoundAt v x key w y is := by
      intro b hb
      unfold Prog.findInText
      refine wp_bind (wp_read fun d hd => ?_)
      have hdv : v.mem key = some d := by rw [← f1.src key (.root hk)]; exact hd
      have nochr : (∀ t, d.obj ≠ .chr t) → ∀ t, ¬ v.HasObj key (.chr t) := by
        rintro hn t ⟨c', hc', ho⟩
        cases same_cell hdv hc'
        exact hn t ho
      split
      · rename_i t ho
        refine Wp.mono (c76_indexVector_aux here rfl fu f2) ?_
        rintro a w tr ⟨rfl, k1, k2, l, hl, y, rfl, is, k3, k4, k5⟩
        obtain ⟨c1, cs, rfl, h1, h2⟩ := c47_char_aux hl
        exact ⟨rfl, k1, k2, y, rfl, is, k3, .places (.char hs ⟨d, hdv, ho⟩) h1 h2 k4 k5⟩
      · rename_i t ho
        split
        · rename_i hw
          obtain ⟨hw1, hw2⟩ := hw
          subst hw1
          have ht : t = [] := by
            cases t with
            | nil => rfl
            | cons b t =>
              have := c44_find_string s (b :: t) 0 (b :: t).length
              have hp : Spec.position (b :: t).length 0 = some 0 := by simp [Spec.position]
              rw [hp] at this
              simp only [Nat.zero_add, Nat.le_refl, and_true] at this
              rw [if_pos (by simp)] at this
              obtain ⟨l, h1, _⟩ := this
              unfold Prog.findWhole at hw2
              rw [hw2] at h1; cases h1
          subst ht
          refine wp_bind (wp_alloc g.sane fun y w a => wp_pure ?_)
          have b := Building.start here a
          have gw := here.alloc a (o := .vec []) (by simp [PubObj])
          obtain ⟨is, k3, k4, k5⟩ := b.answered (w := w) gw rfl a.stack
          exact ⟨rfl, fu.alloc (Nat.le_refl _) a, f2.alloc (Nat.le_refl _) a, y, rfl, is, k3, .places (l := []) (.empty (hb rfl) ⟨d, hdv, ho⟩) (by simp) (by simp) k4 k5⟩
        · exact Wp.mono (whole (nochr (by rw [ho]; simp)) (.text (.str ⟨d, hdv, ho⟩)) here rfl fu f2) fun _ _ _ h => by simpa using h
      · rename_i t ho
        exact Wp.mono (whole (nochr (by rw [ho]; simp)) (.text (.sym ⟨d, hdv, ho⟩)) here rfl fu f2) fun _ _ _ h => by simpa using h
      · rename_i m ho
        exact Wp.mono (whole (nochr (by rw [ho]; simp)) (.int ⟨d, hdv, ho⟩ rfl) here rfl fu f2) fun _ _ _ h => by simpa using h
      · rename_i q ho
        refine wp_bind (wp_text fun t => ?_)
        exact Wp.mono (whole (nochr (by rw [ho]; simp)) (.real ⟨d, hdv, ho⟩) here.tick rfl ⟨fu.vec, fu.top, fu.known, fu.old, fu.src⟩
          ⟨f2.vec, f2.top, f2.known, f2.old, f2.src⟩) fun _ _ _ h => by simpa using h
      · rename_i h1 h2 h3 h4 h5
        unfold Prog.error
        refine wp_bind (wp_text fun t => wp_bind (wp_alloc here.tick.sane fun y w a => wp_pure ?_))
        have gw := here.tick.alloc a trivial
        refine ⟨rfl, Watching.alloc (u := { u with ticks := u.ticks + 1 }) ⟨fu.vec, fu.top, fu.known, fu.old, fu.src⟩ (Nat.le_refl _) a,
          Watching.alloc (u := { u with ticks := u.ticks + 1 }) ⟨f2.vec, f2.top, f2.known, f2.old, f2.src⟩ (Nat.le_refl _) a, y, rfl, [],
          ⟨gw, a.stack, by simp, ?_, ?_⟩, .refused novec ?_ ⟨_, _, _, a.cell, rfl⟩ rfl⟩
        · intro z hz
          simp only [List.mem_singleton] at hz
          subst hz; exact fun h => a.fresh h
        · intro z hz
          simp only [List.mem_singleton] at hz
          subst hz; exact a.old
        · rintro t ((⟨c', hc', ho⟩ | ⟨c', hc', ho⟩ | ⟨c', hc', ho⟩) | ⟨⟨c', hc', ho⟩, _⟩ | ⟨c', hc', ho⟩) <;> cases same_cell hdv hc'
          · exact h2 _ ho
          · exact h3 _ ho
          · exact h1 _ ho
          · exact h4 _ ho
          · exact h5 _ ho
    rcases hcs with e | e
    · rw [e]
      exact Wp.mono (text false fun _ => ⟨c, hcv, e⟩) fun _ _ _ h => by simpa using h
    · rw [e]
      exact Wp.mono (text true fun h => by cases h) fun _ _ _ h => by simpa using h
  · cases same_cell hcv hc0
    simp only [ho0, bind_assoc]
    refine wp_bind (wp_alloc g.sane fun y w a => wp_bind (wp_push ?_))
    have b := Building.start here a
    have edata : ∀ z, Reach v.mem.Part (· ∈ ts) z → IsData v z → IsData u z := fun z hz ⟨d, hd, hr⟩ => ⟨d, f1.denotes hz hd, hr⟩
    have elem : ∀ z ∈ es, Reach v.mem.Part (· ∈ ts) z := fun z hz => .step (.root hx) ⟨_, hcv, by rw [ho0]; exact hz⟩
    refine wp_bind (Wp.mono (c76_findInVec_aux (v := u) (ts := ts) (args := args) hk (edata _ (.root hk) dk) es [] [] _
      (fun z hz => ⟨f1.forth (elem z hz), edata z (elem z hz) (hes z hz)⟩) ((fu.alloc (Nat.le_refl _) a).push y) ((f2.alloc (Nat.le_refl _) a).push y) b (by simp) (by simp)) ?_)
    rintro _ w1 t ⟨rfl, hs, w2, w3, l, bw, hl, hm⟩
    refine wp_bind (wp_pop fun s1 hs1 => wp_pure ?_)
    have e : s1 = u.stack := by
      have := hs.symm.trans hs1
      simp only [List.cons.injEq, true_and] at this
      rw [← this, a.stack]
    have mem : ∀ {a ts}, a ∈ u.stack → Watching W u a ts w1 → Watching W u a ts { w1 with stack := s1 } := fun ha g =>
      ⟨g.vec, by show _ ∈ s1; rw [e]; exact ha, g.known, g.old, g.src⟩
    obtain ⟨is, k3, k4, k5⟩ := bw.answered (w := { w1 with stack := s1 }) (bw.step.pop hs1) rfl e
    refine ⟨rfl, mem fu.top w2, mem f2.top w3, y, rfl, is, k3, .places (.vec ⟨_, hcv, ho0⟩) hl ?_ k4 k5⟩
    intro k
    rw [hm]
    constructor <;> rintro ⟨z, hz, he⟩ <;> have hz' := List.mem_of_getElem? hz
    · exact ⟨z, by simpa using hz, (c76_equal_aux f1 (elem z (by simpa using hz')) (.root hk) (hes z (by simpa using hz')) dk).mp he⟩
    · exact ⟨z, by simpa using hz, (c76_equal_aux f1 (elem z hz') (.root hk) (hes z hz') dk).mpr he⟩

theorem FoundAt.same {v u w : Vm} {x key y : Ref} {is : List Ref} (f : FoundAt v x key u y is) (h : ∀ z ∈ y :: is, w.mem z = u.mem z) :
    FoundAt v x key w y is := by
  have hy := h y (by simp)
  cases f with
  | places h1 h2 h3 h4 h5 =>
    obtain ⟨c, hc, ho⟩ := h4
    refine .places h1 h2 h3 ⟨c, by rw [hy]; exact hc, ho⟩ ?_
    have key : ∀ {is : List Ref} {os : List Obj}, (∀ z ∈ is, w.mem z = u.mem z) → List.Forall₂ u.HasObj is os → List.Forall₂ w.HasObj is os := by
      intro is os hm h
      induction h with
      | nil => exact .nil
      | cons h1 _ ih =>
        obtain ⟨c, hc, ho⟩ := h1
        exact .cons ⟨c, by rw [hm _ (by simp)]; exact hc, ho⟩ (ih fun z hz => hm z (by simp [hz]))
    exact key (fun z hz => h z (by simp [hz])) h5
  | refused h1 h2 h3 h4 =>
    obtain ⟨m, l, c, hc, ho⟩ := h3
    exact .refused h1 h2 ⟨m, l, c, by rw [hy]; exact hc, ho⟩ h4

/-- the elements of what was found are parts of it -/
theorem FoundAt.part {v u : Vm} {x key y : Ref} {is : List Ref} (f : FoundAt v x key u y is) : ∀ z ∈ is, u.mem.Part y z := by
  intro z hz
  cases f with
  | places _ _ _ h4 _ =>
    obtain ⟨c, hc, ho⟩ := h4
    exact ⟨c, hc, by rw [ho]; exact hz⟩
  | refused _ _ _ h4 => subst h4; simp at hz

/-- the answer vector `r` while it is filled -/
structure Many (W : World) (v : Vm) (args : Ref) (ts : List Ref) (x r : Ref) (pre ys : List Ref) (iss : List (List Ref)) (u : Vm) : Prop where
  step : Vm.Step W (fun z => z = args) nobody v u
  watch : Watching W v args ts u
  top : r ∈ u.stack
  cell : u.HasVec r ys
  len : ys.length = pre.length
  lens : iss.length = pre.length
  nodup : (r :: (ys ++ iss.flatten)).Nodup
  fresh : ∀ z ∈ r :: (ys ++ iss.flatten), ¬ v.Old W z
  old : ∀ z ∈ r :: (ys ++ iss.flatten), u.Old W z
  found : ∀ (i : Nat) key y is, pre[i]? = some key → ys[i]? = some y → iss[i]? = some is → FoundAt v x key u y is

theorem c76_getSnoc_aux {α : Type} {l : List α} {a b : α} {i : Nat} (h : (l ++ [a])[i]? = some b) : l[i]? = some b ∨ (i = l.length ∧ b = a) := by
  rw [List.getElem?_append] at h
  split at h
  · exact .inl h
  · rename_i hi
    have := (List.getElem?_eq_some_iff.mp h).1
    simp at this
    obtain rfl : i = l.length := by omega
    simp at h
    exact .inr ⟨rfl, h.symm⟩

theorem Many.add {v u w : Vm} {args : Ref} {ts : List Ref} {x r key y : Ref} {pre ys is : List Ref} {iss : List (List Ref)}
    (m : Many W v args ts x r pre ys iss u) (w1 : Watching W u args ts w) (w2 : Watching W u r ys w) (a : Answered W (fun z => z = args) u w y is)
    (fd : FoundAt v x key w y is) {c : Cell} {es : List Ref} (hc : w.mem r = some c) (ho : c.obj = .vec es) :
    es = ys ∧ Many W v args ts x r (pre ++ [key]) (ys ++ [y]) (iss ++ [is]) { w with mem := w.mem.set r { c with obj := .vec (es ++ [y]) } } := by
  have hr0 : ¬ v.Old W r := m.fresh r (by simp)
  have hru : u.Old W r := m.old r (by simp)
  have hes : es = ys := by
    obtain ⟨c', hc', ho'⟩ := w2.vec
    cases same_cell hc hc'
    rw [ho] at ho'; cases ho'; rfl
  subst hes
  have qvw := m.step.quiet.trans m.step.sane0 a.step.quiet
  have gvw : Vm.Step W (fun z => z = args) nobody v w := ⟨m.step.sane0, a.step.sane, a.step.closed, qvw⟩
  have hra : r ≠ args := fun e => hr0 (e ▸ m.watch.known)
  have hya : y ≠ args := fun e => a.fresh y (by simp) (e ▸ m.watch.known.mono m.step.quiet.births)
  have hyr : ∀ z ∈ y :: is, z ≠ r := fun z hz e => a.fresh z hz (e ▸ hru)
  have hrr : ∀ z ∈ es ++ iss.flatten, z ≠ r := fun z hz e => (List.nodup_cons.mp m.nodup).1 (e ▸ hz)
  have pub := a.step.closed.pub r c hc hra
  have hp' : PubCell (w.Pub W fun z => z = args) { c with obj := .vec (es ++ [y]) } := by
    refine ⟨?_, pub.docstr, pub.docvec⟩
    intro z hz
    rcases List.mem_append.mp hz with hz | hz
    · have := pub.obj
      rw [ho] at this
      exact this z hz
    · simp at hz; subst hz; exact ⟨a.old _ (by simp), hya⟩
  have keep : ∀ z, z ≠ r → ({ w with mem := w.mem.set r { c with obj := .vec (es ++ [y]) } } : Vm).mem z = w.mem z := fun z hz => Mem.set_other _ _ hz
  -- what was there before is as it was
  have back : ∀ (i : Nat) key y is, pre[i]? = some key → es[i]? = some y → iss[i]? = some is → ∀ z ∈ y :: is, w.mem z = u.mem z ∧ z ≠ r := by
    intro i key y is h1 h2 h3 z hz
    have hy := List.mem_of_getElem? h2
    have hi := List.mem_of_getElem? h3
    rcases List.mem_cons.mp hz with rfl | hz
    · exact ⟨w2.src _ (.root hy), hrr _ (by simp [hy])⟩
    · exact ⟨w2.src _ (.step (.root hy) ((m.found i key y is h1 h2 h3).part z hz)), hrr _ (List.mem_append_right _ (List.mem_flatten.mpr ⟨is, hi, hz⟩))⟩
  have perm : (r :: ((es ++ [y]) ++ (iss ++ [is]).flatten)).Perm ((r :: (es ++ iss.flatten)) ++ (y :: is)) := by
    simp only [List.flatten_append, List.flatten_cons, List.flatten_nil, List.append_nil, List.cons_append, List.append_assoc, List.perm_cons]
    refine List.Perm.append_left _ ?_
    exact (List.perm_middle (a := y) (l₁ := iss.flatten) (l₂ := is)).symm
  refine ⟨rfl, gvw.modify (.inr hr0) hc rfl rfl hp', ?_, ?_, ⟨_, Mem.set_self .., rfl⟩, by simp [m.len], by simp [m.lens], ?_, ?_, ?_, ?_⟩
  · refine (m.watch.compose w1).same rfl fun z hz _ => keep z fun e => hr0 (e ▸ hz)
  · show r ∈ w.stack
    rw [a.stack]; exact m.top
  · rw [perm.nodup_iff, List.nodup_append]
    refine ⟨m.nodup, a.nodup, ?_⟩
    rintro z hz z' hz' rfl
    exact a.fresh z hz' (m.old z hz)
  · intro z hz
    rcases List.mem_append.mp (perm.mem_iff.mp hz) with hz | hz
    · exact m.fresh z hz
    · exact fun h => a.fresh z hz (h.mono m.step.quiet.births)
  · intro z hz
    rcases List.mem_append.mp (perm.mem_iff.mp hz) with hz | hz
    · exact (m.old z hz).mono a.step.quiet.births
    · exact a.old z hz
  · intro i key' y' is' h1 h2 h3
    have e1 : i < pre.length ∨ i = pre.length := by
      have := (List.getElem?_eq_some_iff.mp h1).1
      simp at this; omega
    have l1 := m.len
    have l2 := m.lens
    rcases e1 with e1 | e1
    · rw [List.getElem?_append_left e1] at h1
      rw [List.getElem?_append_left (by omega)] at h2
      rw [List.getElem?_append_left (by omega)] at h3
      refine (m.found i key' y' is' h1 h2 h3).same fun z hz => ?_
      obtain ⟨b1, b2⟩ := back i key' y' is' h1 h2 h3 z hz
      rw [keep z b2, b1]
    · rcases c76_getSnoc_aux h1 with h | ⟨-, rfl⟩
      · have := (List.getElem?_eq_some_iff.mp h).1; omega
      rcases c76_getSnoc_aux h2 with h | ⟨-, rfl⟩
      · have := (List.getElem?_eq_some_iff.mp h).1; omega
      rcases c76_getSnoc_aux h3 with h | ⟨-, rfl⟩
      · have := (List.getElem?_eq_some_iff.mp h).1; omega
      exact fd.same fun z hz => keep z (hyr z hz)

/-- the values that can be searched for -/
def Searchable (v : Vm) (x : Ref) (keys : List Ref) : Prop :=
  (∃ s, v.HasObj x (.str s) ∨ v.HasObj x (.sym s)) ∨ ∃ es, v.HasVec x es ∧ (∀ e ∈ es, IsData v e) ∧ ∀ y ∈ keys, IsData v y

theorem c76_each_aux {n : Nat} {h : Handler} {v : Vm} {args x r : Ref} {ts : List Ref} (hx : x ∈ ts) : ∀ (keys pre ys : List Ref) (iss : List (List Ref)) (u : Vm),
    (∀ key ∈ keys, key ∈ ts) → Searchable v x keys → Many W v args ts x r pre ys iss u →
    Wp W n h (Prog.findEach x r keys) u fun _ w t => t = [] ∧ ∃ ys' iss', Many W v args ts x r (pre ++ keys) ys' iss' w := by
  intro keys
  induction keys with
  | nil => intro pre ys iss u _ _ m; exact wp_pure ⟨rfl, ys, iss, by simpa using m⟩
  | cons key keys ih =>
    intro pre ys iss u hk hs m
    unfold Prog.findEach
    have hs1 : (∃ s, v.HasObj x (.str s) ∨ v.HasObj x (.sym s)) ∨ ∃ es, v.HasVec x es ∧ (∀ e ∈ es, IsData v e) ∧ IsData v key := by
      rcases hs with hs | ⟨es, h1, h2, h3⟩
      · exact .inl hs
      · exact .inr ⟨es, h1, h2, h3 key (by simp)⟩
    have hs2 : Searchable v x keys := by
      rcases hs with hs | ⟨es, h1, h2, h3⟩
      · exact .inl hs
      · exact .inr ⟨es, h1, h2, fun y hy => h3 y (by simp [hy])⟩
    refine wp_bind (Wp.mono (c76_from_aux m.step m.watch (Watching.new m.step.closed m.cell m.top) hx (hk key (by simp)) hs1) ?_)
    rintro _ w t ⟨rfl, w1, w2, y, rfl, is, a, fd⟩
    refine wp_bind (wp_deref fun y' hy' => ?_)
    cases hy'
    refine wp_bind (wp_append fun c es hc ho => ?_)
    obtain ⟨rfl, m'⟩ := m.add w1 w2 a fd hc ho
    refine Wp.mono (ih _ _ _ _ (fun z hz => hk z (by simp [hz])) hs2 m') ?_
    rintro _ w' t ⟨rfl, ys', iss', m''⟩
    exact ⟨rfl, ys', iss', by simpa using m''⟩

theorem c76_findRun_aux {n : Nat} {h : Handler} {args env : Ref} {ts : List Ref} {v : Vm} (k : Held W args ts env v) (hp : FindMany ts v) :
    Wp W n h (Prog.biFind args env) v fun a u tr => KeepsBuiltins v u ∧ ∀ r w, a = some r → Ends u w → FindManyRun W ts v r w tr := by
  obtain ⟨x, keys, rfl, hlen, hs⟩ := hp
  unfold Prog.biFind
  refine first_aux k fun hv => ?_
  refine wp_bind (wp_push (wp_bind (wp_push ?_)))
  have g1 := (k.here (E := nobody)).push k.old
  have g2 : Vm.Step W (fun z => z = args) nobody v { v with stack := env :: args :: v.stack } := g1.push (r := env) k.env.1
  have f0 : Watching W v args (x :: keys) { v with stack := env :: args :: v.stack } := .start k hv (by simp) rfl
  obtain ⟨k1, k2, keys, rfl⟩ : ∃ k1 k2 ks, keys = k1 :: k2 :: ks := by
    rcases keys with _ | ⟨a, _ | ⟨b, l⟩⟩
    · simp at hlen
    · simp at hlen
    · exact ⟨_, _, _, rfl⟩
  · show Wp W n h (do let r ← Prog.alloc (.vec []); Prog.push r; Prog.findEach x r (k1 :: k2 :: keys); Prog.pop r; Prog.pop env; Prog.pop args; pure (some r)) _ _
    refine wp_bind (wp_alloc g2.sane fun r u a => wp_bind (wp_push ?_))
    have b := Building.start g2 a
    have m0 : Many W v args (x :: k1 :: k2 :: keys) x r [] [] [] { u with stack := r :: u.stack } :=
      ⟨b.step, (f0.alloc (Nat.le_refl _) a).push r, by simp, ⟨_, a.cell, rfl⟩, rfl, rfl, by simp, by simpa using b.fresh,
        by intro z hz; simp at hz; subst hz; exact a.old, by simp⟩
    refine wp_bind (Wp.mono (c76_each_aux (by simp) (k1 :: k2 :: keys) [] [] [] _ (fun z hz => by simp at hz ⊢; exact .inr hz) hs m0) ?_)
    rintro _ w t ⟨rfl, ys, iss, m⟩
    refine wp_bind (wp_pop fun s1 hs1 => wp_bind (wp_pop fun s2 hs2 => wp_bind (wp_pop fun s3 hs3 => wp_pure ⟨keeps_mem m.step.quiet rfl, ?_⟩)))
    rintro _ w' ⟨⟩ e
    have e' : Ends w w' := (Ends.pop (s := s3)).trans e
    have hq := m.step.quiet.trans m.step.sane0 e'.quiet
    refine ⟨rfl, hq, x, _, ys, iss, rfl, e'.hasObj m.cell (by simp), m.len, m.lens, m.nodup, m.fresh, ?_⟩
    intro i key y is h1 h2 h3
    cases m.found i key y is h1 h2 h3 with
    | places p1 p2 p3 p4 p5 =>
      refine .places p1 p2 p3 (e'.hasObj p4 (by simp)) ?_
      have : ∀ {is : List Ref} {l : List Nat}, List.Forall₂ w.HasObj is (l.map fun (k : Nat) => .int (Int.bmod k (2 ^ 32))) →
          List.Forall₂ w'.HasObj is (l.map fun (k : Nat) => .int (Int.bmod k (2 ^ 32))) := by
        intro is l
        induction l generalizing is with
        | nil => intro h; cases h; exact .nil
        | cons b l ih => intro h; cases h with | cons h1 h2 => exact .cons (e'.hasObj h1 (by simp)) (ih h2)
      exact this p5
    | refused p1 p2 p3 p4 => exact .refused p1 p2 (e'.isErr p3) p4

/-! ### Theorems -/

/-- `find` with several keys -/
theorem c76_find (hL : L.Safe) {v w : Vm} (rv : v.Reached W L) {form env op : Ref} {name : Text} {xs : List Ref}
    (nc : NamedCall W v form env name op xs) (hop : v.HasObj op (.builtin .find)) {r : Option Ref} {tr : List Event}
    (ev : Evaluates W L v form env r w tr) :
    NamedOpCall W (ArgumentsFirst W form env (Runs .find op fun ts u r w tr => FindMany ts u → FindManyRun W ts u r w tr)) v env op r w tr :=
  namedBuiltinPre_aux hL (by simp) (fun _ _ _ _ _ _ _ k hp => c76_findRun_aux k hp) rv nc hop ev

/-! ### Examples -/

/-- the elements of the elements of a vector -/
def vecsAt (w : Vm) (r : Option Ref) : Option (List (Option (List (Option Obj)))) :=
  match objAt w r with
  | some (.vec es) => some (es.map fun x => vecAt w (some x))
  | _ => none

/-- `(find (vector 1 "a" 1) 1 "a" 2)` -/
example : ∃ (v w : Vm) (form op : Ref) (xs : List Ref) (r : Option Ref) (tr : List Event), v.Reached world library ∧
    NamedCall world v form v.globalEnv (txt "find") op xs ∧ v.HasObj op (.builtin .find) ∧
    Evaluates world library v form v.globalEnv r w tr ∧ vecsAt w r = some [some [some (.int 0), some (.int 2)], some [some (.int 1)], some []] := by
  obtain ⟨v, form, r, w, tr, hr, of, oe, ev, h⟩ := stage_exists (table := kit6) (forms := []) (fuel := 60)
    (last := .vec [.sym "find", .vec [.sym "vector", .int 1, .str "a", .int 1], .int 1, .str "a", .int 2])
    (P := fun v f r w tr => namedCheck v f "find" (.builtin .find) && decide (vecsAt w r = some [some [some (.int 0), some (.int 2)], some [some (.int 1)], some []])) kit6_plain (by decide +kernel)
  simp only [Bool.and_eq_true, decide_eq_true_eq] at h
  obtain ⟨op, xs, h1, h2, h3⟩ := named_of_check h.1 of oe
  exact ⟨v, w, form, op, xs, r, tr, hr, h1, h2, ev, h.2⟩

/-- `(find "b1n1n1" "n1" 1 "")` -/
example : ∃ (v w : Vm) (form op : Ref) (xs : List Ref) (r : Option Ref) (tr : List Event), v.Reached world library ∧
    NamedCall world v form v.globalEnv (txt "find") op xs ∧ v.HasObj op (.builtin .find) ∧
    Evaluates world library v form v.globalEnv r w tr ∧ vecsAt w r = some [some [some (.int 2), some (.int 4)], some [some (.int 1), some (.int 3), some (.int 5)], some []] := by
  obtain ⟨v, form, r, w, tr, hr, of, oe, ev, h⟩ := stage_exists (table := kit6) (forms := []) (fuel := 60)
    (last := .vec [.sym "find", .str "b1n1n1", .str "n1", .int 1, .str ""])
    (P := fun v f r w tr => namedCheck v f "find" (.builtin .find) && decide (vecsAt w r = some [some [some (.int 2), some (.int 4)], some [some (.int 1), some (.int 3), some (.int 5)], some []])) kit6_plain (by decide +kernel)
  simp only [Bool.and_eq_true, decide_eq_true_eq] at h
  obtain ⟨op, xs, h1, h2, h3⟩ := named_of_check h.1 of oe
  exact ⟨v, w, form, op, xs, r, tr, hr, h1, h2, ev, h.2⟩

/-- a vector is not found in a text: an error among the answers, `(find "abc" "b" (vector))` -/
example : ∃ (v w : Vm) (form op : Ref) (xs : List Ref) (r : Option Ref) (tr : List Event), v.Reached world library ∧
    NamedCall world v form v.globalEnv (txt "find") op xs ∧ v.HasObj op (.builtin .find) ∧
    Evaluates world library v form v.globalEnv r w tr ∧ vecsAt w r = some [some [some (.int 1)], none] := by
  obtain ⟨v, form, r, w, tr, hr, of, oe, ev, h⟩ := stage_exists (table := kit6) (forms := []) (fuel := 60)
    (last := .vec [.sym "find", .str "abc", .str "b", .vec [.sym "vector"]])
    (P := fun v f r w tr => namedCheck v f "find" (.builtin .find) && decide (vecsAt w r = some [some [some (.int 1)], none])) kit6_plain (by decide +kernel)
  simp only [Bool.and_eq_true, decide_eq_true_eq] at h
  obtain ⟨op, xs, h1, h2, h3⟩ := named_of_check h.1 of oe
  exact ⟨v, w, form, op, xs, r, tr, hr, h1, h2, ev, h.2⟩

/-- what `find` requires is met: the vector `[7, 8]` and the integers 8 and 7; the text `"a7"` and the same integers -/
example (v : Vm) : ∃ u : Vm, FindMany [0, 3, 2] u ∧ FindMany [4, 3, 2] u := by
  let m : Mem := fun x => if x = 0 then some { obj := .vec [1, 2], uid := 0 } else if x = 1 then some { obj := .int 7, uid := 1 } else
    if x = 2 then some { obj := .int 7, uid := 2 } else if x = 3 then some { obj := .int 8, uid := 3 } else
    if x = 4 then some { obj := .str [97, 55], uid := 4 } else none
  have i1 : IsData { v with mem := m } 1 := ⟨.int 7, .atom (c := { obj := .int 7, uid := 1 }) rfl rfl, .plain .int⟩
  have i2 : IsData { v with mem := m } 2 := ⟨.int 7, .atom (c := { obj := .int 7, uid := 2 }) rfl rfl, .plain .int⟩
  have i3 : IsData { v with mem := m } 3 := ⟨.int 8, .atom (c := { obj := .int 8, uid := 3 }) rfl rfl, .plain .int⟩
  refine ⟨{ v with mem := m }, ⟨0, [3, 2], rfl, by simp, .inr ⟨[1, 2], ⟨{ obj := .vec [1, 2], uid := 0 }, rfl, rfl⟩, by simp [i1, i2], by simp [i2, i3]⟩⟩,
    4, [3, 2], rfl, by simp, .inl ⟨[97, 55], .inl ⟨{ obj := .str [97, 55], uid := 4 }, rfl, rfl⟩⟩⟩

end Dern.Props
