import Verif.Props.Watching
import Verif.Props.C49
/-
C50: hash maps.

A hash map whose keys are different nils, booleans, integers or texts is a finite map from these keys to values.  `hash-map`
makes one, `+=` adds keys that are not there yet, `-=` removes keys, `ln@` and `find` look keys up.  The values are
never copied.

Missing from the full property: what happens when a key is added that is there already (the code then keeps both values and
stops when the element is read; such executions are outside of the model), and keys that are changed in place while they
are in a hash map (the model takes the hash of the key as it is, the code the one of the time of the insertion).
-/
namespace Dern.Props
open Dern
open Dern.Spec (Reach Data)
open Dern.Prog (Library)
variable {W : World} {L : Library}

/-! ### Specification -/

/-- the value `k` is the key `d`: nil, a boolean, an integer or a text of Unicode characters without NUL -/
inductive KeyAt (v : Vm) (k : Ref) : Data → Prop
  | nil : v.HasObj k .nil → KeyAt v k .nil
  | bool {b} : v.HasObj k (.bool b) → KeyAt v k (.bool b)
  | int {n} : v.HasObj k (.int n) → KeyAt v k (.int n)
  | str {s} : v.HasObj k (.str s) → Printable s → KeyAt v k (.str s)
  | chr {s} : v.HasObj k (.chr s) → Printable s → KeyAt v k (.chr s)
  | sym {s} : v.HasObj k (.sym s) → Printable s → KeyAt v k (.sym s)

/-- the pairs of values `es` are the pairs of a key and a value `ps` -/
def KeyPairs (v : Vm) (es : List (Ref × Ref)) (ps : List (Data × Ref)) : Prop := List.Forall₂ (fun e p => KeyAt v e.1 p.1 ∧ e.2 = p.2) es ps

/-- the value `m` is a hash map with the contents `f` -/
def IsMap (v : Vm) (m : Ref) (f : Data → Option Ref) : Prop :=
  ∃ nb es ps, v.HasObj m (.hmap nb es) ∧ KeyPairs v es ps ∧ (ps.map (·.1)).Nodup ∧ ∀ d x, f d = some x ↔ (d, x) ∈ ps

open Classical in
/-- `f` with the key `d` -/
noncomputable def with_ (f : Data → Option Ref) (d : Data) (x : Ref) : Data → Option Ref := fun d' => if d' = d then some x else f d'

open Classical in
/-- `f` without the key `d` -/
noncomputable def without (f : Data → Option Ref) (d : Data) : Data → Option Ref := fun d' => if d' = d then none else f d'

/-- adding pairs whose keys are not there yet, one after the other -/
inductive Puts : (Data → Option Ref) → List (Data × Ref) → (Data → Option Ref) → Prop
  | nil {f} : Puts f [] f
  | cons {f d x ps f'} : f d = none → Puts (with_ f d x) ps f' → Puts f ((d, x) :: ps) f'

/-- removing keys that are there, one after the other -/
inductive Removes : (Data → Option Ref) → List Data → (Data → Option Ref) → Prop
  | nil {f} : Removes f [] f
  | cons {f d x ds f'} : f d = some x → Removes (without f d) ds f' → Removes f (d :: ds) f'

/-- a list of pairs written one after the other -/
def flat (es : List (Ref × Ref)) : List Ref := es.flatMap fun e => [e.1, e.2]

/-- The result is a new hash map with the contents `f`, and nothing else happens. -/
def GivesMap (W : World) (f : Data → Option Ref) (v : Vm) (r : Ref) (w : Vm) (tr : List Event) : Prop :=
  tr = [] ∧ Vm.Quiet W nobody v w ∧ ¬ v.Old W r ∧ IsMap w r f

/-- The hash map `m` gets the contents `f`; every other value stays as it is and nothing else happens. -/
def MapBecomes (W : World) (f : Data → Option Ref) (v : Vm) (m : Ref) (w : Vm) (tr : List Event) : Prop :=
  tr = [] ∧ Vm.Quiet W (fun z => z = m) v w ∧ IsMap w m f ∧ ∀ z o, z ≠ m → (∀ s l, o ≠ .err s l) → v.HasObj z o → w.HasObj z o

/-- the values at even positions are keys -/
def KeysFirst (ts : List Ref) (v : Vm) : Prop := ∀ (i : Nat) k x, ts[2 * i]? = some k → ts[2 * i + 1]? = some x → ∃ d, KeyAt v k d

/-- what `hash-map` does -/
inductive HashMapRun (W : World) (ts : List Ref) (v : Vm) (r : Ref) (w : Vm) (tr : List Event) : Prop
  | new {es ps f} : ts = flat es → KeyPairs v es ps → Puts (fun _ => none) ps f → GivesMap W f v r w tr → HashMapRun W ts v r w tr
  | odd : ts.length % 2 = 1 → GivesError W v r w tr → HashMapRun W ts v r w tr

/-- the pairs that `+=` takes from a value: those of another hash map, or the elements of a vector by twos -/
inductive PairsOf (v : Vm) (y : Ref) (es : List (Ref × Ref)) : Prop
  | hmap {nb} : v.HasObj y (.hmap nb es) → PairsOf v y es
  | vec : v.HasVec y (flat es) → PairsOf v y es

/-- the first value is a hash map, and the keys to be added are keys -/
def PlusMap (ts : List Ref) (v : Vm) : Prop := ∃ x ys f, ts = x :: ys ∧ IsMap v x f ∧ (∀ k y, ys = [k, y] → ∃ d, KeyAt v k d) ∧
  ∀ y es, ys = [y] → PairsOf v y es → ∃ ps, KeyPairs v es ps

/-- what `+=` does with a hash map and more values -/
inductive PlusMapRun (W : World) (ts : List Ref) (v : Vm) (r : Ref) (w : Vm) (tr : List Event) : Prop
  | pair {x k y f d} : ts = [x, k, y] → IsMap v x f → KeyAt v k d → f d = none → r = x → MapBecomes W (with_ f d y) v x w tr → PlusMapRun W ts v r w tr
  | merge {x y f es ps f'} : ts = [x, y] → IsMap v x f → PairsOf v y es → KeyPairs v es ps → Puts f ps f' → r = x → MapBecomes W f' v x w tr →
      PlusMapRun W ts v r w tr
  | wrong {x y} : ts = [x, y] → (∀ es, ¬ PairsOf v y es) → GivesError W v r w tr → PlusMapRun W ts v r w tr
  | count : ts.length ≠ 2 → ts.length ≠ 3 → GivesError W v r w tr → PlusMapRun W ts v r w tr

/-- the first value is a hash map, the others are keys -/
def MinusMap (ts : List Ref) (v : Vm) : Prop := ∃ x ys f, ts = x :: ys ∧ IsMap v x f ∧ ∀ y ∈ ys, ∃ d, KeyAt v y d

/-- what `-=` does with a hash map and keys; a key that is missing is an error, but those before it have been removed -/
inductive MinusMapRun (W : World) (ts : List Ref) (v : Vm) (r : Ref) (w : Vm) (tr : List Event) : Prop
  | removed {x ys f ds f'} : ts = x :: ys → IsMap v x f → List.Forall₂ (KeyAt v) ys ds → Removes f ds f' → r = x → MapBecomes W f' v x w tr →
      MinusMapRun W ts v r w tr
  | missing {x ys y zs f ds d f'} : ts = x :: (ys ++ y :: zs) → IsMap v x f → List.Forall₂ (KeyAt v) ys ds → Removes f ds f' → KeyAt v y d → f' d = none →
      ¬ v.Old W r → w.IsErr r → tr = [] → Vm.Quiet W (fun z => z = x) v w → IsMap w x f' → MinusMapRun W ts v r w tr

/-- the values are a hash map, a key and the symbol `hash` -/
def LnMap (ts : List Ref) (v : Vm) : Prop := ∃ x k h f d, ts = [x, k, h] ∧ IsMap v x f ∧ KeyAt v k d ∧ v.HasObj h (.sym (txt "hash"))

/-- what `ln@` does with a hash map, a key and the symbol `hash` -/
inductive LnMapRun (W : World) (ts : List Ref) (v : Vm) (r : Ref) (w : Vm) (tr : List Event) : Prop
  | found {x k h f d e} : ts = [x, k, h] → IsMap v x f → KeyAt v k d → f d = some e → Returns W e v r w tr → LnMapRun W ts v r w tr
  | missing {x k h f d} : ts = [x, k, h] → IsMap v x f → KeyAt v k d → f d = none → GivesError W v r w tr → LnMapRun W ts v r w tr

/-- the values are a hash map and a key -/
def FindMap (ts : List Ref) (v : Vm) : Prop := ∃ x k f d, ts = [x, k] ∧ IsMap v x f ∧ KeyAt v k d

/-- what `find` does with a hash map and a key -/
inductive FindMapRun (W : World) (ts : List Ref) (v : Vm) (r : Ref) (w : Vm) (tr : List Event) : Prop
  | found {x k f d e} : ts = [x, k] → IsMap v x f → KeyAt v k d → f d = some e → Returns W e v r w tr → FindMapRun W ts v r w tr
  | missing {x k f d} : ts = [x, k] → IsMap v x f → KeyAt v k d → f d = none → GivesConst W .nil .nil v r w tr → FindMapRun W ts v r w tr

/-- the values are a hash map, a key and a value -/
def SetMap (ts : List Ref) (v : Vm) : Prop := ∃ x k y f d, ts = [x, k, y] ∧ IsMap v x f ∧ KeyAt v k d

/-- what `=` does with a hash map, a key and a value: the key gets a new copy of an atom, and any other value itself -/
inductive SetMapRun (W : World) (ts : List Ref) (v : Vm) (r : Ref) (w : Vm) (tr : List Event) : Prop
  | set {x k y f d y'} : ts = [x, k, y] → IsMap v x f → KeyAt v k d → r = x → tr = [] → IsMap w x (with_ f d y') → Taken W x v w y y' →
      Vm.Quiet W (fun z => z = x) v w → SetMapRun W ts v r w tr

/-! ### Proofs -/

theorem KeyAt.data {v : Vm} {k : Ref} {d : Data} (h : KeyAt v k d) : Denotes v.mem k d ∧ KeyData d := by
  cases h with
  | nil h => obtain ⟨c, hc, ho⟩ := h; exact ⟨.atom hc (by rw [ho]; rfl), .nil⟩
  | bool h => obtain ⟨c, hc, ho⟩ := h; exact ⟨.atom hc (by rw [ho]; rfl), .bool⟩
  | int h => obtain ⟨c, hc, ho⟩ := h; exact ⟨.atom hc (by rw [ho]; rfl), .int⟩
  | str h p => obtain ⟨c, hc, ho⟩ := h; exact ⟨.atom hc (by rw [ho]; rfl), .str p⟩
  | chr h p => obtain ⟨c, hc, ho⟩ := h; exact ⟨.atom hc (by rw [ho]; rfl), .chr p⟩
  | sym h p => obtain ⟨c, hc, ho⟩ := h; exact ⟨.atom hc (by rw [ho]; rfl), .sym p⟩

theorem KeyAt.unique {v : Vm} {k : Ref} {d d' : Data} (h : KeyAt v k d) (h' : KeyAt v k d') : d = d' := h.data.1.unique _ h'.data.1

/-- a key that has not changed -/
theorem KeyAt.imp {v u : Vm} {k : Ref} {d : Data} (h : KeyAt v k d) (hi : ∀ o, (∀ m l, o ≠ .err m l) → v.HasObj k o → u.HasObj k o) : KeyAt u k d := by
  cases h with
  | nil h => exact .nil (hi _ (by simp) h)
  | bool h => exact .bool (hi _ (by simp) h)
  | int h => exact .int (hi _ (by simp) h)
  | str h p => exact .str (hi _ (by simp) h) p
  | chr h p => exact .chr (hi _ (by simp) h) p
  | sym h p => exact .sym (hi _ (by simp) h) p

theorem KeyAt.same {v u : Vm} {k : Ref} {d : Data} (h : KeyAt v k d) (hm : u.mem k = v.mem k) : KeyAt u k d :=
  h.imp fun _ _ ⟨c, hc, ho⟩ => ⟨c, by rw [hm]; exact hc, ho⟩

theorem KeyAt.notMap {v : Vm} {k m : Ref} {d : Data} (h : KeyAt v k d) {nb es} (hm : v.HasObj m (.hmap nb es)) : k ≠ m := by
  rintro rfl
  cases h with
  | nil h => cases h.unique hm
  | bool h => cases h.unique hm
  | int h => cases h.unique hm
  | str h => cases h.unique hm
  | chr h => cases h.unique hm
  | sym h => cases h.unique hm

/-- the hash of a key -/
theorem c50_hash_aux {n : Nat} {h : Handler} {u : Vm} {k : Ref} {d : Data} (hk : KeyAt u k d) {Q : BitVec 32 → Vm → List Event → Prop}
    (hq : Q (keyHash d) u []) : Wp W n h (Prog.hashOf k) u Q := by
  unfold Prog.hashOf
  refine wp_bind (wp_read fun c hc => ?_)
  have := hashRef_key hk.data.1 hk.data.2
  unfold hashRef at this
  simp only [Mem.read, hc, bind, Except.bind] at this
  rw [this]
  exact wp_pure hq

/-- looking a key up -/
theorem c50_find_aux {n : Nat} {h : Handler} {u : Vm} {k : Ref} {d : Data} (hk : KeyAt u k d) {nb : Nat} {es : List (Ref × Ref)} :
    ∀ {ps : List (Data × Ref)}, KeyPairs u es ps →
    Wp W n h (Prog.findKey (keyHash d) nb k es) u fun a w t => w = u ∧ t = [] ∧ match a with
      | some (xs, e, ys) => es = xs ++ e :: ys ∧ KeyAt u e.1 d
      | none => d ∉ ps.map (·.1) := by
  induction es with
  | nil => intro ps hp; cases hp; exact wp_pure ⟨rfl, rfl, by simp⟩
  | cons e es ih =>
    intro ps hp
    cases hp with
    | @cons _ p _ ps hep hp =>
      have rest : (d ≠ p.1) → Wp W n h (do match ← Prog.findKey (keyHash d) nb k es with
            | some (xs, e', ys) => pure (some (e :: xs, e', ys))
            | none => pure none) u fun a w t => w = u ∧ t = [] ∧ match a with
          | some (xs, e', ys) => e :: es = xs ++ e' :: ys ∧ KeyAt u e'.1 d
          | none => d ∉ (p :: ps).map (·.1) := by
        intro hne
        refine wp_bind (Wp.mono (ih hp) ?_)
        rintro a w t ⟨rfl, rfl, ha⟩
        match a, ha with
        | some (xs, e', ys), ha => exact wp_pure ⟨rfl, rfl, by rw [ha.1]; rfl, ha.2⟩
        | none, ha => exact wp_pure ⟨rfl, rfl, by simp only [List.map_cons, List.mem_cons, not_or]; exact ⟨hne, ha⟩⟩
      unfold Prog.findKey
      refine wp_bind (c50_hash_aux hep.1 ?_)
      split
      · refine wp_bind (wp_compare fun c hc => ?_)
        have hz := compareRef_zero _ _ _ _ _ _ _ hk.data.1 hep.1.data.1 (.plain hk.data.2.plain) (.plain hep.1.data.2.plain) hc
        rw [key_same hk.data.2 hep.1.data.2] at hz
        split
        · rename_i h0
          have := hz.mp h0
          exact wp_pure ⟨rfl, rfl, rfl, this ▸ hep.1⟩
        · rename_i h0
          exact Wp.mono (rest fun e => h0 (hz.mpr e)) fun _ _ _ h => by simpa using h
      · rename_i h0
        exact Wp.mono (rest fun e => h0 (by rw [e])) fun _ _ _ h => by simpa using h

/-- the pairs of values `es` have the contents `f` -/
def Contents (u : Vm) (es : List (Ref × Ref)) (f : Data → Option Ref) : Prop :=
  ∃ ps, KeyPairs u es ps ∧ (ps.map (·.1)).Nodup ∧ ∀ d x, f d = some x ↔ (d, x) ∈ ps

theorem Contents.same {u w : Vm} {es : List (Ref × Ref)} {f : Data → Option Ref} (h : Contents u es f)
    (hs : ∀ e ∈ es, ∀ d, KeyAt u e.1 d → KeyAt w e.1 d) : Contents w es f := by
  obtain ⟨ps, h1, h2, h3⟩ := h
  exact ⟨ps, forall₂_imp h1 fun a b ha h => ⟨hs a ha _ h.1, h.2⟩, h2, h3⟩

theorem c50_perm_aux {α β : Type} {R : α → β → Prop} {as as' : List α} (p : as'.Perm as) : ∀ {bs : List β}, List.Forall₂ R as bs →
    ∃ bs', bs'.Perm bs ∧ List.Forall₂ R as' bs' := by
  induction p with
  | nil => intro bs h; exact ⟨bs, .refl _, h⟩
  | cons x _ ih =>
    intro bs h
    cases h with
    | cons h1 h2 =>
      obtain ⟨bs', q, h'⟩ := ih h2
      exact ⟨_ :: bs', q.cons _, .cons h1 h'⟩
  | swap x y l =>
    intro bs h
    cases h with
    | cons h1 h2 =>
      cases h2 with
      | cons h2 h3 => exact ⟨_, .swap .., .cons h2 (.cons h1 h3)⟩
  | trans _ _ ih1 ih2 =>
    intro bs h
    obtain ⟨bs1, q1, h1⟩ := ih2 h
    obtain ⟨bs2, q2, h2⟩ := ih1 h1
    exact ⟨bs2, q2.trans q1, h2⟩

theorem Contents.perm {u : Vm} {es es' : List (Ref × Ref)} {f : Data → Option Ref} (h : Contents u es f) (p : es'.Perm es) : Contents u es' f := by
  obtain ⟨ps, h1, h2, h3⟩ := h
  obtain ⟨ps', q, h1'⟩ := c50_perm_aux p h1
  exact ⟨ps', h1', (q.map _).nodup_iff.mpr h2, fun d x => (h3 d x).trans q.mem_iff.symm⟩

theorem Contents.put {u : Vm} {es : List (Ref × Ref)} {f : Data → Option Ref} {k x : Ref} {d : Data} (h : Contents u es f) (hk : KeyAt u k d)
    (hd : f d = none) : Contents u (es ++ [(k, x)]) (with_ f d x) := by
  obtain ⟨ps, h1, h2, h3⟩ := h
  have hnd : d ∉ ps.map (·.1) := by
    intro hm
    obtain ⟨⟨d', y⟩, hy, rfl⟩ := List.mem_map.mp hm
    have := (h3 _ _).mpr hy
    rw [hd] at this; cases this
  refine ⟨ps ++ [(d, x)], forall₂_snoc h1 ⟨hk, rfl⟩, ?_, ?_⟩
  · rw [List.map_append, List.nodup_append]
    refine ⟨h2, by simp, ?_⟩
    rintro a ha b hb rfl
    simp at hb; subst hb
    exact hnd ha
  · intro d' y
    simp only [with_, List.mem_append, List.mem_singleton, Prod.mk.injEq]
    split
    · rename_i e
      subst e
      constructor
      · intro h; cases h; exact .inr ⟨rfl, rfl⟩
      · rintro (h | ⟨_, rfl⟩)
        · exact absurd (List.mem_map.mpr ⟨_, h, rfl⟩) hnd
        · rfl
    · rename_i hne
      rw [h3]
      exact ⟨.inl, fun h => h.elim id fun h => absurd h.1 hne⟩

theorem Contents.remove {u : Vm} {xs ys : List (Ref × Ref)} {e : Ref × Ref} {f : Data → Option Ref} {d : Data} (h : Contents u (xs ++ e :: ys) f)
    (hk : KeyAt u e.1 d) : f d = some e.2 ∧ Contents u (xs ++ ys) (without f d) := by
  have h' := h.perm (es' := e :: (xs ++ ys)) List.perm_middle.symm
  obtain ⟨ps, h1, h2, h3⟩ := h'
  cases h1 with
  | @cons _ p _ ps h1 hr =>
    obtain ⟨d', y⟩ := p
    obtain rfl := hk.unique h1.1
    obtain rfl := h1.2
    simp only [List.map_cons, List.nodup_cons] at h2
    refine ⟨(h3 _ _).mpr (by simp), ps, hr, h2.2, ?_⟩
    intro d' y
    simp only [without]
    split
    · rename_i e
      subst e
      constructor
      · intro h; cases h
      · intro h; exact absurd (List.mem_map.mpr ⟨_, h, rfl⟩) h2.1
    · rename_i hne
      rw [h3]
      simp [hne]

theorem Contents.none {u : Vm} {es : List (Ref × Ref)} {f : Data → Option Ref} {d : Data} (h : Contents u es f)
    (hn : ∀ ps, KeyPairs u es ps → d ∉ ps.map (·.1)) : f d = none := by
  obtain ⟨ps, h1, _, h3⟩ := h
  cases hd : f d with
  | none => rfl
  | some x => exact absurd (List.mem_map.mpr ⟨_, (h3 d x).mp hd, rfl⟩) (hn ps h1)

/-- the hash map `m` is being changed and has the contents `f` -/
structure Mapping (W : World) (m : Ref) (v u : Vm) (nb : Nat) (es : List (Ref × Ref)) (f : Data → Option Ref) : Prop where
  changing : Changing W m v u (.hmap nb es)
  was : ∃ nb es, v.HasObj m (.hmap nb es)
  old : PubObj (v.Old W) (.hmap nb es)
  contents : Contents u es f

theorem Mapping.key {m : Ref} {v u : Vm} {nb : Nat} {es : List (Ref × Ref)} {f : Data → Option Ref} (g : Mapping W m v u nb es f) {k : Ref} {d : Data} (hk : KeyAt v k d) : KeyAt u k d := by
  obtain ⟨_, _, hm⟩ := g.was
  exact hk.same (g.changing.other k (hk.notMap hm))

/-- the hash map is changed -/
theorem Mapping.set {m : Ref} {v u : Vm} {nb nb' : Nat} {es es' : List (Ref × Ref)} {f f' : Data → Option Ref} {c : Cell} (g : Mapping W m v u nb es f)
    (hc : u.mem m = some c) (old : PubObj (v.Old W) (.hmap nb' es')) (ct : Contents u es' f') :
    Mapping W m v { u with mem := u.mem.set m { c with obj := .hmap nb' es' } } nb' es' f' := by
  refine ⟨g.changing.set hc old, g.was, old, ct.same ?_⟩
  intro e he d hk
  exact hk.same (Mem.set_other _ _ (hk.notMap g.changing.cell))

theorem Mapping.tick {m : Ref} {v u : Vm} {nb : Nat} {es : List (Ref × Ref)} {f : Data → Option Ref} (g : Mapping W m v u nb es f) :
    Mapping W m v { u with ticks := u.ticks + 1 } nb es f :=
  ⟨⟨g.changing.step.tick, g.changing.cell, g.changing.other, g.changing.uid, g.changing.stack⟩, g.was, g.old,
    g.contents.same fun _ _ _ h => h.same rfl⟩

theorem c50_start_aux {v : Vm} {m : Ref} {f : Data → Option Ref} (sv : v.Sane W) (cv : v.Closed W nobody) (h : IsMap v m f) : ∃ nb es, Mapping W m v v nb es f := by
  obtain ⟨nb, es, ps, hm, h1, h2, h3⟩ := h
  refine ⟨nb, es, .start sv cv hm, ⟨nb, es, hm⟩, ?_, ps, h1, h2, h3⟩
  obtain ⟨c, hc, ho⟩ := hm
  have := (cv.cells m c hc).obj
  rw [ho] at this
  exact this

/-- putting a new pair into a hash map -/
theorem c50_put_aux {n : Nat} {h : Handler} {m k x : Ref} {v u : Vm} {d : Data} {nb : Nat} {es : List (Ref × Ref)} {f : Data → Option Ref}
    (g : Mapping W m v u nb es f) (hk : KeyAt v k d) (ok : v.Old W k) (ox : v.Old W x) {Q : Unit → Vm → List Event → Prop}
    (hq : ∀ w nb' es', f d = none → Mapping W m v w nb' es' (with_ f d x) → Q () w []) : Wp W n h (Prog.mapPut m k x) u Q := by
  unfold Prog.mapPut
  refine wp_bind (wp_read fun c hc => ?_)
  obtain ⟨c0, hc0, ho0⟩ := g.changing.cell
  obtain rfl := same_cell hc0 hc
  simp only [ho0]
  have hk' := g.key hk
  refine wp_bind (c50_hash_aux hk' ?_)
  obtain ⟨ps, hps, h2, h3⟩ := g.contents
  refine wp_bind (Wp.mono (c50_find_aux hk' hps) ?_)
  rintro a w t ⟨rfl, rfl, ha⟩
  match a, ha with
  | some _, _ => exact wp_fail
  | none, ha =>
    unfold Prog.addPair
    refine wp_bind (wp_read fun c hc => ?_)
    obtain rfl := same_cell hc0 hc
    simp only [ho0]
    refine wp_bind (wp_arrange fun y hy => ?_)
    obtain ⟨nb', es'⟩ := y
    refine wp_setObj fun c hc => ?_
    have hd : f d = none := by
      cases hd : f d with
      | none => rfl
      | some x => exact absurd (List.mem_map.mpr ⟨_, (h3 d x).mp hd, rfl⟩) ha
    refine hq _ nb' es' hd (g.tick.set hc ?_ ?_)
    · intro e he
      have := hy.mem_iff.mp he
      rcases List.mem_append.mp this with h | h
      · exact g.old e h
      · simp at h; subst h; exact ⟨ok, ox⟩
    · exact (g.tick.contents.put (hk'.same rfl) hd).perm hy

/-- removing a key from a hash map -/
theorem c50_remove_aux {n : Nat} {h : Handler} {m k : Ref} {v u : Vm} {d : Data} {nb : Nat} {es : List (Ref × Ref)} {f : Data → Option Ref}
    (g : Mapping W m v u nb es f) (hk : KeyAt v k d) {Q : Bool → Vm → List Event → Prop}
    (hq : ∀ w es' x, f d = some x → Mapping W m v w nb es' (without f d) → Q true w []) (hq' : f d = none → Q false u []) :
    Wp W n h (Prog.mapRemove m k) u Q := by
  unfold Prog.mapRemove
  refine wp_bind (wp_read fun c hc => ?_)
  obtain ⟨c0, hc0, ho0⟩ := g.changing.cell
  obtain rfl := same_cell hc0 hc
  simp only [ho0]
  have hk' := g.key hk
  refine wp_bind (c50_hash_aux hk' ?_)
  obtain ⟨ps, hps, h2, h3⟩ := g.contents
  refine wp_bind (Wp.mono (c50_find_aux hk' hps) ?_)
  rintro a w t ⟨rfl, rfl, ha⟩
  match a, ha with
  | some (xs, e, ys), ha =>
    obtain ⟨rfl, he⟩ := ha
    refine wp_bind (wp_setObj fun c hc => wp_pure ?_)
    have := g.contents.remove he
    refine hq _ (xs ++ ys) _ this.1 (g.set hc ?_ this.2)
    intro e' he'
    exact g.old e' (by simp only [List.mem_append, List.mem_cons] at he' ⊢; grind)
  | none, ha =>
    refine wp_pure (hq' ?_)
    cases hd : f d with
    | none => rfl
    | some x => exact absurd (List.mem_map.mpr ⟨_, (h3 d x).mp hd, rfl⟩) ha

/-- looking a key up -/
theorem c50_get_aux {n : Nat} {h : Handler} {m k : Ref} {u : Vm} {d : Data} {f : Data → Option Ref} (hm : IsMap u m f) (hk : KeyAt u k d)
    {Q : Option Ref → Vm → List Event → Prop} (hq : Q (f d) u []) : Wp W n h (Prog.mapGet m k) u Q := by
  obtain ⟨nb, es, ps, ⟨c0, hc0, ho0⟩, hps, h2, h3⟩ := hm
  unfold Prog.mapGet
  refine wp_bind (wp_read fun c hc => ?_)
  obtain rfl := same_cell hc0 hc
  simp only [ho0]
  refine wp_bind (c50_hash_aux hk ?_)
  refine wp_bind (Wp.mono (c50_find_aux hk hps) ?_)
  rintro a w t ⟨rfl, rfl, ha⟩
  match a, ha with
  | some (xs, e, ys), ha =>
    obtain ⟨rfl, he⟩ := ha
    have : Contents w (xs ++ e :: ys) f := ⟨ps, hps, h2, h3⟩
    exact wp_pure ((this.remove he).1 ▸ hq)
  | none, ha =>
    refine wp_pure ?_
    have : f d = none := by
      cases hd : f d with
      | none => rfl
      | some x => exact absurd (List.mem_map.mpr ⟨_, (h3 d x).mp hd, rfl⟩) ha
    exact this ▸ hq

theorem Mapping.finish {m : Ref} {v u w : Vm} {nb : Nat} {es : List (Ref × Ref)} {f : Data → Option Ref} (g : Mapping W m v u nb es f) (e : Ends u w) :
    MapBecomes W f v m w [] := by
  obtain ⟨_, h1, h2, h3⟩ := g.changing.finish (by simp) e
  obtain ⟨ps, c1, c2, c3⟩ := g.contents
  exact ⟨rfl, h1, ⟨nb, es, ps, h2, forall₂_imp c1 fun a b _ h => ⟨h.1.imp fun o ho hm => e.hasObj hm ho, h.2⟩, c2, c3⟩, h3⟩

/-- putting pairs -/
theorem c50_putAll_aux {n : Nat} {h : Handler} {m : Ref} {v : Vm} (qs : List (Ref × Ref)) : ∀ (ps : List (Data × Ref)) (u : Vm) (nb : Nat) (es : List (Ref × Ref))
    (f : Data → Option Ref), Mapping W m v u nb es f → KeyPairs v qs ps → (∀ q ∈ qs, v.Old W q.1 ∧ v.Old W q.2) →
    Wp W n h (Prog.mapPutAll m qs) u fun _ w t => t = [] ∧ ∃ nb' es' f', Puts f ps f' ∧ Mapping W m v w nb' es' f' := by
  induction qs with
  | nil => intro ps u nb es f g hp _; cases hp; exact wp_pure ⟨rfl, nb, es, f, .nil, g⟩
  | cons q qs ih =>
    intro ps u nb es f g hp ho
    obtain ⟨k, x⟩ := q
    cases hp with
    | @cons _ p _ ps h1 hp =>
      obtain ⟨d, y⟩ := p
      have e : x = y := h1.2
      subst e
      show Wp W n h (Prog.mapPut m k x >>= fun _ => Prog.mapPutAll m qs) u _
      refine wp_bind (c50_put_aux g h1.1 (ho _ List.mem_cons_self).1 (ho _ List.mem_cons_self).2 fun w nb' es' hd g' => ?_)
      refine Wp.mono (ih ps w nb' es' _ g' hp fun q hq => ho q (List.mem_cons_of_mem _ hq)) ?_
      rintro _ w t ⟨rfl, nb', es', f', hf, g''⟩
      exact ⟨rfl, nb', es', f', .cons hd hf, g''⟩

theorem c50_inPairs_aux (es : List (Ref × Ref)) : Prog.inPairs (flat es) = es := by
  induction es with
  | nil => simp [flat, Prog.inPairs]
  | cons e es ih =>
    have : flat (e :: es) = e.1 :: e.2 :: flat es := rfl
    rw [this]
    unfold Prog.inPairs
    rw [ih]

theorem c50_flat_aux {xs : List Ref} {n : Nat} (h : xs.length = 2 * n) : ∃ es, xs = flat es := by
  induction n generalizing xs with
  | zero => exact ⟨[], List.eq_nil_of_length_eq_zero h⟩
  | succ n ih =>
    match xs, h with
    | a :: b :: xs, h =>
      simp only [List.length_cons] at h
      obtain ⟨es, he⟩ := ih (xs := xs) (by omega)
      exact ⟨(a, b) :: es, by rw [he]; rfl⟩

theorem c50_even_aux (es : List (Ref × Ref)) : (flat es).length % 2 = 0 := by
  induction es with
  | nil => rfl
  | cons e es ih => simp [flat] at ih ⊢; omega

theorem c50_plusRun_aux {n : Nat} {h : Handler} {args env : Ref} {ts : List Ref} {v : Vm} (k : Held W args ts env v) (hp : PlusMap ts v) :
    Wp W n h (Prog.biPlusEq L args env) v fun a u tr => KeepsBuiltins v u ∧ ∀ r w, a = some r → Ends u w → PlusMapRun W ts v r w tr := by
  obtain ⟨m, ys, f, rfl, hm, hpair, hmerge⟩ := hp
  have old : ∀ z ∈ ys, v.Old W z := fun z hz => (k.pub z (List.mem_cons_of_mem _ hz)).1
  obtain ⟨nb, es, g⟩ := c50_start_aux k.sane k.closed.all hm
  unfold Prog.biPlusEq
  refine c34_first_aux k ?_
  refine wp_bind (wp_read fun c hc => ?_)
  obtain ⟨c0, hc0, ho0⟩ := g.changing.cell
  obtain rfl := same_cell hc0 hc
  simp only [ho0, List.nil_append]
  have fin : ∀ {u : Vm} {nb es f'}, Mapping W m v u nb es f' → KeepsBuiltins v u := fun g => g.changing.keeps (by simp)
  unfold Prog.plusEqMap
  split
  · rename_i y
    unfold Prog.mapAdd
    refine wp_bind (wp_bind (wp_read fun cy hcy => ?_))
    split
    · rename_i nb' qs hoy
      by_cases hx : m = y ∧ qs ≠ []
      · rw [if_pos hx]; exact wp_fail
      · rw [if_neg hx]
        have hq : PairsOf v y qs := .hmap ⟨_, hcy, hoy⟩
        obtain ⟨ps, hps⟩ := hmerge y qs rfl hq
        have pub := (k.closed.cells y _ hcy).obj
        rw [hoy] at pub
        refine wp_bind (Wp.mono (c50_putAll_aux qs ps v nb es f g hps pub) ?_)
        rintro _ u t ⟨rfl, nb', es', f', hf, g'⟩
        refine wp_pure ?_
        simp only [List.nil_append, if_true]
        refine wp_pure ⟨fin g', ?_⟩
        rintro r w ⟨⟩ e
        exact .merge rfl hm hq hps hf rfl (by simpa using g'.finish e)
    · rename_i qs hoy
      by_cases hx : qs.length % 2 ≠ 0
      · rw [if_pos hx]
        refine wp_pure ?_
        simp only [List.nil_append, if_false, Bool.false_eq_true]
        refine giveMono_aux (c34_error_aux k _) (Q := fun v r w tr => PlusMapRun W [m, y] v r w tr) fun r w tr g => .wrong rfl ?_ g
        rintro es (⟨_, hc', ho'⟩ | ⟨_, hc', ho'⟩)
        · cases same_cell hcy hc'; rw [hoy] at ho'; cases ho'
        · cases same_cell hcy hc'; rw [hoy] at ho'; cases ho'
          exact hx (c50_even_aux es)
      · rw [if_neg hx]
        obtain ⟨qs, rfl⟩ := c50_flat_aux (xs := qs) (n := qs.length / 2) (by omega)
        rw [c50_inPairs_aux]
        have hq : PairsOf v y qs := .vec ⟨_, hcy, hoy⟩
        obtain ⟨ps, hps⟩ := hmerge y qs rfl hq
        have pub := (k.closed.cells y _ hcy).obj
        rw [hoy] at pub
        refine wp_bind (Wp.mono (c50_putAll_aux qs ps v nb es f g hps ?_) ?_)
        · intro q hq
          exact ⟨pub _ (List.mem_flatMap.mpr ⟨q, hq, by simp⟩), pub _ (List.mem_flatMap.mpr ⟨q, hq, by simp⟩)⟩
        · rintro _ u t ⟨rfl, nb', es', f', hf, g'⟩
          refine wp_pure ?_
          simp only [List.nil_append, if_true]
          refine wp_pure ⟨fin g', ?_⟩
          rintro r w ⟨⟩ e
          exact .merge rfl hm hq hps hf rfl (by simpa using g'.finish e)
    · rename_i h1 h2
      refine wp_pure ?_
      simp only [List.nil_append, if_false, Bool.false_eq_true]
      refine giveMono_aux (c34_error_aux k _) (Q := fun v r w tr => PlusMapRun W [m, y] v r w tr) fun r w tr g => .wrong rfl ?_ g
      rintro es (⟨_, hc', ho'⟩ | ⟨_, hc', ho'⟩)
      · cases same_cell hcy hc'; exact h1 _ _ ho'
      · cases same_cell hcy hc'; exact h2 _ ho'
  · rename_i key y
    obtain ⟨d, hd⟩ := hpair key y rfl
    unfold Prog.mapAddPair
    refine wp_bind (wp_bind (wp_read fun cy hcy => ?_))
    split
    · exact wp_fail
    · exact wp_fail
    · refine wp_bind (c50_put_aux g hd (old key (by simp)) (old y (by simp)) fun u nb' es' hf g' => wp_pure ?_)
      simp only [List.nil_append, if_true]
      refine wp_pure ⟨fin g', ?_⟩
      rintro r w ⟨⟩ e
      exact .pair rfl hm hd hf rfl (by simpa using g'.finish e)
  · rename_i h1 h2
    refine giveMono_aux (c34_error_aux k _) (Q := fun v r w tr => PlusMapRun W (m :: ys) v r w tr) fun r w tr g => .count ?_ ?_ g
    · match ys, h1, h2 with
      | [], _, _ => simp
      | [a], h1, _ => exact absurd rfl (h1 a)
      | a :: b :: _, _, _ => simp
    · match ys, h1, h2 with
      | [], _, _ => simp
      | [a], h1, _ => simp
      | [a, b], _, h2 => exact absurd rfl (h2 a b)
      | a :: b :: c :: _, _, _ => simp

/-- a new error; what is in use stays as it is -/
theorem wps_errorKept {n : Nat} {h : Handler} {X E : Ref → Prop} {v0 v : Vm} (g : Vm.Step W X E v0 v) {s : String} {Q : Option Ref → Vm → List Event → Prop}
    (hq : ∀ r w, Vm.Step W X E v0 w → (∀ z, v0.Old W z → v.Kept z → w.mem z = v.mem z) → w.IsErr r → ¬ v0.Old W r → Q (some r) w []) :
    Wp W n h (Prog.error s) v Q := by
  unfold Prog.error
  refine wp_bind (wp_text fun t => wp_bind (wp_alloc g.tick.sane fun r w a => wp_pure ?_))
  have fr : ¬ v0.Old W r := fun h => a.fresh (h.mono g.quiet.births)
  refine hq r w (g.tick.alloc a trivial) ?_ ⟨_, _, _, a.cell, rfl⟩ fr
  intro z hz hk
  have : Vm.Kept { v with ticks := v.ticks + 1 } z := hk
  exact a.kept z this fun e => fr (e ▸ hz)

theorem c50_minusLoop_aux {n : Nat} {h : Handler} {m args : Ref} {ts : List Ref} {v : Vm} (hv : v.HasVec args ts) (top : args ∈ v.stack) (hmt : m ∈ ts)
    (ys : List Ref) : ∀ (u : Vm) (nb : Nat) (es : List (Ref × Ref)) (f : Data → Option Ref), Mapping W m v u nb es f → (∀ y ∈ ys, ∃ d, KeyAt v y d) →
    Wp W n h (Prog.eachUntil (fun x => Prog.orFail (Prog.mapRemove m x)) ys) u fun a w t => t = [] ∧
      ((a = none ∧ ∃ es' ds f', List.Forall₂ (KeyAt v) ys ds ∧ Removes f ds f' ∧ Mapping W m v w nb es' f') ∨
       ∃ r xs y zs ds d f', a = some r ∧ ys = xs ++ y :: zs ∧ List.Forall₂ (KeyAt v) xs ds ∧ Removes f ds f' ∧ KeyAt v y d ∧ f' d = none ∧
        ¬ v.Old W r ∧ w.IsErr r ∧ Vm.Step W nobody (fun z => z = m) v w ∧ IsMap w m f') := by
  induction ys with
  | nil => intro u nb es f g _; exact wp_pure ⟨rfl, .inl ⟨rfl, es, [], f, .nil, .nil, g⟩⟩
  | cons y ys ih =>
    intro u nb es f g hk
    obtain ⟨d, hd⟩ := hk y List.mem_cons_self
    show Wp W n h (Prog.orFail (Prog.mapRemove m y) >>= fun a => match a with
      | some e => pure (some e)
      | none => Prog.eachUntil (fun x => Prog.orFail (Prog.mapRemove m x)) ys) u _
    unfold Prog.orFail
    simp only [bind_assoc]
    refine wp_bind (c50_remove_aux g hd ?_ ?_)
    · intro w es' x hf g'
      simp only [if_true]
      refine wp_bind (wp_pure ?_)
      refine Wp.mono (ih w nb es' _ g' fun y hy => hk y (List.mem_cons_of_mem _ hy)) ?_
      rintro a u t ⟨rfl, ⟨rfl, es2, ds, f', h1, h2, h3⟩ | ⟨r, xs, y', zs, ds, d', f', rfl, rfl, h2, h3, h4⟩⟩
      · exact ⟨rfl, .inl ⟨rfl, es2, d :: ds, f', .cons hd h1, .cons hf h2, h3⟩⟩
      · exact ⟨rfl, .inr ⟨r, y :: xs, y', zs, d :: ds, d', f', rfl, rfl, .cons hd h2, .cons hf h3, h4⟩⟩
    · intro hf
      simp only [if_false, Bool.false_eq_true]
      refine wp_bind (wps_errorKept g.changing.step fun r w gw hkept he hfr => wp_pure ⟨rfl, .inr ?_⟩)
      refine ⟨r, [], y, ys, [], d, f, rfl, rfl, .nil, .nil, hd, hf, hfr, he, gw, ?_⟩
      obtain ⟨c, hc, ho⟩ := hv
      obtain ⟨_, _, c1, hc1, ho1⟩ := g.was
      have hne : args ≠ m := by rintro rfl; cases same_cell hc hc1; rw [ho] at ho1; cases ho1
      have ka : u.Kept args := .root (by rw [g.changing.stack]; exact top)
      have km : u.Kept m := ka.step ⟨c, by rw [g.changing.other _ hne]; exact hc, by simpa [Cell.edges, ho, Obj.children] using .inr hmt⟩
      obtain ⟨c2, hc2, ho2⟩ := g.changing.cell
      have hm' : w.mem m = u.mem m := hkept m (g.changing.step.sane0.old _ _ hc1) km
      obtain ⟨ps, p1, p2, p3⟩ := g.contents
      refine ⟨nb, es, ps, ⟨c2, by rw [hm']; exact hc2, ho2⟩, forall₂_imp p1 fun a b ha h => ⟨h.1.same (hkept _ (g.old a ha).1 (km.step ⟨c2, hc2, ?_⟩)), h.2⟩, p2, p3⟩
      unfold Cell.edges
      rw [ho2]
      exact List.mem_append_right _ (List.mem_flatMap.mpr ⟨a, ha, by simp⟩)

theorem c50_minusRun_aux {n : Nat} {h : Handler} {args env : Ref} {ts : List Ref} {v : Vm} (k : Held W args ts env v) (top : args ∈ v.stack) (hp : MinusMap ts v) :
    Wp W n h (Prog.biMinusEq args env) v fun a u tr => KeepsBuiltins v u ∧ ∀ r w, a = some r → Ends u w → MinusMapRun W ts v r w tr := by
  obtain ⟨m, ys, f, rfl, hm, hk⟩ := hp
  obtain ⟨nb, es, g⟩ := c50_start_aux k.sane k.closed.all hm
  unfold Prog.biMinusEq
  refine first_aux k fun hv => ?_
  refine wp_bind (wp_read fun c hc => ?_)
  obtain ⟨c0, hc0, ho0⟩ := g.changing.cell
  obtain rfl := same_cell hc0 hc
  simp only [ho0, List.nil_append]
  refine wp_bind (Wp.mono (c50_minusLoop_aux hv top (by simp) ys v nb es f g hk) ?_)
  rintro a u t ⟨rfl, ⟨rfl, es2, ds, f', h1, h2, h3⟩ | ⟨r, xs, y', zs, ds, d', f', rfl, rfl, h2, h3, h4, h5, h6, h7, h8, h9⟩⟩
  · unfold Prog.unlessError
    refine wp_pure ⟨h3.changing.keeps (by simp), ?_⟩
    rintro r w ⟨⟩ e
    exact .removed rfl hm h1 h2 rfl (by simpa using h3.finish e)
  · unfold Prog.unlessError
    refine wp_pure ⟨?_, ?_⟩
    · intro op b b' ⟨c1, hc1, ho1⟩ ⟨c2, hc2, ho2⟩
      have hne : op ≠ m := by rintro rfl; cases same_cell hc0 hc1; rw [ho0] at ho1; cases ho1
      rcases h8.quiet.cells op c1 hne hc1 with e | e | ⟨_, _, _, e, _⟩
      · rw [hc2] at e; cases e; rw [ho1] at ho2; cases ho2; rfl
      · rw [hc2] at e; cases e
      · rw [ho1] at e; cases e
    · rintro r w ⟨⟩ e
      refine .missing rfl hm h2 h3 h4 h5 h6 (e.isErr h7) rfl (h8.quiet.trans h8.sane0 e.quiet) ?_
      obtain ⟨nb', es', ps, q1, q2, q3, q4⟩ := h9
      exact ⟨nb', es', ps, e.hasObj q1 (by simp), forall₂_imp q2 fun a b _ h => ⟨h.1.imp fun o ho hm => e.hasObj hm ho, h.2⟩, q3, q4⟩

theorem c50_lnRun_aux {n : Nat} {h : Handler} {args env : Ref} {ts : List Ref} {v : Vm} (k : Held W args ts env v) (hp : LnMap ts v) :
    Wp W n h (Prog.biLnAt args env) v fun a u tr => KeepsBuiltins v u ∧ ∀ r w, a = some r → Ends u w → LnMapRun W ts v r w tr := by
  obtain ⟨m, key, how, f, d, rfl, hm, hk, c1, hc1, ho1⟩ := hp
  unfold Prog.biLnAt
  refine c34_first_aux k ?_
  refine wp_bind (wp_read fun c hc => ?_)
  obtain ⟨nb, es, ps, ⟨c0, hc0, ho0⟩, hm'⟩ := id hm
  obtain rfl := same_cell hc0 hc
  simp only [ho0, List.nil_append]
  unfold Prog.mapElement
  refine wp_bind (wp_bind (wp_read fun c hc => ?_))
  obtain rfl := same_cell hc1 hc
  simp only [ho1, List.nil_append]
  rw [if_neg (by decide), if_pos trivial]
  refine wp_bind (c50_get_aux hm hk ?_)
  cases hf : f d with
  | some x =>
    refine wp_pure ?_
    exact giveMono_aux (giveSelf_aux k.sane) (Q := fun v r w tr => LnMapRun W [m, key, how] v r w tr) fun r w tr g => .found rfl hm hk hf g
  | none =>
    simp only [List.nil_append]
    refine wp_bind (Wp.mono (c34_error_aux k _) ?_)
    rintro a u t ⟨h1, h2⟩
    refine wp_pure ?_
    refine wp_pure ⟨h1, ?_⟩
    rintro r w rfl e
    exact .missing rfl hm hk hf (by simpa using h2 r w rfl e)

theorem isMap_same {u w : Vm} {m : Ref} {f : Data → Option Ref} (hm : w.mem = u.mem) (h : IsMap u m f) : IsMap w m f := by
  obtain ⟨nb, es, ps, ⟨c, hc, ho⟩, h2, h3⟩ := h
  exact ⟨nb, es, ps, ⟨c, by rw [hm]; exact hc, ho⟩, forall₂_imp h2 fun a b _ h => ⟨h.1.same (by rw [hm]), h.2⟩, h3⟩

/-- one of the constants, and then values are popped -/
theorem wps_getRoot {n : Nat} {h : Handler} {X : Ref → Prop} {v u : Vm} (F : Fine W h) (C : Copies W h) (g : Vm.Step W X nobody v u) (hm : u.mem = v.mem)
    {which : Root} (hr : u.root which = v.root which) {o : Obj} (hs : o.simple = true) {Q : Ref → Vm → List Event → Prop}
    (hq : ∀ r w, Vm.Quiet W nobody v w → ¬ v.Old W r → (v.HasObj (v.root which) o → w.HasObj r o) → Q r w []) : Wp W n h (Prog.getRoot which) u Q := by
  unfold Prog.getRoot Prog.copyOf
  refine wp_bind (wp_root (wp_bind (wp_call fun a w t e => wp_deref fun r hr => ?_)))
  subst hr
  obtain ⟨sw, rfl, q, fresh⟩ := F.copy _ _ _ _ _ g.sane e
  obtain ⟨_, r', hr', ok⟩ := C _ _ _ _ _ g.sane g.closed.all (g.closed.roots which).1 e
  cases hr'
  refine hq r w (g.quiet.trans g.sane0 q) (fun h => fresh r rfl (h.mono g.quiet.births)) ?_
  rw [← hr]
  rintro ⟨c, hc, rfl⟩
  rw [← hm] at hc
  cases ok.copied with
  | simple h1 h2 _ _ h5 => cases same_cell hc h1; exact ⟨_, h2, h5⟩
  | seq h1 _ _ h4 => cases same_cell hc h1; revert hs h4; generalize c.obj = o; cases o <;> simp [Obj.simple, Obj.elems]
  | hmap h1 _ _ h4 => cases same_cell hc h1; rw [h4] at hs; cases hs

theorem c50_findRun_aux {n : Nat} {h : Handler} {args env : Ref} {ts : List Ref} {v : Vm} (F : Fine W h) (C : Copies W h) (k : Held W args ts env v) (hp : FindMap ts v) :
    Wp W n h (Prog.biFind args env) v fun a u tr => KeepsBuiltins v u ∧ ∀ r w, a = some r → Ends u w → FindMapRun W ts v r w tr := by
  obtain ⟨m, key, f, d, rfl, hm, hk⟩ := hp
  obtain ⟨nb, es, ps, ⟨c0, hc0, ho0⟩, hm'⟩ := id hm
  unfold Prog.biFind
  refine first_aux k fun hv => ?_
  refine wp_bind (wp_push (wp_bind (wp_push ?_)))
  have g1 := (k.here (E := nobody)).push k.old
  have g2 : Vm.Step W (fun z => z = args) nobody v { v with stack := env :: args :: v.stack } := g1.push (r := env) k.env.1
  unfold Prog.findFrom
  simp only [bind_assoc]
  refine wp_bind (wp_read fun c hc => ?_)
  obtain rfl := same_cell hc0 hc
  simp only [ho0, bind_assoc]
  have hm2 : IsMap { v with stack := env :: args :: v.stack } m f := isMap_same (u := v) rfl hm
  refine wp_bind (c50_get_aux hm2 (hk.same rfl) ?_)
  unfold Prog.orNil
  cases hf : f d with
  | some x =>
    refine wp_bind (wp_pure (wp_bind (wp_pop fun s2 hs2 => wp_bind (wp_pop fun s3 hs3 => wp_pure ⟨keeps_mem g2.quiet rfl, ?_⟩))))
    rintro r w ⟨⟩ e
    have e' : Ends v w := (Ends.pop (s := s3)).trans e
    exact .found rfl hm hk hf ⟨rfl, rfl, e'.quiet⟩
  | none =>
    simp only [bind_assoc]
    refine wp_bind (wps_getRoot F C g2 rfl (which := .nil) (o := .nil) rfl rfl fun r u q fr ho => ?_)
    refine wp_bind (wp_pure (wp_bind (wp_pop fun s2 hs2 => wp_bind (wp_pop fun s3 hs3 => wp_pure ⟨keeps_mem q rfl, ?_⟩))))
    rintro _ w ⟨⟩ e
    have e' : Ends u w := (Ends.pop (s := s3)).trans e
    exact .missing rfl hm hk hf ⟨rfl, q.trans k.sane e'.quiet, fr, fun h => e'.hasObj (ho h) (by simp)⟩

theorem c50_hashLoop_aux {n : Nat} {h : Handler} {m : Ref} {v : Vm} {j : Nat} : ∀ (xs : List Ref) (u : Vm) (nb : Nat) (es : List (Ref × Ref))
    (f : Data → Option Ref), xs.length ≤ j → Mapping W m v u nb es f → KeysFirst xs v → (∀ x ∈ xs, v.Old W x) →
    Wp W n h (Prog.hashMapLoop m xs) u fun a w t => t = [] ∧ Vm.Step W nobody (fun z => z = m) v w ∧
      ((∃ qs ps f', xs = flat qs ∧ KeyPairs v qs ps ∧ Puts f ps f' ∧ IsMap w m f' ∧ a = some m) ∨
       ∃ r, xs.length % 2 = 1 ∧ a = some r ∧ w.IsErr r ∧ ¬ v.Old W r) := by
  induction j with
  | zero =>
    intro xs u nb es f hl g _ _
    obtain rfl := List.eq_nil_of_length_eq_zero (Nat.le_zero.mp hl)
    unfold Prog.hashMapLoop
    refine wp_bind (wp_pop fun s hs => wp_pure ⟨rfl, g.changing.step.pop hs, .inl ⟨[], [], f, rfl, .nil, .nil, ?_, rfl⟩⟩)
    obtain ⟨ps, p1, p2, p3⟩ := g.contents
    exact isMap_same (u := u) rfl ⟨nb, es, ps, g.changing.cell, p1, p2, p3⟩
  | succ j ih =>
    intro xs u nb es f hl g hk hold
    match xs, hl, hk, hold with
    | [], _, _, _ =>
      unfold Prog.hashMapLoop
      refine wp_bind (wp_pop fun s hs => wp_pure ⟨rfl, g.changing.step.pop hs, .inl ⟨[], [], f, rfl, .nil, .nil, ?_, rfl⟩⟩)
      obtain ⟨ps, p1, p2, p3⟩ := g.contents
      exact isMap_same (u := u) rfl ⟨nb, es, ps, g.changing.cell, p1, p2, p3⟩
    | [x], _, _, _ =>
      unfold Prog.hashMapLoop
      refine wp_bind (wp_pop fun s hs => ?_)
      refine wps_errorStack (g.changing.step.pop hs) fun r w gw _ he fr => ⟨rfl, gw, .inr ⟨r, by simp, rfl, he, fr⟩⟩
    | a :: x :: xs, hl, hk, hold =>
      obtain ⟨d, hd⟩ := hk 0 a x rfl rfl
      show Wp W n h (Prog.mapPut m a x >>= fun _ => Prog.hashMapLoop m xs) u _
      refine wp_bind (c50_put_aux g hd (hold a (by simp)) (hold x (by simp)) fun w nb' es' hf g' => ?_)
      refine Wp.mono (ih xs w nb' es' _ (by simp only [List.length_cons] at hl; omega) g' ?_ fun z hz => hold z (by simp [hz])) ?_
      · intro i k' y h1 h2
        refine hk (i + 1) k' y ?_ ?_
        · rw [Nat.mul_add]; exact h1
        · rw [Nat.mul_add, Nat.add_right_comm]; exact h2
      · rintro b w' t ⟨rfl, gw, ⟨qs, ps, f', rfl, h2, h3, h4⟩ | ⟨r, h1, h2⟩⟩
        · exact ⟨rfl, gw, .inl ⟨(a, x) :: qs, (d, x) :: ps, f', rfl, .cons ⟨hd, rfl⟩ h2, .cons hf h3, h4⟩⟩
        · exact ⟨rfl, gw, .inr ⟨r, by simp only [List.length_cons]; omega, h2⟩⟩

theorem c50_hashRun_aux {n : Nat} {h : Handler} {args env : Ref} {ts : List Ref} {v : Vm} (k : Held W args ts env v) (top : args ∈ v.stack) (hp : KeysFirst ts v) :
    Wp W n h (Prog.biHashMap args env) v fun a u tr => KeepsBuiltins v u ∧ ∀ r w, a = some r → Ends u w → HashMapRun W ts v r w tr := by
  unfold Prog.biHashMap
  refine first_aux k fun hv => ?_
  refine wp_bind (wp_alloc k.sane fun m u a => wp_bind (wp_push ?_))
  have fresh := a.fresh
  have gw : Vm.Step W nobody nobody v u := (Vm.Step.refl k.sane k.closed.all).alloc a (by simp [PubObj])
  have gp : Vm.Step W nobody nobody v { u with stack := m :: u.stack } := gw.push a.old
  have keptArg : ∀ z ∈ ts, u.mem z = v.mem z := by
    intro z hz
    obtain ⟨c, hc, ho⟩ := hv
    exact a.kept z (.step (.root top) ⟨c, hc, by simpa [Cell.edges, ho, Obj.children] using .inr hz⟩) fun e => fresh (e ▸ (k.pub z hz).1)
  have g0 : Mapping W m { u with stack := m :: u.stack } { u with stack := m :: u.stack } 128 [] fun _ => none :=
    ⟨.start gp.sane gp.closed ⟨_, a.cell, rfl⟩, ⟨_, _, _, a.cell, rfl⟩, by simp [PubObj], [], .nil, by simp, by simp⟩
  have key : ∀ z ∈ ts, ∀ d, KeyAt v z d ↔ KeyAt { u with stack := m :: u.stack } z d := fun z hz d =>
    ⟨fun h => h.same (keptArg z hz), fun h => h.same (keptArg z hz).symm⟩
  refine Wp.mono (c50_hashLoop_aux ts _ 128 [] _ (Nat.le_refl _) g0 ?_ fun z hz => (k.pub z hz).1.mono gp.quiet.births) ?_
  · intro i x y h1 h2
    obtain ⟨d, hd⟩ := hp i x y h1 h2
    exact ⟨d, (key x (List.mem_of_getElem? h1) d).mp hd⟩
  rintro b w t ⟨rfl, st, hcase⟩
  have q : Vm.Quiet W (fun z => z = m) v w := (gp.quiet.mono fun _ h => h.elim).trans k.sane st.quiet
  have q' : Vm.Quiet W nobody v w :=
    ⟨q.births, fun z c _ hc => q.cells z c (fun e => fresh (e ▸ k.sane.old z c hc)) hc, q.gone, q.ret, q.quit, q.exitCode, q.out, q.roots, q.readably⟩
  refine ⟨keeps_of_quiet q', ?_⟩
  rintro r w' hb e
  rcases hcase with ⟨qs, ps, f', rfl, h2, h3, h4, rfl⟩ | ⟨r', h1, rfl, h3, h4⟩
  · cases hb
    refine .new rfl (forall₂_imp h2 fun p d hpm h => ⟨(key p.1 (List.mem_flatMap.mpr ⟨p, hpm, by simp⟩) _).mpr h.1, h.2⟩) h3 ⟨rfl, q'.trans k.sane e.quiet, fresh, ?_⟩
    obtain ⟨nb', es', ps, q1, q2, q3, q4⟩ := h4
    exact ⟨nb', es', ps, e.hasObj q1 (by simp), forall₂_imp q2 fun a b _ h => ⟨h.1.imp fun o ho hm => e.hasObj hm ho, h.2⟩, q3, q4⟩
  · cases hb
    exact .odd h1 ⟨rfl, q'.trans k.sane e.quiet, fun h => h4 (h.mono gp.quiet.births), e.isErr h3⟩

theorem c50_taken_aux {x e e' : Ref} {v u w : Vm} (h : Taken W x v u e e') (ho : ∀ z, z ≠ x → w.mem z = u.mem z) (hx : ∃ c, w.mem x = some c) (hv : v.Old W x) :
    Taken W x v w e e' := by
  by_cases he : e' = x
  · subst he
    refine ⟨hx, fun o hne ho ha => absurd hv (h.copied o hne ho ha).1, h.shared⟩
  · exact h.keep (ho e' he)

theorem c50_with_without_aux (f : Data → Option Ref) (d : Data) (x : Ref) : with_ (without f d) d x = with_ f d x := by
  funext d'
  simp only [with_, without]
  split <;> rfl

theorem c50_setRun_aux {n : Nat} {h : Handler} {args env : Ref} {ts : List Ref} {v : Vm} (F : Fine W h) (C : Copies W h) (k : Held W args ts env v) (hp : SetMap ts v) :
    Wp W n h (Prog.biAssign args env) v fun a u tr => KeepsBuiltins v u ∧ ∀ r w, a = some r → Ends u w → SetMapRun W ts v r w tr := by
  obtain ⟨m, key, y, f, d, rfl, hm, hk⟩ := hp
  obtain ⟨nb, es, ps, ⟨c0, hc0, ho0⟩, p1, p2, p3⟩ := id hm
  have hne : args ≠ m := fun e => (k.pub m (by simp)).2 e.symm
  have hold : v.Old W m := k.sane.old _ _ hc0
  unfold Prog.biAssign
  refine first_aux k fun hv => ?_
  refine wp_bind (wp_push ?_)
  unfold Prog.setCollection
  simp only [bind_assoc]
  refine wp_bind (wp_read fun c hc => ?_)
  obtain rfl := same_cell hc0 hc
  simp only [ho0, bind_assoc]
  have f0 := c35_setting_aux (y := y) k.sane k.closed.open' hv k.old hne (by simp) (by simp) hc0
  rw [ho0] at f0
  refine wp_bind (c35_take_aux F C f0 rfl (k.pub y (by simp)).1 (fun _ => rfl) fun y' w1 f1 hst old1 tk keep => ?_)
  have hmw : w1.mem m = some c0 := by rw [keep m (f0.keptArg f0.hx)]; exact hc0
  have hkw : KeyAt w1 key d := hk.same (keep key (f0.keptArg (by simp)))
  have hmap : IsMap w1 m f := by
    refine ⟨nb, es, ps, ⟨c0, hmw, ho0⟩, forall₂_imp p1 fun a b ha h => ⟨h.1.same (keep a.1 (f0.keptChild ?_)), h.2⟩, p2, p3⟩
    exact List.mem_flatMap.mpr ⟨a, ha, by simp⟩
  obtain ⟨nb1, es1, g⟩ := c50_start_aux f1.step.sane f1.step.closed hmap
  have okey : w1.Old W key := (k.pub key (by simp)).1.mono f1.step.quiet.births
  have last : ∀ {u : Vm} {nb2 es2} (f' : Data → Option Ref), with_ f' d y' = with_ f d y' → Mapping W m w1 u nb2 es2 f' →
      Wp W n h (do Prog.mapPut m key y'; let ok ← pure true; Prog.pop args; if ok then pure (some m) else Prog.error "Builtin '=' failed") u fun a u tr =>
        KeepsBuiltins v u ∧ ∀ r w, a = some r → Ends u w → SetMapRun W [m, key, y] v r w tr := by
    intro u nb2 es2 f' hf g'
    refine wp_bind (c50_put_aux g' hkw okey old1 fun u2 nb3 es3 _ g2 => wp_bind (wp_pure (wp_bind (wp_pop fun s hs => ?_))))
    rw [hf] at g2
    refine wp_pure ⟨?_, ?_⟩
    · intro op b b' ⟨c1, hc1, ho1⟩ ⟨c2, hc2, ho2⟩
      have hnem : op ≠ m := by rintro rfl; cases same_cell hc0 hc1; rw [ho0] at ho1; cases ho1
      have hc2 : u2.mem op = some c2 := hc2
      rw [g2.changing.other op hnem] at hc2
      rcases f1.step.quiet.cells op c1 hnem hc1 with e | e | ⟨_, _, _, e, _⟩
      · rw [hc2] at e; cases e; rw [ho1] at ho2; cases ho2; rfl
      · rw [hc2] at e; cases e
      · rw [ho1] at e; cases e
    · rintro r w ⟨⟩ e
      have e' : Ends u2 w := (Ends.pop (s := s)).trans e
      obtain ⟨c3, hc3, _⟩ := g2.changing.cell
      obtain ⟨_, q1, q2, _⟩ := g2.finish e'
      exact .set rfl hm hk rfl rfl q2 ((c50_taken_aux tk g2.changing.other ⟨_, hc3⟩ hold).ends e') (f1.step.quiet.trans k.sane q1)
  refine wp_bind (c50_remove_aux g hkw ?_ ?_)
  · intro w2 es2 x hf g2
    exact last _ (c50_with_without_aux f d y') g2
  · intro hf
    exact last f rfl g

/-! ### The theorems -/

/-- `hash-map` -/
theorem c50_hash_map_partial (hL : L.Safe) {v w : Vm} (rv : v.Reached W L) {form env op : Ref} {name : Text} {xs : List Ref}
    (nc : NamedCall W v form env name op xs) (hop : v.HasObj op (.builtin .hashMap)) {r : Option Ref} {tr : List Event}
    (ev : Evaluates W L v form env r w tr) :
    NamedOpCall W (ArgumentsFirst W form env (Runs .hashMap op fun ts u r w tr => KeysFirst ts u → HashMapRun W ts u r w tr)) v env op r w tr :=
  namedBuiltinTop_aux hL (by simp) (fun _ _ _ _ _ _ _ k top hp => c50_hashRun_aux k top hp) rv nc hop ev

/-- `+=` on a hash map -/
theorem c50_plus_partial (hL : L.Safe) {v w : Vm} (rv : v.Reached W L) {form env op : Ref} {name : Text} {xs : List Ref}
    (nc : NamedCall W v form env name op xs) (hop : v.HasObj op (.builtin .plusEq)) {r : Option Ref} {tr : List Event}
    (ev : Evaluates W L v form env r w tr) :
    NamedOpCall W (ArgumentsFirst W form env (Runs .plusEq op fun ts u r w tr => PlusMap ts u → PlusMapRun W ts u r w tr)) v env op r w tr :=
  namedBuiltinPre_aux hL (by simp) (fun _ _ _ _ _ _ _ k hp => c50_plusRun_aux k hp) rv nc hop ev

/-- `-=` on a hash map -/
theorem c50_minus_partial (hL : L.Safe) {v w : Vm} (rv : v.Reached W L) {form env op : Ref} {name : Text} {xs : List Ref}
    (nc : NamedCall W v form env name op xs) (hop : v.HasObj op (.builtin .minusEq)) {r : Option Ref} {tr : List Event}
    (ev : Evaluates W L v form env r w tr) :
    NamedOpCall W (ArgumentsFirst W form env (Runs .minusEq op fun ts u r w tr => MinusMap ts u → MinusMapRun W ts u r w tr)) v env op r w tr :=
  namedBuiltinTop_aux hL (by simp) (fun _ _ _ _ _ _ _ k top hp => c50_minusRun_aux k top hp) rv nc hop ev

/-- `ln@` on a hash map with the symbol `hash` -/
theorem c50_ln_at_partial (hL : L.Safe) {v w : Vm} (rv : v.Reached W L) {form env op : Ref} {name : Text} {xs : List Ref}
    (nc : NamedCall W v form env name op xs) (hop : v.HasObj op (.builtin .lnAt)) {r : Option Ref} {tr : List Event}
    (ev : Evaluates W L v form env r w tr) :
    NamedOpCall W (ArgumentsFirst W form env (Runs .lnAt op fun ts u r w tr => LnMap ts u → LnMapRun W ts u r w tr)) v env op r w tr :=
  namedBuiltinPre_aux hL (by simp) (fun _ _ _ _ _ _ _ k hp => c50_lnRun_aux k hp) rv nc hop ev

/-- `find` in a hash map -/
theorem c50_find_partial (hL : L.Safe) {v w : Vm} (rv : v.Reached W L) {form env op : Ref} {name : Text} {xs : List Ref}
    (nc : NamedCall W v form env name op xs) (hop : v.HasObj op (.builtin .find)) {r : Option Ref} {tr : List Event}
    (ev : Evaluates W L v form env r w tr) :
    NamedOpCall W (ArgumentsFirst W form env (Runs .find op fun ts u r w tr => FindMap ts u → FindMapRun W ts u r w tr)) v env op r w tr :=
  namedBuiltinPre_aux hL (by simp) (fun _ _ _ _ _ F C k hp => c50_findRun_aux F C k hp) rv nc hop ev

/-- `=` on a hash map -/
theorem c50_set_partial (hL : L.Safe) {v w : Vm} (rv : v.Reached W L) {form env op : Ref} {name : Text} {xs : List Ref}
    (nc : NamedCall W v form env name op xs) (hop : v.HasObj op (.builtin .assign)) {r : Option Ref} {tr : List Event}
    (ev : Evaluates W L v form env r w tr) :
    NamedOpCall W (ArgumentsFirst W form env (Runs .assign op fun ts u r w tr => SetMap ts u → SetMapRun W ts u r w tr)) v env op r w tr :=
  namedBuiltinPre_aux hL (by simp) (fun _ _ _ _ _ F C k hp => c50_setRun_aux F C k hp) rv nc hop ev

/-! ### Examples -/

def kit7 : List (String × Obj × Bool) := kit6 ++ [("hash-map", .builtin .hashMap, true), ("quote", .special .quote, true)]

theorem kit7_plain : ∀ x ∈ kit7, x.2.1.children = [] := by decide

/-- the pairs of a hash map -/
def pairsAt (w : Vm) (r : Option Ref) : Option (List (Option Obj × Option Obj)) :=
  match objAt w r with
  | some (.hmap _ es) => some (es.map fun e => (objAt w (some e.1), objAt w (some e.2)))
  | _ => none

/-- `(hash-map "a" 1 2 "b")` -/
example : ∃ (v w : Vm) (form op : Ref) (xs : List Ref) (r : Option Ref) (tr : List Event), v.Reached world library ∧
    NamedCall world v form v.globalEnv (txt "hash-map") op xs ∧ v.HasObj op (.builtin .hashMap) ∧
    Evaluates world library v form v.globalEnv r w tr ∧ pairsAt w r = some [(some (.str (txt "a")), some (.int 1)), (some (.int 2), some (.str (txt "b")))] := by
  obtain ⟨v, form, r, w, tr, hr, of, oe, ev, h⟩ := stage_exists (table := kit7) (forms := []) (fuel := 60)
    (last := .vec [.sym "hash-map", .str "a", .int 1, .int 2, .str "b"])
    (P := fun v f r w tr => namedCheck v f "hash-map" (.builtin .hashMap) && decide (pairsAt w r = some [(some (.str (txt "a")), some (.int 1)), (some (.int 2), some (.str (txt "b")))])) kit7_plain (by decide +kernel)
  simp only [Bool.and_eq_true, decide_eq_true_eq] at h
  obtain ⟨op, xs, h1, h2, h3⟩ := named_of_check h.1 of oe
  exact ⟨v, w, form, op, xs, r, tr, hr, h1, h2, ev, h.2⟩

/-- `(+= (hash-map "a" 1 2 "b") (vector "c" 3))` -/
example : ∃ (v w : Vm) (form op : Ref) (xs : List Ref) (r : Option Ref) (tr : List Event), v.Reached world library ∧
    NamedCall world v form v.globalEnv (txt "+=") op xs ∧ v.HasObj op (.builtin .plusEq) ∧
    Evaluates world library v form v.globalEnv r w tr ∧ (pairsAt w r).map (·.length) = some 3 := by
  obtain ⟨v, form, r, w, tr, hr, of, oe, ev, h⟩ := stage_exists (table := kit7) (forms := []) (fuel := 60)
    (last := .vec [.sym "+=", .vec [.sym "hash-map", .str "a", .int 1, .int 2, .str "b"], .vec [.sym "vector", .str "c", .int 3]])
    (P := fun v f r w tr => namedCheck v f "+=" (.builtin .plusEq) && decide ((pairsAt w r).map (·.length) = some 3)) kit7_plain (by decide +kernel)
  simp only [Bool.and_eq_true, decide_eq_true_eq] at h
  obtain ⟨op, xs, h1, h2, h3⟩ := named_of_check h.1 of oe
  exact ⟨v, w, form, op, xs, r, tr, hr, h1, h2, ev, h.2⟩

/-- `(-= (hash-map "a" 1 2 "b") "a")` -/
example : ∃ (v w : Vm) (form op : Ref) (xs : List Ref) (r : Option Ref) (tr : List Event), v.Reached world library ∧
    NamedCall world v form v.globalEnv (txt "-=") op xs ∧ v.HasObj op (.builtin .minusEq) ∧
    Evaluates world library v form v.globalEnv r w tr ∧ pairsAt w r = some [(some (.int 2), some (.str (txt "b")))] := by
  obtain ⟨v, form, r, w, tr, hr, of, oe, ev, h⟩ := stage_exists (table := kit7) (forms := []) (fuel := 60)
    (last := .vec [.sym "-=", .vec [.sym "hash-map", .str "a", .int 1, .int 2, .str "b"], .str "a"])
    (P := fun v f r w tr => namedCheck v f "-=" (.builtin .minusEq) && decide (pairsAt w r = some [(some (.int 2), some (.str (txt "b")))])) kit7_plain (by decide +kernel)
  simp only [Bool.and_eq_true, decide_eq_true_eq] at h
  obtain ⟨op, xs, h1, h2, h3⟩ := named_of_check h.1 of oe
  exact ⟨v, w, form, op, xs, r, tr, hr, h1, h2, ev, h.2⟩

/-- `(ln@ (hash-map "a" 1 2 "b") 2 (quote hash))` -/
example : ∃ (v w : Vm) (form op : Ref) (xs : List Ref) (r : Option Ref) (tr : List Event), v.Reached world library ∧
    NamedCall world v form v.globalEnv (txt "ln@") op xs ∧ v.HasObj op (.builtin .lnAt) ∧
    Evaluates world library v form v.globalEnv r w tr ∧ objAt w r = some (.str (txt "b")) := by
  obtain ⟨v, form, r, w, tr, hr, of, oe, ev, h⟩ := stage_exists (table := kit7) (forms := []) (fuel := 60)
    (last := .vec [.sym "ln@", .vec [.sym "hash-map", .str "a", .int 1, .int 2, .str "b"], .int 2, .vec [.sym "quote", .sym "hash"]])
    (P := fun v f r w tr => namedCheck v f "ln@" (.builtin .lnAt) && decide (objAt w r = some (.str (txt "b")))) kit7_plain (by decide +kernel)
  simp only [Bool.and_eq_true, decide_eq_true_eq] at h
  obtain ⟨op, xs, h1, h2, h3⟩ := named_of_check h.1 of oe
  exact ⟨v, w, form, op, xs, r, tr, hr, h1, h2, ev, h.2⟩

/-- `(find (hash-map "a" 1 2 "b") "x")` -/
example : ∃ (v w : Vm) (form op : Ref) (xs : List Ref) (r : Option Ref) (tr : List Event), v.Reached world library ∧
    NamedCall world v form v.globalEnv (txt "find") op xs ∧ v.HasObj op (.builtin .find) ∧
    Evaluates world library v form v.globalEnv r w tr ∧ objAt w r = some .nil := by
  obtain ⟨v, form, r, w, tr, hr, of, oe, ev, h⟩ := stage_exists (table := kit7) (forms := []) (fuel := 60)
    (last := .vec [.sym "find", .vec [.sym "hash-map", .str "a", .int 1, .int 2, .str "b"], .str "x"])
    (P := fun v f r w tr => namedCheck v f "find" (.builtin .find) && decide (objAt w r = some .nil)) kit7_plain (by decide +kernel)
  simp only [Bool.and_eq_true, decide_eq_true_eq] at h
  obtain ⟨op, xs, h1, h2, h3⟩ := named_of_check h.1 of oe
  exact ⟨v, w, form, op, xs, r, tr, hr, h1, h2, ev, h.2⟩

/-- `(= (hash-map "a" 1 2 "b") "a" 5)` -/
example : ∃ (v w : Vm) (form op : Ref) (xs : List Ref) (r : Option Ref) (tr : List Event), v.Reached world library ∧
    NamedCall world v form v.globalEnv (txt "=") op xs ∧ v.HasObj op (.builtin .assign) ∧
    Evaluates world library v form v.globalEnv r w tr ∧ pairsAt w r = some [(some (.int 2), some (.str (txt "b"))), (some (.str (txt "a")), some (.int 5))] := by
  obtain ⟨v, form, r, w, tr, hr, of, oe, ev, h⟩ := stage_exists (table := kit7) (forms := []) (fuel := 60)
    (last := .vec [.sym "=", .vec [.sym "hash-map", .str "a", .int 1, .int 2, .str "b"], .str "a", .int 5])
    (P := fun v f r w tr => namedCheck v f "=" (.builtin .assign) && decide (pairsAt w r = some [(some (.int 2), some (.str (txt "b"))), (some (.str (txt "a")), some (.int 5))])) kit7_plain (by decide +kernel)
  simp only [Bool.and_eq_true, decide_eq_true_eq] at h
  obtain ⟨op, xs, h1, h2, h3⟩ := named_of_check h.1 of oe
  exact ⟨v, w, form, op, xs, r, tr, hr, h1, h2, ev, h.2⟩

/-- what the theorems require is met: a hash map with the key 7, the integers 7 and 8 and the symbol `hash` -/
example (v : Vm) : ∃ u : Vm, KeysFirst [1, 2] u ∧ PlusMap [0, 2, 1] u ∧ MinusMap [0, 1, 2] u ∧ LnMap [0, 1, 3] u ∧ FindMap [0, 1] u ∧ SetMap [0, 1, 2] u := by
  let m : Mem := fun x => if x = 0 then some { obj := .hmap 128 [(1, 2)], uid := 0 } else if x = 1 then some { obj := .int 7, uid := 1 } else
    if x = 2 then some { obj := .int 8, uid := 2 } else if x = 3 then some { obj := .sym (txt "hash"), uid := 3 } else none
  have k1 : KeyAt { v with mem := m } 1 (.int 7) := .int ⟨{ obj := .int 7, uid := 1 }, rfl, rfl⟩
  have k2 : KeyAt { v with mem := m } 2 (.int 8) := .int ⟨{ obj := .int 8, uid := 2 }, rfl, rfl⟩
  have hm : IsMap { v with mem := m } 0 (with_ (fun _ => none) (.int 7) 2) := by
    refine ⟨128, [(1, 2)], [(.int 7, 2)], ⟨{ obj := .hmap 128 [(1, 2)], uid := 0 }, rfl, rfl⟩, .cons ⟨k1, rfl⟩ .nil, by simp, ?_⟩
    intro d x
    simp only [with_, List.mem_singleton, Prod.mk.injEq]
    split <;> simp_all [eq_comm]
  refine ⟨{ v with mem := m }, ?_, ⟨0, [2, 1], _, rfl, hm, ?_, ?_⟩, ⟨0, [1, 2], _, rfl, hm, ?_⟩,
    ⟨0, 1, 3, _, _, rfl, hm, k1, { obj := .sym (txt "hash"), uid := 3 }, rfl, rfl⟩, ⟨0, 1, _, _, rfl, hm, k1⟩, ⟨0, 1, 2, _, _, rfl, hm, k1⟩⟩
  · intro i k x h1 h2
    match i with
    | 0 => cases h1; exact ⟨_, k1⟩
    | i + 1 => cases h1
  · rintro _ _ ⟨⟩; exact ⟨_, k2⟩
  · rintro _ _ ⟨⟩
  · simp only [List.mem_cons, List.not_mem_nil, or_false]
    rintro y (rfl | rfl)
    · exact ⟨_, k1⟩
    · exact ⟨_, k2⟩

end Dern.Props
