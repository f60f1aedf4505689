import Verif.Dern.Collections
import Verif.Dern.SafeSpecial
/-
`Ok` for the operations on containers and texts.
-/
namespace Dern.Prog
variable {P : Ref → Prop} {s : List Ref}

theorem ok_callAux {k : Aux} {refs : List Ref} {Q} (h : ∀ x ∈ refs, P x) (h' : ∀ a, PubOpt P a → Q a s) :
    Ok P (call (.aux k refs)) s Q := ok_call h rfl h'
macro_rules | `(tactic| ok_rule) => `(tactic| with_reducible refine ok_callAux ?_ fun a ha => ?_)

theorem ok_each {f : Ref → Prog Unit} {xs : List Ref} : ∀ {Q : Unit → List Ref → Prop},
    (∀ x, P x → ∀ {Q' : Unit → List Ref → Prop}, Q' () s → Ok P (f x) s Q') → (∀ x ∈ xs, P x) → Q () s → Ok P (each f xs) s Q := by
  induction xs with
  | nil => intro Q _ _ h; exact h
  | cons x xs ih =>
    intro Q hf h h'
    unfold each
    refine ok_bind (hf x (h x (by simp)) ?_)
    exact ih hf (fun y hy => h y (by simp [hy])) h'

theorem ok_eachUntil {f : Ref → Prog (Option Ref)} {xs : List Ref} : ∀ {Q : Option Ref → List Ref → Prop},
    (∀ x, P x → ∀ {Q' : Option Ref → List Ref → Prop}, (∀ a, PubOpt P a → Q' a s) → Ok P (f x) s Q') → (∀ x ∈ xs, P x) →
      (∀ a, PubOpt P a → Q a s) → Ok P (eachUntil f xs) s Q := by
  induction xs with
  | nil => intro Q _ _ h; exact h _ pubOpt_none
  | cons x xs ih =>
    intro Q hf h h'
    unfold eachUntil
    refine ok_bind (hf x (h x (by simp)) fun a ha => ?_)
    split
    · exact h' _ ha
    · exact ih hf (fun y hy => h y (by simp [hy])) h'

theorem ok_int32 {n} {Q}   (h' : ∀ b, Q b s) :
    Ok P (int32 n) s Q := by
  unfold int32
  ok
  all_goals ok_side
macro_rules | `(tactic| ok_rule) => `(tactic| with_reducible refine ok_int32 fun b => ?_)

theorem ok_truncate {d} {Q}   (h' : ∀ b, Q b s) :
    Ok P (truncate d) s Q := by
  unfold truncate
  ok
  all_goals ok_side
macro_rules | `(tactic| ok_rule) => `(tactic| with_reducible refine ok_truncate fun b => ?_)

theorem ok_int64 {n} {Q}   (h' : ∀ b, Q b s) :
    Ok P (int64 n) s Q := by
  unfold int64
  ok
  all_goals ok_side
macro_rules | `(tactic| ok_rule) => `(tactic| with_reducible refine ok_int64 fun b => ?_)

theorem ok_atol {t} {Q}   (h' : ∀ b, Q b s) :
    Ok P (atol t) s Q := by
  unfold atol
  ok
  all_goals ok_side
macro_rules | `(tactic| ok_rule) => `(tactic| with_reducible refine ok_atol fun b => ?_)

theorem ok_addLong {add} {n} {k} {Q}   (h' : ∀ b, Q b s) :
    Ok P (addLong add n k) s Q := by
  unfold addLong
  ok
  all_goals ok_side
macro_rules | `(tactic| ok_rule) => `(tactic| with_reducible refine ok_addLong fun b => ?_)

theorem ok_addNumber {self other : Ref} {asInt add} {Q} (hself : P self) (hother : P other) (h' : ∀ a, PubOpt P a → Q a s) :
    Ok P (addNumber asInt add self other) s Q := by
  unfold addNumber
  ok
  all_goals first | ok_side | skip
  all_goals
    refine ok_each (fun x hx Q' h' => ?_) (PubCell.vec ‹_› ‹_›) ?_
    · ok
      all_goals ok_side
    · ok
      all_goals ok_side
macro_rules | `(tactic| ok_rule) => `(tactic| with_reducible refine ok_addNumber ?_ ?_ fun a ha => ?_)

theorem ok_joined {self} {other} {t} {u} {Q}   (h' : ∀ b, Q b s) :
    Ok P (joined self other t u) s Q := by
  unfold joined
  ok
  all_goals ok_side
macro_rules | `(tactic| ok_rule) => `(tactic| with_reducible refine ok_joined fun b => ?_)

theorem pub_ofText {b : Bool} {t : Text} : PubObj P (ofText b t) := by
  unfold ofText; split <;> trivial

theorem ok_pushText {self value : Ref} {isSym} {Q} (hself : P self) (hvalue : P value) (h' : ∀ a, PubOpt P a → Q a s) :
    Ok P (pushText isSym self value) s Q := by
  unfold pushText
  ok
  all_goals first | exact pub_ofText | ok_side | skip
  all_goals
    refine ok_each (fun x hx Q' h' => ?_) (PubCell.vec ‹_› ‹_›) ?_
    · ok
      all_goals ok_side
    · ok
      all_goals ok_side
macro_rules | `(tactic| ok_rule) => `(tactic| with_reducible refine ok_pushText ?_ ?_ fun a ha => ?_)

theorem ok_codeOf {t} {Q}   (h' : ∀ b, Q b s) :
    Ok P (codeOf t) s Q := by
  unfold codeOf
  ok
  all_goals ok_side
macro_rules | `(tactic| ok_rule) => `(tactic| with_reducible refine ok_codeOf fun b => ?_)

theorem ok_addChar {self : Ref} {other : Ref} {Q} (hself : P self) (hother : P other)  (h' : Q () s) :
    Ok P (addChar self other) s Q := by
  unfold addChar
  ok
  all_goals ok_side
macro_rules | `(tactic| ok_rule) => `(tactic| with_reducible refine ok_addChar ?_ ?_ ?_)

theorem ok_subChar {self : Ref} {other : Ref} {Q} (hself : P self) (hother : P other)  (h' : Q () s) :
    Ok P (subChar self other) s Q := by
  unfold subChar
  ok
  all_goals ok_side
macro_rules | `(tactic| ok_rule) => `(tactic| with_reducible refine ok_subChar ?_ ?_ ?_)

theorem ok_popString {self : Ref} {Q} (hself : P self)  (h' : Q () s) :
    Ok P (popString self) s Q := by
  unfold popString
  ok
  all_goals ok_side
macro_rules | `(tactic| ok_rule) => `(tactic| with_reducible refine ok_popString ?_ ?_)

theorem ok_stripText {self : Ref} {value : Ref} {Q} (hself : P self) (hvalue : P value)  (h' : ∀ b, Q b s) :
    Ok P (stripText self value) s Q := by
  unfold stripText
  ok
  all_goals ok_side
macro_rules | `(tactic| ok_rule) => `(tactic| with_reducible refine ok_stripText ?_ ?_ fun b => ?_)

theorem ok_addVersion {add} {self : Ref} {other : Ref} {Q} (hself : P self) (hother : P other)  (h' : ∀ b, Q b s) :
    Ok P (addVersion add self other) s Q := by
  unfold addVersion
  ok
  all_goals ok_side
macro_rules | `(tactic| ok_rule) => `(tactic| with_reducible refine ok_addVersion ?_ ?_ fun b => ?_)

theorem pub_snoc {x : Ref} {o o' : Obj} (hx : P x) (h : PubObj P o) (e : Obj.snoc x o = some o') : PubObj P o' := by
  cases o <;> simp [Obj.snoc] at e <;> subst e <;> simp [PubObj] at h ⊢ <;> grind

theorem ok_addElement {r x : Ref} {Q} (hr : P r) (hx : P x) (h' : Q () s) :
    Ok P (addElement r x) s Q := by
  unfold addElement
  ok
  · exact hr
  · exact hr
  · exact pub_snoc hx (PubCell.obj ‹_›) ‹_›
  · exact h'
  · simp
macro_rules | `(tactic| ok_rule) => `(tactic| with_reducible refine ok_addElement ?_ ?_ ?_)

theorem pub_trimmed {m : Option Nat} {es : List Ref} (h : ∀ x ∈ es, P x) : ∀ x ∈ trimmed m es, P x := by
  cases m with
  | none => exact h
  | some n => exact fun x hx => h x (List.mem_of_mem_drop hx)

theorem ok_pushElement {self x : Ref} {Q} (hself : P self) (hx : P x) (h' : Q () s) :
    Ok P (pushElement self x) s Q := by
  unfold pushElement
  ok
  all_goals first | ok_side | skip
  rename_i hr _ hc _ _ _ e
  have := hc.obj
  rw [e] at this
  refine pub_trimmed (P := P) ?_
  grind [PubObj]
macro_rules | `(tactic| ok_rule) => `(tactic| with_reducible refine ok_pushElement ?_ ?_ ?_)

theorem ok_addPair {r : Ref} {k : Ref} {v : Ref} {Q} (hr : P r) (hk : P k) (hv : P v)  (h' : Q () s) :
    Ok P (addPair r k v) s Q := by
  unfold addPair
  ok
  all_goals ok_side
macro_rules | `(tactic| ok_rule) => `(tactic| with_reducible refine ok_addPair ?_ ?_ ?_ ?_)

theorem ok_hashOf {r : Ref} {Q} (hr : P r)  (h' : ∀ b, Q b s) :
    Ok P (hashOf r) s Q := by
  unfold hashOf
  ok
  all_goals ok_side
macro_rules | `(tactic| ok_rule) => `(tactic| with_reducible refine ok_hashOf ?_ fun b => ?_)

theorem ok_findKey {h : BitVec 32} {nb : Nat} {k : Ref} {es : List (Ref × Ref)} :
    ∀ {Q : Option (List (Ref × Ref) × (Ref × Ref) × List (Ref × Ref)) → List Ref → Prop}, P k → (∀ e ∈ es, P e.1 ∧ P e.2) →
      (∀ a, (∀ x, a = some x → es = x.1 ++ x.2.1 :: x.2.2) → Q a s) → Ok P (findKey h nb k es) s Q := by
  induction es with
  | nil => intro Q _ _ h; exact h _ (by simp)
  | cons x xs ih =>
    intro Q hk h h'
    unfold findKey
    ok
    · exact (h x (by simp)).1
    · exact hk
    · exact (h x (by simp)).1
    · refine h' _ ?_
      rintro _ ⟨⟩
      rfl
    · refine ih hk (fun y hy => h y (by simp [hy])) fun a ha => ?_
      ok
      · refine h' _ ?_
        rintro _ ⟨⟩
        simp [ha _ rfl]
      · exact h' _ (by simp)
    · refine ih hk (fun y hy => h y (by simp [hy])) fun a ha => ?_
      ok
      · refine h' _ ?_
        rintro _ ⟨⟩
        simp [ha _ rfl]
      · exact h' _ (by simp)
macro_rules | `(tactic| ok_rule) => `(tactic| with_reducible refine ok_findKey ?_ ?_ fun a ha => ?_)

theorem ok_mapGet {m : Ref} {k : Ref} {Q} (hm : P m) (hk : P k)  (h' : ∀ a, PubOpt P a → Q a s) :
    Ok P (mapGet m k) s Q := by
  unfold mapGet
  ok
  all_goals ok_side
macro_rules | `(tactic| ok_rule) => `(tactic| with_reducible refine ok_mapGet ?_ ?_ fun a ha => ?_)

theorem ok_mapPut {m : Ref} {k : Ref} {v : Ref} {Q} (hm : P m) (hk : P k) (hv : P v)  (h' : Q () s) :
    Ok P (mapPut m k v) s Q := by
  unfold mapPut
  ok
  all_goals ok_side
macro_rules | `(tactic| ok_rule) => `(tactic| with_reducible refine ok_mapPut ?_ ?_ ?_ ?_)

theorem pub_without {n : Nat} {xs ys : List (Ref × Ref)} {e : Ref × Ref} (h : PubObj P (.hmap n (xs ++ e :: ys))) :
    PubObj P (.hmap n (xs ++ ys)) := by
  intro x hx
  refine h x ?_
  rcases List.mem_append.1 hx with hx | hx <;> simp [hx]

theorem pub_without' {c : Cell} {n : Nat} {es xs ys : List (Ref × Ref)} {e : Ref × Ref} (hc : PubCell P c) (h1 : c.obj = .hmap n es)
    (h2 : ∀ x, some (xs, e, ys) = some x → es = x.1 ++ x.2.1 :: x.2.2) : PubObj P (.hmap n (xs ++ ys)) := by
  have := hc.obj
  rw [h1, h2 _ rfl] at this
  exact pub_without this

theorem ok_mapRemove {m : Ref} {k : Ref} {Q} (hm : P m) (hk : P k)  (h' : ∀ b, Q b s) :
    Ok P (mapRemove m k) s Q := by
  unfold mapRemove
  ok
  all_goals first | exact pub_without' ‹_› ‹_› ‹_› | ok_side
macro_rules | `(tactic| ok_rule) => `(tactic| with_reducible refine ok_mapRemove ?_ ?_ fun b => ?_)

theorem ok_mapPutAll {m : Ref} {es : List (Ref × Ref)} (hm : P m) : ∀ {Q}, (∀ e ∈ es, P e.1 ∧ P e.2) → Q () s →
    Ok P (mapPutAll m es) s Q := by
  induction es with
  | nil => intro Q _ h; exact h
  | cons x xs ih =>
    intro Q h h'
    unfold mapPutAll
    ok
    · exact hm
    · ok_side
    · ok_side
    · exact ih (by ok_side) h'
macro_rules | `(tactic| ok_rule) => `(tactic| with_reducible refine ok_mapPutAll ?_ ?_ ?_)

theorem pub_inPairs : ∀ {es : List Ref}, (∀ x ∈ es, P x) → ∀ e ∈ inPairs es, P e.1 ∧ P e.2
  | k :: v :: l, h => by
    intro e he
    simp only [inPairs, List.mem_cons] at he
    rcases he with rfl | he
    · exact ⟨h _ (by simp), h _ (by simp)⟩
    · exact pub_inPairs (es := l) (fun x hx => h x (by simp [hx])) e he
  | [], _ => by simp [inPairs]
  | [_], _ => by simp [inPairs]

theorem ok_mapAdd {m : Ref} {x : Ref} {Q} (hm : P m) (hx : P x)  (h' : ∀ b, Q b s) :
    Ok P (mapAdd m x) s Q := by
  unfold mapAdd
  ok
  all_goals first | exact pub_inPairs (PubCell.vec ‹_› ‹_›) | ok_side
macro_rules | `(tactic| ok_rule) => `(tactic| with_reducible refine ok_mapAdd ?_ ?_ fun b => ?_)

theorem ok_mapAddPair {m : Ref} {k : Ref} {v : Ref} {Q} (hm : P m) (hk : P k) (hv : P v)  (h' : ∀ b, Q b s) :
    Ok P (mapAddPair m k v) s Q := by
  unfold mapAddPair
  ok
  all_goals ok_side
macro_rules | `(tactic| ok_rule) => `(tactic| with_reducible refine ok_mapAddPair ?_ ?_ ?_ fun b => ?_)

theorem ok_removeLoop {eq : Ref → Prog Bool} {self : Ref} (hself : P self)
    (he : ∀ x, P x → ∀ {Q' : Bool → List Ref → Prop}, (∀ b, Q' b s) → Ok P (eq x) s Q') {xs : List Ref} :
    ∀ {kept : List Ref} {Q}, (∀ x ∈ xs, P x) → (∀ x ∈ kept, P x) → Q () s → Ok P (removeLoop eq self kept xs) s Q := by
  induction xs with
  | nil => intro kept Q _ _ h; exact h
  | cons x xs ih =>
    intro kept Q h h1 h'
    unfold removeLoop
    refine ok_bind (he x (h x (by simp)) fun b => ?_)
    ok
    all_goals first | ok_side | skip
    all_goals exact ih (by ok_side) (by ok_side) h'

theorem ok_removeElements {eq : Ref → Prog Bool} {self : Ref} {Q} (hself : P self)
    (he : ∀ x, P x → ∀ {Q' : Bool → List Ref → Prop}, (∀ b, Q' b s) → Ok P (eq x) s Q') (h' : Q () s) :
    Ok P (removeElements eq self) s Q := by
  unfold removeElements
  ok
  · exact hself
  · exact ok_removeLoop hself he (by ok_side) (by simp) h'
  · simp

theorem pub_less {b : Bool} {o : Obj} {x : Obj × Bool} (h : PubObj P o) (e : Obj.less b o = some x) : PubObj P x.1 := by
  cases o <;> simp only [Obj.less] at e <;> grind [PubObj, List.dropLast_subset, List.mem_of_mem_tail]

end Dern.Prog
