import Verif.Dern.For
import Verif.Dern.SafeElements
/-
`Ok` for `for`.
-/
namespace Dern.Prog
variable {P : Ref → Prop} {s : List Ref}

theorem ok_popAll : ∀ {rs : List Ref} {Q}, Q () s → Ok P (popAll rs) (rs ++ s) Q
  | [], _, h => h
  | r :: rs, Q, h => by
    unfold popAll
    refine ok_bind ?_
    exact ok_pop (ok_popAll (rs := rs) h)

theorem ok_popAll2 {a b : Ref} {Q} (h : Q () s) : Ok P (popAll [a, b]) (a :: b :: s) Q := ok_popAll (rs := [a, b]) h
macro_rules | `(tactic| ok_rule) => `(tactic| with_reducible refine ok_popAll2 ?_)
theorem ok_popAll3 {a b c : Ref} {Q} (h : Q () s) : Ok P (popAll [a, b, c]) (a :: b :: c :: s) Q := ok_popAll (rs := [a, b, c]) h
macro_rules | `(tactic| ok_rule) => `(tactic| with_reducible refine ok_popAll3 ?_)

theorem ok_forBody {args env : Ref} (ha : P args) (he : P env) {k : Nat} : ∀ {i : Nat}
    {Q : Option Ref → List Ref → Prop},
    (∀ a, PubOpt P a → Q a s) → Ok P (forBody args env k i) s Q := by
  induction k with
  | zero => intro i Q h1; exact h1 _ pubOpt_none
  | succ k ih =>
    intro i Q h1
    unfold forBody
    ok
    all_goals first | exact ih h1 | ok_side
macro_rules | `(tactic| ok_rule) => `(tactic| with_reducible refine ok_forBody ?_ ?_ fun a ha => ?_)

theorem ok_pairVec {k v : Ref} {Q} (hk : P k) (hv : P v) (h' : ∀ r, P r → Q r s) : Ok P (pairVec k v) s Q := by
  unfold pairVec
  ok
  all_goals ok_side
macro_rules | `(tactic| ok_rule) => `(tactic| with_reducible refine ok_pairVec ?_ ?_ fun r hr => ?_)

theorem ok_forElement {x : Ref} {g i} {Q} (hx : P x) (h' : ∀ r, P r → Q r s) : Ok P (forElement x g i) s Q := by
  unfold forElement
  ok
  all_goals first | ok_side | grind [List.mem_of_getElem?, PubObj, PubCell]

theorem ok_forNumber {x : Ref} {b i} {Q} (hx : P x) (h' : ∀ r, P r → Q r s) : Ok P (forNumber x b i) s Q := by
  unfold forNumber
  ok
  all_goals ok_side

theorem ok_forTurns {next : Nat → Prog Ref} {args ext sym : Ref} {k first}
    (hn : ∀ i Q, (∀ r, P r → Q r s) → Ok P (next i) s Q) (ha : P args) (he : P ext) (hs : P sym) {is : List Nat} :
    ∀ {n : Int} {Q : Ref ⊕ Int → List Ref → Prop}, (∀ x, (∀ r, x = .inl r → P r) → Q x s) →
    Ok P (forTurns next args ext sym k first is n) s Q := by
  induction is with
  | nil => intro n Q h; exact h _ (by simp)
  | cons i is ih =>
    intro n Q h
    unfold forTurns
    refine ok_bind (hn i _ fun r hr => ?_)
    ok
    all_goals first | exact ih h | ok_side

theorem ok_forEnd {rs : List Ref} {x : Ref ⊕ Int} {Q} (hx : ∀ r, x = .inl r → P r) (h' : ∀ a, PubOpt P a → Q a s) :
    Ok P (forEnd rs x) (rs ++ s) Q := by
  unfold forEnd
  split
  · refine ok_bind (ok_popAll (rs := rs) (ok_pure ?_))
    exact h' _ (pubOpt_some (hx _ rfl))
  · refine ok_bind (ok_popAll (rs := rs) (ok_bind (ok_alloc ?_ fun r hr => ok_pure ?_)))
    · ok_side
    · exact h' _ (pubOpt_some hr)

theorem ok_forStep {args : Ref} {i m} {rs : List Ref} {Q : Option Ref ⊕ Nat × Nat → List Ref → Prop} (ha : P args)
    (h1 : ∀ a, PubOpt P a → Q (.inl a) s) (h2 : ∀ x, Q (.inr x) (rs ++ s)) :
    Ok P (forStep args i m rs) (rs ++ s) Q := by
  unfold forStep
  ok
  all_goals first | ok_side | skip
  all_goals
    first
    | exact h2 _
    | (refine ok_popAll (rs := rs) ?_; ok; first | exact h1 _ ‹_› | ok_side)

theorem ok_forIn {args env sym : Ref} {m} {Q} (ha : P args) (he : P env) (hs : P sym) (h' : ∀ a, PubOpt P a → Q a s) :
    Ok P (forIn args env sym m) (args :: s) Q := by
  unfold forIn
  refine ok_bind (ok_evalReq ha he fun x hx => ok_bind (ok_push hx (ok_bind (ok_read hx fun c hc => ?_))))
  split
  · exact ok_fail (by simp)
  · ok
    all_goals ok_side
  · refine ok_bind (ok_forStep (rs := [x, args]) ha ?_ ?_)
    · intro a h; exact ok_pure (h' a h)
    · rintro ⟨step, first⟩
      refine ok_bind (ok_alloc ?_ fun ext hext => ok_bind (ok_push hext ?_))
      · ok_side
      refine ok_bind (ok_forTurns (fun i Q h => ok_forElement hx h) ha hext hs fun y hy => ?_)
      exact ok_forEnd (rs := [ext, x, args]) hy h'
macro_rules | `(tactic| ok_rule) => `(tactic| with_reducible refine ok_forIn ?_ ?_ ?_ fun a ha => ?_)

theorem ok_forRange {x y : Ref} {Q} (hx : P x) (hy : P y) (h' : ∀ a, Q a s) : Ok P (forRange x y) s Q := by
  unfold forRange
  ok
  all_goals ok_side

theorem ok_forFrom {args env sym : Ref} {m} {Q} (ha : P args) (he : P env) (hs : P sym) (h' : ∀ a, PubOpt P a → Q a s) :
    Ok P (forFrom args env sym m) (args :: s) Q := by
  unfold forFrom
  refine ok_bind (ok_evalReq ha he fun x hx => ok_bind (ok_push hx (ok_bind (ok_read hx fun c hc => ?_))))
  split
  · refine ok_bind (ok_evalReq ha he fun y hy => ok_bind (ok_push hy (ok_bind (ok_read hy fun d hd => ok_bind (ok_read hx fun c hc => ?_)))))
    split
    · ok
      all_goals ok_side
    · refine ok_bind (ok_forStep (rs := [y, x, args]) ha ?_ ?_)
      · intro a h; exact ok_pure (h' a h)
      · rintro ⟨step, first⟩
        refine ok_bind (ok_alloc ?_ fun ext hext => ok_bind (ok_push hext ?_))
        · ok_side
        refine ok_bind (ok_forRange hx hy ?_)
        rintro ⟨a, b⟩
        refine ok_bind (ok_int32 fun n => ?_)
        refine ok_bind (ok_forTurns (fun i Q h => ok_forNumber hx h) ha hext hs fun y hy => ?_)
        exact ok_forEnd (rs := [ext, _, _, _]) hy h'
  · ok
    all_goals ok_side
macro_rules | `(tactic| ok_rule) => `(tactic| with_reducible refine ok_forFrom ?_ ?_ ?_ fun a ha => ?_)

theorem ok_spFor {args env : Ref} {Q} (ha : P args) (he : P env) (h' : ∀ a, PubOpt P a → Q a s) :
    Ok P (spFor args env) s Q := by
  unfold spFor
  ok
  all_goals ok_side
macro_rules | `(tactic| ok_rule) => `(tactic| with_reducible refine ok_spFor ?_ ?_ fun a ha => ?_)

end Dern.Prog
