import Verif.Props.C34
/-
C45: the predicates for types.

`(integer? x)`, `(real? x)`, `(number? x)`, `(nil? x)`, `(boolean? x)`, `(character? x)`, `(string? x)`, `(symbol? x)`,
`(vector? x)`, `(hash-map? x)`: the answer is a new boolean, true exactly if the value is of that type; nothing else
happens.  With another number of arguments they are errors.
-/
namespace Dern.Props
open Dern
open Dern.Prog (Library)
variable {W : World} {L : Library}

/-! ### Specification -/

/-- a value is of a type -/
inductive OfType : Kind → Obj → Prop
  | integer (n : Int) : OfType .integer (.int n)
  | real (d : Spec.Dbl) : OfType .real (.real d)
  | numberInt (n : Int) : OfType .number (.int n)
  | numberReal (d : Spec.Dbl) : OfType .number (.real d)
  | nil : OfType .nil .nil
  | boolean (b : Bool) : OfType .boolean (.bool b)
  | character (t : Text) : OfType .character (.chr t)
  | string (t : Text) : OfType .string (.str t)
  | symbol (t : Text) : OfType .symbol (.sym t)
  | vector (es : List Ref) : OfType .vector (.vec es)
  | hashMap (n : Nat) (es : List (Ref × Ref)) : OfType .hashMap (.hmap n es)

/-- what the predicate for the type `k` does with the values `ts` -/
inductive IsARun (W : World) (k : Kind) (ts : List Ref) (v : Vm) (r : Ref) (w : Vm) (tr : List Event) : Prop
  | count : ts.length ≠ 1 → GivesError W v r w tr → IsARun W k ts v r w tr
  | answer {x o b} : ts = [x] → v.HasObj x o → (b = true ↔ OfType k o) → Gives W (.bool b) v r w tr → IsARun W k ts v r w tr

/-! ### Proofs -/

theorem c45_holds_aux {k : Kind} {o : Obj} : Prog.Kind.holds k o = true ↔ OfType k o := by
  constructor
  · intro h
    unfold Prog.Kind.holds at h
    cases o <;> simp at h
    case int n => rcases h with rfl | rfl; exacts [.integer n, .numberInt n]
    case real d => rcases h with rfl | rfl; exacts [.real d, .numberReal d]
    all_goals (subst h; constructor)
  · intro h
    cases h <;> rfl

/-- a builtin function that ends with a new value -/
theorem give_aux {n : Nat} {h : Handler} {args env : Ref} {ts : List Ref} {v : Vm} (k : Held W args ts env v) {o : Obj} (ho : ∀ m l, o ≠ .err m l) :
    Wp W n h (do let r ← Prog.alloc o; pure (some r)) v fun a u t => KeepsBuiltins v u ∧ ∀ r w, a = some r → Ends u w → Gives W o v r w t := by
  refine wp_bind (wp_alloc k.sane fun r w a => wp_pure ⟨keeps_of_quiet (a.quiet k.sane), ?_⟩)
  rintro _ w' ⟨⟩ e
  exact c34_finish_aux ho k.sane (a.quiet k.sane) a.fresh ⟨_, a.cell, rfl⟩ e

theorem giveMono_aux {n : Nat} {h : Handler} {p : Prog (Option Ref)} {v : Vm} {P Q : Vm → Ref → Vm → List Event → Prop}
    (hp : Wp W n h p v fun a u t => KeepsBuiltins v u ∧ ∀ r w, a = some r → Ends u w → P v r w t) (hPQ : ∀ r w t, P v r w t → Q v r w t) :
    Wp W n h p v fun a u t => KeepsBuiltins v u ∧ ∀ r w, a = some r → Ends u w → Q v r w t :=
  hp.mono fun _ _ _ ⟨h1, h2⟩ => ⟨h1, fun r w e e' => hPQ r w _ (h2 r w e e')⟩

theorem c45_run_aux {n : Nat} {h : Handler} {args env : Ref} {ts : List Ref} {v : Vm} {t : Kind} (k : Held W args ts env v) :
    Wp W n h (Prog.biIsA t args env) v fun a u tr => KeepsBuiltins v u ∧ ∀ r w, a = some r → Ends u w → IsARun W t ts v r w tr := by
  unfold Prog.biIsA
  refine c34_first_aux k ?_
  split
  · rename_i x
    refine wp_bind (wp_read fun c hc => ?_)
    simp only [List.nil_append]
    exact giveMono_aux (give_aux k (by simp)) (Q := fun v r w tr => IsARun W t [x] v r w tr) fun r w tr g =>
      .answer rfl ⟨c, hc, rfl⟩ c45_holds_aux g
  · rename_i hne
    refine giveMono_aux (c34_error_aux k _) (Q := fun v r w tr => IsARun W t ts v r w tr) fun r w tr g => .count ?_ g
    intro e
    obtain ⟨x, hx⟩ := List.length_eq_one_iff.mp e
    exact hne x hx

/-! ### Theorems -/

/-- a predicate for a type, called by name -/
theorem c45_predicate (hL : L.Safe) {v w : Vm} (rv : v.Reached W L) {form env op : Ref} {name : Text} {xs : List Ref} {k : Kind}
    (nc : NamedCall W v form env name op xs) (hop : v.HasObj op (.builtin (.isA k)))
    {r : Option Ref} {tr : List Event} (ev : Evaluates W L v form env r w tr) :
    NamedOpCall W (ArgumentsFirst W form env (Runs (.isA k) op (IsARun W k))) v env op r w tr :=
  namedBuiltin_aux hL (by simp) (fun _ _ _ _ _ _ _ k => c45_run_aux k) rv nc hop ev

/-- Integers and reals are the numbers; no value is of two of the other types. -/
theorem c45_types_disjoint {o : Obj} : (OfType .number o ↔ OfType .integer o ∨ OfType .real o) ∧
    ∀ k k', k ≠ .number → k' ≠ .number → OfType k o → OfType k' o → k = k' := by
  refine ⟨⟨?_, ?_⟩, ?_⟩
  · intro h; cases h
    · exact .inl (.integer _)
    · exact .inr (.real _)
  · rintro (h | h) <;> cases h
    · exact .numberInt _
    · exact .numberReal _
  · intro k k' h1 h2 h3 h4
    cases h3 <;> cases h4 <;> first | rfl | exact absurd rfl h1 | exact absurd rfl h2

/-! ### Examples -/

/-- names for the examples -/
def kit3 : List (String × Obj × Bool) :=
  kit2 ++ [("number?", .builtin (.isA .number), true), ("max", .builtin .max, true), ("min", .builtin .min, true)]

theorem kit3_plain : ∀ x ∈ kit3, x.2.1.children = [] := by decide

/-- `(number? (+ 1 2))` and `(number? 'a)` -/
example : ∃ (v w : Vm) (form op : Ref) (xs : List Ref) (r : Option Ref) (tr : List Event), v.Reached world library ∧
    NamedCall world v form v.globalEnv (txt "number?") op xs ∧ v.HasObj op (.builtin (.isA .number)) ∧
    Evaluates world library v form v.globalEnv r w tr ∧ objAt w r = some (.bool true) := by
  obtain ⟨v, form, r, w, tr, hr, of, oe, ev, h⟩ := stage_exists (table := kit3) (forms := []) (fuel := 60)
    (last := .vec [.sym "number?", .vec [.sym "+", .int 1, .int 2]])
    (P := fun v f r w tr => namedCheck v f "number?" (.builtin (.isA .number)) && decide (objAt w r = some (.bool true))) kit3_plain (by decide +kernel)
  simp only [Bool.and_eq_true, decide_eq_true_eq] at h
  obtain ⟨op, xs, h1, h2, h3⟩ := named_of_check h.1 of oe
  exact ⟨v, w, form, op, xs, r, tr, hr, h1, h2, ev, h.2⟩

example : stageCheck kit3 [] (.vec [.sym "number?", .vec [.sym "quote", .sym "a"]]) 60
      (fun _ _ r w _ => match objAt w r with | some (.bool false) => true | _ => false) = true := by decide +kernel

end Dern.Props
