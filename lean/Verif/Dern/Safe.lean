import Verif.Dern.Eval
/-
A predicate on programs, `Ok P p s Q`: the program `p`, started with the values `s` of its own on the
stack, pops only what is on top, uses only references that satisfy `P` if all answers it gets
do, and ends with a result and a stack that satisfy `Q`.
-/
namespace Dern

/-- the references in a payload satisfy `P` -/
def PubObj (P : Ref → Prop) : Obj → Prop
  | .vec es | .queue _ es | .list es => ∀ x ∈ es, P x
  | .hmap _ es => ∀ e ∈ es, P e.1 ∧ P e.2
  | .env bs e => (∀ b ∈ bs, P b.key ∧ P b.val) ∧ ∀ x, e = some x → P x
  | .fn f | .mac f => P f.formals ∧ P f.body ∧ P f.env
  | _ => True

/-- a reference that may be null -/
def PubOpt (P : Ref → Prop) (a : Option Ref) : Prop := ∀ x, a = some x → P x

/-- the references in a value satisfy `P` -/
structure PubCell (P : Ref → Prop) (c : Cell) : Prop where
  obj : PubObj P c.obj
  docstr : PubOpt P c.docstr
  docvec : PubOpt P c.docvec

/-- the references a call gets -/
def Call.refs : Call → List Ref
  | .eval value env | .again value env => [value, env]
  | .lookup env _ => [env]
  | .argLoop value _ args env _ => [value, args, env]
  | .bodyLoop operator _ value env _ last => operator :: value :: env :: last.toList
  | .logicLoop _ args env _ last | .doLoop args env _ last => args :: env :: last.toList
  | .whileLoop args env _ _ => [args, env]
  | .copy value => [value]
  | .aux _ refs => refs

/-- the stack before and after a call -/
def Call.Effect : Call → List Ref → List Ref → Prop
  | .whileLoop args _ _ _, s, s' => s = args :: s'
  | _, s, s' => s' = s

namespace Prog

def Ok (P : Ref → Prop) : Prog α → List Ref → (α → List Ref → Prop) → Prop
  | .done a, s, Q => Q a s
  | .op (.alloc o) k, s, Q => PubObj P o ∧ ∀ r, P r → Ok P (k r) s Q
  | .op (.read r) k, s, Q => P r ∧ ∀ c, PubCell P c → Ok P (k c) s Q
  | .op (.setObj r o) k, s, Q => P r ∧ PubObj P o ∧ Ok P (k ()) s Q
  | .op (.replace r o) k, s, Q => P r ∧ PubObj P o ∧ Ok P (k ()) s Q
  | .op (.setDoc r d e) k, s, Q => P r ∧ PubOpt P d ∧ PubOpt P e ∧ Ok P (k ()) s Q
  | .op (.setHowto r _) k, s, Q => P r ∧ Ok P (k ()) s Q
  | .op (.push r) k, s, Q => P r ∧ Ok P (k ()) (r :: s) Q
  | .op (.pop r) k, s, Q => ∃ s', s = r :: s' ∧ Ok P (k ()) s' Q
  | .op .getReturn k, s, Q => ∀ a, PubOpt P a → Ok P (k a) s Q
  | .op (.setReturn a) k, s, Q => PubOpt P a ∧ Ok P (k ()) s Q
  | .op .isQuit k, s, Q => ∀ b, Ok P (k b) s Q
  | .op (.quit _) k, s, Q => Ok P (k ()) s Q
  | .op (.root _) k, s, Q => ∀ r, P r → Ok P (k r) s Q
  | .op (.emit _) k, s, Q => Ok P (k ()) s Q
  | .op (.text _) k, s, Q => ∀ t, Ok P (k t) s Q
  | .op (.compare a b) k, s, Q => P a ∧ P b ∧ ∀ n, Ok P (k n) s Q
  | .op (.arrange es) k, s, Q =>
    (∀ e ∈ es, P e.1 ∧ P e.2) ∧ ∀ x, (∀ e ∈ x.2, P e.1 ∧ P e.2) → Ok P (k x) s Q
  | .op .real k, s, Q => ∀ d, Ok P (k d) s Q
  | .op (.print _ r) k, s, Q => P r ∧ ∀ t, Ok P (k t) s Q
  | .op .readably k, s, Q => ∀ b, Ok P (k b) s Q
  | .op (.setReadably _) k, s, Q => Ok P (k ()) s Q
  | .op (.fail e) _, _, _ => e ≠ .unbalanced
  | .op (.call c) k, s, Q => (∀ x ∈ c.refs, P x) ∧ ∃ s', c.Effect s s' ∧ ∀ a, PubOpt P a → Ok P (k a) s' Q

variable {P : Ref → Prop} {s : List Ref}

theorem Ok.mono {p : Prog α} {Q Q' : α → List Ref → Prop} (h : Ok P p s Q)
    (hQ : ∀ a s, Q a s → Q' a s) : Ok P p s Q' := by
  induction p generalizing s with
  | done a => exact hQ _ _ h
  | op o k ih =>
    cases o with
    | alloc o => exact ⟨h.1, fun r hr => ih r (h.2 r hr)⟩
    | read r => exact ⟨h.1, fun c hc => ih c (h.2 c hc)⟩
    | setObj r o => exact ⟨h.1, h.2.1, ih () h.2.2⟩
    | replace r o => exact ⟨h.1, h.2.1, ih () h.2.2⟩
    | setDoc r d e => exact ⟨h.1, h.2.1, h.2.2.1, ih () h.2.2.2⟩
    | setHowto r b => exact ⟨h.1, ih () h.2⟩
    | push r => exact ⟨h.1, ih () h.2⟩
    | pop r => obtain ⟨s', e, h⟩ := h; exact ⟨s', e, ih () h⟩
    | getReturn => exact fun a ha => ih a (h a ha)
    | setReturn a => exact ⟨h.1, ih () h.2⟩
    | isQuit => exact fun b => ih b (h b)
    | quit c => exact ih () h
    | root w => exact fun r hr => ih r (h r hr)
    | emit t => exact ih () h
    | text w => exact fun t => ih t (h t)
    | compare a b => exact ⟨h.1, h.2.1, fun n => ih n (h.2.2 n)⟩
    | arrange es => exact ⟨h.1, fun x hx => ih x (h.2 x hx)⟩
    | real => exact fun d => ih d (h d)
    | print p r => exact ⟨h.1, fun t => ih t (h.2 t)⟩
    | readably => exact fun b => ih b (h b)
    | setReadably b => exact ih () h
    | fail e => exact h
    | call c => obtain ⟨h1, s', e, h⟩ := h; exact ⟨h1, s', e, fun a ha => ih a (h a ha)⟩

theorem ok_bind {p : Prog α} {f : α → Prog β} {Q : β → List Ref → Prop}
    (h : Ok P p s fun a s' => Ok P (f a) s' Q) : Ok P (p >>= f) s Q := by
  show Ok P (Prog.bind p f) s Q
  induction p generalizing s with
  | done a => exact h
  | op o k ih =>
    cases o with
    | alloc o => exact ⟨h.1, fun r hr => ih r (h.2 r hr)⟩
    | read r => exact ⟨h.1, fun c hc => ih c (h.2 c hc)⟩
    | setObj r o => exact ⟨h.1, h.2.1, ih () h.2.2⟩
    | replace r o => exact ⟨h.1, h.2.1, ih () h.2.2⟩
    | setDoc r d e => exact ⟨h.1, h.2.1, h.2.2.1, ih () h.2.2.2⟩
    | setHowto r b => exact ⟨h.1, ih () h.2⟩
    | push r => exact ⟨h.1, ih () h.2⟩
    | pop r => obtain ⟨s', e, h⟩ := h; exact ⟨s', e, ih () h⟩
    | getReturn => exact fun a ha => ih a (h a ha)
    | setReturn a => exact ⟨h.1, ih () h.2⟩
    | isQuit => exact fun b => ih b (h b)
    | quit c => exact ih () h
    | root w => exact fun r hr => ih r (h r hr)
    | emit t => exact ih () h
    | text w => exact fun t => ih t (h t)
    | compare a b => exact ⟨h.1, h.2.1, fun n => ih n (h.2.2 n)⟩
    | arrange es => exact ⟨h.1, fun x hx => ih x (h.2 x hx)⟩
    | real => exact fun d => ih d (h d)
    | print p r => exact ⟨h.1, fun t => ih t (h.2 t)⟩
    | readably => exact fun b => ih b (h b)
    | setReadably b => exact ih () h
    | fail e => exact h
    | call c => obtain ⟨h1, s', e, h⟩ := h; exact ⟨h1, s', e, fun a ha => ih a (h a ha)⟩

/-! ### rules -/

theorem ok_pure {a : α} {Q : α → List Ref → Prop} (h : Q a s) : Ok P (pure a) s Q := h
theorem ok_alloc {o : Obj} {Q} (h : PubObj P o) (h' : ∀ r, P r → Q r s) : Ok P (alloc o) s Q := ⟨h, h'⟩
theorem ok_read {r : Ref} {Q} (h : P r) (h' : ∀ c, PubCell P c → Q c s) : Ok P (read r) s Q := ⟨h, h'⟩
theorem ok_setObj {r : Ref} {o : Obj} {Q} (h : P r) (h1 : PubObj P o) (h' : Q () s) :
    Ok P (setObj r o) s Q := ⟨h, h1, h'⟩
theorem ok_replace {r : Ref} {o : Obj} {Q} (h : P r) (h1 : PubObj P o) (h' : Q () s) :
    Ok P (replace r o) s Q := ⟨h, h1, h'⟩
theorem ok_setDoc {r : Ref} {d e} {Q} (h : P r) (h1 : PubOpt P d) (h2 : PubOpt P e) (h' : Q () s) :
    Ok P (setDoc r d e) s Q := ⟨h, h1, h2, h'⟩
theorem ok_setHowto {r : Ref} {b} {Q} (h : P r) (h' : Q () s) : Ok P (setHowto r b) s Q := ⟨h, h'⟩
theorem ok_push {r : Ref} {Q} (h : P r) (h' : Q () (r :: s)) : Ok P (push r) s Q := ⟨h, h'⟩
theorem ok_pop {r : Ref} {Q} (h' : Q () s) : Ok P (pop r) (r :: s) Q := ⟨s, rfl, h'⟩
theorem ok_getReturn {Q} (h' : ∀ a, PubOpt P a → Q a s) : Ok P getReturn s Q := h'
theorem ok_setReturn {a} {Q} (h : PubOpt P a) (h' : Q () s) : Ok P (setReturn a) s Q := ⟨h, h'⟩
theorem ok_isQuit {Q} (h' : ∀ b, Q b s) : Ok P isQuit s Q := h'
theorem ok_quit {c Q} (h' : Q () s) : Ok P (quit c) s Q := h'
theorem ok_root {w Q} (h' : ∀ r, P r → Q r s) : Ok P (root w) s Q := h'
theorem ok_emit {t Q} (h' : Q () s) : Ok P (emit t) s Q := h'
theorem ok_text {w Q} (h' : ∀ t, Q t s) : Ok P (text w) s Q := h'
theorem ok_compare {a b : Ref} {Q} (h1 : P a) (h2 : P b) (h' : ∀ n, Q n s) : Ok P (compare a b) s Q :=
  ⟨h1, h2, h'⟩
theorem ok_print {p : Bool} {r : Ref} {Q} (h : P r) (h' : ∀ t, Q t s) : Ok P (print p r) s Q := ⟨h, h'⟩
theorem ok_readably {Q} (h' : ∀ b, Q b s) : Ok P readably s Q := h'
theorem ok_setReadably {b : Bool} {Q} (h' : Q () s) : Ok P (setReadably b) s Q := h'
theorem ok_arrange {es Q} (h : ∀ e ∈ es, P e.1 ∧ P e.2)
    (h' : ∀ x : Nat × List (Ref × Ref), (∀ e ∈ x.2, P e.1 ∧ P e.2) → Q x s) : Ok P (arrange es) s Q :=
  ⟨h, h'⟩
theorem ok_real {Q} (h' : ∀ d, Q d s) : Ok P real s Q := h'
theorem ok_fail {e : Fault} {Q : α → List Ref → Prop} (h : e ≠ .unbalanced) : Ok P (fail e) s Q := h
theorem ok_call {c : Call} {Q} (h : ∀ x ∈ c.refs, P x) (he : c.Effect s s) (h' : ∀ a, PubOpt P a → Q a s) :
    Ok P (call c) s Q := ⟨h, s, he, h'⟩
theorem ok_callWhile {args env : Ref} {m i} {Q} (h1 : P args) (h2 : P env) (h' : ∀ a, PubOpt P a → Q a s) :
    Ok P (call (.whileLoop args env m i)) (args :: s) Q :=
  ⟨by simp [Call.refs, h1, h2], s, rfl, h'⟩
theorem ok_eval {value env : Ref} {Q} (h1 : P value) (h2 : P env) (h' : ∀ a, PubOpt P a → Q a s) :
    Ok P (eval value env) s Q := ok_call (by simp [Call.refs, h1, h2]) rfl h'
theorem ok_deref {a Q} (h : PubOpt P a) (h' : ∀ r, P r → Q r s) : Ok P (deref a) s Q := by
  unfold deref
  split
  · exact h' _ (h _ rfl)
  · exact ok_fail (by simp)
theorem ok_require {a Q} (h : PubOpt P a) (h' : ∀ r, P r → Q r s) : Ok P (require a) s Q := by
  unfold require
  split
  · exact h' _ (h _ rfl)
  · exact ok_fail (by simp)

theorem pubOpt_some {r : Ref} (h : P r) : PubOpt P (some r) := by rintro x ⟨⟩; exact h
theorem pubOpt_none : PubOpt P none := by rintro x ⟨⟩

end Prog
end Dern
