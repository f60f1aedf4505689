import Verif.Dern.SafeEnv
/-
`Ok` for the special forms.
-/
namespace Dern.Prog
variable {P : Ref → Prop} {s : List Ref}

theorem ok_evalReq {args env : Ref} {i} {Q} (hargs : P args) (henv : P env) (h' : ∀ r, P r → Q r s) :
    Ok P (evalReq args i env) s Q := by
  unfold evalReq
  ok
  all_goals ok_side
macro_rules | `(tactic| ok_rule) => `(tactic| with_reducible refine ok_evalReq ?_ ?_ fun r hr => ?_)

theorem ok_isSymbolAt {args : Ref} {i t} {Q} (hargs : P args) (h' : ∀ b, Q b s) :
    Ok P (isSymbolAt args i t) s Q := by
  unfold isSymbolAt
  ok
  all_goals ok_side
macro_rules | `(tactic| ok_rule) => `(tactic| with_reducible refine ok_isSymbolAt ?_ fun b => ?_)

theorem ok_spQuote {args env : Ref} {Q} (hargs : P args) (henv : P env) (h' : ∀ a, PubOpt P a → Q a s) :
    Ok P (spQuote args env) s Q := by
  unfold spQuote
  ok
  all_goals ok_side
macro_rules | `(tactic| ok_rule) => `(tactic| with_reducible refine ok_spQuote ?_ ?_ fun a ha => ?_)

theorem ok_selectLoop {args env : Ref} (ha : P args) (he : P env) {k : Nat} : ∀ {i : Nat} {Q},
    (∀ a, PubOpt P a → Q a s) → Ok P (selectLoop args env k i) (args :: s) Q := by
  induction k with
  | zero => intro i Q h'; unfold selectLoop; ok; all_goals ok_side
  | succ k ih =>
    intro i Q h'
    unfold selectLoop
    ok
    all_goals first | exact ih h' | ok_side
macro_rules | `(tactic| ok_rule) => `(tactic| with_reducible refine ok_selectLoop ?_ ?_ fun a ha => ?_)

theorem ok_spSelect {args env : Ref} {Q} (hargs : P args) (henv : P env) (h' : ∀ a, PubOpt P a → Q a s) :
    Ok P (spSelect args env) s Q := by
  unfold spSelect
  ok
  all_goals ok_side
macro_rules | `(tactic| ok_rule) => `(tactic| with_reducible refine ok_spSelect ?_ ?_ fun a ha => ?_)

theorem ok_ifTest {args env : Ref} {Q} (hargs : P args) (henv : P env) (h' : ∀ r, P r → Q r s) :
    Ok P (ifTest args env) s Q := by
  unfold ifTest
  ok
  all_goals ok_side
macro_rules | `(tactic| ok_rule) => `(tactic| with_reducible refine ok_ifTest ?_ ?_ fun r hr => ?_)

theorem ok_spIf {args env : Ref} {Q} (hargs : P args) (henv : P env) (h' : ∀ a, PubOpt P a → Q a s) :
    Ok P (spIf args env) s Q := by
  unfold spIf
  ok
  all_goals ok_side
macro_rules | `(tactic| ok_rule) => `(tactic| with_reducible refine ok_spIf ?_ ?_ fun a ha => ?_)

theorem ok_whileBody {args env : Ref} (ha : P args) (he : P env) {k : Nat} : ∀ {i : Nat}
    {Q : Option Ref → List Ref → Prop},
    (∀ r, P r → Q (some r) s) → Q none (args :: s) → Ok P (whileBody args env k i) (args :: s) Q := by
  induction k with
  | zero => intro i Q h1 h2; exact h2
  | succ k ih =>
    intro i Q h1 h2
    unfold whileBody
    ok
    all_goals first | exact ih h1 h2 | ok_side
macro_rules | `(tactic| ok_rule) => `(tactic| with_reducible refine ok_whileBody ?_ ?_ (fun r hr => ?_) ?_)

theorem ok_whileTurn {args env : Ref} {m i} {Q} (hargs : P args) (henv : P env) (h' : ∀ a, PubOpt P a → Q a s) :
    Ok P (whileTurn args env m i) (args :: s) Q := by
  unfold whileTurn
  ok
  all_goals ok_side
macro_rules | `(tactic| ok_rule) => `(tactic| with_reducible refine ok_whileTurn ?_ ?_ fun a ha => ?_)

theorem ok_spWhile {args env : Ref} {Q} (hargs : P args) (henv : P env) (h' : ∀ a, PubOpt P a → Q a s) :
    Ok P (spWhile args env) s Q := by
  unfold spWhile
  ok
  all_goals ok_side
macro_rules | `(tactic| ok_rule) => `(tactic| with_reducible refine ok_spWhile ?_ ?_ fun a ha => ?_)

theorem ok_equalLoop {same : Ref → Ref → Prog Bool} {args env first : Ref} (ha : P args) (he : P env)
    (hf : P first)
    (hs : ∀ (s : List Ref) (x : Ref) (Q : Bool → List Ref → Prop), P x → (∀ b, Q b s) → Ok P (same first x) s Q)
    {k : Nat} : ∀ {i : Nat} {Q},
    (∀ b, Q b s) → Ok P (equalLoop same args env first k i) s Q := by
  induction k with
  | zero => intro i Q h'; exact h' _
  | succ k ih =>
    intro i Q h'
    unfold equalLoop
    ok
    all_goals try ok_side
    refine hs _ _ _ (by ok_side) fun b => ?_
    ok
    all_goals first | exact ih h' | ok_side
macro_rules | `(tactic| ok_rule) => `(tactic| with_reducible refine ok_equalLoop ?_ ?_ ?_ ?_ fun b => ?_)

theorem ok_spEqual {same : Ref → Ref → Prog Bool} {args env : Ref} {Q} (hargs : P args) (henv : P env)
    (hs : ∀ (s : List Ref) (y x : Ref) (Q : Bool → List Ref → Prop), P y → P x → (∀ b, Q b s) → Ok P (same y x) s Q)
    (h' : ∀ a, PubOpt P a → Q a s) :
    Ok P (spEqual same args env) s Q := by
  unfold spEqual
  ok
  all_goals ok_side
macro_rules | `(tactic| ok_rule) => `(tactic| with_reducible refine ok_spEqual ?_ ?_ ?_ fun a ha => ?_)

theorem ok_equalValues {a b : Ref} {Q} (ha : P a) (hb : P b) (h' : ∀ b, Q b s) :
    Ok P (equalValues a b) s Q := by
  unfold equalValues
  ok
  all_goals ok_side
macro_rules | `(tactic| ok_rule) => `(tactic| with_reducible refine ok_equalValues ?_ ?_ fun b => ?_)

theorem ok_sameUid {a b : Ref} {Q} (ha : P a) (hb : P b) (h' : ∀ b, Q b s) :
    Ok P (sameUid a b) s Q := by
  unfold sameUid
  ok
  all_goals ok_side
macro_rules | `(tactic| ok_rule) => `(tactic| with_reducible refine ok_sameUid ?_ ?_ fun b => ?_)

theorem ok_spNotEqual {args env : Ref} {Q} (hargs : P args) (henv : P env) (h' : ∀ a, PubOpt P a → Q a s) :
    Ok P (spNotEqual args env) s Q := by
  unfold spNotEqual
  ok
  all_goals try ok_side
  exact fun s x y Q hx hy h => ok_equalValues hx hy h

theorem ok_orderLoop {ok : Int → Bool} {args env first : Ref} (ha : P args) (he : P env)
    (hf : P first) {k : Nat} : ∀ {i : Nat} {Q},
    (∀ b, Q b s) → Ok P (orderLoop ok args env first k i) s Q := by
  induction k with
  | zero => intro i Q h'; exact h' _
  | succ k ih =>
    intro i Q h'
    unfold orderLoop
    ok
    all_goals first | exact ih h' | ok_side
macro_rules | `(tactic| ok_rule) => `(tactic| with_reducible refine ok_orderLoop ?_ ?_ ?_ fun b => ?_)

theorem ok_spOrder {args env : Ref} {t} {Q} (hargs : P args) (henv : P env) (h' : ∀ a, PubOpt P a → Q a s) :
    Ok P (spOrder t args env) s Q := by
  unfold spOrder
  ok
  all_goals ok_side
macro_rules | `(tactic| ok_rule) => `(tactic| with_reducible refine ok_spOrder ?_ ?_ fun a ha => ?_)

theorem ok_callLogic {a : Bool} {args env : Ref} {i last Q} (h1 : P args) (h2 : P env) (h3 : PubOpt P last)
    (h' : ∀ a, PubOpt P a → Q a s) : Ok P (call (.logicLoop a args env i last)) s Q :=
  ok_call (by
    intro x hx
    simp only [Call.refs, List.mem_cons, Option.mem_toList] at hx
    rcases hx with rfl | rfl | hx
    · exact h1
    · exact h2
    · exact h3 x hx) rfl h'
macro_rules | `(tactic| ok_rule) => `(tactic| with_reducible refine ok_callLogic ?_ ?_ ?_ fun a ha => ?_)
theorem ok_callDo {args env : Ref} {i last Q} (h1 : P args) (h2 : P env) (h3 : PubOpt P last)
    (h' : ∀ a, PubOpt P a → Q a s) : Ok P (call (.doLoop args env i last)) s Q :=
  ok_call (by
    intro x hx
    simp only [Call.refs, List.mem_cons, Option.mem_toList] at hx
    rcases hx with rfl | rfl | hx
    · exact h1
    · exact h2
    · exact h3 x hx) rfl h'
macro_rules | `(tactic| ok_rule) => `(tactic| with_reducible refine ok_callDo ?_ ?_ ?_ fun a ha => ?_)

theorem ok_logicTurn {args env : Ref} {a i last} {Q} (hargs : P args) (henv : P env) (hl : PubOpt P last) (h' : ∀ a, PubOpt P a → Q a s) :
    Ok P (logicTurn a args env i last) s Q := by
  unfold logicTurn
  ok
  all_goals ok_side
macro_rules | `(tactic| ok_rule) => `(tactic| with_reducible refine ok_logicTurn ?_ ?_ ?_ fun a ha => ?_)

theorem ok_spLogic {args env : Ref} {a} {Q} (hargs : P args) (henv : P env) (h' : ∀ a, PubOpt P a → Q a s) :
    Ok P (spLogic a args env) s Q := by
  unfold spLogic
  ok
  all_goals ok_side
macro_rules | `(tactic| ok_rule) => `(tactic| with_reducible refine ok_spLogic ?_ ?_ fun a ha => ?_)

theorem ok_doTurn {args env : Ref} {i last} {Q} (hargs : P args) (henv : P env) (hl : PubOpt P last) (h' : ∀ a, PubOpt P a → Q a s) :
    Ok P (doTurn args env i last) s Q := by
  unfold doTurn
  ok
  all_goals ok_side
macro_rules | `(tactic| ok_rule) => `(tactic| with_reducible refine ok_doTurn ?_ ?_ ?_ fun a ha => ?_)

theorem ok_spDo {args env : Ref} {Q} (hargs : P args) (henv : P env) (h' : ∀ a, PubOpt P a → Q a s) :
    Ok P (spDo args env) s Q := by
  unfold spDo
  ok
  all_goals ok_side
macro_rules | `(tactic| ok_rule) => `(tactic| with_reducible refine ok_spDo ?_ ?_ fun a ha => ?_)

theorem ok_fnBody {body : Ref} (hb : P body) {xs : List Ref} : ∀ {Q}, (∀ x ∈ xs, P x) →
    (∀ a, PubOpt P a → Q a s) → Ok P (fnBody body xs) s Q := by
  induction xs with
  | nil => intro Q _ h; exact h _ pubOpt_none
  | cons x xs ih =>
    intro Q h2 h'
    unfold fnBody
    ok
    all_goals ok_side
macro_rules | `(tactic| ok_rule) => `(tactic| with_reducible refine ok_fnBody ?_ ?_ fun a ha => ?_)

theorem ok_fnFormals {xs : List Ref} : ∀ {Q}, (∀ x ∈ xs, P x) →
    (∀ x : Option Ref × List Text, PubOpt P x.1 → Q x s) → Ok P (fnFormals xs) s Q := by
  induction xs with
  | nil => intro Q _ h; exact h _ pubOpt_none
  | cons x xs ih =>
    intro Q h2 h'
    unfold fnFormals
    ok
    all_goals first | ok_side | skip
    refine ih (by ok_side) fun x hx => ?_
    ok
    ok_side
macro_rules | `(tactic| ok_rule) => `(tactic| with_reducible refine ok_fnFormals ?_ fun x hx => ?_)

theorem ok_fnValidate {fs : List Ref} {Q} (h : ∀ x ∈ fs, P x) (h' : ∀ a, PubOpt P a → Q a s) :
    Ok P (fnValidate fs) s Q := by
  unfold fnValidate
  dsimp only
  ok
  all_goals ok_side
macro_rules | `(tactic| ok_rule) => `(tactic| with_reducible refine ok_fnValidate ?_ fun a ha => ?_)

theorem ok_spFn {wrap : FnData → Obj} {args env : Ref} {Q} (hargs : P args) (henv : P env)
    (hw : ∀ f, P f.formals → P f.body → P f.env → PubObj P (wrap f)) (h' : ∀ a, PubOpt P a → Q a s) :
    Ok P (spFn wrap args env) s Q := by
  unfold spFn
  ok
  all_goals ok_side

theorem ok_setDocstr {r d : Ref} {Q} (hr : P r) (hd : P d) (h' : Q () s) :
    Ok P (setDocstr r d) s Q := by
  unfold setDocstr
  ok
  all_goals ok_side
macro_rules | `(tactic| ok_rule) => `(tactic| with_reducible refine ok_setDocstr ?_ ?_ ?_)

theorem ok_defineTarget1 {args env : Ref} {i Q} (hargs : P args) (henv : P env)
    (h' : ∀ x : Ref × Bool, P x.1 → Q x (x.1 :: s)) :
    Ok P (defineTarget true args env i) s Q := by
  unfold defineTarget
  ok
  all_goals first | (exact h' (_, _) (by assumption)) | ok_side
macro_rules | `(tactic| ok_rule) => `(tactic| with_reducible refine ok_defineTarget1 ?_ ?_ fun x hx => ?_)

theorem ok_defineTarget2 {args env : Ref} {i Q} (henv : P env)
    (h' : ∀ x : Ref × Bool, P x.1 → Q x s) :
    Ok P (defineTarget false args env i) s Q := h' _ henv
macro_rules | `(tactic| ok_rule) => `(tactic| with_reducible refine ok_defineTarget2 ?_ fun x hx => ?_)

theorem ok_popTarget1 {e : Ref} {Q} (h' : Q () s) : Ok P (popTarget true e) (e :: s) Q := ok_pop h'
macro_rules | `(tactic| ok_rule) => `(tactic| with_reducible refine ok_popTarget1 ?_)

theorem ok_popTarget2 {e : Ref} {Q} (h' : Q () s) : Ok P (popTarget false e) s Q := h'
macro_rules | `(tactic| ok_rule) => `(tactic| with_reducible refine ok_popTarget2 ?_)

theorem ok_errorPop {args : Ref} {w Q} (h' : ∀ a, PubOpt P a → Q a s) : Ok P (errorPop args w) (args :: s) Q := by
  unfold errorPop
  ok
  all_goals ok_side
macro_rules | `(tactic| ok_rule) => `(tactic| with_reducible refine ok_errorPop fun a ha => ?_)

theorem ok_defineVar {first third args env : Ref} {b} {Q} (hfirst : P first) (hthird : P third) (hargs : P args) (henv : P env) (h' : ∀ a, PubOpt P a → Q a s) :
    Ok P (defineVar b first third args env) s Q := by
  cases b <;> unfold defineVar <;> ok
  all_goals ok_side
macro_rules | `(tactic| ok_rule) => `(tactic| with_reducible refine ok_defineVar ?_ ?_ ?_ ?_ fun a ha => ?_)

theorem ok_formalInDocvec {t : Text} : ∀ (n : Nat) (ds : List Ref) {Q}, ds.length ≤ n → (∀ x ∈ ds, P x) →
    (∀ b, Q b s) → Ok P (formalInDocvec t ds) s Q := by
  intro n
  induction n with
  | zero =>
    intro ds Q hn _ h
    have : ds = [] := by cases ds <;> simp_all
    subst this; exact h _
  | succ n ih =>
    intro ds Q hn h2 h'
    match ds with
    | [] => exact h' _
    | [x] => unfold formalInDocvec; ok; all_goals ok_side
    | x :: y :: ds =>
      unfold formalInDocvec
      ok
      all_goals ok_side
macro_rules | `(tactic| ok_rule) => `(tactic| with_reducible refine ok_formalInDocvec _ _ (Nat.le_refl _) ?_ fun b => ?_)

theorem ok_formalsInDocvec {ds : List Ref} (hd : ∀ x ∈ ds, P x) {fs : List Ref} : ∀ {Q}, (∀ x ∈ fs, P x) →
    (∀ b, Q b s) → Ok P (formalsInDocvec ds fs) s Q := by
  induction fs with
  | nil => intro Q _ h; exact h _
  | cons x xs ih =>
    intro Q h2 h'
    unfold formalsInDocvec
    ok
    all_goals first | ok_side | skip
    exact ih (by ok_side) fun b => h' _
macro_rules | `(tactic| ok_rule) => `(tactic| with_reducible refine ok_formalsInDocvec ?_ ?_ fun b => ?_)

theorem ok_docvecPairs : ∀ (n : Nat) (ds : List Ref) {Q}, ds.length ≤ n → (∀ x ∈ ds, P x) →
    Q () s → Ok P (docvecPairs ds) s Q := by
  intro n
  induction n with
  | zero =>
    intro ds Q hn _ h
    have : ds = [] := by cases ds <;> simp_all
    subst this; exact h
  | succ n ih =>
    intro ds Q hn h2 h'
    match ds with
    | [] => exact h'
    | [x] => unfold docvecPairs; ok; all_goals ok_side
    | x :: y :: ds =>
      unfold docvecPairs
      ok
      all_goals ok_side
macro_rules | `(tactic| ok_rule) => `(tactic| with_reducible refine ok_docvecPairs _ _ (Nat.le_refl _) ?_ ?_)

theorem ok_fnOf {r : Ref} {Q} (hr : P r) (h' : ∀ f, P f.formals → P f.body → P f.env → Q f s) :
    Ok P (fnOf r) s Q := by
  unfold fnOf
  ok
  all_goals ok_side
macro_rules | `(tactic| ok_rule) => `(tactic| with_reducible refine ok_fnOf ?_ fun f h1 h2 h3 => ?_)

theorem ok_setFunctionDoc {val first d dv : Ref} {b} {Q} (hval : P val) (hfirst : P first) (hd : P d) (hdv : P dv) (h' : Q () s) :
    Ok P (setFunctionDoc val first d dv b) s Q := by
  unfold setFunctionDoc
  ok
  all_goals ok_side
macro_rules | `(tactic| ok_rule) => `(tactic| with_reducible refine ok_setFunctionDoc ?_ ?_ ?_ ?_ ?_)

theorem ok_howtoSymbol {args : Ref} {i} {Q} (hargs : P args) (h' : ∀ b, Q b s) :
    Ok P (howtoSymbol args i) s Q := by
  unfold howtoSymbol
  ok
  all_goals ok_side
macro_rules | `(tactic| ok_rule) => `(tactic| with_reducible refine ok_howtoSymbol ?_ fun b => ?_)

theorem ok_defineFunBind1 {h : Bool} {first third args d dv target : Ref} {Q} (h1 : P first) (h2 : P third)
    (h4 : P d) (h5 : P dv) (h6 : P target) (h' : ∀ a, PubOpt P a → Q a s) :
    Ok P (defineFunBind true first third args d dv target h) (dv :: target :: d :: args :: s) Q := by
  unfold defineFunBind
  ok
  all_goals ok_side
macro_rules | `(tactic| ok_rule) => `(tactic| with_reducible refine ok_defineFunBind1 ?_ ?_ ?_ ?_ ?_ fun a ha => ?_)

theorem ok_defineFunBind2 {h : Bool} {first third args d dv target : Ref} {Q} (h1 : P first) (h2 : P third)
    (h4 : P d) (h5 : P dv) (h6 : P target) (h' : ∀ a, PubOpt P a → Q a s) :
    Ok P (defineFunBind false first third args d dv target h) (dv :: d :: args :: s) Q := by
  unfold defineFunBind
  ok
  all_goals ok_side
macro_rules | `(tactic| ok_rule) => `(tactic| with_reducible refine ok_defineFunBind2 ?_ ?_ ?_ ?_ ?_ fun a ha => ?_)

theorem ok_defineFun {first third args env : Ref} {b} {Q} (hfirst : P first) (hthird : P third) (hargs : P args) (henv : P env) (h' : ∀ a, PubOpt P a → Q a s) :
    Ok P (defineFun b first third args env) s Q := by
  cases b <;> unfold defineFun <;> ok
  all_goals ok_side
macro_rules | `(tactic| ok_rule) => `(tactic| with_reducible refine ok_defineFun ?_ ?_ ?_ ?_ fun a ha => ?_)

theorem ok_defineName {args env : Ref} {Q} (hargs : P args) (henv : P env) (h' : ∀ x : Ref × Bool, P x.1 → Q x s) :
    Ok P (defineName args env) s Q := by
  unfold defineName
  ok
  all_goals ok_side
macro_rules | `(tactic| ok_rule) => `(tactic| with_reducible refine ok_defineName ?_ ?_ fun x hx => ?_)

theorem ok_spDefine {args env : Ref} {Q} (hargs : P args) (henv : P env) (h' : ∀ a, PubOpt P a → Q a s) :
    Ok P (spDefine args env) s Q := by
  unfold spDefine
  ok
  all_goals ok_side
macro_rules | `(tactic| ok_rule) => `(tactic| with_reducible refine ok_spDefine ?_ ?_ fun a ha => ?_)

theorem ok_evalTwice {form env : Ref} {Q} (hform : P form) (henv : P env) (h' : ∀ a, PubOpt P a → Q a s) :
    Ok P (evalTwice form env) s Q := by
  unfold evalTwice
  ok
  all_goals ok_side
macro_rules | `(tactic| ok_rule) => `(tactic| with_reducible refine ok_evalTwice ?_ ?_ fun a ha => ?_)

theorem ok_evalForm {args env : Ref} {Q} (hargs : P args) (henv : P env) (h' : ∀ a, PubOpt P a → Q a s) :
    Ok P (evalForm args env) s Q := by
  unfold evalForm
  ok
  all_goals ok_side
macro_rules | `(tactic| ok_rule) => `(tactic| with_reducible refine ok_evalForm ?_ ?_ fun a ha => ?_)

theorem ok_applyArgs {args env form : Ref} (ha : P args) (he : P env) (hf : P form) {k : Nat} : ∀ {i : Nat} {Q},
    Q () s → Ok P (applyArgs args env form k i) s Q := by
  induction k with
  | zero => intro i Q h'; exact h'
  | succ k ih =>
    intro i Q h'
    unfold applyArgs
    ok
    all_goals first | exact ih h' | ok_side
macro_rules | `(tactic| ok_rule) => `(tactic| with_reducible refine ok_applyArgs ?_ ?_ ?_ ?_)

theorem ok_evalApply {args env : Ref} {Q} (hargs : P args) (henv : P env) (h' : ∀ a, PubOpt P a → Q a s) :
    Ok P (evalApply args env) s Q := by
  unfold evalApply
  ok
  all_goals ok_side
macro_rules | `(tactic| ok_rule) => `(tactic| with_reducible refine ok_evalApply ?_ ?_ fun a ha => ?_)

theorem ok_spEval {args env : Ref} {Q} (hargs : P args) (henv : P env) (h' : ∀ a, PubOpt P a → Q a s) :
    Ok P (spEval args env) s Q := by
  unfold spEval
  ok
  all_goals ok_side
macro_rules | `(tactic| ok_rule) => `(tactic| with_reducible refine ok_spEval ?_ ?_ fun a ha => ?_)

end Dern.Prog
