import Verif.Dern.SafeEval
import Verif.Dern.Outside
/-
`Ok` for the reader and for the functions that talk to the outside: the library of the machine is safe.
-/
namespace Dern.Prog
variable {P : Ref → Prop} {s : List Ref}

theorem ok_answerBool {w Q} (h' : ∀ b, Q b s) : Ok P (answerBool w) s Q := by
  unfold answerBool; ok; exact h' _
macro_rules | `(tactic| ok_rule) => `(tactic| with_reducible refine ok_answerBool fun b => ?_)

theorem ok_answerNat {w Q} (h' : ∀ n, Q n s) : Ok P (answerNat w) s Q := by
  unfold answerNat; ok; exact h' _
macro_rules | `(tactic| ok_rule) => `(tactic| with_reducible refine ok_answerNat fun n => ?_)

theorem ok_answerInt {w Q} (h' : ∀ n, Q n s) : Ok P (answerInt w) s Q := by
  unfold answerInt; ok; exact h' _
macro_rules | `(tactic| ok_rule) => `(tactic| with_reducible refine ok_answerInt fun n => ?_)

/-! ### the reader -/

theorem ok_textToken {f : Text → Obj} {t : Text} {Q} (hf : ∀ t, PubObj P (f t)) (h' : ∀ a, PubOpt P a → Q a s) : Ok P (textToken f t) s Q := by
  unfold textToken
  ok
  all_goals first | ok_side | exact hf _

theorem ok_atomToken {k : Token} {Q} (h' : ∀ a, PubOpt P a → Q a s) : Ok P (atomToken k) s Q := by
  cases k <;> unfold atomToken
  case string => exact ok_textToken (fun _ => trivial) h'
  case character => exact ok_textToken (fun _ => trivial) h'
  case symbol => exact ok_textToken (fun _ => trivial) h'
  all_goals ok
  all_goals ok_side
macro_rules | `(tactic| ok_rule) => `(tactic| with_reducible refine ok_atomToken fun a ha => ?_)

theorem ok_parsing (ct : Ctype) : ∀ fuel,
    (∀ k t (s : List Ref) Q, (∀ a t, PubOpt P a → Q (a, t) s) → Ok P (parseTok ct fuel k t) s Q) ∧
    (∀ r t (s : List Ref) Q, P r → (∀ a t, PubOpt P a → Q (a, t) s) → Ok P (parseList ct fuel r t) (r :: s) Q) ∧
    (∀ t (s : List Ref) Q, (∀ a t, PubOpt P a → Q (a, t) s) → Ok P (parseNext ct fuel t) s Q) := by
  intro fuel
  induction fuel with
  | zero =>
    refine ⟨fun k t s Q h => ?_, fun r t s Q hr h => ?_, fun t s Q h => ?_⟩
    · unfold parseTok; exact ok_fail (by simp)
    · unfold parseList; exact ok_fail (by simp)
    · unfold parseNext; exact ok_fail (by simp)
  | succ n ih =>
    obtain ⟨h1, h2, h3⟩ := ih
    refine ⟨fun k t s Q h => ?_, fun r t s Q hr h => ?_, fun t s Q h => ?_⟩
    · unfold parseTok
      split
      · refine ok_bind (ok_alloc (by simp [PubObj]) fun r hr => ok_bind (ok_push hr (h2 r t s Q hr h)))
      · ok
        all_goals first | ok_side | skip
        refine h3 _ _ _ fun a t ha => ?_
        ok
        all_goals ok_side
      · refine ok_bind (h3 _ _ _ fun a t ha => ?_)
        ok
        all_goals ok_side
      · ok
        all_goals ok_side
    · unfold parseList
      split
      case h_6 =>
        refine ok_bind (h1 _ _ _ _ fun a t ha => ?_)
        ok
        all_goals first | exact h2 _ _ _ _ hr h | ok_side
      all_goals
        ok
        all_goals ok_side
    · unfold parseNext
      split
      case h_4 => exact h1 _ _ _ _ h
      all_goals
        ok
        all_goals ok_side

theorem ok_parse {ct : Ctype} {t : Text} {Q} (h' : ∀ a t, PubOpt P a → Q (a, t) s) : Ok P (parse ct t) s Q :=
  (ok_parsing ct _).2.2 t s Q h'

theorem ok_evalNull {x : Option Ref} {env : Ref} {Q} (hx : PubOpt P x) (he : P env) (h' : ∀ a, PubOpt P a → Q a s) : Ok P (evalNull x env) s Q := by
  unfold evalNull
  ok
  all_goals ok_side
macro_rules | `(tactic| ok_rule) => `(tactic| with_reducible refine ok_evalNull ?_ ?_ fun a ha => ?_)

theorem ok_popLast {last : Option Ref} {Q} (h' : Q () s) : Ok P (popLast last) (last.toList ++ s) Q := by
  cases last
  · exact h'
  · exact ok_pop h'
macro_rules | `(tactic| ok_rule) => `(tactic| with_reducible refine ok_popLast ?_)

theorem ok_readLoop {ct : Ctype} {whole : Text} : ∀ (n : Nat) (t : Text) (last : Option Ref) {Q}, PubOpt P last →
    (∀ a, PubOpt P a → Q a s) → Ok P (readLoop ct whole n t last) (last.toList ++ s) Q
  | 0, _, _, Q, _, _ => by unfold readLoop; exact ok_fail (by simp)
  | n + 1, t, last, Q, hl, h' => by
    unfold readLoop
    split
    · exact ok_bind (ok_popLast (h' _ hl))
    · refine ok_bind (ok_parse fun a t ha => ok_bind (ok_root fun env he => ok_bind (ok_evalNull ha he fun b hb => ?_)))
      split
      · exact ok_bind (ok_popLast (h' _ hl))
      · rename_i r
        have hr : P r := hb _ rfl
        refine ok_bind (ok_popLast (ok_bind (ok_push hr (ok_bind (ok_read hr fun c hc => ?_)))))
        split
        · ok
          all_goals ok_side
        · exact ok_readLoop n _ (some r) hb h'

theorem ok_readAll {ct : Ctype} {n : Nat} {t : Text} {Q} (h' : ∀ a, PubOpt P a → Q a s) : Ok P (readAll ct n t) s Q := by
  unfold readAll
  split
  · exact ok_error h'
  · exact ok_readLoop n t none pubOpt_none h'

theorem ok_evalText {ct : Ctype} {n : Nat} {t : Text} {Q} (h' : ∀ a, PubOpt P a → Q a s) : Ok P (evalText ct n t) s Q := ok_readAll h'
macro_rules | `(tactic| ok_rule) => `(tactic| with_reducible refine ok_evalText fun a ha => ?_)

/-! ### the functions -/

theorem ok_readOctets {r : Ref} (hr : P r) : ∀ (n : Nat) {Q}, Q () s → Ok P (readOctets r n) s Q
  | 0, _, h' => h'
  | n + 1, Q, h' => by
    unfold readOctets
    ok
    all_goals first | ok_side | skip
    exact ok_readOctets hr n h'

theorem ok_hostTexts {r : Ref} (hr : P r) : ∀ (n : Nat) {Q}, Q () s → Ok P (hostTexts r n) s Q
  | 0, _, h' => h'
  | n + 1, Q, h' => by
    unfold hostTexts
    ok
    all_goals first | ok_side | skip
    exact ok_hostTexts hr n h'

theorem ok_writeText {args : Ref} {t : Text} {Q} (h' : ∀ a, PubOpt P a → Q a s) : Ok P (writeText args t) (args :: s) Q := by
  unfold writeText
  ok
  all_goals ok_side
macro_rules | `(tactic| ok_rule) => `(tactic| with_reducible refine ok_writeText fun a ha => ?_)

theorem ok_writeElements {write : Ref → Prog (Option Ref)} {args port : Ref} (hp : P port)
    (hw : ∀ (s : List Ref) x Q, P x → (∀ a, PubOpt P a → Q a s) → Ok P (write x) s Q) : ∀ (xs : List Ref) (n : Int) {Q}, (∀ x ∈ xs, P x) →
    (∀ a, PubOpt P a → Q a s) → Ok P (writeElements write args port xs n) (args :: s) Q
  | [], n, Q, _, h' => by
    unfold writeElements
    ok
    all_goals ok_side
  | x :: xs, n, Q, hx, h' => by
    unfold writeElements
    refine ok_bind (ok_alloc (by simp [PubObj]) fun tmp ht => ok_bind (ok_push ht (ok_bind (ok_append ht hp (ok_bind (ok_append ht (hx x (by simp)) ?_))))))
    refine ok_bind (hw _ _ _ ht fun c hc => ?_)
    ok
    all_goals first | ok_side | skip
    exact ok_writeElements hp hw xs _ (fun y hy => hx y (by simp [hy])) h'

theorem ok_biPortWrite : ∀ (d : Nat) {args env : Ref} (s : List Ref) {Q}, P args → P env → (∀ a, PubOpt P a → Q a s) → Ok P (biPortWrite d args env) s Q
  | 0, _, _, _, _, _, _, _ => by unfold biPortWrite; exact ok_fail (by simp)
  | d + 1, args, env, s, Q, ha, he, h' => by
    unfold biPortWrite
    ok
    all_goals first | ok_side | skip
    exact ok_writeElements (by ok_side) (fun s x Q hx h => ok_biPortWrite d s hx he h) _ _ (by ok_side) h'

theorem ok_biFileOpen {args env : Ref} {Q} (ha : P args) (he : P env) (h' : ∀ a, PubOpt P a → Q a s) : Ok P (biFileOpen args env) s Q := by
  unfold biFileOpen
  ok
  all_goals first | ok_side

theorem ok_biIoFileOpen {args env : Ref} {Q} (ha : P args) (he : P env) (h' : ∀ a, PubOpt P a → Q a s) : Ok P (biIoFileOpen args env) s Q := by
  unfold biIoFileOpen
  ok
  all_goals first | ok_side

theorem ok_biPortAsk {args env : Ref} {Q} (ha : P args) (he : P env) (h' : ∀ a, PubOpt P a → Q a s) : Ok P (biPortAsk args env) s Q := by
  unfold biPortAsk
  ok
  all_goals first | ok_side

theorem ok_biPortClose {args env : Ref} {Q} (ha : P args) (he : P env) (h' : ∀ a, PubOpt P a → Q a s) : Ok P (biPortClose args env) s Q := by
  unfold biPortClose
  ok
  all_goals first | ok_side

theorem ok_biPortNumber {args env : Ref} {Q} (ha : P args) (he : P env) (h' : ∀ a, PubOpt P a → Q a s) : Ok P (biPortNumber args env) s Q := by
  unfold biPortNumber
  ok
  all_goals first | ok_side

theorem ok_biPortSeek {args env : Ref} {Q} (ha : P args) (he : P env) (h' : ∀ a, PubOpt P a → Q a s) : Ok P (biPortSeek args env) s Q := by
  unfold biPortSeek
  ok
  all_goals first | ok_side

theorem ok_biPortRead {args env : Ref} {Q} (ha : P args) (he : P env) (h' : ∀ a, PubOpt P a → Q a s) : Ok P (biPortRead args env) s Q := by
  unfold biPortRead
  ok
  all_goals first | exact ok_readOctets (by ok_side) _ (by ok; all_goals ok_side) | ok_side

theorem ok_biReadPath {ct : Ctype} {n : Nat} {args env : Ref} {Q} (ha : P args) (he : P env) (h' : ∀ a, PubOpt P a → Q a s) : Ok P (biReadPath ct n args env) s Q := by
  unfold biReadPath
  ok
  all_goals first | ok_side

theorem ok_biReadString {ct : Ctype} {n : Nat} {args env : Ref} {Q} (ha : P args) (he : P env) (h' : ∀ a, PubOpt P a → Q a s) : Ok P (biReadString ct n args env) s Q := by
  unfold biReadString
  ok
  all_goals first | ok_side

theorem ok_biHost {args env : Ref} {Q} (ha : P args) (he : P env) (h' : ∀ a, PubOpt P a → Q a s) : Ok P (biHost args env) s Q := by
  unfold biHost
  ok
  all_goals first | exact ok_hostTexts (by ok_side) _ (by ok; all_goals ok_side) | ok_side

theorem ok_requireFile {ct : Ctype} {n : Nat} {t : Text} {Q} (h' : ∀ a, PubOpt P a → Q a s) : Ok P (requireFile ct n t) s Q := by
  unfold requireFile
  ok
  all_goals ok_side
macro_rules | `(tactic| ok_rule) => `(tactic| with_reducible refine ok_requireFile fun a ha => ?_)

theorem ok_biRequire {ct : Ctype} {n : Nat} {args env : Ref} {Q} (ha : P args) (he : P env) (h' : ∀ a, PubOpt P a → Q a s) : Ok P (biRequire ct n args env) s Q := by
  unfold biRequire
  ok
  all_goals first | ok_side

theorem ok_outside {ct : Ctype} {bound : Nat} {name : String} {args env : Ref} {Q} (ha : P args) (he : P env) (h' : ∀ a, PubOpt P a → Q a s) :
    Ok P (outside ct bound name args env) s Q := by
  unfold outside
  split
  · exact ok_biFileOpen ha he h'
  · exact ok_biFileOpen ha he h'
  · exact ok_biIoFileOpen ha he h'
  · exact ok_biPortAsk ha he h'
  · exact ok_biPortAsk ha he h'
  · exact ok_biPortAsk ha he h'
  · exact ok_biPortClose ha he h'
  · exact ok_biPortRead ha he h'
  · exact ok_biPortWrite bound s ha he h'
  · exact ok_biPortSeek ha he h'
  · exact ok_biPortNumber ha he h'
  · exact ok_biPortNumber ha he h'
  · exact ok_biReadPath ha he h'
  · exact ok_biReadString ha he h'
  · exact ok_biRequire ha he h'
  · exact ok_biHost ha he h'
  · exact ok_biHost ha he h'
  · exact ok_fail (by simp)

/-- The library of the machine uses only the references it gets and leaves the stack as it was. -/
theorem outsideLibrary_safe (ct : Ctype) (bound : Nat) : (outsideLibrary ct bound).Safe where
  builtin P x args env s ha he := by
    cases x with
    | other name => exact ok_outside ha he fun a ha => ⟨rfl, ha⟩
    | _ => exact ok_fail (by simp)

end Dern.Prog
