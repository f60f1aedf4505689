import Verif.Dern.SafeOutside
import Verif.Dern.Repl
/-
`Ok` for the program `dern`.
-/
namespace Dern.Prog
open Utf8 (Octet)
variable {P : Ref → Prop} {s : List Ref}

theorem ok_replTurn {ct : Ctype} {t : Text} {Q} (h' : ∀ b, Q b s) : Ok P (replTurn ct t) s Q := by
  unfold replTurn
  split
  · exact ok_fail (by simp)
  · exact ok_fail (by simp)
  · exact ok_fail (by simp)
  · refine ok_bind ((ok_parsing ct _).1 _ _ _ _ fun a t ha => ?_)
    ok
    all_goals first | ok_side | exact h' _

theorem ok_replLoop {ct : Ctype} : ∀ (n : Nat) (os : List Octet) (acc : Text) {Q}, Q () s → Ok P (replLoop ct n os acc) s Q
  | 0, _, _, Q, _ => by unfold replLoop; exact ok_fail (by simp)
  | n + 1, os, acc, Q, h' => by
    unfold replLoop
    split
    · exact h'
    · split
      · exact ok_fail (by simp)
      · refine ok_bind (ok_isQuit fun b => ?_)
        split
        · exact h'
        · exact ok_bind (ok_emit (ok_replLoop n _ _ h'))
      · split
        · exact ok_fail (by simp)
        · refine ok_bind (ok_replTurn fun b => ?_)
          split
          · refine ok_bind (ok_isQuit fun b => ?_)
            split
            · exact h'
            · exact ok_bind (ok_emit (ok_replLoop n _ _ h'))
          · exact ok_replLoop n _ _ h'

theorem ok_repl {ct : Ctype} {os : List Octet} {Q} (h' : Q () s) : Ok P (repl ct os) s Q := by
  unfold repl
  exact ok_bind (ok_emit (ok_replLoop _ _ _ h'))

theorem ok_replError {pos : Text} {r : Ref} {Q} (hr : P r) (h' : Q () s) : Ok P (replError pos r) s Q := by
  unfold replError
  ok
  all_goals first | ok_side | exact h'
macro_rules | `(tactic| ok_rule) => `(tactic| with_reducible refine ok_replError ?_ ?_)

theorem ok_replStrings {ct : Ctype} {turns : Nat} : ∀ (ss : List Text) {Q}, (∀ b, Q b s) → Ok P (replStrings ct turns ss) s Q
  | [], Q, h' => h' _
  | t :: ts, Q, h' => by
    unfold replStrings
    split
    · exact ok_fail (by simp)
    · refine ok_bind (ok_evalText fun a ha => ?_)
      split
      · exact ok_bind (ok_emit (ok_bind (ok_emit (h' _))))
      · rename_i r
        refine ok_bind (ok_read (ha _ rfl) fun c hc => ?_)
        split
        · exact ok_bind (ok_replError (ha _ rfl) (h' _))
        · exact ok_replStrings ts h'

theorem ok_replFile {ct : Ctype} {turns : Nat} {f : Option Text} {Q} (h' : ∀ b, Q b s) : Ok P (replFile ct turns f) s Q := by
  unfold replFile
  ok
  all_goals first | ok_side | exact h' _

theorem ok_replMain {ct : Ctype} {turns : Nat} {o : Options} {os : List Octet} {Q} (h' : ∀ b, Q b s) : Ok P (replMain ct turns o os) s Q := by
  unfold replMain
  refine ok_bind (ok_replStrings _ fun b => ?_)
  split
  · exact h' _
  · refine ok_bind (ok_replFile fun b => ?_)
    split
    · exact h' _
    · split
      · exact h' _
      · exact ok_bind (ok_repl (h' _))

end Dern.Prog
