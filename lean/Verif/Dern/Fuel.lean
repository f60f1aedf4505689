import Verif.Dern.Refines
import Verif.Dern.Eval
/-
The bound on the depth of the recursion does not matter, as soon as it is large enough.
-/
namespace Dern

theorem run_fuel {W : World} {n : Nat} {h₁ h₂ : Handler} (hh : ∀ c v, Refines .fuel (h₁ c v) (h₂ c v)) (p : Prog α) :
    ∀ v, Refines .fuel (run W n h₁ p v) (run W (n + 1) h₂ p v) := by
  induction p with
  | done a => intro v; exact .refl _
  | op o k ih =>
    intro v
    have hs : Refines .fuel (step W n h₁ o v) (step W (n + 1) h₂ o v) := by
      cases o with
      | compare a b =>
        simp only [step]
        rcases compareRef_step v.mem n a b with e | e
        · left; rw [e]
        · right; rw [e]
      | print p r =>
        simp only [step]
        rcases printRef_step v.mem W.fmt v.readably n p r with e | e
        · left; rw [e]
        · right; rw [e]
      | call c => exact hh c v
      | _ => exact .refl _
    rcases hs with e | e
    · left; simp only [run, e]
    · simp only [run, e]
      cases step W n h₁ o v with
      | error e => exact .refl _
      | ok x =>
        obtain ⟨a, w, t⟩ := x
        simp only
        rcases ih a w with e | e
        · left; rw [e]
        · right; rw [e]

theorem handler_fuel (W : World) (body : Call → Prog (Option Ref)) : ∀ (n : Nat) (c : Call) (v : Vm),
    Refines .fuel (handler W body n c v) (handler W body (n + 1) c v) := by
  intro n
  induction n with
  | zero => intro c v; exact .inl rfl
  | succ n ih =>
    intro c v
    rw [handler, handler]
    rcases run_fuel (W := W) (n := n) ih (body c) v with e | e
    · left; rw [e]
    · right; rw [e]

/-- a larger bound gives the same outcome -/
theorem run_more {W : World} {body : Call → Prog (Option Ref)} {p : Prog α} {v : Vm} {n : Nat} (k : Nat) :
    Refines .fuel (run W n (handler W body n) p v) (run W (n + k) (handler W body (n + k)) p v) := by
  induction k with
  | zero => exact .refl _
  | succ k ih =>
    rcases ih with e | e
    · exact .inl e
    · rcases run_fuel (W := W) (n := n + k) (handler_fuel W body (n + k)) p v with e' | e'
      · left; rw [← e, e']
      · right; rw [← e, ← e']; rfl

/-- evaluations are deterministic -/
theorem Evaluates.unique {W : World} {L : Prog.Library} {v w w' : Vm} {form env : Ref} {r r' : Option Ref} {tr tr' : List Event}
    (h : Evaluates W L v form env r w tr) (h' : Evaluates W L v form env r' w' tr') : r = r' ∧ w = w' ∧ tr = tr' := by
  obtain ⟨n, h⟩ := h
  obtain ⟨n', h'⟩ := h'
  have a := run_more (W := W) (body := Prog.body L) (p := Prog.body L (.eval form env)) (v := v) (n := n) n'
  have b := run_more (W := W) (body := Prog.body L) (p := Prog.body L (.eval form env)) (v := v) (n := n') n
  rw [h] at a
  rw [h', Nat.add_comm] at b
  rcases a with a | a
  · cases a
  · rcases b with b | b
    · cases b
    · rw [a] at b
      cases b
      exact ⟨rfl, rfl, rfl⟩

end Dern
