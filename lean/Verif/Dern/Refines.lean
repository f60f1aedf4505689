import Verif.Dern.Vm
import Verif.Dern.Value
/-
Comparing values in two memories, one of which may lack some of the values of the other.
-/
namespace Dern
open Spec (Dbl)

variable {ε : Fault}

/-- the same outcome, unless the first one is the fault `ε` -/
def Refines (ε : Fault) (x y : Res α) : Prop := x = .error ε ∨ y = x

theorem Refines.refl (x : Res α) : Refines ε x x := .inr rfl

theorem Refines.bind {x y : Res α} {f g : α → Res β} (h : Refines ε x y) (hf : ∀ a, Refines ε (f a) (g a)) :
    Refines ε (x >>= f) (y >>= g) := by
  rcases h with rfl | rfl
  · exact .inl rfl
  · cases y with
    | error e => exact .inr rfl
    | ok a => exact hf a

/-- `m₁` lacks some of the values of `m₂` -/
def Mem.Sub (m₁ m₂ : Mem) : Prop := ∀ r c, m₁ r = some c → m₂ r = some c

theorem Mem.Sub.read {m₁ m₂ : Mem} (h : m₁.Sub m₂) (r : Ref) : Refines .released (m₁.read r) (m₂.read r) := by
  unfold Mem.read
  cases h1 : m₁ r with
  | none => exact .inl rfl
  | some c => rw [h r c h1]; exact .inr rfl

section
variable {r₁ r₂ : Ref → Ref → Res Int} (hr : ∀ a b, Refines ε (r₁ a b) (r₂ a b))
  {h₁ h₂ : Ref → Res (BitVec 32)} (hh : ∀ a, Refines ε (h₁ a) (h₂ a))
include hr

theorem compareElements_refines : ∀ (as bs : List Ref),
    Refines ε (compareElements r₁ as bs) (compareElements r₂ as bs) := by
  intro as
  induction as with
  | nil => intro bs; cases bs <;> exact .refl _
  | cons a as ih =>
    intro bs
    cases bs with
    | nil => exact .refl _
    | cons b bs =>
      simp only [compareElements]
      refine (hr a b).bind fun c => ?_
      split
      · exact .refl _
      · exact ih bs

theorem compareSeqs_refines (as bs : List Ref) : Refines ε (compareSeqs r₁ as bs) (compareSeqs r₂ as bs) := by
  unfold compareSeqs
  split
  · exact .refl _
  · exact compareElements_refines hr as bs

theorem compareFns_refines (f g : FnData) : Refines ε (compareFns r₁ f g) (compareFns r₂ f g) := by
  unfold compareFns
  refine Refines.bind (.refl _) fun c => ?_
  split
  · exact .refl _
  refine Refines.bind (.refl _) fun c => ?_
  split
  · exact .refl _
  refine Refines.bind (hr _ _) fun c => ?_
  split
  · exact .refl _
  refine Refines.bind (hr _ _) fun c => ?_
  split
  · exact .refl _
  refine Refines.bind (hr _ _) fun c => ?_
  split
  · exact .refl _
  · exact .refl _

include hh

theorem findEntry_refines (nb : Nat) (k : Ref) : ∀ (es : List (Ref × Ref)),
    Refines ε (findEntry r₁ h₁ nb k es) (findEntry r₂ h₂ nb k es) := by
  intro es
  induction es with
  | nil => exact .refl _
  | cons e es ih =>
    simp only [findEntry]
    refine (hh k).bind fun a => (hh _).bind fun b => ?_
    split
    · refine (hr _ _).bind fun c => ?_
      split
      · exact .refl _
      · exact ih
    · exact ih

theorem compareEntries_refines (nb : Nat) (other : List (Ref × Ref)) : ∀ (es : List (Ref × Ref)),
    Refines ε (compareEntries r₁ h₁ nb other es) (compareEntries r₂ h₂ nb other es) := by
  intro es
  induction es with
  | nil => exact .refl _
  | cons e es ih =>
    simp only [compareEntries]
    refine (findEntry_refines hr hh nb _ other).bind fun a => ?_
    cases a with
    | none => exact .refl _
    | some v' =>
      refine (hr _ _).bind fun c => ?_
      split
      · exact .refl _
      · exact ih

theorem compareMaps_refines (nb : Nat) (as bs : List (Ref × Ref)) :
    Refines ε (compareMaps r₁ h₁ nb as bs) (compareMaps r₂ h₂ nb as bs) := by
  unfold compareMaps
  split
  · exact .refl _
  · exact compareEntries_refines hr hh nb bs as

theorem compareObjs_refines (a b : Ref) (x y : Obj) :
    Refines ε (compareObjs r₁ h₁ a b x y) (compareObjs r₂ h₂ a b x y) := by
  unfold compareObjs
  split
  · exact .refl _
  · split
    · exact .refl _
    · split
      all_goals first
        | exact .refl _
        | exact compareSeqs_refines hr _ _
        | exact compareMaps_refines hr hh _ _ _
        | exact compareFns_refines hr _ _
end

theorem hashRef_refines {m₁ m₂ : Mem} (h : m₁.Sub m₂) (r : Ref) : Refines .released (hashRef m₁ r) (hashRef m₂ r) :=
  (h.read r).bind fun _ => .refl _

theorem compareRef_refines {m₁ m₂ : Mem} (h : m₁.Sub m₂) : ∀ (n : Nat) (a b : Ref),
    Refines .released (compareRef m₁ n a b) (compareRef m₂ n a b) := by
  intro n
  induction n with
  | zero => intro a b; exact .refl _
  | succ n ih =>
    intro a b
    simp only [compareRef]
    split
    · exact .refl _
    · exact (h.read a).bind fun ca => (h.read b).bind fun cb =>
        compareObjs_refines ih (hashRef_refines h) a b _ _

/-- more steps do not change the outcome -/
theorem compareRef_step (m : Mem) : ∀ (n : Nat) (a b : Ref),
    Refines .fuel (compareRef m n a b) (compareRef m (n + 1) a b) := by
  intro n
  induction n with
  | zero => intro a b; exact .inl rfl
  | succ n ih =>
    intro a b
    rw [compareRef, compareRef]
    split
    · exact .refl _
    · exact Refines.bind (.refl _) fun ca => Refines.bind (.refl _) fun cb =>
        compareObjs_refines ih (fun _ => .refl _) a b _ _

/-! ### printing -/

section
variable {ε : Fault} {r₁ r₂ : Ref → Res Text} (hr : ∀ a, Refines ε (r₁ a) (r₂ a))
include hr

theorem printSeq_refines : ∀ (l : List Ref), Refines ε (printSeq r₁ l) (printSeq r₂ l)
  | [] => .refl _
  | [x] => (hr x).bind fun _ => .refl _
  | x :: y :: l => (hr x).bind fun _ => Refines.bind (.refl _) fun _ => (printSeq_refines (y :: l)).bind fun _ => .refl _

theorem printPair_refines (e : Ref × Ref) : Refines ε (printPair r₁ e) (printPair r₂ e) :=
  (hr _).bind fun _ => Refines.bind (.refl _) fun _ => (hr _).bind fun _ => .refl _

theorem printPairs_refines : ∀ (l : List (Ref × Ref)), Refines ε (printPairs r₁ l) (printPairs r₂ l)
  | [] => .refl _
  | [x] => printPair_refines hr x
  | x :: y :: l => (printPair_refines hr x).bind fun _ => (printPairs_refines (y :: l)).bind fun _ => .refl _

theorem printObj_refines (fmt : Obj → Text) (rd p : Bool) (o : Obj) :
    Refines ε (printObj fmt rd p r₁ o) (printObj fmt rd p r₂ o) := by
  cases o <;> unfold printObj
  all_goals first
    | exact .refl _
    | exact (printSeq_refines hr _).bind fun _ => .refl _
    | exact (printPairs_refines hr _).bind fun _ => .refl _
end

theorem printRef_refines {m₁ m₂ : Mem} {fmt : Obj → Text} {rd : Bool} (h : m₁.Sub m₂) : ∀ (n : Nat) (p : Bool) (r : Ref),
    Refines .released (printRef m₁ fmt rd n p r) (printRef m₂ fmt rd n p r) := by
  intro n
  induction n with
  | zero => intro p r; exact .refl _
  | succ n ih =>
    intro p r
    simp only [printRef]
    exact (h.read r).bind fun c => printObj_refines (ih false) fmt rd p _

theorem printRef_step (m : Mem) (fmt : Obj → Text) (rd : Bool) : ∀ (n : Nat) (p : Bool) (r : Ref),
    Refines .fuel (printRef m fmt rd n p r) (printRef m fmt rd (n + 1) p r) := by
  intro n
  induction n with
  | zero => intro p r; exact .inl rfl
  | succ n ih =>
    intro p r
    rw [printRef, printRef]
    exact Refines.bind (.refl _) fun c => printObj_refines (ih false) fmt rd p _

/-! ### comparing does not abort because of the stack -/

def Calm (x : Res α) : Prop := x ≠ .error .unbalanced

theorem Calm.bind {x : Res α} {f : α → Res β} (h : Calm x) (hf : ∀ a, Calm (f a)) : Calm (x >>= f) := by
  cases x with
  | error e => exact fun he => h (by cases he; rfl)
  | ok a => exact hf a

theorem calm_ok (a : α) : Calm (.ok a : Res α) := by intro h; cases h

theorem calm_read (m : Mem) (r : Ref) : Calm (m.read r) := by
  unfold Mem.read Calm
  split <;> simp

theorem calm_orAbort (x : Option α) : Calm (orAbort x) := by
  unfold orAbort Calm
  split <;> simp

section
variable {r₁ : Ref → Ref → Res Int} (hr : ∀ a b, Calm (r₁ a b)) {h₁ : Ref → Res (BitVec 32)} (hh : ∀ a, Calm (h₁ a))
include hr

theorem compareElements_calm : ∀ (as bs : List Ref), Calm (compareElements r₁ as bs) := by
  intro as
  induction as with
  | nil => intro bs; cases bs <;> exact calm_ok _
  | cons a as ih =>
    intro bs
    cases bs with
    | nil => exact calm_ok _
    | cons b bs =>
      simp only [compareElements]
      refine (hr a b).bind fun c => ?_
      split
      · exact calm_ok _
      · exact ih bs

theorem compareSeqs_calm (as bs : List Ref) : Calm (compareSeqs r₁ as bs) := by
  unfold compareSeqs
  split
  · exact calm_ok _
  · exact compareElements_calm hr as bs

theorem compareFns_calm (f g : FnData) : Calm (compareFns r₁ f g) := by
  unfold compareFns
  refine Calm.bind (calm_orAbort _) fun c => ?_
  split
  · exact calm_ok _
  refine Calm.bind (calm_orAbort _) fun c => ?_
  split
  · exact calm_ok _
  refine Calm.bind (hr _ _) fun c => ?_
  split
  · exact calm_ok _
  refine Calm.bind (hr _ _) fun c => ?_
  split
  · exact calm_ok _
  refine Calm.bind (hr _ _) fun c => ?_
  split
  · exact calm_ok _
  · exact calm_ok _

include hh

theorem findEntry_calm (nb : Nat) (k : Ref) : ∀ (es : List (Ref × Ref)), Calm (findEntry r₁ h₁ nb k es) := by
  intro es
  induction es with
  | nil => exact calm_ok _
  | cons e es ih =>
    simp only [findEntry]
    refine (hh k).bind fun a => (hh _).bind fun b => ?_
    split
    · refine (hr _ _).bind fun c => ?_
      split
      · exact calm_ok _
      · exact ih
    · exact ih

theorem compareEntries_calm (nb : Nat) (other : List (Ref × Ref)) : ∀ (es : List (Ref × Ref)),
    Calm (compareEntries r₁ h₁ nb other es) := by
  intro es
  induction es with
  | nil => exact calm_ok _
  | cons e es ih =>
    simp only [compareEntries]
    refine (findEntry_calm hr hh nb _ other).bind fun a => ?_
    cases a with
    | none => exact calm_ok _
    | some v' =>
      refine (hr _ _).bind fun c => ?_
      split
      · exact calm_ok _
      · exact ih

theorem compareMaps_calm (nb : Nat) (as bs : List (Ref × Ref)) : Calm (compareMaps r₁ h₁ nb as bs) := by
  unfold compareMaps
  split
  · exact calm_ok _
  · exact compareEntries_calm hr hh nb bs as

theorem compareObjs_calm (a b : Ref) (x y : Obj) : Calm (compareObjs r₁ h₁ a b x y) := by
  unfold compareObjs
  split
  · unfold compareNumbers
    split
    · unfold subInt32 Calm; split <;> simp
    · exact calm_ok _
  · split
    · exact calm_ok _
    · split
      all_goals first
        | exact calm_ok _
        | exact calm_orAbort _
        | exact compareSeqs_calm hr _ _
        | exact compareMaps_calm hr hh _ _ _
        | exact compareFns_calm hr _ _
        | (intro h; cases h; done)
        | skip
      refine Calm.bind (calm_orAbort _) fun c => ?_
      split
      · exact calm_ok _
      · exact calm_ok _
end

theorem hashObj_calm (r : Ref) (o : Obj) : Calm (hashObj r o) := by
  unfold hashObj Calm
  split
  all_goals first | (split <;> simp; done) | simp

theorem compareRef_calm (m : Mem) : ∀ (n : Nat) (a b : Ref), Calm (compareRef m n a b) := by
  intro n
  induction n with
  | zero => intro a b h; cases h
  | succ n ih =>
    intro a b
    simp only [compareRef]
    split
    · exact calm_ok _
    · exact (calm_read m a).bind fun ca => (calm_read m b).bind fun cb =>
        compareObjs_calm ih (fun x => (calm_read m x).bind fun c => hashObj_calm _ _) a b _ _

section
variable {r₁ : Ref → Res Text} (hr : ∀ a, Calm (r₁ a))
include hr

theorem printSeq_calm : ∀ (l : List Ref), Calm (printSeq r₁ l)
  | [] => calm_ok _
  | [x] => (hr x).bind fun _ => calm_orAbort _
  | x :: y :: l => (hr x).bind fun _ => Calm.bind (calm_orAbort _) fun _ => (printSeq_calm (y :: l)).bind fun _ => calm_ok _

theorem printPair_calm (e : Ref × Ref) : Calm (printPair r₁ e) :=
  (hr _).bind fun _ => Calm.bind (calm_orAbort _) fun _ => (hr _).bind fun _ => Calm.bind (calm_orAbort _) fun _ => calm_ok _

theorem printPairs_calm : ∀ (l : List (Ref × Ref)), Calm (printPairs r₁ l)
  | [] => calm_ok _
  | [x] => printPair_calm hr x
  | x :: y :: l => (printPair_calm hr x).bind fun _ => (printPairs_calm (y :: l)).bind fun _ => calm_ok _

theorem printObj_calm (fmt : Obj → Text) (rd p : Bool) (o : Obj) : Calm (printObj fmt rd p r₁ o) := by
  cases o
  case chr s =>
    show Calm (printChar _ s)
    unfold printChar
    split
    · exact calm_ok _
    split
    · exact calm_ok _
    split
    · exact calm_ok _
    exact calm_orAbort _
  all_goals unfold printObj
  all_goals first
    | exact calm_ok _
    | exact calm_orAbort _
    | exact (printSeq_calm hr _).bind fun _ => calm_ok _
    | exact (printPairs_calm hr _).bind fun _ => calm_ok _
    | (intro h; cases h; done)
end

theorem printRef_calm (m : Mem) (fmt : Obj → Text) (rd : Bool) : ∀ (n : Nat) (p : Bool) (r : Ref), Calm (printRef m fmt rd n p r) := by
  intro n
  induction n with
  | zero => intro p r h; cases h
  | succ n ih =>
    intro p r
    simp only [printRef]
    exact (calm_read m r).bind fun c => printObj_calm (ih false) fmt rd p _

end Dern
