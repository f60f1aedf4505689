import Verif.Dern.ShowLemmas
import Mathlib.Data.Nat.Find
import Verif.Props.C48
import Verif.Spec.Texts
/-
C51: printing.

`to-string` gives the printed forms of its arguments one after the other, `string-format` a text with printed forms filled
in, `print` and `println` write them, and `print-readably` says which form it is.  The printed form of data is specified in
`Verif.Spec.Show`.

The code keeps every `'` of a format string; an odd number of them directly before `{}` makes that no place for an argument
(`Verif.Spec.Show`).

Missing from the full property: environments, ports, builtins and special forms and what contains them.  `print` writes only one octet for
a character of the format string (`c51_ascii`, `c51_not_utf8`).
-/
namespace Dern.Props
open Dern
open Dern.Spec (Shows letters spaced paired Clean encodeText quotesAtEnd PlaceAt Places)
open Dern.Prog (Library)
variable {W : World} {L : Library}

/-! ### Specification -/

/-- the printed form of the value `x` is `t`; if `plain`, without delimiters at the top -/
inductive Shown (W : World) (v : Vm) : Bool → Ref → Text → Prop
  /-- data is printed as `Verif.Spec.Show` says -/
  | data {plain x d t} : Denotes v.mem x d → Shows (fun d => W.fmt (.real d)) v.readably plain d t → Shown W v plain x t
  /-- a function is printed as its name -/
  | fn {plain x f} : v.HasObj x (.fn f) → Clean f.name → Shown W v plain x f.name
  | mac {plain x f} : v.HasObj x (.mac f) → Clean f.name → Shown W v plain x (letters "macro " ++ f.name)
  /-- containers with functions among their elements -/
  | vec {plain x es} {us : List Text} : v.HasVec x es → es.length = us.length →
      (∀ (i : Nat) e u, es[i]? = some e → us[i]? = some u → Shown W v false e u) → Shown W v plain x (letters "(" ++ spaced us ++ letters ")")
  | list {plain x es} {us : List Text} : v.HasObj x (.list es) → es.length = us.length →
      (∀ (i : Nat) e u, es[i]? = some e → us[i]? = some u → Shown W v false e u) → Shown W v plain x (letters "(list " ++ spaced us ++ letters ")")
  | queue {plain x mx es} {us : List Text} : v.HasObj x (.queue mx es) → es.length = us.length →
      (∀ (i : Nat) e u, es[i]? = some e → us[i]? = some u → Shown W v false e u) → Shown W v plain x (letters "(queue " ++ spaced us ++ letters ")")
  | hmap {plain x nb es} {us : List (Text × Text)} : v.HasObj x (.hmap nb es) → es.length = us.length →
      (∀ (i : Nat) (e : Ref × Ref) (u : Text × Text), es[i]? = some e → us[i]? = some u → Shown W v false e.1 u.1) →
      (∀ (i : Nat) (e : Ref × Ref) (u : Text × Text), es[i]? = some e → us[i]? = some u → Shown W v false e.2 u.2) →
      Shown W v plain x (letters "(hash-map " ++ paired us ++ letters ")")

/-- the arguments have printed forms -/
def AllShown (ts : List Ref) (W : World) (plain : Bool) (v : Vm) : Prop := ∀ x ∈ ts, ∃ t, Shown W v plain x t

/-- what `to-string` does -/
inductive ToStringRun (W : World) (ts : List Ref) (v : Vm) (r : Ref) (w : Vm) (tr : List Event) : Prop
  | none : ts = [] → GivesError W v r w tr → ToStringRun W ts v r w tr
  | texts {us : List Text} : ts ≠ [] → List.Forall₂ (Shown W v false) ts us → Gives W (.str us.flatten) v r w tr → ToStringRun W ts v r w tr

/-- the pieces of a format string with texts between them, as far as there are texts -/
def woven : List Text → List Text → Text
  | [], _ => []
  | [p], _ => p
  | p :: _ :: _, [] => p
  | p :: q :: ps, u :: us => p ++ u ++ woven (q :: ps) us

/-- the pieces of the format string `x` between the places `{}` for arguments -/
def FormatOf (v : Vm) (x : Ref) (ps : List Text) : Prop := ∃ s, v.HasObj x (.str s) ∧ Places s ps

/-- what `string-format` does -/
inductive FormatRun (W : World) (ts : List Ref) (v : Vm) (r : Ref) (w : Vm) (tr : List Event) : Prop
  | none : ts = [] → GivesError W v r w tr → FormatRun W ts v r w tr
  | one {x t} : ts = [x] → Shown W v false x t → Gives W (.str t) v r w tr → FormatRun W ts v r w tr
  | wrong {x xs} : ts = x :: xs → xs ≠ [] → ¬ IsStr v x → GivesError W v r w tr → FormatRun W ts v r w tr
  | few {x xs ps} : ts = x :: xs → xs ≠ [] → FormatOf v x ps → xs.length + 1 < ps.length → GivesError W v r w tr → FormatRun W ts v r w tr
  | filled {x xs ps us} : ts = x :: xs → xs ≠ [] → FormatOf v x ps → ps.length ≤ xs.length + 1 → List.Forall₂ (Shown W v true) xs us →
      Gives W (.str (woven ps us)) v r w tr → FormatRun W ts v r w tr

/-- the arguments of `string-format`: printed forms, or a format string and printed forms -/
def FormatModelled (W : World) (ts : List Ref) (v : Vm) : Prop :=
  (∀ x, ts = [x] → ∃ t, Shown W v false x t) ∧
  ∀ x xs s, ts = x :: xs → xs ≠ [] → v.HasObj x (.str s) → AllShown xs W true v

/-- a character of a format string is written by `print` as one octet: itself if it is ASCII (what remains of it otherwise) -/
def clipped (p : Text) : List Nat := p.map (· % 256)

/-- The octets that `print` writes, and whether the arguments suffice.  With a format string the other arguments are filled in,
otherwise they are ignored. -/
inductive Writes (W : World) (v : Vm) : List Ref → List Nat → Bool → Prop
  | one {x t} : Shown W v false x t → Writes W v [x] (encodeText t) true
  | first {x xs t} : ¬ IsStr v x → Shown W v false x t → Writes W v (x :: xs) (encodeText t) true
  | filled {x xs ps us} : xs ≠ [] → FormatOf v x ps → ps.length ≤ xs.length + 1 → List.Forall₂ (Shown W v false) xs us →
      Writes W v (x :: xs) (woven (ps.map clipped) (us.map encodeText)) true
  | few {x xs ps us} : xs ≠ [] → FormatOf v x ps → xs.length + 1 < ps.length → List.Forall₂ (Shown W v false) xs us →
      Writes W v (x :: xs) (woven (ps.map clipped) (us.map encodeText)) false

/-- the same state after octets have been written -/
def Vm.wrote (v : Vm) (os : List Nat) : Vm := { v with out := v.out ++ os }

/-- what `print` does; `println` writes a newline too (`nl`) -/
inductive PrintRun (W : World) (nl : Text) (ts : List Ref) (v : Vm) (r : Ref) (w : Vm) (tr : List Event) : Prop
  | none : ts = [] → nl = [] → GivesError W v r w tr → PrintRun W nl ts v r w tr
  | line : ts = [] → nl ≠ [] → GivesConst W .true (.bool true) (Vm.wrote v (encodeText nl)) r w tr → PrintRun W nl ts v r w tr
  | done {os} : Writes W v ts os true → GivesConst W .true (.bool true) (Vm.wrote v (os ++ encodeText nl)) r w tr → PrintRun W nl ts v r w tr
  | few {os} : Writes W v ts os false → GivesError W (Vm.wrote v (os ++ encodeText nl)) r w tr → PrintRun W nl ts v r w tr

/-- what `print-readably` does -/
inductive ReadablyRun (W : World) (ts : List Ref) (v : Vm) (r : Ref) (w : Vm) (tr : List Event) : Prop
  | ask : ts = [] → Gives W (.bool v.readably) v r w tr → ReadablyRun W ts v r w tr
  | set {x b} : ts = [x] → v.HasObj x (.bool b) → Gives W (.bool b) { v with readably := b } r w tr → ReadablyRun W ts v r w tr
  | wrong : ts ≠ [] → (∀ x b, ts = [x] → ¬ v.HasObj x (.bool b)) → GivesError W v r w tr → ReadablyRun W ts v r w tr

/-! ### format strings -/

theorem quotesAtEnd_quote (a : Text) : quotesAtEnd (a ++ [39]) = quotesAtEnd a + 1 := by
  simp [quotesAtEnd, List.reverse_append, List.takeWhile_cons]

theorem quotesAtEnd_other (a : Text) {c : Nat} (h : c ≠ 39) : quotesAtEnd (a ++ [c]) = 0 := by
  simp [quotesAtEnd, List.reverse_append, List.takeWhile_cons, h]

theorem c51_next_aux {pre : Text} {prev c : Nat} (hp : prev = 39 ↔ quotesAtEnd pre % 2 = 1) (hc : c ≠ 39) : c = 39 ↔ quotesAtEnd (pre ++ [c]) % 2 = 1 := by
  rw [quotesAtEnd_other _ hc]
  exact ⟨fun h => absurd h hc, fun h => by simp at h⟩

theorem c51_noPlace_aux : ∀ (k : Nat) (s pre : Text) (prev : Nat), s.length ≤ k → (prev = 39 ↔ quotesAtEnd pre % 2 = 1) →
    (∀ a b, s = a ++ [123, 125] ++ b → quotesAtEnd (pre ++ a) % 2 = 1) → Prog.formatParts prev s = s.map some := by
  intro k
  induction k with
  | zero =>
    intro s pre prev hk hp h
    obtain rfl := List.length_eq_zero_iff.1 (by omega : s.length = 0)
    rfl
  | succ k ih =>
    intro s pre prev hk hp h
    unfold Prog.formatParts
    split
    · rfl
    · rename_i cs
      have hl : cs.length ≤ k := by simpa using hk
      have hh : ∀ a b, cs = a ++ [123, 125] ++ b → quotesAtEnd (pre ++ [39] ++ a) % 2 = 1 := by
        intro a b e
        have := h (39 :: a) b (by rw [e]; rfl)
        simpa using this
      by_cases hq : prev = 39
      · have h1 := hp.1 hq
        rw [if_pos hq, ih cs (pre ++ [39]) 0 hl (by rw [quotesAtEnd_quote]; constructor <;> intro h <;> omega) hh]
        rfl
      · have h1 : ¬ quotesAtEnd pre % 2 = 1 := fun h => hq (hp.2 h)
        rw [if_neg hq, ih cs (pre ++ [39]) 39 hl (by rw [quotesAtEnd_quote]; constructor <;> intro h <;> omega) hh]
        rfl
    · rename_i cs
      have h0 := h [] cs rfl
      rw [List.append_nil] at h0
      have hl : cs.length ≤ k := by simp at hk; omega
      rw [if_pos (hp.2 h0), ih cs (pre ++ [123] ++ [125]) 125 hl (by rw [quotesAtEnd_other _ (by decide)]; decide) fun a b e => by
        have := h (123 :: 125 :: a) b (by rw [e]; rfl)
        simpa using this]
      rfl
    · rename_i c cs h1 h2
      have hl : cs.length ≤ k := by simpa using hk
      rw [ih cs (pre ++ [c]) c hl (c51_next_aux hp fun e => h1 e) fun a b e => by
        have := h (c :: a) b (by rw [e]; rfl)
        simpa using this]
      rfl

theorem c51_place_aux (b : Text) : ∀ (k : Nat) (a pre : Text) (prev : Nat), a.length ≤ k → (prev = 39 ↔ quotesAtEnd pre % 2 = 1) → quotesAtEnd (pre ++ a) % 2 = 0 →
    (∀ a' b', a ++ [123, 125] ++ b = a' ++ [123, 125] ++ b' → quotesAtEnd (pre ++ a') % 2 = 0 → a.length ≤ a'.length) →
    Prog.formatParts prev (a ++ [123, 125] ++ b) = a.map some ++ none :: Prog.formatParts 123 b := by
  intro k
  induction k with
  | zero =>
    intro a pre prev hk hp h0 h
    obtain rfl := List.length_eq_zero_iff.1 (by omega : a.length = 0)
    rw [List.append_nil] at h0
    have : ¬ prev = 39 := fun e => by have := hp.1 e; omega
    simp only [List.nil_append, List.cons_append, Prog.formatParts, if_neg this, List.map_nil]
  | succ k ih =>
    intro a pre prev hk hp h0 h
    cases a with
    | nil =>
      rw [List.append_nil] at h0
      have : ¬ prev = 39 := fun e => by have := hp.1 e; omega
      simp only [List.nil_append, List.cons_append, Prog.formatParts, if_neg this, List.map_nil]
    | cons c a =>
      have hl : a.length ≤ k := by simpa using hk
      have h0' : quotesAtEnd (pre ++ [c] ++ a) % 2 = 0 := by simpa using h0
      have hh : ∀ a' b', a ++ [123, 125] ++ b = a' ++ [123, 125] ++ b' → quotesAtEnd (pre ++ [c] ++ a') % 2 = 0 → a.length ≤ a'.length := by
        intro a' b' e he
        have := h (c :: a') b' (by simp only [List.cons_append]; rw [e]) (by simpa using he)
        simpa using this
      rw [List.cons_append, List.cons_append]
      conv => lhs; unfold Prog.formatParts
      split
      · rename_i e; cases e
      · rename_i cs e
        cases e
        by_cases hq : prev = 39
        · have h1 := hp.1 hq
          rw [if_pos hq, ih a (pre ++ [39]) 0 hl (by rw [quotesAtEnd_quote]; constructor <;> intro h <;> omega) h0' hh]
          rfl
        · have h1 : ¬ quotesAtEnd pre % 2 = 1 := fun h => hq (hp.2 h)
          rw [if_neg hq, ih a (pre ++ [39]) 39 hl (by rw [quotesAtEnd_quote]; constructor <;> intro h <;> omega) h0' hh]
          rfl
      · rename_i cs e
        have hq : prev = 39 := by
          refine hp.2 ?_
          have := h [] cs (by simpa using e)
          rw [List.append_nil] at this
          have h2 : ¬ quotesAtEnd pre % 2 = 0 := fun h => by have := this h; simp at this
          omega
        rw [if_pos hq]
        cases a with
        | nil => simp at e
        | cons d a =>
          simp only [List.cons_append, List.cons.injEq] at e
          obtain ⟨rfl, rfl, rfl⟩ := e
          have hl' : a.length ≤ k := by simp at hl; omega
          have := ih a (pre ++ [123] ++ [125]) 125 hl' (by rw [quotesAtEnd_other _ (by decide)]; decide) (by simpa using h0') fun a' b' e he => by
            have := hh (125 :: a') b' (by simp only [List.cons_append]; rw [e]) (by simpa using he)
            simpa using this
          rw [this]; simp
      · rename_i c' cs h1 h2 e
        cases e
        rw [ih a (pre ++ [c]) c hl (c51_next_aux hp fun e => h1 e) h0' hh]
        simp

theorem places_ne_nil {s : Text} {ps : List Text} (h : Places s ps) : ps ≠ [] := by cases h <;> simp

/-- the parts of a format string with these pieces -/
def partsOf : List Text → List (Option Ch)
  | [] => []
  | [p] => p.map some
  | p :: q :: ps => p.map some ++ none :: partsOf (q :: ps)

theorem c51_parts_aux {s : Text} {ps : List Text} (h : Places s ps) : ∀ prev, prev ≠ 39 → Prog.formatParts prev s = partsOf ps := by
  induction h with
  | @last s h =>
    intro prev hp
    refine c51_noPlace_aux s.length s [] prev (Nat.le_refl _) ⟨fun h => absurd h hp, fun h => absurd h (by decide)⟩ fun a b e => ?_
    have := h a b
    have h2 : ¬ quotesAtEnd a % 2 = 0 := fun h => this ⟨e, h⟩
    show quotesAtEnd a % 2 = 1
    omega
  | @cut s a b ps hc hm hps ih =>
    intro prev hp
    obtain ⟨rfl, hf⟩ := hc
    have := c51_place_aux b a.length a [] prev (Nat.le_refl _) ⟨fun h => absurd h hp, fun h => absurd h (by decide)⟩ hf fun a' b' e he => hm a' b' ⟨e, he⟩
    refine this.trans ?_
    rw [ih 123 (by decide)]
    cases hps <;> rfl

theorem places_exists : ∀ (k : Nat) (s : Text), s.length ≤ k → ∃ ps, Places s ps ∧ ∀ p ∈ ps, ∀ c ∈ p, c ∈ s := by
  intro k
  induction k with
  | zero =>
    intro s hk
    obtain rfl := List.length_eq_zero_iff.1 (by omega : s.length = 0)
    exact ⟨[[]], .last fun a b h => by simpa [letters] using h.1, by simp⟩
  | succ k ih =>
    intro s hk
    by_cases h : ∃ n a b, PlaceAt s a b ∧ a.length = n
    · have hm : ∃ a b, PlaceAt s a b ∧ ∀ a' b', PlaceAt s a' b' → a.length ≤ a'.length := by
        classical
        have := Nat.find_spec h
        obtain ⟨a, b, h1, h2⟩ := this
        exact ⟨a, b, h1, fun a' b' h' => h2 ▸ Nat.find_min' h ⟨a', b', h', rfl⟩⟩
      obtain ⟨a, b, h1, h2⟩ := hm
      have e := h1.1
      have hl : b.length ≤ k := by
        have : s.length = _ := congrArg List.length e
        simp [letters] at this
        omega
      obtain ⟨ps, h3, h4⟩ := ih b hl
      refine ⟨a :: ps, .cut h1 h2 h3, fun p hp c hc => ?_⟩
      rw [e]
      rcases List.mem_cons.1 hp with rfl | hp
      · simp [hc]
      · simp [h4 p hp c hc]
    · exact ⟨[s], .last fun a b h' => h ⟨_, a, b, h', rfl⟩, by simp⟩
theorem c51_format_aux {v : Vm} {x : Ref} {s : Text} (hs : v.HasObj x (.str s)) :
    ∃ ps, FormatOf v x ps ∧ Prog.formatParts 0 s = partsOf ps ∧ ps ≠ [] ∧ ∀ p ∈ ps, ∀ c ∈ p, c ∈ s := by
  obtain ⟨ps, h, hc⟩ := places_exists s.length s (Nat.le_refl _)
  exact ⟨ps, ⟨s, hs, h⟩, c51_parts_aux h 0 (by decide), places_ne_nil h, hc⟩

/-! ### the programs -/

theorem c51_shownSame_aux {v w : Vm} (hm : w.mem = v.mem) (hr : w.readably = v.readably) {pl : Bool} {x : Ref} {t : Text} (h : Shown W v pl x t) : Shown W w pl x t := by
  have same : ∀ {x o}, v.HasObj x o → w.HasObj x o := fun ⟨c, hc, ho⟩ => ⟨c, by rw [hm]; exact hc, ho⟩
  induction h with
  | data h1 h2 => exact .data (by rw [hm]; exact h1) (by rw [hr]; exact h2)
  | fn h1 h2 => exact .fn (same h1) h2
  | mac h1 h2 => exact .mac (same h1) h2
  | vec h1 hl _ ih => exact .vec (same h1) hl ih
  | list h1 hl _ ih => exact .list (same h1) hl ih
  | queue h1 hl _ ih => exact .queue (same h1) hl ih
  | hmap h1 hl _ _ ih1 ih2 => exact .hmap (same h1) hl ih1 ih2

theorem c51_shownClean_aux {v : Vm} {pl : Bool} {x : Ref} {t : Text} (h : Shown W v pl x t) : Clean t := by
  have all : ∀ {us : List Text} {es : List Ref}, es.length = us.length →
      (∀ (i : Nat) e u, es[i]? = some e → us[i]? = some u → Clean u) → ∀ s ∈ us, Clean s := by
    intro us es hl h s hs
    obtain ⟨i, hi, rfl⟩ := List.getElem_of_mem hs
    exact h i (es[i]'(by omega)) _ (List.getElem?_eq_getElem _) (List.getElem?_eq_getElem _)
  induction h with
  | data _ h => exact shows_clean h
  | fn _ h => exact h
  | mac _ h => exact all_append (clean_letters _ (by decide)) h
  | vec _ hl _ ih | list _ hl _ ih | queue _ hl _ ih =>
    exact all_append (all_append (clean_letters _ (by decide)) (clean_spaced _ (all hl ih))) (clean_letters _ (by decide))
  | @hmap pl x nb es us _ hl _ _ ih1 ih2 =>
    refine all_append (all_append (clean_letters _ (by decide)) (clean_paired _ fun s hs => ?_)) (clean_letters _ (by decide))
    obtain ⟨i, hi, rfl⟩ := List.getElem_of_mem hs
    exact ⟨ih1 i (es[i]'(by omega)) _ (List.getElem?_eq_getElem _) (List.getElem?_eq_getElem _),
      ih2 i (es[i]'(by omega)) _ (List.getElem?_eq_getElem _) (List.getElem?_eq_getElem _)⟩

theorem c51_shownSeq_aux {v : Vm} {n : Nat} {es : List Ref} {us : List Text} (hl : es.length = us.length)
    (h : ∀ (i : Nat) e u, es[i]? = some e → us[i]? = some u → Shown W v false e u)
    (ih : ∀ (i : Nat) e u, es[i]? = some e → us[i]? = some u → ∀ t' n, printRef v.mem W.fmt v.readably n false e = .ok t' → t' = u) {t : Text}
    (ht : printSeq (printRef v.mem W.fmt v.readably n false) es = .ok t) : t = spaced us := by
  refine printSeq_eq es us hl (fun i e u t h1 h2 h3 => ih i e u h1 h2 t n h3) (fun s hs => ?_) t ht
  obtain ⟨i, hi, rfl⟩ := List.getElem_of_mem hs
  exact c51_shownClean_aux (h i (es[i]'(by omega)) _ (List.getElem?_eq_getElem _) (List.getElem?_eq_getElem _))

theorem c51_shownText_aux {v : Vm} {pl : Bool} {x : Ref} {t : Text} (h : Shown W v pl x t) : ∀ t' n, printRef v.mem W.fmt v.readably n pl x = .ok t' → t' = t := by
  induction h with
  | data h1 h2 => exact fun t' n hp => print_shows h1 h2 hp
  | @fn pl x f h1 h2 =>
    intro t' n hp
    obtain ⟨c, hc, ho⟩ := h1
    cases n with
    | zero => cases hp
    | succ n =>
      simp only [printRef, Mem.read, hc, bind, Except.bind, ho, printObj, fmtS_id _ h2, orAbort] at hp
      cases hp; rfl
  | @mac pl x f h1 h2 =>
    intro t' n hp
    obtain ⟨c, hc, ho⟩ := h1
    cases n with
    | zero => cases hp
    | succ n =>
      simp only [printRef, Mem.read, hc, bind, Except.bind, ho, printObj, fmtS_eq (txt "macro ") _ [] (clean_letters "macro " (by decide)) h2 (by simp), orAbort] at hp
      cases hp; simp [letters, txt]
  | @vec pl x es us h1 hl h ih =>
    intro t' n hp
    obtain ⟨c, hc, ho⟩ := h1
    cases n with
    | zero => cases hp
    | succ n =>
      simp only [printRef, Mem.read, hc, bind, Except.bind, ho, printObj] at hp
      cases hq : printSeq (printRef v.mem W.fmt v.readably n false) es with
      | error e => rw [hq] at hp; cases hp
      | ok u => rw [hq] at hp; cases hp; rw [c51_shownSeq_aux hl h ih hq]; rfl
  | @list pl x es us h1 hl h ih =>
    intro t' n hp
    obtain ⟨c, hc, ho⟩ := h1
    cases n with
    | zero => cases hp
    | succ n =>
      simp only [printRef, Mem.read, hc, bind, Except.bind, ho, printObj] at hp
      cases hq : printSeq (printRef v.mem W.fmt v.readably n false) es with
      | error e => rw [hq] at hp; cases hp
      | ok u => rw [hq] at hp; cases hp; rw [c51_shownSeq_aux hl h ih hq]; rfl
  | @queue pl x mx es us h1 hl h ih =>
    intro t' n hp
    obtain ⟨c, hc, ho⟩ := h1
    cases n with
    | zero => cases hp
    | succ n =>
      simp only [printRef, Mem.read, hc, bind, Except.bind, ho, printObj] at hp
      cases hq : printSeq (printRef v.mem W.fmt v.readably n false) es with
      | error e => rw [hq] at hp; cases hp
      | ok u => rw [hq] at hp; cases hp; rw [c51_shownSeq_aux hl h ih hq]; rfl
  | @hmap pl x nb es us h1 hl g1 g2 ih1 ih2 =>
    intro t' n hp
    obtain ⟨c, hc, ho⟩ := h1
    cases n with
    | zero => cases hp
    | succ n =>
      simp only [printRef, Mem.read, hc, bind, Except.bind, ho, printObj] at hp
      cases hq : printPairs (printRef v.mem W.fmt v.readably n false) es with
      | error e => rw [hq] at hp; cases hp
      | ok u =>
        rw [hq] at hp
        cases hp
        rw [printPairs_eq es us hl (fun i e s a b => ⟨fun t ht => ih1 i e s a b t n ht, fun t ht => ih2 i e s a b t n ht⟩) (fun s hs => ?_) u hq]
        · rfl
        · obtain ⟨i, hi, rfl⟩ := List.getElem_of_mem hs
          exact ⟨c51_shownClean_aux (g1 i (es[i]'(by omega)) _ (List.getElem?_eq_getElem _) (List.getElem?_eq_getElem _)),
            c51_shownClean_aux (g2 i (es[i]'(by omega)) _ (List.getElem?_eq_getElem _) (List.getElem?_eq_getElem _))⟩

theorem c51_shown_aux {v : Vm} {pl : Bool} {x : Ref} {t t' : Text} {n : Nat} (h : Shown W v pl x t) (hp : printRef v.mem W.fmt v.readably n pl x = .ok t') :
    t' = t ∧ Clean t := by
  exact ⟨c51_shownText_aux h _ _ hp, c51_shownClean_aux h⟩

theorem c51_forms_aux {v : Vm} {pl : Bool} {xs : List Ref} (h : AllShown xs W pl v) : ∃ us, List.Forall₂ (Shown W v pl) xs us := by
  induction xs with
  | nil => exact ⟨[], .nil⟩
  | cons x xs ih =>
    obtain ⟨u, hu⟩ := h x (by simp)
    obtain ⟨us, hus⟩ := ih fun y hy => h y (by simp [hy])
    exact ⟨u :: us, .cons hu hus⟩

theorem c51_printAll_aux {n : Nat} {h : Handler} {v : Vm} {xs : List Ref} {us : List Text} (hs : List.Forall₂ (Shown W v false) xs us) :
    ∀ acc, Wp W n h (Prog.printAll acc xs) v fun t u tr => t = acc ++ us.flatten ∧ u = v ∧ tr = [] := by
  induction hs with
  | nil => intro acc; exact wp_pure ⟨by simp, rfl, rfl⟩
  | @cons x t xs us h1 _ ih =>
    intro acc
    rw [Prog.printAll]
    refine wp_bind (wp_print fun t' ht => ?_)
    obtain ⟨rfl, hc⟩ := c51_shown_aux h1 ht
    rw [recode_eq _ hc]
    simpa using ih (acc ++ t')

theorem c51_toString_aux {n : Nat} {h : Handler} {args env : Ref} {ts : List Ref} {v : Vm} (k : Held W args ts env v) (hp : AllShown ts W false v) :
    Wp W n h (Prog.biToString args env) v fun a u tr => KeepsBuiltins v u ∧ ∀ r w, a = some r → Ends u w → ToStringRun W ts v r w tr := by
  unfold Prog.biToString
  refine c34_first_aux k ?_
  split
  · exact giveMono_aux (c34_error_aux k _) (Q := fun v r w tr => ToStringRun W [] v r w tr) fun r w tr g => .none rfl g
  · rename_i x xs
    obtain ⟨us, hus⟩ := c51_forms_aux hp
    cases hus with
    | @cons _ u _ us h1 h2 =>
      refine wp_bind (wp_print fun t' ht => ?_)
      obtain ⟨rfl, hc⟩ := c51_shown_aux h1 ht
      refine wp_bind (Wp.mono (c51_printAll_aux h2 t') ?_)
      rintro _ _ _ ⟨rfl, rfl, rfl⟩
      exact giveMono_aux (give_aux k (by simp)) (Q := fun v r w tr => ToStringRun W (x :: xs) v r w tr)
        fun r w tr g => .texts (us := t' :: us) (by simp) (.cons h1 h2) (by simpa using g)

theorem c51_fill_aux {n : Nat} {h : Handler} {v : Vm} : ∀ (ps : List Text) (xs : List Ref) (us : List Text) (acc : Text), ps ≠ [] → List.Forall₂ (Shown W v true) xs us →
    Wp W n h (Prog.fillFormat (partsOf ps) xs acc) v fun t u tr => u = v ∧ tr = [] ∧
      ((ps.length ≤ xs.length + 1 ∧ t = some (acc ++ woven ps us)) ∨ (xs.length + 1 < ps.length ∧ t = none)) := by
  have lit : ∀ (p : Text) (qs : List (Option Ch)) (xs : List Ref) (acc : Text), Prog.fillFormat (p.map some ++ qs) xs acc = Prog.fillFormat qs xs (acc ++ p) := by
    intro p
    induction p with
    | nil => intros; simp
    | cons c p ih =>
      intro qs xs acc
      rw [List.map_cons, List.cons_append, Prog.fillFormat, ih]; simp
  intro ps
  induction ps with
  | nil => intro _ _ _ h; exact absurd rfl h
  | cons p ps ih =>
    intro xs us acc _ hs
    cases ps with
    | nil =>
      have := lit p [] xs acc
      simp only [List.append_nil] at this
      rw [partsOf, this, Prog.fillFormat]
      exact wp_pure ⟨rfl, rfl, .inl ⟨by simp, by simp [woven]⟩⟩
    | cons q ps =>
      rw [partsOf, lit]
      cases hs with
      | nil =>
        rw [Prog.fillFormat]
        exact wp_pure ⟨rfl, rfl, .inr ⟨by simp, rfl⟩⟩
      | @cons x u xs us h1 h2 =>
        rw [Prog.fillFormat]
        refine wp_bind (wp_print fun t' ht => ?_)
        obtain ⟨rfl, hc⟩ := c51_shown_aux h1 ht
        rw [recode_eq _ hc]
        refine Wp.mono (ih xs us (acc ++ p ++ t') (by simp) h2) ?_
        rintro _ _ _ ⟨rfl, rfl, h3⟩
        refine ⟨rfl, rfl, ?_⟩
        rcases h3 with ⟨h3, rfl⟩ | ⟨h3, rfl⟩
        · exact .inl ⟨by simp at *; omega, by simp [woven]⟩
        · exact .inr ⟨by simp at *; omega, rfl⟩

theorem c51_stringFormat_aux {n : Nat} {h : Handler} {args env : Ref} {ts : List Ref} {v : Vm} (k : Held W args ts env v) (hp : FormatModelled W ts v) :
    Wp W n h (Prog.biStringFormat args env) v fun a u tr => KeepsBuiltins v u ∧ ∀ r w, a = some r → Ends u w → FormatRun W ts v r w tr := by
  unfold Prog.biStringFormat
  refine c34_first_aux k ?_
  split
  · exact giveMono_aux (c34_error_aux k _) (Q := fun v r w tr => FormatRun W [] v r w tr) fun r w tr g => .none rfl g
  · rename_i x
    obtain ⟨t, hs⟩ := hp.1 x rfl
    refine wp_bind (wp_print fun t' ht => ?_)
    obtain ⟨rfl, hc⟩ := c51_shown_aux hs ht
    exact giveMono_aux (give_aux k (by simp)) (Q := fun v r w tr => FormatRun W [x] v r w tr) fun r w tr g => .one rfl hs g
  · rename_i x xs hne
    have hne : xs ≠ [] := fun e => hne (by rw [e])
    refine wp_bind (wp_read fun c hc => ?_)
    simp only [List.nil_append]
    split
    · rename_i s ho
      have hsh := hp.2 x xs s rfl hne ⟨c, hc, ho⟩
      obtain ⟨ps, hf, he, hps, _⟩ := c51_format_aux ⟨c, hc, ho⟩
      obtain ⟨us, hus⟩ := c51_forms_aux hsh
      rw [he]
      refine wp_bind (Wp.mono (c51_fill_aux ps xs us [] hps hus) ?_)
      rintro _ _ _ ⟨rfl, rfl, h3⟩
      rcases h3 with ⟨h3, rfl⟩ | ⟨h3, rfl⟩
      · exact giveMono_aux (give_aux k (by simp)) (Q := fun v r w tr => FormatRun W (x :: xs) v r w tr) fun r w tr g => .filled rfl hne hf h3 hus (by simpa using g)
      · exact giveMono_aux (c34_error_aux k _) (Q := fun v r w tr => FormatRun W (x :: xs) v r w tr) fun r w tr g => .few rfl hne hf h3 g
    · rename_i hno
      refine giveMono_aux (c34_error_aux k _) (Q := fun v r w tr => FormatRun W (x :: xs) v r w tr) fun r w tr g => .wrong rfl hne ?_ g
      rintro ⟨s, c', hc', ho'⟩
      cases same_cell hc hc'
      exact hno _ ho'

/-! ### writing -/

theorem wp_emit {n : Nat} {h : Handler} {o : List Nat} {v : Vm} {Q : Unit → Vm → List Event → Prop} (hq : Q () (Vm.wrote v o) []) :
    Wp W n h (Prog.emit o) v Q := by
  refine wp_op fun c w t e => ?_
  simp only [step] at e
  cases e; exact hq

theorem encodeText_octets : ∀ (t : Text), Clean t → (Dern.octetsOf t).map BitVec.toNat = encodeText t := by
  intro t
  induction t with
  | nil => intro _; rfl
  | cons c t ih =>
    intro h
    obtain ⟨e, h1, h2, _⟩ := encode_ch (h c (by simp))
    have := ih fun x hx => h x (by simp [hx])
    simp only [Dern.octetsOf, h1, List.map_append, h2, this, encodeText, List.flatMap_cons]

theorem encodeText_append (s t : Text) : encodeText (s ++ t) = encodeText s ++ encodeText t := by simp [encodeText]

theorem encodeText_ascii : ∀ (t : Text), (∀ c ∈ t, c < 128) → encodeText t = t := by
  intro t
  induction t with
  | nil => intro _; rfl
  | cons c t ih =>
    intro h
    have hc := h c (by simp)
    have := ih fun x hx => h x (by simp [hx])
    rw [encodeText, List.flatMap_cons, ← encodeText, this]
    unfold _root_.Spec.Utf8.encode
    simp [show c < 128 from hc]

theorem c51_emitValue_aux {n : Nat} {h : Handler} {v : Vm} {o : List Nat} {x : Ref} {t : Text} (hs : Shown W v false x t) :
    Wp W n h (Prog.emitValue x) (Vm.wrote v o) fun _ u tr => u = Vm.wrote v (o ++ encodeText t) ∧ tr = [] := by
  unfold Prog.emitValue Prog.octetsOf
  refine wp_bind (wp_print fun t' ht => ?_)
  obtain ⟨rfl, hc⟩ := c51_shown_aux hs ht
  rw [getCString_eq _ hc]
  refine wp_bind (wp_pure (wp_emit ⟨?_, rfl⟩))
  rw [encodeText_octets _ hc]
  simp [Vm.wrote]

theorem c51_emitFormat_aux {n : Nat} {h : Handler} {v : Vm} : ∀ (ps : List Text) (xs : List Ref) (us : List Text) (o : List Nat), ps ≠ [] →
    List.Forall₂ (Shown W v false) xs us →
    Wp W n h (Prog.emitFormat (partsOf ps) xs) (Vm.wrote v o) fun b u tr => u = Vm.wrote v (o ++ woven (ps.map clipped) (us.map encodeText)) ∧ tr = [] ∧
      (b = true ↔ ps.length ≤ xs.length + 1) := by
  have lit : ∀ (p : Text) (qs : List (Option Ch)) (xs : List Ref) (o : List Nat) (Q : Bool → Vm → List Event → Prop),
      Wp W n h (Prog.emitFormat qs xs) (Vm.wrote v (o ++ clipped p)) Q → Wp W n h (Prog.emitFormat (p.map some ++ qs) xs) (Vm.wrote v o) Q := by
    intro p
    induction p with
    | nil => intro qs xs o Q h; simpa [clipped] using h
    | cons c p ih =>
      intro qs xs o Q hq
      rw [List.map_cons, List.cons_append, Prog.emitFormat]
      refine wp_bind (wp_emit ?_)
      have e : Vm.wrote (Vm.wrote v o) [c % 256] = Vm.wrote v (o ++ [c % 256]) := by simp [Vm.wrote]
      rw [e]
      refine Wp.mono (ih qs xs (o ++ [c % 256]) Q (by simpa [clipped] using hq)) fun _ _ _ h => by simpa using h
  intro ps
  induction ps with
  | nil => intro _ _ _ h; exact absurd rfl h
  | cons p ps ih =>
    intro xs us o _ hs
    cases ps with
    | nil =>
      rw [partsOf, ← List.append_nil (List.map some p)]
      refine lit p [] xs o _ ?_
      rw [Prog.emitFormat]
      exact wp_pure ⟨by simp [woven], rfl, by simp⟩
    | cons q ps =>
      rw [partsOf]
      refine lit p _ xs o _ ?_
      cases hs with
      | nil =>
        rw [Prog.emitFormat]
        exact wp_pure ⟨by simp [woven], rfl, by simp⟩
      | @cons x u xs us h1 h2 =>
        rw [Prog.emitFormat]
        refine wp_bind (Wp.mono (c51_emitValue_aux h1) ?_)
        rintro _ _ _ ⟨rfl, rfl⟩
        refine Wp.mono (ih xs us (o ++ clipped p ++ encodeText u) (by simp) h2) ?_
        rintro b _ _ ⟨rfl, rfl, h3⟩
        refine ⟨?_, rfl, ?_⟩
        · simp [woven]
        · rw [h3]; simp

theorem held_wrote {args env : Ref} {ts : List Ref} {v : Vm} (k : Held W args ts env v) (o : List Nat) : Held W args ts env (Vm.wrote v o) :=
  ⟨⟨k.sane.nodup, k.sane.dom, k.sane.unmarked, k.sane.old, k.sane.uidLt, k.sane.uidInj⟩,
    ⟨k.closed.cells, k.closed.pub, k.closed.stack, k.closed.ret, fun which => by have := k.closed.roots which; cases which <;> exact this, k.closed.known⟩, k.vec, k.env, k.pub⟩

theorem wrote_nil (v : Vm) : Vm.wrote v [] = v := by simp [Vm.wrote]

theorem c51_print_aux {n : Nat} {h : Handler} (F : Fine W h) (C : Copies W h) {args env : Ref} {ts : List Ref} {v : Vm} (k : Held W args ts env v)
    (hp : AllShown ts W false v) :
    Wp W n h (Prog.biPrint args env) v fun a u tr => KeepsBuiltins v u ∧ ∀ r w, a = some r → Ends u w → PrintRun W [] ts v r w tr := by
  unfold Prog.biPrint
  refine c34_first_aux k ?_
  have one : ∀ x xs t, Writes W v (x :: xs) (encodeText t) true → Shown W v false x t →
      Wp W n h (do Prog.emitValue x; let r ← Prog.getRoot .true; pure (some r)) v fun a u tr =>
        KeepsBuiltins v u ∧ ∀ r w, a = some r → Ends u w → PrintRun W [] (x :: xs) v r w tr := by
    intro x xs t hw hs
    have hv := c51_emitValue_aux (W := W) (n := n) (h := h) (o := []) hs
    rw [wrote_nil] at hv
    refine wp_bind (Wp.mono hv ?_)
    rintro _ _ _ ⟨rfl, rfl⟩
    refine Wp.mono (giveConst_aux F C (held_wrote k _) (which := .true) (o := .bool true) rfl (by simp)) ?_
    rintro a u tr ⟨h1, h2⟩
    exact ⟨h1, fun r w e e' => .done hw (by simpa [encodeText] using h2 r w e e')⟩
  split
  · exact giveMono_aux (c34_error_aux k _) (Q := fun v r w tr => PrintRun W [] [] v r w tr) fun r w tr g => .none rfl rfl g
  · rename_i x
    obtain ⟨t, hs⟩ := hp x (by simp)
    exact one x [] t (.one hs) hs
  · rename_i x xs hne
    have hne : xs ≠ [] := fun e => hne (by rw [e])
    refine wp_bind (wp_read fun c hc => ?_)
    simp only [List.nil_append]
    split
    · rename_i s ho
      obtain ⟨ps, hf, he, hps, hpc⟩ := c51_format_aux ⟨c, hc, ho⟩
      obtain ⟨us, hus⟩ := c51_forms_aux (W := W) (v := v) (pl := false) (xs := xs) fun y hy => hp y (by simp [hy])
      rw [he]
      have hv := c51_emitFormat_aux (W := W) (n := n) (h := h) (v := v) ps xs us [] hps hus
      rw [wrote_nil] at hv
      refine wp_bind (Wp.mono hv ?_)
      rintro b _ _ ⟨rfl, rfl, h3⟩
      by_cases hb : b = true
      · rw [if_pos hb]
        refine Wp.mono (giveConst_aux F C (held_wrote k _) (which := .true) (o := .bool true) rfl (by simp)) ?_
        rintro a u tr ⟨h1, h2⟩
        exact ⟨h1, fun r w e e' => .done (.filled hne hf (h3.1 hb) hus) (by simpa [encodeText] using h2 r w e e')⟩
      · rw [if_neg hb]
        refine Wp.mono (c34_error_aux (held_wrote k _) _) ?_
        rintro a u tr ⟨h1, h2⟩
        exact ⟨h1, fun r w e e' => .few (.few hne hf (by rw [h3] at hb; omega) hus) (by simpa [encodeText] using h2 r w e e')⟩
    · rename_i hno
      obtain ⟨t, hs⟩ := hp x (by simp)
      refine one x xs t (.first ?_ hs) hs
      rintro ⟨s, c', hc', ho'⟩
      cases same_cell hc hc'
      exact hno _ ho'

theorem quiet_wrote {v w : Vm} {o o' : List Nat} {w' : Vm} (q : Vm.Quiet W nobody (Vm.wrote v o) w') (h : w' = { w with out := w'.out }) (ho : w.out = v.out ++ o') :
    Vm.Quiet W nobody (Vm.wrote v o') w := by
  have hm : w'.mem = w.mem := by rw [h]
  refine ⟨?_, ?_, ?_, ?_, ?_, ?_, ho, ?_, ?_⟩
  · have := q.births; rw [h] at this; exact this
  · intro r c h1 h2; have := q.cells r c h1 h2; rw [hm] at this; exact this
  · intro r h1 h2; have := q.gone r h1 h2; rw [hm] at this; exact this
  · have := q.ret; rw [h] at this; exact this
  · have := q.quit; rw [h] at this; exact this
  · have := q.exitCode; rw [h] at this; exact this
  · intro which; have := q.roots which; rw [h] at this; cases which <;> exact this
  · have := q.readably; rw [h] at this; exact this

theorem encodeText_newline : encodeText [10] = [10] := by decide

theorem c51_println_aux {n : Nat} {h : Handler} (F : Fine W h) (C : Copies W h) {args env : Ref} {ts : List Ref} {v : Vm} (k : Held W args ts env v)
    (hp : AllShown ts W false v) :
    Wp W n h (Prog.biPrintln args env) v fun a u tr => KeepsBuiltins v u ∧ ∀ r w, a = some r → Ends u w → PrintRun W [10] ts v r w tr := by
  unfold Prog.biPrintln
  refine wp_bind (wp_verifyVec_vec k.vec fun _ => ?_)
  simp only [List.nil_append]
  split
  · refine wp_bind (wp_emit ?_)
    refine Wp.mono (giveConst_aux F C (held_wrote k _) (which := .true) (o := .bool true) rfl (by simp)) ?_
    rintro a u tr ⟨h1, h2⟩
    exact ⟨h1, fun r w e e' => .line rfl (by simp) (by rw [encodeText_newline]; simpa using h2 r w e e')⟩
  · rename_i hne
    refine wp_bind (Wp.mono (c51_print_aux F C k hp) ?_)
    rintro a u tr ⟨h1, h2⟩
    refine wp_bind (wp_emit (wp_pure ?_))
    refine ⟨h1, ?_⟩
    rintro r w rfl e
    have e' : Ends u { w with out := u.out } :=
      ⟨e.births, e.stays, e.gone, e.ret, e.quit, e.exitCode, rfl, fun which => by have := e.roots which; cases which <;> exact this, e.readably⟩
    have ho : w.out = u.out ++ [10] := e.out
    have := h2 r _ rfl e'
    simp only [List.append_nil, List.nil_append]
    cases this with
    | none h0 => exact absurd h0 hne
    | line _ h0 => exact absurd rfl h0
    | done hw g =>
      obtain ⟨rfl, q, g1, g2⟩ := g
      have hu : u.out = v.out ++ (_ ++ encodeText []) := q.out
      refine .done hw ⟨rfl, quiet_wrote q rfl ?_, g1, g2⟩
      rw [ho, hu, encodeText_newline]; simp [encodeText]
    | few hw g =>
      obtain ⟨rfl, q, g1, g2⟩ := g
      have hu : u.out = v.out ++ (_ ++ encodeText []) := q.out
      refine .few hw ⟨rfl, quiet_wrote q rfl ?_, g1, g2⟩
      rw [ho, hu, encodeText_newline]; simp [encodeText]

theorem wp_setReadably {n : Nat} {h : Handler} {b : Bool} {v : Vm} {Q : Unit → Vm → List Event → Prop} (hq : Q () { v with readably := b } []) :
    Wp W n h (Prog.setReadably b) v Q := by
  refine wp_op fun c w t e => ?_
  simp only [step] at e
  cases e; exact hq

theorem held_readably {args env : Ref} {ts : List Ref} {v : Vm} (k : Held W args ts env v) (b : Bool) : Held W args ts env { v with readably := b } :=
  ⟨⟨k.sane.nodup, k.sane.dom, k.sane.unmarked, k.sane.old, k.sane.uidLt, k.sane.uidInj⟩,
    ⟨k.closed.cells, k.closed.pub, k.closed.stack, k.closed.ret, fun which => by have := k.closed.roots which; cases which <;> exact this, k.closed.known⟩, k.vec, k.env, k.pub⟩

theorem c51_readably_aux {n : Nat} {h : Handler} {args env : Ref} {ts : List Ref} {v : Vm} (k : Held W args ts env v) :
    Wp W n h (Prog.biPrintReadably args env) v fun a u tr => KeepsBuiltins v u ∧ ∀ r w, a = some r → Ends u w → ReadablyRun W ts v r w tr := by
  unfold Prog.biPrintReadably
  refine c34_first_aux k ?_
  split
  · refine wp_bind (wp_readably ?_)
    exact giveMono_aux (give_aux k (by simp)) (Q := fun v r w tr => ReadablyRun W [] v r w tr) fun r w tr g => .ask rfl g
  · rename_i x
    refine wp_bind (wp_push (wp_bind (wp_read fun c hc => ?_)))
    simp only [List.nil_append]
    split
    · rename_i b ho
      refine wp_bind (wp_setReadably (wp_bind (wp_pop fun s hs => wp_bind (wp_readably ?_))))
      have e : s = v.stack := by simpa using hs.symm
      subst e
      refine Wp.mono (give_aux (held_readably k b) (o := .bool b) (by simp)) ?_
      rintro a u tr ⟨h1, h2⟩
      exact ⟨h1, fun r w e e' => .set rfl ⟨c, hc, ho⟩ (h2 r w e e')⟩
    · rename_i hno
      refine wp_bind (wp_pop fun s hs => ?_)
      have e : s = v.stack := by simpa using hs.symm
      subst e
      refine giveMono_aux (c34_error_aux k _) (Q := fun v r w tr => ReadablyRun W [x] v r w tr) fun r w tr g => .wrong (by simp) ?_ g
      rintro y b ⟨⟩ ⟨c', hc', ho'⟩
      cases same_cell hc hc'
      exact hno _ ho'
  · rename_i h1 h2
    refine giveMono_aux (c34_error_aux k _) (Q := fun v r w tr => ReadablyRun W ts v r w tr) fun r w tr g => .wrong h1 ?_ g
    intro x b e
    exact absurd e (h2 x)

/-! ### reading back -/

/-- the data that is read as a tree (reals left aside) -/
inductive TreeData : Tree → Spec.Data → Prop
  | nil : TreeData .nil .nil
  | bool {b} : TreeData (.bool b) (.bool b)
  | int {n} : TreeData (.int n) (.int n)
  | str {s} : TreeData (.str s) (.str s)
  | chr {s} : TreeData (.chr s) (.chr s)
  | sym {s} : TreeData (.sym s) (.sym s)
  | semver {a b c} : TreeData (.semver a b c) (.semver ⟨a, b, c, [], []⟩)
  | vec {es ds} : es.length = ds.length → (∀ (i : Nat) (t : Tree) (d : Spec.Data), es[i]? = some t → ds[i]? = some d → TreeData t d) →
      TreeData (.vec es) (.vec ds)

theorem c51_trees_aux {g : RealLit → Text} : ∀ (es : List Tree) (ss : List Text), es.length = ss.length → (∀ s ∈ ss, Clean s) →
    (∀ (i : Nat) t s, es[i]? = some t → ss[i]? = some s → printTree g t = some s) → printTrees g es = some (Spec.spaced ss)
  | [], [], _, _, _ => by rw [printTrees]; rfl
  | [t], [s], _, hc, h => by
    rw [printTrees, h 0 t s rfl rfl]
    exact fmtS_id _ (hc s (by simp))
  | t :: u :: es, s :: s' :: ss, hl, hc, h => by
    rw [printTrees, h 0 t s rfl rfl, c51_trees_aux (u :: es) (s' :: ss) (by simpa using hl) (fun s hs => hc s (by simp [hs]))
      fun i t s h1 h2 => h (i + 1) t s (by simpa using h1) (by simpa using h2)]
    simp only [Option.bind_eq_bind, Option.bind_some, fmtS_id _ (hc s (by simp))]
    rfl

theorem c51_tree_aux {ct : Ctype} {g : RealLit → Text} {real : Spec.Dbl → Text} {t : Tree} (hr : Readable ct g t) : ∀ {d : Spec.Data} {s : Text},
    TreeData t d → Shows real true false d s → printTree g t = some s := by
  induction hr with
  | nil => intro d s h hs; cases h; cases hs; rw [printTree]; rfl
  | bool => intro d s h hs; cases h; rw [printTree]; cases hs <;> rfl
  | int n =>
    intro d s h hs
    cases h
    rw [printTree]
    cases hs with
    | int h => cases h
    | intPos _ h h' => rw [signed_print h', if_pos h]; rfl
    | intNeg _ h h' => rw [signed_print h', if_neg (by omega)]; rfl
  | real => intro d s h; cases h
  | str s' hc =>
    intro d s h hs
    cases h
    rw [printTree]
    cases hs with
    | str h => simp at h
    | strLit _ h => exact fmtS_eq (txt "[") _ (txt "]") (clean_letters "[" (by decide)) h (clean_letters "]" (by decide))
  | chr c hc =>
    intro d s h hs
    cases h
    rw [printTree]
    unfold isCString1
    cases hs with
    | chr h => simp at h
    | chrBar => rfl
    | chrNewline => rfl
    | chrTab => rfl
    | chrLit _ h h1 h2 h3 =>
      have h1' : ([c] == [124]) = false := beq_eq_false_iff_ne.2 h1
      have h2' : ([c] == [10]) = false := beq_eq_false_iff_ne.2 h2
      have h3' : ([c] == [9]) = false := beq_eq_false_iff_ne.2 h3
      rw [h1', h2', h3']
      exact fmtS_eq (txt "|") _ (txt "|") (clean_letters "|" (by decide)) h (clean_letters "|" (by decide))
  | sym s' hc =>
    intro d s h hs
    cases h
    rw [printTree]
    cases hs with
    | sym h => exact fmtS_id _ h
  | semver a b c =>
    intro d s h hs
    cases h
    rw [printTree]
    cases hs with
    | semver h =>
      have := (version_print h).1
      rw [← this]
      simp [semverText]
  | vec es _ ih =>
    intro d s h hs
    cases h with
    | @vec _ ds hl h =>
      cases hs with
      | @vec _ _ ss hl' hs =>
        rw [printTree, c51_trees_aux es ss (hl.trans hl')]
        · rfl
        · intro s hs'
          obtain ⟨i, hi, rfl⟩ := List.getElem_of_mem hs'
          exact shows_clean (hs i (ds[i]'(by omega)) _ (List.getElem?_eq_getElem _) (List.getElem?_eq_getElem _))
        · intro i t s h1 h2
          have hi : i < es.length := (List.getElem?_eq_some_iff.1 h1).1
          have hd : ds[i]? = some (ds[i]'(by omega)) := List.getElem?_eq_getElem _
          exact ih t (List.mem_of_getElem? h1) (h i t _ h1 hd) (hs i _ s hd h2)

/-! ### The theorems -/

/-- In the mode `print-readably`, the printed form of data that can be read is read as that data (C10 says which data that is). -/
theorem c51_reads_back (ct : Ctype) (hct : ct.C) (g : RealLit → Text) (real : Spec.Dbl → Text) (t : Tree) (h : Readable ct g t) (d : Spec.Data) (hd : TreeData t d)
    (s : Text) (hs : Shows real true false d s) : parse ct s = (.val t, []) := by
  obtain ⟨s', h1, _, h3⟩ := readsBack ct hct g t h
  rw [c51_tree_aux h hd hs] at h1
  cases h1
  simpa using h3 [] (.inl rfl)

example : Shows (fun _ => []) true false (.vec [.sym (txt "f"), .int (-7), .str (txt "a b")]) (txt "(f {D-7} [a b])") := by
  have h1 : Shows (fun _ => []) true false (.sym (txt "f")) (txt "f") := .sym (clean_letters "f" (by decide))
  have h2 : Shows (fun _ => []) true false (.int (-7)) (txt "{D-7}") := .intNeg (s := txt "-7") rfl (by decide) (by
    have := printInt_signed (-7)
    rwa [show printInt (-7) = txt "-7" by simp [printInt, decDigits, txt]] at this)
  have h3 : Shows (fun _ => []) true false (.str (txt "a b")) (txt "[a b]") := .strLit (s := txt "a b") rfl (clean_letters "a b" (by decide))
  refine .vec (ss := [txt "f", txt "{D-7}", txt "[a b]"]) rfl ?_
  intro i d s hd hs
  match i with
  | 0 => cases hd; cases hs; exact h1
  | 1 => cases hd; cases hs; exact h2
  | 2 => cases hd; cases hs; exact h3

/-- Missing from the full statement: environments, ports, builtins and special forms, and what contains them. -/
theorem c51_to_string_partial (hL : L.Safe) {v w : Vm} (rv : v.Reached W L) {form env op : Ref} {name : Text} {xs : List Ref}
    (nc : NamedCall W v form env name op xs) (hop : v.HasObj op (.builtin .toString)) {r : Option Ref} {tr : List Event}
    (ev : Evaluates W L v form env r w tr) :
    NamedOpCall W (ArgumentsFirst W form env (Runs .toString op fun ts u r w tr => AllShown ts W false u → ToStringRun W ts u r w tr)) v env op r w tr :=
  namedBuiltinPre_aux (Pre := fun ts u => AllShown ts W false u) hL (by simp) (fun _ _ _ _ _ _ _ k hp => c51_toString_aux k hp) rv nc hop ev

/-- Missing from the full statement: environments, ports, builtins and special forms, and what contains them. -/
theorem c51_string_format_partial (hL : L.Safe) {v w : Vm} (rv : v.Reached W L) {form env op : Ref} {name : Text} {xs : List Ref}
    (nc : NamedCall W v form env name op xs) (hop : v.HasObj op (.builtin .stringFormat)) {r : Option Ref} {tr : List Event}
    (ev : Evaluates W L v form env r w tr) :
    NamedOpCall W (ArgumentsFirst W form env (Runs .stringFormat op fun ts u r w tr => FormatModelled W ts u → FormatRun W ts u r w tr)) v env op r w tr :=
  namedBuiltinPre_aux hL (by simp) (fun _ _ _ _ _ _ _ k hp => c51_stringFormat_aux k hp) rv nc hop ev

/-- Missing from the full statement: environments, ports, builtins and special forms, and what contains them. -/
theorem c51_print_partial (hL : L.Safe) {v w : Vm} (rv : v.Reached W L) {form env op : Ref} {name : Text} {xs : List Ref}
    (nc : NamedCall W v form env name op xs) (hop : v.HasObj op (.builtin .print)) {r : Option Ref} {tr : List Event}
    (ev : Evaluates W L v form env r w tr) :
    NamedOpCall W (ArgumentsFirst W form env (Runs .print op fun ts u r w tr => AllShown ts W false u → PrintRun W [] ts u r w tr)) v env op r w tr :=
  namedBuiltinPre_aux hL (by simp) (fun _ _ _ _ _ F C k hp => c51_print_aux F C k hp) rv nc hop ev

/-- Missing from the full statement: as for `print`. -/
theorem c51_println_partial (hL : L.Safe) {v w : Vm} (rv : v.Reached W L) {form env op : Ref} {name : Text} {xs : List Ref}
    (nc : NamedCall W v form env name op xs) (hop : v.HasObj op (.builtin .println)) {r : Option Ref} {tr : List Event}
    (ev : Evaluates W L v form env r w tr) :
    NamedOpCall W (ArgumentsFirst W form env (Runs .println op fun ts u r w tr => AllShown ts W false u → PrintRun W ['\n'.toNat] ts u r w tr)) v env op r w tr :=
  namedBuiltinPre_aux hL (by simp) (fun _ _ _ _ _ F C k hp => c51_println_aux F C k hp) rv nc hop ev

/-- what is written for an ASCII format string is the text with the printed forms filled in -/
theorem c51_ascii (ps us : List Text) (h : ∀ p ∈ ps, ∀ c ∈ p, c < 128) : woven (ps.map clipped) (us.map encodeText) = encodeText (woven ps us) := by
  have one : ∀ p : Text, (∀ c ∈ p, c < 128) → clipped p = encodeText p := by
    intro p hp
    rw [encodeText_ascii p hp]
    clear h
    induction p with
    | nil => rfl
    | cons c p ih =>
      have := hp c (by simp)
      show c % 256 :: clipped p = _
      rw [ih fun c hc => hp c (by simp [hc]), Nat.mod_eq_of_lt (Nat.lt_trans this (by decide))]
  induction ps generalizing us with
  | nil => rfl
  | cons p ps ih =>
    have hp := one p (h p (by simp))
    cases ps with
    | nil => simp [woven, hp]
    | cons q ps =>
      cases us with
      | nil => simp [woven, hp]
      | cons u us =>
        have := ih us fun p hp => h p (by simp [hp])
        simp only [List.map_cons, woven, encodeText_append, hp] at this ⊢
        rw [this]

/-- for other format strings it is not: `(print [ä{}] [])` writes the octet E4 for `ä` -/
theorem c51_not_utf8 : woven [clipped (letters "ä"), []] [[]] ≠ encodeText (woven [letters "ä", []] [[]]) := by decide

/-- `print-readably` -/
theorem c51_print_readably (hL : L.Safe) {v w : Vm} (rv : v.Reached W L) {form env op : Ref} {name : Text} {xs : List Ref}
    (nc : NamedCall W v form env name op xs) (hop : v.HasObj op (.builtin .printReadably)) {r : Option Ref} {tr : List Event}
    (ev : Evaluates W L v form env r w tr) :
    NamedOpCall W (ArgumentsFirst W form env (Runs .printReadably op (ReadablyRun W))) v env op r w tr :=
  namedBuiltin_aux hL (by simp) (fun _ _ _ _ _ _ _ k => c51_readably_aux k) rv nc hop ev

/-- names for the examples -/
def kit8 : List (String × Obj × Bool) :=
  kit5 ++ [("to-string", .builtin .toString, true), ("string-format", .builtin .stringFormat, true), ("print", .builtin .print, true), ("println", .builtin .println, true), ("print-readably", .builtin .printReadably, true)]

theorem kit8_plain : ∀ x ∈ kit8, x.2.1.children = [] := by decide

/-- `(to-string (vector 1 [a]) [b])` -/
example : ∃ (v w : Vm) (form op : Ref) (xs : List Ref) (r : Option Ref) (tr : List Event), v.Reached world library ∧
    NamedCall world v form v.globalEnv (txt "to-string") op xs ∧ v.HasObj op (.builtin .toString) ∧
    Evaluates world library v form v.globalEnv r w tr ∧ objAt w r = some (.str (txt "({D+1} [a])[b]")) := by
  obtain ⟨v, form, r, w, tr, hr, of, oe, ev, h⟩ := stage_exists (table := kit8) (forms := []) (fuel := 60)
    (last := .vec [.sym "to-string", .vec [.sym "vector", .int 1, .str "a"], .str "b"])
    (P := fun v f r w tr => namedCheck v f "to-string" (.builtin .toString) && decide (objAt w r = some (.str (txt "({D+1} [a])[b]")))) kit8_plain (by decide +kernel)
  simp only [Bool.and_eq_true, decide_eq_true_eq] at h
  obtain ⟨op, xs, h1, h2, h3⟩ := named_of_check h.1 of oe
  exact ⟨v, w, form, op, xs, r, tr, hr, h1, h2, ev, h.2⟩

/-- `(to-string (hash-map (quote a) (quote b)))` -/
example : ∃ (v w : Vm) (form op : Ref) (xs : List Ref) (r : Option Ref) (tr : List Event), v.Reached world library ∧
    NamedCall world v form v.globalEnv (txt "to-string") op xs ∧ v.HasObj op (.builtin .toString) ∧
    Evaluates world library v form v.globalEnv r w tr ∧ objAt w r = some (.str (txt "(hash-map a b)")) := by
  obtain ⟨v, form, r, w, tr, hr, of, oe, ev, h⟩ := stage_exists (table := kit8 ++ [("hash-map", .builtin .hashMap, true)]) (forms := []) (fuel := 60)
    (last := .vec [.sym "to-string", .vec [.sym "hash-map", .vec [.sym "quote", .sym "a"], .vec [.sym "quote", .sym "b"]]])
    (P := fun v f r w tr => namedCheck v f "to-string" (.builtin .toString) && decide (objAt w r = some (.str (txt "(hash-map a b)")))) (by decide) (by decide +kernel)
  simp only [Bool.and_eq_true, decide_eq_true_eq] at h
  obtain ⟨op, xs, h1, h2, h3⟩ := named_of_check h.1 of oe
  exact ⟨v, w, form, op, xs, r, tr, hr, h1, h2, ev, h.2⟩

/-- `(to-string (vector 1 [a]) [b])` after `(print-readably false)` -/
example : ∃ (v w : Vm) (form op : Ref) (xs : List Ref) (r : Option Ref) (tr : List Event), v.Reached world library ∧
    NamedCall world v form v.globalEnv (txt "to-string") op xs ∧ v.HasObj op (.builtin .toString) ∧
    Evaluates world library v form v.globalEnv r w tr ∧ objAt w r = some (.str (txt "(1 a)b")) := by
  obtain ⟨v, form, r, w, tr, hr, of, oe, ev, h⟩ := stage_exists (table := kit8) (forms := [.vec [.sym "print-readably", .sym "false"]]) (fuel := 60)
    (last := .vec [.sym "to-string", .vec [.sym "vector", .int 1, .str "a"], .str "b"])
    (P := fun v f r w tr => namedCheck v f "to-string" (.builtin .toString) && decide (objAt w r = some (.str (txt "(1 a)b")))) kit8_plain (by decide +kernel)
  simp only [Bool.and_eq_true, decide_eq_true_eq] at h
  obtain ⟨op, xs, h1, h2, h3⟩ := named_of_check h.1 of oe
  exact ⟨v, w, form, op, xs, r, tr, hr, h1, h2, ev, h.2⟩

/-- `(string-format [a {} b {}] 7 [c])` -/
example : ∃ (v w : Vm) (form op : Ref) (xs : List Ref) (r : Option Ref) (tr : List Event), v.Reached world library ∧
    NamedCall world v form v.globalEnv (txt "string-format") op xs ∧ v.HasObj op (.builtin .stringFormat) ∧
    Evaluates world library v form v.globalEnv r w tr ∧ objAt w r = some (.str (txt "a {D+7} b c")) := by
  obtain ⟨v, form, r, w, tr, hr, of, oe, ev, h⟩ := stage_exists (table := kit8) (forms := []) (fuel := 60)
    (last := .vec [.sym "string-format", .str "a {} b {}", .int 7, .str "c"])
    (P := fun v f r w tr => namedCheck v f "string-format" (.builtin .stringFormat) && decide (objAt w r = some (.str (txt "a {D+7} b c")))) kit8_plain (by decide +kernel)
  simp only [Bool.and_eq_true, decide_eq_true_eq] at h
  obtain ⟨op, xs, h1, h2, h3⟩ := named_of_check h.1 of oe
  exact ⟨v, w, form, op, xs, r, tr, hr, h1, h2, ev, h.2⟩

/-- `(string-format ['{} ''{} {}] [a] [b])`: the first `{}` is no place -/
example : ∃ (v w : Vm) (form op : Ref) (xs : List Ref) (r : Option Ref) (tr : List Event), v.Reached world library ∧
    NamedCall world v form v.globalEnv (txt "string-format") op xs ∧ v.HasObj op (.builtin .stringFormat) ∧
    Evaluates world library v form v.globalEnv r w tr ∧ objAt w r = some (.str (txt "'{} ''a b")) := by
  obtain ⟨v, form, r, w, tr, hr, of, oe, ev, h⟩ := stage_exists (table := kit8) (forms := []) (fuel := 60)
    (last := .vec [.sym "string-format", .str "'{} ''{} {}", .str "a", .str "b"])
    (P := fun v f r w tr => namedCheck v f "string-format" (.builtin .stringFormat) && decide (objAt w r = some (.str (txt "'{} ''a b")))) kit8_plain (by decide +kernel)
  simp only [Bool.and_eq_true, decide_eq_true_eq] at h
  obtain ⟨op, xs, h1, h2, h3⟩ := named_of_check h.1 of oe
  exact ⟨v, w, form, op, xs, r, tr, hr, h1, h2, ev, h.2⟩

/-- `(print [{}-{}] 1 2)` -/
example : ∃ (v w : Vm) (form op : Ref) (xs : List Ref) (r : Option Ref) (tr : List Event), v.Reached world library ∧
    NamedCall world v form v.globalEnv (txt "print") op xs ∧ v.HasObj op (.builtin .print) ∧
    Evaluates world library v form v.globalEnv r w tr ∧ w.out = v.out ++ txt "1-2" ∧ objAt w r = some (.bool true) := by
  obtain ⟨v, form, r, w, tr, hr, of, oe, ev, h⟩ := stage_exists (table := kit8) (forms := [.vec [.sym "print-readably", .sym "false"]]) (fuel := 60)
    (last := .vec [.sym "print", .str "{}-{}", .int 1, .int 2])
    (P := fun v f r w tr => namedCheck v f "print" (.builtin .print) && decide (w.out = v.out ++ txt "1-2" ∧ objAt w r = some (.bool true))) kit8_plain (by decide +kernel)
  simp only [Bool.and_eq_true, decide_eq_true_eq] at h
  obtain ⟨op, xs, h1, h2, h3⟩ := named_of_check h.1 of oe
  exact ⟨v, w, form, op, xs, r, tr, hr, h1, h2, ev, h.2⟩

/-- `(println [{}-{}] 1)`: the beginning is written -/
example : ∃ (v w : Vm) (form op : Ref) (xs : List Ref) (r : Option Ref) (tr : List Event), v.Reached world library ∧
    NamedCall world v form v.globalEnv (txt "println") op xs ∧ v.HasObj op (.builtin .println) ∧
    Evaluates world library v form v.globalEnv r w tr ∧ w.out = v.out ++ txt "{D+1}-\n" ∧ objAt w r ≠ some (.bool true) := by
  obtain ⟨v, form, r, w, tr, hr, of, oe, ev, h⟩ := stage_exists (table := kit8) (forms := []) (fuel := 60)
    (last := .vec [.sym "println", .str "{}-{}", .int 1])
    (P := fun v f r w tr => namedCheck v f "println" (.builtin .println) && decide (w.out = v.out ++ txt "{D+1}-\n" ∧ objAt w r ≠ some (.bool true))) kit8_plain (by decide +kernel)
  simp only [Bool.and_eq_true, decide_eq_true_eq] at h
  obtain ⟨op, xs, h1, h2, h3⟩ := named_of_check h.1 of oe
  exact ⟨v, w, form, op, xs, r, tr, hr, h1, h2, ev, h.2⟩

/-- `(print-readably false)` -/
example : ∃ (v w : Vm) (form op : Ref) (xs : List Ref) (r : Option Ref) (tr : List Event), v.Reached world library ∧
    NamedCall world v form v.globalEnv (txt "print-readably") op xs ∧ v.HasObj op (.builtin .printReadably) ∧
    Evaluates world library v form v.globalEnv r w tr ∧ w.readably = false ∧ v.readably = true := by
  obtain ⟨v, form, r, w, tr, hr, of, oe, ev, h⟩ := stage_exists (table := kit8) (forms := []) (fuel := 60)
    (last := .vec [.sym "print-readably", .sym "false"])
    (P := fun v f r w tr => namedCheck v f "print-readably" (.builtin .printReadably) && decide (w.readably = false ∧ v.readably = true)) kit8_plain (by decide +kernel)
  simp only [Bool.and_eq_true, decide_eq_true_eq] at h
  obtain ⟨op, xs, h1, h2, h3⟩ := named_of_check h.1 of oe
  exact ⟨v, w, form, op, xs, r, tr, hr, h1, h2, ev, h.2⟩

end Dern.Props
