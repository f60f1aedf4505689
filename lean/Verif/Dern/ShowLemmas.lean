import Mathlib.Data.List.Induction
import Verif.Spec.Show
import Verif.Dern.Data
import Verif.Dern.ReadBack
/- What is printed is the printed form of the data (`Verif.Spec.Show`). -/
namespace Dern
open Spec (Decimal Signed Shows Clean letters spaced paired dotted IdentText VersionText Version Ident)
open Spec.Numeral

/-! ### numerals -/

theorem decDigits_first (n : Nat) : (decDigits n).head? = some 48 → (decDigits n).length = 1 := by
  induction n using Nat.strongRecOn with
  | _ n ih =>
    rw [decDigits]
    split
    · simp
    · rename_i h
      intro hh
      have hne := decDigits_ne_nil (n / 10)
      rw [List.head?_append_of_ne_nil _ hne] at hh
      have := ih (n / 10) (by omega) hh
      exfalso
      rw [decDigits] at hh this
      split at hh
      · simp only [List.head?_cons, Option.some.injEq] at hh
        have e : (48 : Nat) + n / 10 = 48 := hh
        omega
      · rw [dif_neg ‹_›] at this
        have := List.length_pos_iff.2 (decDigits_ne_nil (n / 10 / 10))
        simp only [List.length_append, List.length_singleton] at *
        omega

theorem decimal_decDigits (n : Nat) : Decimal n (decDigits n) :=
  ⟨decDigits_digit n, value_decDigits n, decDigits_ne_nil n, decDigits_first n⟩

theorem decimal_pos : ∀ (s : List Nat), (∀ c ∈ s, 48 ≤ c ∧ c ≤ 57) → s ≠ [] → s.head? ≠ some 48 → 1 ≤ value 10 s := by
  intro s
  induction s using List.reverseRecOn with
  | nil => simp
  | append_singleton s c ih =>
    intro h _ hh
    rw [value_append]
    have hc := h c (by simp)
    have hd : digitValue c = some (c - 48) := by simp [digitValue, hc.1, hc.2]
    rw [hd]
    by_cases hs : s = []
    · subst hs
      simp at hh
      have : c ≠ 48 := hh
      simp [value]; omega
    · rw [List.head?_append_of_ne_nil _ hs] at hh
      have := ih (fun c hc => h c (by simp [hc])) hs hh
      simp; omega

theorem decimal_unique : ∀ (s : List Nat) (n : Nat), Decimal n s → s = decDigits n := by
  intro s
  induction s using List.reverseRecOn with
  | nil => intro n h; exact absurd rfl h.nonempty
  | append_singleton s c ih =>
    intro n ⟨h1, h2, _, h4⟩
    rw [value_append] at h2
    have hc := h1 c (by simp)
    have hc0 : 48 ≤ c := hc.1
    have hc1 : c ≤ 57 := hc.2
    have hd : digitValue c = some (c - 48) := by simp [digitValue, hc0, hc1]
    rw [hd] at h2
    simp at h2
    rw [decDigits]
    by_cases hs : s = []
    · subst hs
      simp [value] at h2
      rw [dif_pos (by omega)]
      simp; omega
    · have hh : s.head? ≠ some 48 := by
        intro hh
        have := h4 (by rw [List.head?_append_of_ne_nil _ hs]; exact hh)
        have := List.length_pos_iff.2 hs
        simp only [List.length_append, List.length_singleton] at *
        omega
      have hp := decimal_pos s (fun c hc => h1 c (by simp [hc])) hs hh
      have hn : n / 10 = value 10 s := by omega
      rw [dif_neg (by omega), ← ih (n / 10) ⟨fun c hc => h1 c (by simp [hc]), by omega, hs, fun h => absurd h hh⟩]
      congr 2; omega

theorem signed_print {n : Int} {s : Text} (h : Signed n s) : s = printInt n := by
  cases h with
  | pos h =>
    rename_i n
    rw [printInt, if_neg (by omega), decimal_unique _ _ h]; rfl
  | neg h0 h =>
    rename_i n s
    rw [printInt, if_pos (by omega), decimal_unique _ _ h]
    simp

theorem printInt_signed (n : Int) : Signed n (printInt n) := by
  unfold printInt
  split
  · have := Signed.neg (n := n.natAbs) (by omega) (decimal_decDigits _)
    have e : -(n.natAbs : Int) = n := by omega
    rw [e] at this
    exact this
  · have := Signed.pos (n := n.natAbs) (decimal_decDigits _)
    have e : (n.natAbs : Int) = n := by omega
    rw [e] at this
    exact this

theorem clean_dec (n : Nat) : Clean (decDigits n) := printable_dec n

theorem clean_int (n : Int) : Clean (printInt n) := by
  unfold printInt
  split
  · exact all_cons (printCh_of_lt (by decide) (by decide)) (printable_dec _)
  · exact printable_dec _

/-! ### versions -/

theorem dotted_eq : ∀ (l : List Text), (l.intersperse [46]).flatten = dotted l
  | [] => rfl
  | [s] => by simp [dotted]
  | s :: t :: l => by
    have := dotted_eq (t :: l)
    rw [dotted, ← this]
    simp [List.intersperse]

theorem clean_dotted : ∀ (l : List Text), (∀ s ∈ l, Clean s) → Clean (dotted l)
  | [], _ => by simp [dotted, Clean]
  | [s], h => h s (by simp)
  | s :: t :: l, h => by
    rw [dotted]
    exact all_append (h s (by simp)) (all_cons (printCh_of_lt (by decide) (by decide)) (clean_dotted (t :: l) fun s hs => h s (by simp [hs])))

theorem version_print {v : Version} {s : Text} (h : VersionText v s) : semverText v = some s ∧ Clean s := by
  obtain ⟨ha, hb, hc, hp, hbd⟩ := h
  rename_i a b c ps
  have e1 : ∀ f : Ident → Option Text, (∀ n, f (.num n) = some (decDigits n)) → (∀ s, f (.lex s) = fmtS [] s []) →
      v.pre.mapM f = some ps ∧ ∀ s ∈ ps, Clean s := by
    intro f f1 f2
    generalize v.pre = pre at hp
    induction hp with
    | nil => simp
    | @cons i s is ss h _ ih =>
      rw [List.mapM_cons]
      have hi : f i = some s ∧ Clean s := by
        cases h with
        | num h => have := decimal_unique _ _ h; subst this; exact ⟨f1 _, clean_dec _⟩
        | lex h => exact ⟨(f2 _).trans (fmtS_id _ h), h⟩
      refine ⟨?_, ?_⟩
      · rw [hi.1, ih.1]; rfl
      · simp only [List.mem_cons]
        rintro x (rfl | hx)
        · exact hi.2
        · exact ih.2 x hx
  have e2 : v.build.mapM (fun s => fmtS [] s []) = some v.build := by
    generalize v.build = bd at hbd
    induction bd with
    | nil => rfl
    | cons s ss ih =>
      rw [List.mapM_cons, fmtS_id _ (hbd s (by simp)), ih fun s hs => hbd s (by simp [hs])]
      rfl
  have := decimal_unique _ _ ha
  have := decimal_unique _ _ hb
  have := decimal_unique _ _ hc
  subst a b c
  constructor
  · unfold semverText
    rw [e2, (e1 _ (fun _ => rfl) (fun _ => rfl)).1]
    simp only [bind, Option.bind, dotted_eq]
    simp [dotted]
  · refine all_append (all_append (clean_dotted _ ?_) ?_) ?_
    · simp only [List.mem_cons, List.not_mem_nil, or_false]
      rintro s (rfl | rfl | rfl) <;> exact clean_dec _
    · split
      · simp
      · exact all_cons (printCh_of_lt (by decide) (by decide)) (clean_dotted _ (e1 (fun | .num n => some (decDigits n) | .lex s => fmtS [] s []) (fun _ => rfl) (fun _ => rfl)).2)
    · split
      · simp
      · exact all_cons (printCh_of_lt (by decide) (by decide)) (clean_dotted _ hbd)

/-! ### data -/

/-- the printed text of a sequence, its elements being printed as they should -/
theorem printSeq_eq {rec : Ref → Res Text} : ∀ (rs : List Ref) (ss : List Text), rs.length = ss.length →
    (∀ (i : Nat) x s t, rs[i]? = some x → ss[i]? = some s → rec x = .ok t → t = s) → (∀ s ∈ ss, Clean s) →
    ∀ t, printSeq rec rs = .ok t → t = spaced ss
  | [], [], _, _, _, t, h => by simp [printSeq] at h; simp [spaced, ← h]
  | [x], [s], _, h, hc, t, ht => by
    rw [printSeq] at ht
    cases hx : rec x with
    | error e => rw [hx] at ht; cases ht
    | ok y =>
      have := h 0 x s y (by simp) (by simp) hx
      subst this
      rw [hx] at ht
      simp only [bind, Except.bind, fmtS_id _ (hc y (by simp)), orAbort] at ht
      cases ht; rfl
  | x :: y :: l, s :: s' :: ss, hl, h, hc, t, ht => by
    rw [printSeq] at ht
    cases hx : rec x with
    | error e => rw [hx] at ht; cases ht
    | ok z =>
      have := h 0 x s z (by simp) (by simp) hx
      subst this
      rw [hx] at ht
      simp only [bind, Except.bind, fmtS_id _ (hc z (by simp)), orAbort] at ht
      cases hu : printSeq rec (y :: l) with
      | error e => rw [hu] at ht; cases ht
      | ok u =>
        rw [hu] at ht
        cases ht
        have := printSeq_eq (y :: l) (s' :: ss) (by simpa using hl)
          (fun i x s t h1 h2 => h (i + 1) x s t (by simpa using h1) (by simpa using h2)) (fun s hs => hc s (by simp [hs])) u hu
        rw [this]; rfl

theorem clean_letters (s : String) (h : (letters s).all (fun c => decide (0 < c) && decide (c < 128)) = true) : Clean (letters s) := printable_txt s h

theorem clean_spaced : ∀ (l : List Text), (∀ s ∈ l, Clean s) → Clean (spaced l)
  | [], _ => by simp [spaced, Clean]
  | [s], h => h s (by simp)
  | s :: t :: l, h => by
    rw [spaced]
    exact all_append (h s (by simp)) (all_cons (printCh_of_lt (by decide) (by decide)) (clean_spaced (t :: l) fun s hs => h s (by simp [hs])))

theorem clean_paired : ∀ (l : List (Text × Text)), (∀ s ∈ l, Clean s.1 ∧ Clean s.2) → Clean (paired l)
  | [], _ => by simp [paired, Clean]
  | [e], h => all_append (h e (by simp)).1 (all_cons (printCh_of_lt (by decide) (by decide)) (h e (by simp)).2)
  | e :: f :: l, h => by
    rw [paired]
    exact all_append (all_append (all_append (h e (by simp)).1 (all_cons (printCh_of_lt (by decide) (by decide)) (h e (by simp)).2))
      (clean_letters _ (by decide))) (clean_paired (f :: l) fun s hs => h s (by simp [hs]))

theorem shows_clean {real : Spec.Dbl → Text} {rd p : Bool} {d : Spec.Data} {t : Text} (h : Shows real rd p d t) : Clean t := by
  induction h with
  | nil | yes | no => exact clean_letters _ (by decide)
  | int _ h => rw [signed_print h]; exact clean_int _
  | intPos _ _ h | intNeg _ _ h => rw [signed_print h]; exact all_append (all_append (clean_letters _ (by decide)) (clean_int _)) (clean_letters _ (by decide))
  | real _ h => exact h
  | realPos _ _ _ h | realNeg _ _ _ h | strLit _ h | chrLit _ h => exact all_append (all_append (clean_letters _ (by decide)) h) (clean_letters _ (by decide))
  | str _ h | chr _ h | sym h => exact h
  | chrBar | chrNewline | chrTab => exact clean_letters _ (by decide)
  | err h => exact all_append (clean_letters _ (by decide)) h
  | semver h => exact (version_print h).2
  | @vec p ds ss hl _ ih | @list p ds ss hl _ ih | @queue p ds ss hl _ ih =>
    refine all_append (all_append (clean_letters _ (by decide)) (clean_spaced _ ?_)) (clean_letters _ (by decide))
    intro s hs
    obtain ⟨i, hi, rfl⟩ := List.getElem_of_mem hs
    exact ih i (ds[i]'(by omega)) _ (List.getElem?_eq_getElem _) (List.getElem?_eq_getElem _)
  | @hmap p ds ss hl _ _ ih1 ih2 =>
    refine all_append (all_append (clean_letters _ (by decide)) (clean_paired _ ?_)) (clean_letters _ (by decide))
    intro s hs
    obtain ⟨i, hi, rfl⟩ := List.getElem_of_mem hs
    exact ⟨ih1 i (ds[i]'(by omega)) _ (List.getElem?_eq_getElem _) (List.getElem?_eq_getElem _),
      ih2 i (ds[i]'(by omega)) _ (List.getElem?_eq_getElem _) (List.getElem?_eq_getElem _)⟩

theorem printPair_eq {rec : Ref → Res Text} {e : Ref × Ref} {s : Text × Text} (h1 : ∀ t, rec e.1 = .ok t → t = s.1) (h2 : ∀ t, rec e.2 = .ok t → t = s.2)
    (c1 : Clean s.1) (c2 : Clean s.2) {t : Text} (ht : printPair rec e = .ok t) : t = s.1 ++ 32 :: s.2 := by
  rw [printPair] at ht
  cases hx : rec e.1 with
  | error e => rw [hx] at ht; cases ht
  | ok y =>
    obtain rfl := h1 y hx
    cases hz : rec e.2 with
    | error e => rw [hx] at ht; simp only [bind, Except.bind, fmtS_id _ c1, orAbort, hz] at ht; cases ht
    | ok z =>
      obtain rfl := h2 z hz
      rw [hx] at ht
      simp only [bind, Except.bind, fmtS_id _ c1, fmtS_id _ c2, orAbort, hz] at ht
      cases ht; rfl

theorem printPairs_eq {rec : Ref → Res Text} : ∀ (rs : List (Ref × Ref)) (ss : List (Text × Text)), rs.length = ss.length →
    (∀ (i : Nat) (x : Ref × Ref) (s : Text × Text), rs[i]? = some x → ss[i]? = some s → (∀ t, rec x.1 = .ok t → t = s.1) ∧ ∀ t, rec x.2 = .ok t → t = s.2) →
    (∀ s ∈ ss, Clean s.1 ∧ Clean s.2) → ∀ t, printPairs rec rs = .ok t → t = paired ss
  | [], [], _, _, _, t, h => by simp [printPairs] at h; simp [paired, ← h]
  | [x], [s], _, h, hc, t, ht => by
    have := h 0 x s (by simp) (by simp)
    exact printPair_eq this.1 this.2 (hc s (by simp)).1 (hc s (by simp)).2 ht
  | x :: y :: l, s :: s' :: ss, hl, h, hc, t, ht => by
    rw [printPairs] at ht
    have h0 := h 0 x s (by simp) (by simp)
    cases hx : printPair rec x with
    | error e => rw [hx] at ht; cases ht
    | ok z =>
      obtain rfl := printPair_eq h0.1 h0.2 (hc s (by simp)).1 (hc s (by simp)).2 hx
      rw [hx] at ht
      cases hu : printPairs rec (y :: l) with
      | error e => simp only [bind, Except.bind, hu] at ht; cases ht
      | ok u =>
        simp only [bind, Except.bind, hu] at ht
        cases ht
        have := printPairs_eq (y :: l) (s' :: ss) (by simpa using hl)
          (fun i x s h1 h2 => h (i + 1) x s (by simpa using h1) (by simpa using h2)) (fun s hs => hc s (by simp [hs])) u hu
        rw [this]; rfl

theorem printSeq_elems {m : Mem} {fmt : Obj → Text} {rd : Bool} {rs : List Ref} {ds : List Spec.Data} {ss : List Text} {n : Nat} (hl : rs.length = ds.length)
    (hl' : ds.length = ss.length) (hs : ∀ (i : Nat) d s, ds[i]? = some d → ss[i]? = some s → Shows (fun d => fmt (.real d)) rd false d s)
    (ih : ∀ (i : Nat) x d, rs[i]? = some x → ds[i]? = some d → ∀ {p : Bool} {t : Text}, Shows (fun d => fmt (.real d)) rd p d t →
      ∀ {n : Nat} {t' : Text}, printRef m fmt rd n p x = .ok t' → t' = t) :
    ∀ t, printSeq (printRef m fmt rd n false) rs = .ok t → t = spaced ss := by
  refine printSeq_eq rs ss (hl.trans hl') (fun i x s t hx hs' ht => ?_) fun s hs' => ?_
  · have hi : i < ds.length := by have := (List.getElem?_eq_some_iff.1 hx).1; omega
    exact ih i x ds[i] hx (List.getElem?_eq_getElem _) (hs i ds[i] s (List.getElem?_eq_getElem _) hs') ht
  · obtain ⟨i, hi, rfl⟩ := List.getElem_of_mem hs'
    exact shows_clean (hs i (ds[i]'(by omega)) _ (List.getElem?_eq_getElem _) (List.getElem?_eq_getElem _))

theorem print_shows {m : Mem} {fmt : Obj → Text} {rd : Bool} {r : Ref} {d : Spec.Data} (hd : Denotes m r d) : ∀ {p : Bool} {t : Text},
    Shows (fun d => fmt (.real d)) rd p d t → ∀ {n : Nat} {t' : Text}, printRef m fmt rd n p r = .ok t' → t' = t := by
  induction hd with
  | @atom r c d hc ha =>
    intro p t hs n t' hp
    cases n with
    | zero => cases hp
    | succ n =>
      simp only [printRef, Mem.read, hc, bind, Except.bind] at hp
      revert ha hp
      generalize c.obj = o
      intro ha hp
      cases o <;> simp only [atomData, Option.some.injEq, reduceCtorEq] at ha
      all_goals subst ha
      all_goals simp only [printObj] at hp
      case nil => cases hs; cases hp; rfl
      case bool b => cases b <;> (cases hs; cases hp; rfl)
      case int k =>
        cases hs with
        | int h1 h2 => subst h1; rw [signed_print h2]; cases hp; rfl
        | intPos h1 h3 h2 => subst h1; rw [signed_print h2]; simp only [if_true, inBraces, h3, decide_true] at hp; cases hp; rfl
        | intNeg h1 h3 h2 =>
          subst h1; rw [signed_print h2]; simp only [if_true, inBraces, decide_eq_false (show ¬ 0 ≤ k by omega)] at hp; cases hp; rfl
      case real k =>
        cases hs with
        | real h1 => subst h1; cases hp; rfl
        | realPos h1 h2 h3 => subst h1; simp only [if_true, inBraces, isNonNegative, h2, h3, decide_true] at hp; cases hp; rfl
        | @realNeg _ _ x h1 h2 h3 =>
          subst h1; simp only [if_true, inBraces, isNonNegative, h2, decide_eq_false (show ¬ 0 ≤ x by omega)] at hp; cases hp; rfl
      case str k =>
        cases hs with
        | str h1 h2 =>
          have : (p || !rd) = true := by rcases h1 with rfl | rfl <;> simp
          rw [if_pos this, fmtS_id _ h2] at hp
          cases hp; rfl
        | strLit h1 h2 =>
          subst h1
          rw [if_neg (by simp), fmtS_eq (txt "[") _ (txt "]") (clean_letters "[" (by decide)) h2 (clean_letters "]" (by decide))] at hp
          cases hp; rfl
      case chr k =>
        have key : ∀ b, printChar b k = .ok t' → (b = true → Clean k → t' = k) ∧ (b = false → (k = [124] → t' = letters "|bar|") ∧
            (k = [10] → t' = letters "|newline|") ∧ (k = [9] → t' = letters "|tab|") ∧
            (k ≠ [124] → k ≠ [10] → k ≠ [9] → Clean k → t' = letters "|" ++ k ++ letters "|")) := by
          intro b hb
          unfold printChar isCString1 at hb
          by_cases h1 : k = [124]
          · subst h1; cases b <;> cases hb; exacts [⟨by simp, fun _ => ⟨fun _ => rfl, by simp, by simp, by simp⟩⟩, ⟨by simp, by simp⟩]
          · by_cases h2 : k = [10]
            · subst h2; cases b <;> cases hb; exacts [⟨by simp, fun _ => ⟨by simp, fun _ => rfl, by simp, by simp⟩⟩, ⟨by simp, by simp⟩]
            · by_cases h3 : k = [9]
              · subst h3; cases b <;> cases hb; exacts [⟨by simp, fun _ => ⟨by simp, by simp, fun _ => rfl, by simp⟩⟩, ⟨by simp, by simp⟩]
              · simp only [beq_iff_eq, h1, h2, h3, if_false] at hb
                refine ⟨fun hb' hk => ?_, fun hb' => ⟨by simp [h1], by simp [h2], by simp [h3], fun _ _ _ hk => ?_⟩⟩
                · rw [hb', if_pos rfl, fmtS_id _ hk] at hb; cases hb; rfl
                · rw [hb', if_neg (by simp), fmtS_eq (txt "|") _ (txt "|") (clean_letters "|" (by decide)) hk (clean_letters "|" (by decide))] at hb; cases hb; rfl
        have key := key _ hp
        cases hs with
        | chr h1 h2 => exact key.1 (by rcases h1 with rfl | rfl <;> simp) h2
        | chrBar h1 => subst h1; exact (key.2 rfl).1 rfl
        | chrNewline h1 => subst h1; exact (key.2 rfl).2.1 rfl
        | chrTab h1 => subst h1; exact (key.2 rfl).2.2.1 rfl
        | chrLit h1 h2 h3 h4 h5 => subst h1; exact (key.2 rfl).2.2.2 h3 h4 h5 h2
      case sym k =>
        cases hs with
        | sym h => rw [fmtS_id _ h] at hp; cases hp; rfl
      case err k l =>
        cases hs with
        | err h => rw [fmtS_eq (txt "<error>: ") _ [] (clean_letters "<error>: " (by decide)) h (by simp)] at hp; cases hp; simp [letters, txt]
      case semver k =>
        cases hs with
        | semver h => rw [(version_print h).1] at hp; cases hp; rfl
      all_goals cases hs
  | @vec r c rs ds hc ho hl _ ih =>
    intro p t hs n t' hp
    cases hs with
    | @vec _ _ ss hl' hs =>
      cases n with
      | zero => cases hp
      | succ n =>
        simp only [printRef, Mem.read, hc, bind, Except.bind, ho, printObj] at hp
        cases hq : printSeq (printRef m fmt rd n false) rs with
        | error e => rw [hq] at hp; cases hp
        | ok u =>
          rw [hq] at hp
          cases hp
          rw [printSeq_elems hl hl' hs ih u hq]
          rfl
  | @queue r c rs ds mx hc ho hl _ ih =>
    intro p t hs n t' hp
    cases hs with
    | @queue _ _ ss hl' hs =>
      cases n with
      | zero => cases hp
      | succ n =>
        simp only [printRef, Mem.read, hc, bind, Except.bind, ho, printObj] at hp
        cases hq : printSeq (printRef m fmt rd n false) rs with
        | error e => rw [hq] at hp; cases hp
        | ok u =>
          rw [hq] at hp
          cases hp
          rw [printSeq_elems hl hl' hs ih u hq]
          rfl
  | @list r c rs ds hc ho hl _ ih =>
    intro p t hs n t' hp
    cases hs with
    | @list _ _ ss hl' hs =>
      cases n with
      | zero => cases hp
      | succ n =>
        simp only [printRef, Mem.read, hc, bind, Except.bind, ho, printObj] at hp
        cases hq : printSeq (printRef m fmt rd n false) rs with
        | error e => rw [hq] at hp; cases hp
        | ok u =>
          rw [hq] at hp
          cases hp
          rw [printSeq_elems hl hl' hs ih u hq]
          rfl
  | @hmap r c nb rs ds hc ho hl _ _ ih1 ih2 =>
    intro p t hs n t' hp
    cases hs with
    | @hmap _ _ ss hl' hs1 hs2 =>
      cases n with
      | zero => cases hp
      | succ n =>
        simp only [printRef, Mem.read, hc, bind, Except.bind, ho, printObj] at hp
        cases hq : printPairs (printRef m fmt rd n false) rs with
        | error e => rw [hq] at hp; cases hp
        | ok u =>
          rw [hq] at hp
          cases hp
          rw [printPairs_eq rs ss (hl.trans hl') (fun i x s hx hs' => ?_) (fun s hs' => ?_) u hq]
          · rfl
          · have hi : i < ds.length := by have := (List.getElem?_eq_some_iff.1 hx).1; omega
            exact ⟨fun t ht => ih1 i x ds[i] hx (List.getElem?_eq_getElem _) (hs1 i ds[i] s (List.getElem?_eq_getElem _) hs') ht,
              fun t ht => ih2 i x ds[i] hx (List.getElem?_eq_getElem _) (hs2 i ds[i] s (List.getElem?_eq_getElem _) hs') ht⟩
          · obtain ⟨i, hi, rfl⟩ := List.getElem_of_mem hs'
            exact ⟨shows_clean (hs1 i (ds[i]'(by omega)) _ (List.getElem?_eq_getElem _) (List.getElem?_eq_getElem _)),
              shows_clean (hs2 i (ds[i]'(by omega)) _ (List.getElem?_eq_getElem _) (List.getElem?_eq_getElem _))⟩

end Dern
