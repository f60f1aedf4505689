import Mathlib.Data.List.Forall2
import Verif.Dern.EnvironmentText
import Verif.Props.C78
/-
C80: the text that shows an environment.
-/
namespace Dern.Props
open Dern Dern.Registry Dern.SymbolValue Dern.EnvironmentText
open Dern.Spec (beforeNul lexCmp)
variable {V : Type}

/-! ### Specification -/

/-- A comparison that may be given to the sort of the C library -/
structure Comparison {α : Type} (c : α → α → Int) (l : List α) : Prop where
  opposite : ∀ a ∈ l, ∀ b ∈ l, c a b < 0 ↔ 0 < c b a
  trans : ∀ a ∈ l, ∀ b ∈ l, ∀ d ∈ l, c a b ≤ 0 → c b d ≤ 0 → c a d ≤ 0

/-- What C11 promises about qsort: the same elements, in order; nothing about the order of those that compare equal. -/
def Sorter {α : Type} (sort : (α → α → Int) → List α → List α) : Prop :=
  ∀ c l, Comparison c l → (sort c l).Perm l ∧ (sort c l).Pairwise fun a b => c a b ≤ 0

/-- the rows of one environment: every name that is bound once, in order, with the text of its latest value -/
structure RowsOf (shows : V → Text) (history : List (Text × V)) (rows : List (Text × Text)) : Prop where
  ordered : rows.Pairwise fun a b => lexCmp a.1 b.1 = .lt
  bound : ∀ n t, (n, t) ∈ rows ↔ ∃ v, latest history n = some v ∧ t = beforeNul (shows v)

/-- the number of octets of a text in UTF-8 -/
def octetCount (s : Text) : Nat := (s.flatMap Spec.Utf8.encode).length

/-- the number of characters of the longest name -/
def widestName (rows : List (Text × Text)) : Nat := (rows.map fun r => r.1.length).foldr max 0

/-- one row -/
def rowText (indent : Text) (width : Nat) (r : Text × Text) : Text :=
  indent ++ r.1 ++ List.replicate (width - octetCount r.1) 0x20 ++ txt " -> " ++ r.2 ++ txt "\n"

/-- the text of some environments, innermost first: the environments outside are shown inside the header, one tab deeper -/
def environmentText : Nat → List (List (Text × Text)) → Text
  | _, [] => []
  | depth, rows :: outer =>
    List.replicate depth 0x9 ++ txt "---------- environment ----------\n" ++
      environmentText (depth + 1) outer ++
      (rows.map (rowText (List.replicate depth 0x9) (widestName rows))).flatten ++
      List.replicate depth 0x9 ++ txt "---------------------------------\n"

/-- the names are characters that can be encoded, none of them NUL, and not too long for an `int` -/
def NamesFit (chain : List (List (Text × V))) : Prop :=
  ∀ history ∈ chain, ∀ b ∈ history, (∀ c ∈ b.1, PrintCh c) ∧ b.1.length < 2 ^ 31

/-! ### Proofs -/

theorem c80_order_aux {a b : Text} (ha : ∀ c ∈ a, PrintCh c) (hb : ∀ c ∈ b, PrintCh c) :
    (stringCompare a b).getD 0 = Spec.sign (lexCmp a b) := by rw [stringCompare_eq a b ha hb]; rfl

theorem c80_comparison_aux {l : List (MapElem Text V)} (h : ∀ e ∈ l, ∀ c ∈ e.key, PrintCh c) : Comparison compareKeys l where
  opposite a ha b hb := by
    unfold compareKeys
    rw [c80_order_aux (h a ha) (h b hb), c80_order_aux (h b hb) (h a ha), Spec.lexCmp_swap a.key b.key]
    cases lexCmp a.key b.key <;> decide
  trans a ha b hb d hd h1 h2 := by
    unfold compareKeys at *
    rw [c80_order_aux (h a ha) (h b hb)] at h1
    rw [c80_order_aux (h b hb) (h d hd)] at h2
    rw [c80_order_aux (h a ha) (h d hd)]
    cases e1 : lexCmp a.key b.key with
    | gt => rw [e1] at h1; exact absurd h1 (by decide)
    | eq => rw [Spec.lexCmp_eq _ _ e1]; exact h2
    | lt =>
      cases e2 : lexCmp b.key d.key with
      | gt => rw [e2] at h2; exact absurd h2 (by decide)
      | eq => rw [← Spec.lexCmp_eq _ _ e2, e1]; decide
      | lt => rw [Spec.lexCmp_trans _ _ _ e1 e2]; decide

theorem c80_elements_aux {F : KeyFns Text} {m : HMap Text V} (h : m.Inv F) : elements m = some m.buckets.flatten := by
  unfold elements
  have e : ∀ i : Nat, m.atIndex i = m.buckets.flatten[i]? := by
    intro i
    unfold HMap.atIndex
    rw [if_neg (by omega), c17_atIndexLoop_aux _ _ 0 (by omega)]
    simp
  simp only [e, h.num]
  generalize m.buckets.flatten = l
  cases l with
  | nil => rfl
  | cons x l =>
    generalize hl : x :: l = l'
    rw [c78_mapM_aux _ (fun i => l'[i]?.getD x) _ fun i hi => by rw [List.getElem?_eq_getElem (List.mem_range.mp hi)]; rfl]
    congr 1
    apply List.ext_getElem (by simp)
    intro i h1 h2
    simp [List.getElem?_eq_getElem h2]

theorem c80_longest_aux : ∀ (es : List (MapElem Text V)) (w : Nat), longest es w = (es.map fun e => e.key.length).foldr max w
  | [], w => rfl
  | e :: es, w => by
    rw [longest, c80_longest_aux es]
    simp only [List.map_cons, List.foldr_cons]
    have : ∀ (l : List Nat) (a b : Nat), l.foldr max (max a b) = max a (l.foldr max b) := by
      intro l a b
      induction l with
      | nil => rfl
      | cons c l ih => simp only [List.foldr_cons, ih]; omega
    rw [← this]
    congr 1
    split <;> omega

theorem c80_foldr_perm_aux {l l' : List Nat} (h : l.Perm l') : l.foldr max 0 = l'.foldr max 0 := by
  induction h with
  | nil => rfl
  | cons _ _ ih => simp only [List.foldr_cons, ih]
  | swap a b l => simp only [List.foldr_cons]; omega
  | trans _ _ i1 i2 => rw [i1, i2]

/-- the value of every element -/
theorem c80_value_aux {H : Text → Nat} {history : List (Text × V)} {m : HMap Text V} (h : BoundIn H history m) {e : MapElem Text V}
    (he : e ∈ m.buckets.flatten) : ∃ v, latest history e.key = some v ∧ e.values = [v] := by
  obtain ⟨r, g1, g2⟩ := h.value e.key
  obtain ⟨r', g3, g4⟩ := c17_get_aux (c77_keys_aux H) h.inv e.key
  rw [g1] at g3; cases g3
  have hf : Spec.Entries.lookup (keys H).eqv (m.buckets.flatten.map HMap.entry) e.key = some (HMap.entry e) := by
    unfold Spec.Entries.lookup
    have hd := h.inv.distinct
    generalize m.buckets.flatten = l at he hd
    induction l with
    | nil => cases he
    | cons a l ih =>
      rw [List.map_cons, List.find?_cons]
      rcases List.mem_cons.mp he with rfl | he
      · have : (keys H).eqv e.key (HMap.entry e).1 = true := (stringIsEqual_iff _ _).mpr rfl
        rw [this]
      · have hne := (List.pairwise_cons.mp hd).1 e he
        have : (keys H).eqv e.key (HMap.entry a).1 = false := by
          rcases hb : (keys H).eqv e.key (HMap.entry a).1 with _ | _
          · rfl
          · have : e.key = a.key := (stringIsEqual_iff _ _).mp hb
            rw [this, show (keys H).eqv a.key a.key = true from (stringIsEqual_iff _ _).mpr rfl] at hne
            cases hne
        rw [this]
        exact ih he (List.pairwise_cons.mp hd).2
  rw [hf] at g4
  cases r with
  | none => simp at g4
  | some x =>
    simp only [Option.map_some, Option.some.injEq] at g4 g2
    have e2 : x.2.2.values = e.values := congrArg Prod.snd g4
    cases hl : latest history e.key with
    | none => rw [hl] at g2; simp at g2
    | some v =>
      rw [hl] at g2
      simp only [Option.map_some, Option.some.injEq] at g2
      exact ⟨v, rfl, by rw [← e2, g2]⟩

theorem c80_octets_aux {s : Text} (h : ∀ c ∈ s, PrintCh c) : (octetsOf s).length = octetCount s := by
  unfold octetCount
  rw [← octetsOf_map s h, List.length_map]

/-- the row of an element -/
def c80Row (shows : V → Text) (e : MapElem Text V) : Text × Text := (e.key, ((e.values.head?.map shows).map beforeNul).getD [])

theorem c80_rows_aux {H : Text → Nat} {shows : V → Text} {history : List (Text × V)} {m : HMap Text V} (h : BoundIn H history m)
    (hf : ∀ b ∈ history, (∀ c ∈ b.1, PrintCh c) ∧ b.1.length < 2 ^ 31) {es : List (MapElem Text V)} (hp : es.Perm m.buckets.flatten)
    (ho : es.Pairwise fun a b => compareKeys a b ≤ 0) : RowsOf shows history (es.map (c80Row shows)) where
  ordered := by
    rw [List.pairwise_map]
    have hd : es.Pairwise fun a b => a.key ≠ b.key := by
      refine (hp.pairwise_iff (fun {a b} hab e => hab e.symm)).mpr (h.inv.distinct.imp fun {a b} hab e => ?_)
      exact Bool.noConfusion (hab.symm.trans ((stringIsEqual_iff a.key b.key).mpr e))
    refine (ho.and hd).imp_of_mem fun {a b} ha hb hab => ?_
    have pa : ∀ e ∈ es, ∀ c ∈ e.key, PrintCh c := by
      intro e he
      obtain ⟨b, hb, hk⟩ := List.mem_map.mp ((h.names e.key).mp (List.mem_map_of_mem (hp.mem_iff.mp he)))
      rw [← hk]; exact (hf b hb).1
    have h1 := hab.1
    unfold compareKeys at h1
    rw [c80_order_aux (pa a ha) (pa b hb)] at h1
    show lexCmp a.key b.key = .lt
    cases e : lexCmp a.key b.key with
    | lt => rfl
    | eq => exact absurd (Spec.lexCmp_eq _ _ e) hab.2
    | gt => rw [e] at h1; exact absurd h1 (by decide)
  bound n t := by
    constructor
    · intro hm
      obtain ⟨e, he, hr⟩ := List.mem_map.mp hm
      obtain ⟨v, h1, h2⟩ := c80_value_aux h (hp.mem_iff.mp he)
      simp only [c80Row, h2, Prod.mk.injEq] at hr
      obtain ⟨rfl, rfl⟩ := hr
      exact ⟨v, h1, rfl⟩
    · rintro ⟨v, h1, rfl⟩
      have hn : n ∈ history.map (·.1) := by
        unfold latest at h1
        obtain ⟨b, hb, _⟩ := Option.map_eq_some_iff.mp h1
        have := List.find?_some hb
        simp only [decide_eq_true_eq] at this
        rw [← this]
        exact List.mem_map_of_mem (List.mem_reverse.mp (List.mem_of_find?_eq_some hb))
      obtain ⟨e, he, rfl⟩ := List.mem_map.mp ((h.names n).mpr hn)
      obtain ⟨w, h3, h4⟩ := c80_value_aux h he
      rw [h1] at h3; cases h3
      exact List.mem_map.mpr ⟨e, hp.mem_iff.mpr he, by simp [c80Row, h4]⟩

theorem c80_nul_aux (depth : Nat) : ∀ rowss : List (List (Text × Text)),
    (∀ rows ∈ rowss, ∀ r ∈ rows, (∀ c ∈ r.1, c ≠ 0) ∧ ∀ c ∈ r.2, c ≠ 0) → ∀ c ∈ environmentText depth rowss, c ≠ 0 := by
  intro rowss
  induction rowss generalizing depth with
  | nil => intro _ c hc; cases hc
  | cons rows rowss ih =>
    intro h c hc
    have tabs : ∀ (n : Nat) (x : Ch), x ≠ 0 → ∀ c ∈ List.replicate n x, c ≠ 0 := fun n x hx c hc => (List.mem_replicate.mp hc).2 ▸ hx
    simp only [environmentText, List.mem_append] at hc
    rcases hc with ((((hc | hc) | hc) | hc) | hc) | hc
    · exact tabs _ _ (by decide) c hc
    · revert c; decide
    · exact ih (depth + 1) (fun rows hr => h rows (.tail _ hr)) c hc
    · obtain ⟨l, hl, hc⟩ := List.mem_flatten.mp hc
      obtain ⟨r, hr, rfl⟩ := List.mem_map.mp hl
      have := h rows (.head _) r hr
      simp only [rowText, List.mem_append] at hc
      rcases hc with ((((hc | hc) | hc) | hc) | hc) | hc
      · exact tabs _ _ (by decide) c hc
      · exact this.1 c hc
      · exact tabs _ _ (by decide) c hc
      · exact (by decide : ∀ c ∈ txt " -> ", c ≠ 0) c hc
      · exact this.2 c hc
      · exact (by decide : ∀ c ∈ txt "\n", c ≠ 0) c hc
    · exact tabs _ _ (by decide) c hc
    · revert c; decide

theorem c80_text_aux {H : Text → Nat} {sort : (MapElem Text V → MapElem Text V → Int) → List (MapElem Text V) → List (MapElem Text V)} (hS : Sorter sort)
    (shows : V → Text) {chain : List (List (Text × V))} {envs : List (HMap Text V)} (h : List.Forall₂ (BoundIn H) chain envs) (hf : NamesFit chain) :
    ∀ depth, ∃ rowss, List.Forall₂ (RowsOf shows) chain rowss ∧ toText sort shows depth envs = some (environmentText depth rowss) := by
  induction h with
  | nil => intro depth; exact ⟨[], .nil, rfl⟩
  | @cons history m chain envs h1 h2 ih =>
    intro depth
    obtain ⟨rowss, r1, r2⟩ := ih (fun g hg => hf g (.tail _ hg)) (depth + 1)
    have hfit := hf history (.head _)
    have hpr : ∀ e ∈ m.buckets.flatten, (∀ c ∈ e.key, PrintCh c) ∧ e.key.length < 2 ^ 31 := by
      intro e he
      obtain ⟨b, hb, hk⟩ := List.mem_map.mp ((h1.names e.key).mp (List.mem_map_of_mem he))
      rw [← hk]; exact hfit b hb
    obtain ⟨hp, ho⟩ := hS compareKeys m.buckets.flatten (c80_comparison_aux fun e he => (hpr e he).1)
    have rows := c80_rows_aux (shows := shows) h1 hfit hp ho
    refine ⟨_ :: rowss, .cons rows r1, ?_⟩
    have hw : longest m.buckets.flatten 0 = widestName ((sort compareKeys m.buckets.flatten).map (c80Row shows)) := by
      rw [c80_longest_aux, widestName, List.map_map]
      exact c80_foldr_perm_aux (hp.symm.map _)
    have hsmall : ¬ longest m.buckets.flatten 0 > 2147483647 := by
      rw [c80_longest_aux]
      have : ∀ l : List Nat, (∀ a ∈ l, a < 2 ^ 31) → l.foldr max 0 ≤ 2147483647 := by
        intro l
        induction l with
        | nil => intro _; simp
        | cons a l ih => intro h; have := h a (.head _); have := ih fun b hb => h b (.tail _ hb); simp only [List.foldr_cons]; omega
      have := this (m.buckets.flatten.map fun e => e.key.length) (by
        intro a ha
        obtain ⟨e, he, rfl⟩ := List.mem_map.mp ha
        exact (hpr e he).2)
      omega
    have hclean : beforeNul (environmentText (depth + 1) rowss) = environmentText (depth + 1) rowss := by
      refine c77_before_aux (c80_nul_aux _ _ ?_)
      have : ∀ (chain : List (List (Text × V))) rowss, NamesFit chain → List.Forall₂ (RowsOf shows) chain rowss →
          ∀ rows ∈ rowss, ∀ r ∈ rows, (∀ c ∈ r.1, c ≠ 0) ∧ ∀ c ∈ r.2, c ≠ 0 := by
        intro chain rowss hf hr
        induction hr with
        | nil => intro rows h; cases h
        | @cons history rs _ _ k1 _ ih =>
          intro rows hrows r hr
          rcases List.mem_cons.mp hrows with rfl | hrows
          · obtain ⟨v, l1, l2⟩ := (k1.bound r.1 r.2).mp hr
            constructor
            · unfold latest at l1
              obtain ⟨b, hb, _⟩ := Option.map_eq_some_iff.mp l1
              have hk := List.find?_some hb
              simp only [decide_eq_true_eq] at hk
              have := (hf history (.head _) b (List.mem_reverse.mp (List.mem_of_find?_eq_some hb))).1
              rw [hk] at this
              exact fun c hc => (this c hc).2
            · rw [l2]; exact c78_before_ne_aux _
          · exact ih (fun g hg => hf g (.tail _ hg)) rows hrows r hr
      exact this chain rowss (fun g hg => hf g (.tail _ hg)) r1
    have hl : (sort compareKeys m.buckets.flatten).mapM (line (List.replicate depth 0x9) (longest m.buckets.flatten 0) shows) =
        some ((sort compareKeys m.buckets.flatten).map fun e => rowText (List.replicate depth 0x9) (longest m.buckets.flatten 0) (c80Row shows e)) := by
      refine c78_mapM_aux _ _ _ fun e he => ?_
      have he' := hp.mem_iff.mp he
      obtain ⟨v, _, hv⟩ := c80_value_aux h1 he'
      have hk := (hpr e he').1
      have hk0 : beforeNul e.key = e.key := c77_before_aux fun c hc => (hk c hc).2
      have hev : HMap.elemValue e = some (some v) := by simp [HMap.elemValue, hv]
      simp only [line, hev, getCString_eq e.key hk, rowText, c80Row, hv, hk0, c80_octets_aux hk, List.head?_cons, Option.map_some, Option.getD_some,
        List.append_assoc]
    simp only [toText, r2, c80_elements_aux h1.inv, Option.bind_eq_bind, Option.bind_some, if_neg hsmall, hl, hclean]
    simp only [environmentText, hw, List.map_map, Function.comp_def]

theorem c80_rows_unique_aux : ∀ {a b : List (Text × Text)}, (a.Pairwise fun x y => lexCmp x.1 y.1 = .lt) → (b.Pairwise fun x y => lexCmp x.1 y.1 = .lt) →
    (∀ n t, (n, t) ∈ a ↔ (n, t) ∈ b) → a = b
  | [], [], _, _, _ => rfl
  | [], (n, t) :: _, _, _, h => absurd ((h n t).mpr (.head _)) (by simp)
  | (n, t) :: _, [], _, _, h => absurd ((h n t).mp (.head _)) (by simp)
  | (n, t) :: a, (n', t') :: b, ha, hb, h => by
    rw [List.pairwise_cons] at ha hb
    have irr : ∀ x : Text, lexCmp x x ≠ .lt := fun x e => by rw [Spec.lexCmp_refl] at e; cases e
    have hd : (n, t) = (n', t') := by
      rcases List.mem_cons.mp ((h n t).mp (.head _)) with e | h1
      · exact e
      · rcases List.mem_cons.mp ((h n' t').mpr (.head _)) with e | h2
        · exact e.symm
        · exact absurd (Spec.lexCmp_trans _ _ _ (hb.1 _ h1) (ha.1 _ h2)) (irr _)
    obtain ⟨rfl, rfl⟩ := Prod.mk.inj hd
    congr 1
    refine c80_rows_unique_aux ha.2 hb.2 fun k u => ⟨fun hk => ?_, fun hk => ?_⟩
    · rcases List.mem_cons.mp ((h k u).mp (.tail _ hk)) with e | e
      · obtain ⟨rfl, rfl⟩ := Prod.mk.inj e
        exact absurd (ha.1 _ hk) (irr _)
      · exact e
    · rcases List.mem_cons.mp ((h k u).mpr (.tail _ hk)) with e | e
      · obtain ⟨rfl, rfl⟩ := Prod.mk.inj e
        exact absurd (hb.1 _ hk) (irr _)
      · exact e

theorem c80_unique_aux {shows : V → Text} {history history' : List (Text × V)} {a b : List (Text × Text)} (ha : RowsOf shows history a)
    (hb : RowsOf shows history' b) (h : ∀ n, latest history n = latest history' n) : a = b :=
  c80_rows_unique_aux ha.ordered hb.ordered fun n t => by rw [ha.bound, hb.bound, h]

/-! ### Theorems -/

/-- There is a sort as the C library promises it. -/
theorem c80_sorter {α : Type} : ∃ sort : (α → α → Int) → List α → List α, Sorter sort := by
  refine ⟨fun c l => (l.attach.mergeSort fun a b => decide (c a.1 b.1 ≤ 0)).map (·.1), fun c l h => ⟨?_, ?_⟩⟩
  · have := (List.mergeSort_perm l.attach fun a b => decide (c a.1 b.1 ≤ 0)).map (·.1)
    simpa using this
  · rw [List.pairwise_map]
    refine (List.pairwise_mergeSort (fun a b d h1 h2 => ?_) (fun a b => ?_) l.attach).imp fun {a b} hab => by simpa using hab
    · simp only [decide_eq_true_eq] at *
      exact h.trans _ a.2 _ b.2 _ d.2 h1 h2
    · have := h.opposite _ b.2 _ a.2
      simp only [Bool.or_eq_true, decide_eq_true_eq]
      omega

/-- Showing a chain of environments never aborts.  Each environment is shown between a header and a footer, after the ones outside, which are one tab deeper: every name
that is bound in it, once and in order, with its latest value. -/
theorem c80_shown {sort : (MapElem Text V → MapElem Text V → Int) → List (MapElem Text V) → List (MapElem Text V)} (hS : Sorter sort) (H : Text → Nat)
    (shows : V → Text) (chain : List (List (Text × V))) (hf : NamesFit chain) :
    ∃ envs rowss, chain.mapM (fun history => bound H history HMap.new) = some envs ∧ List.Forall₂ (RowsOf shows) chain rowss ∧
      toText sort shows 0 envs = some (environmentText 0 rowss) := by
  obtain ⟨envs, h1, h2⟩ := c78_histories_aux H chain
  obtain ⟨rowss, r1, r2⟩ := c80_text_aux hS shows h2 hf 0
  exact ⟨envs, rowss, h1, r1, r2⟩

/-- The text depends on nothing but the latest value of every name in every environment: neither on how often or in which order names were bound, nor on the hash of
names, nor on the order the sort gives to equal elements. -/
theorem c80_determined {sort sort' : (MapElem Text V → MapElem Text V → Int) → List (MapElem Text V) → List (MapElem Text V)} (hS : Sorter sort)
    (hS' : Sorter sort') (H H' : Text → Nat) (shows : V → Text) {chain chain' : List (List (Text × V))} (hf : NamesFit chain) (hf' : NamesFit chain')
    (h : List.Forall₂ (fun a b => ∀ n, latest a n = latest b n) chain chain') {envs envs' : List (HMap Text V)}
    (he : chain.mapM (fun history => bound H history HMap.new) = some envs) (he' : chain'.mapM (fun history => bound H' history HMap.new) = some envs') :
    toText sort shows 0 envs = toText sort' shows 0 envs' := by
  obtain ⟨e1, r1, a1, a2, a3⟩ := c80_shown hS H shows chain hf
  obtain ⟨e2, r2, b1, b2, b3⟩ := c80_shown hS' H' shows chain' hf'
  rw [he] at a1; cases a1
  rw [he'] at b1; cases b1
  rw [a3, b3]
  have : r1 = r2 := by
    clear a3 b3 he he' hf hf'
    induction h generalizing r1 r2 with
    | nil => cases a2; cases b2; rfl
    | cons hh _ ih =>
      cases a2 with
      | cons x1 x2 =>
        cases b2 with
        | cons y1 y2 => rw [c80_unique_aux x1 y1 hh, ih _ x2 _ y2]
  rw [this]

/-- If all names are ASCII, the values of an environment are shown in one column. -/
theorem c80_aligned (indent : Text) (rows : List (Text × Text)) (ha : ∀ r ∈ rows, ∀ c ∈ r.1, c < 0x80) :
    ∀ r ∈ rows, ∃ field, rowText indent (widestName rows) r = indent ++ field ++ txt " -> " ++ r.2 ++ txt "\n" ∧ r.1 <+: field ∧
      field.length = widestName rows := by
  intro r hr
  have ho : octetCount r.1 = r.1.length := by
    have := ha r hr
    unfold octetCount
    generalize r.1 = s at this
    induction s with
    | nil => rfl
    | cons c s ih =>
      have hc : (Spec.Utf8.encode c).length = 1 := by
        have := this c (.head _)
        unfold Spec.Utf8.encode
        rw [if_pos (by omega)]; rfl
      rw [List.flatMap_cons, List.length_append, hc, ih fun d hd => this d (.tail _ hd), List.length_cons]; omega
  have hle : r.1.length ≤ widestName rows := by
    unfold widestName
    clear ha
    induction rows with
    | nil => cases hr
    | cons a rows ih =>
      simp only [List.map_cons, List.foldr_cons]
      rcases List.mem_cons.mp hr with rfl | hr
      · omega
      · have := ih hr; omega
  refine ⟨r.1 ++ List.replicate (widestName rows - octetCount r.1) 0x20, by simp [rowText], ⟨_, rfl⟩, ?_⟩
  rw [List.length_append, List.length_replicate, ho]; omega

/-- What does not hold: that the values are always shown in one column.  The width is counted in characters but filled in octets. -/
theorem c80_misaligned {sort : (MapElem Text Text → MapElem Text Text → Int) → List (MapElem Text Text) → List (MapElem Text Text)} (hS : Sorter sort)
    (H : Text → Nat) : ∃ envs, [[([0xe4], txt "2"), (txt "abc", txt "1")]].mapM (fun history => bound H history HMap.new) = some envs ∧
      toText sort id 0 envs = some (txt "---------- environment ----------\nabc -> 1\n" ++ [0xe4] ++ txt "  -> 2\n---------------------------------\n") := by
  have hf : NamesFit [[([0xe4], txt "2"), (txt "abc", txt "1")]] := by
    intro history hh b hb
    simp only [List.mem_singleton] at hh
    subst hh
    simp only [List.mem_cons, List.not_mem_nil, or_false] at hb
    rcases hb with rfl | rfl <;> decide
  obtain ⟨envs, rowss, h1, h2, h3⟩ := c80_shown hS H id _ hf
  refine ⟨envs, h1, ?_⟩
  rw [h3]
  cases h2 with
  | cons r1 r2 =>
    cases r2
    have hl : ∀ n, latest [([0xe4], txt "2"), (txt "abc", txt "1")] n = if txt "abc" = n then some (txt "1") else if [0xe4] = n then some (txt "2") else none := by
      intro n
      simp only [latest, List.reverse_cons, List.reverse_nil, List.nil_append, List.cons_append, List.find?_cons, List.find?_nil]
      by_cases e1 : txt "abc" = n
      · simp [e1]
      · by_cases e2 : [0xe4] = n
        · simp [e1, e2]
        · simp [e1, e2]
    have : RowsOf id [([0xe4], txt "2"), (txt "abc", txt "1")] [(txt "abc", txt "1"), ([0xe4], txt "2")] := by
      refine ⟨by simp [txt, lexCmp], fun n t => ?_⟩
      rw [hl n]
      simp only [List.mem_cons, List.not_mem_nil, or_false, Prod.mk.injEq]
      constructor
      · rintro (⟨rfl, rfl⟩ | ⟨rfl, rfl⟩)
        · exact ⟨_, if_pos rfl, by decide⟩
        · exact ⟨txt "2", by rw [if_neg (by decide), if_pos rfl], by decide⟩
      · rintro ⟨v, h, rfl⟩
        split at h
        · rename_i e; cases h; exact .inl ⟨e.symm, by decide⟩
        · split at h
          · rename_i e; cases h; exact .inr ⟨e.symm, by decide⟩
          · cases h
    rw [c80_unique_aux r1 this fun _ => rfl]
    decide

/-! ### Examples -/

/-- a name bound twice, in an inner and an outer environment -/
example : NamesFit [[(txt "b", 1), (txt "a", 2), (txt "b", 3)], [(txt "long-name", 4)]] := by
  intro history hh b hb
  simp only [List.mem_cons, List.not_mem_nil, or_false] at hh
  rcases hh with rfl | rfl
  · simp only [List.mem_cons, List.not_mem_nil, or_false] at hb
    rcases hb with rfl | rfl | rfl <;> decide
  · simp only [List.mem_cons, List.not_mem_nil, or_false] at hb
    subst hb; decide

example : environmentText 0 [[(txt "a", txt "2"), (txt "bcd", txt "3")], [(txt "e", txt "4")]] =
    txt ("---------- environment ----------\n\t---------- environment ----------\n\te -> 4\n\t---------------------------------\n" ++
      "a   -> 2\nbcd -> 3\n---------------------------------\n") := by decide +kernel

end Dern.Props
