import Mathlib.Data.List.Forall2
import Verif.Dern.SymbolValue
import Verif.Props.C42
import Verif.Props.C77
/-
C78: what a symbol evaluates to, and the names suggested for one that is not bound.
-/
namespace Dern.Props
open Dern Dern.Registry Dern.SymbolValue
open Dern.Spec (Entries MapOp AssignOp EditDistance beforeNul)
variable {V : Type}

/-! ### Specification -/

/-- the value a name was bound to last -/
def latest (history : List (Text × V)) (name : Text) : Option V := (history.reverse.find? fun b => b.1 = name).map (·.2)

/-- the value of a name in the innermost environment that binds it -/
def innermost : List (List (Text × V)) → Text → Option V
  | [], _ => none
  | history :: outer, name => (latest history name).or (innermost outer name)

/-- a name in quotes -/
def quoted (n : Text) : Text := txt "'" ++ beforeNul n ++ txt "'"

def alternatives : List Text → Text
  | [] => txt "?"
  | [z] => txt " or " ++ quoted z ++ txt "?"
  | b :: bs => txt ", " ++ quoted b ++ alternatives bs

/-- `Did you mean 'a'?`, `Did you mean 'a' or 'b'?`, `Did you mean 'a', 'b' or 'c'?` and so on -/
def suggestion : List Text → Text
  | [] => []
  | a :: bs => txt "Did you mean " ++ quoted a ++ alternatives bs

/-- one of some names, and no other of them is nearer -/
def Closest (name : Text) (names : List Text) (n : Text) : Prop :=
  n ∈ names ∧ ∃ d, EditDistance name n d ∧ ∀ m ∈ names, ∀ e, EditDistance name m e → d ≤ e

/-- the names of one environment, each once, in some order -/
def NamesOf (history : List (Text × V)) (names : List Text) : Prop := names.Nodup ∧ ∀ n, n ∈ names ↔ n ∈ history.map (·.1)

/-- the message for a name: the nearest of the given names, in their order -/
def Suggested (name : Text) (names : List Text) (msg : Text) : Prop :=
  ∃ near : Text → Bool, (∀ n ∈ names, near n = true ↔ Closest name names n) ∧
    msg = txt "Unbound symbol " ++ quoted name ++ txt ". " ++ suggestion (names.filter near)

/-- an environment after a history of bindings -/
def bound (H : Text → Nat) : List (Text × V) → HMap Text V → Option (HMap Text V)
  | [], m => some m
  | (n, v) :: bs, m => (assign H m n v).bind (bound H bs)

/-! ### Proofs -/

def c78Ops (history : List (Text × V)) : List (AssignOp Text V) := history.map fun b => .set b.1 b.2

theorem c78_bound_aux (H : Text → Nat) (history : List (Text × V)) : ∀ m : HMap Text V,
    bound H history m = m.run (keys H) ((c78Ops history).flatMap AssignOp.toMapOps) := by
  induction history with
  | nil => intro m; rfl
  | cons b history ih =>
    intro m
    obtain ⟨n, v⟩ := b
    simp only [bound, c78Ops, List.map_cons, List.flatMap_cons, AssignOp.toMapOps, List.cons_append, List.nil_append, HMap.run, HMap.apply, assign]
    cases hr : m.remove (keys H) n with
    | none => rfl
    | some x =>
      simp only [Option.map_some]
      cases x.1.put (keys H) n v with
      | none => rfl
      | some m' => exact ih m'

theorem c78_latest_aux (H : Text → Nat) (name : Text) (history : List (Text × V)) : ∀ (f : Text → Option V),
    (c78Ops history).foldl (fun f op => op.apply (keys H).eqv f) f name = (latest history name).or (f name) := by
  induction history with
  | nil => intro f; rfl
  | cons b history ih =>
    intro f
    simp only [c78Ops, List.map_cons, List.foldl_cons] at ih ⊢
    rw [ih]
    simp only [latest, List.reverse_cons, List.find?_append, AssignOp.apply]
    cases hf : history.reverse.find? fun b => b.1 = name with
    | some x => simp
    | none =>
      simp only [Option.map_none, Option.none_or, List.find?_cons, List.find?_nil]
      by_cases hb : b.1 = name
      · have : (keys H).eqv b.1 name = true := (stringIsEqual_iff _ _).mpr hb
        rw [if_pos this, decide_eq_true hb]; rfl
      · have : ¬ (keys H).eqv b.1 name = true := fun h => hb ((stringIsEqual_iff _ _).mp h)
        rw [if_neg this, decide_eq_false hb]; rfl

/-- the map of an environment, and what was bound in it -/
structure BoundIn (H : Text → Nat) (history : List (Text × V)) (m : HMap Text V) : Prop where
  inv : m.Inv (keys H)
  value : ∀ n, ∃ r, m.get (keys H) n = some r ∧ r.map (fun x => x.2.2.values) = (latest history n).map fun v => [v]
  names : ∀ n, n ∈ m.buckets.flatten.map (·.key) ↔ n ∈ history.map (·.1)

theorem c78_history_aux (H : Text → Nat) (history : List (Text × V)) : ∃ m, bound H history HMap.new = some m ∧ BoundIn H history m := by
  have L := c77_keys_aux H
  obtain ⟨m, h1, h2, h3⟩ := c17_run_aux L ((c78Ops history).flatMap AssignOp.toMapOps) (HMap.new_inv (keys H)) [] (by simp [HMap.new])
  have val : ∀ n, ∃ r, m.get (keys H) n = some r ∧ r.map (fun x => x.2.2.values) = (latest history n).map fun v => [v] := by
    intro n
    obtain ⟨r, g1, g2⟩ := c17_get_aux L h2 n
    refine ⟨r, g1, ?_⟩
    rw [c17_find_perm_aux L n h3 (by rw [List.pairwise_map]; exact h2.distinct)] at g2
    have key : ∀ (ops : List (AssignOp Text V)) (s : Entries Text V) (f : Text → Option V),
        (∀ k, (s.lookup (keys H).eqv k).map (·.2) = (f k).map fun v => [v]) →
        ∀ k, (((ops.flatMap AssignOp.toMapOps).foldl (fun s op => op.apply (keys H).eqv s) s).lookup (keys H).eqv k).map (·.2) =
          (ops.foldl (fun f op => op.apply (keys H).eqv f) f k).map fun v => [v] := by
      intro ops
      induction ops with
      | nil => intro s f h; exact h
      | cons op ops ih =>
        intro s f h
        rw [List.flatMap_cons, List.foldl_append, List.foldl_cons]
        exact ih _ _ (c17_assign_step_aux L s f h op)
    have := key (c78Ops history) [] (fun _ => none) (fun _ => rfl) n
    rw [c78_latest_aux H n history, Option.or_none] at this
    rw [← this]
    have g3 := congrArg (Option.map Prod.snd) g2
    rw [Option.map_map] at g3
    exact g3
  refine ⟨m, by rw [c78_bound_aux, h1], h2, val, fun n => ?_⟩
  obtain ⟨r, g1, g2⟩ := val n
  obtain ⟨r', g3, g4⟩ := c17_get_aux L h2 n
  rw [g1] at g3; cases g3
  have e1 : r.isSome = true ↔ n ∈ m.buckets.flatten.map (·.key) := by
    have := congrArg Option.isSome g4
    rw [Option.isSome_map] at this
    rw [this, Entries.lookup, List.find?_isSome]
    constructor
    · rintro ⟨e, he, hk⟩
      obtain ⟨x, hx, rfl⟩ := List.mem_map.mp he
      exact List.mem_map.mpr ⟨x, hx, ((stringIsEqual_iff n x.key).mp hk).symm⟩
    · intro hn
      obtain ⟨x, hx, rfl⟩ := List.mem_map.mp hn
      exact ⟨_, List.mem_map_of_mem hx, (stringIsEqual_iff _ _).mpr rfl⟩
  have e2 : r.isSome = true ↔ n ∈ history.map (·.1) := by
    have := congrArg Option.isSome g2
    rw [Option.isSome_map, Option.isSome_map] at this
    rw [this, latest, Option.isSome_map, List.find?_isSome]
    simp
  exact e1.symm.trans e2

theorem c78_get_aux {H : Text → Nat} {chain : List (List (Text × V))} {envs : List (HMap Text V)} (h : List.Forall₂ (BoundIn H) chain envs) (name : Text) :
    find H envs name = some (innermost chain name) := by
  induction h with
  | nil => rfl
  | cons h1 _ ih =>
    obtain ⟨r, g1, g2⟩ := h1.value name
    simp only [find, g1, innermost]
    cases hl : latest _ name with
    | none =>
      rw [hl] at g2
      cases r with
      | none => simpa using ih
      | some x => simp at g2
    | some v =>
      rw [hl] at g2
      cases r with
      | none => simp at g2
      | some x =>
        obtain ⟨i, j, x⟩ := x
        simp only [Option.map_some, Option.some.injEq] at g2
        simp [HMap.elemValue, g2]

theorem c78_mapM_aux {α β : Type} (f : α → Option β) (g : α → β) : ∀ l : List α, (∀ a ∈ l, f a = some (g a)) → l.mapM f = some (l.map g)
  | [], _ => rfl
  | a :: l, h => by
    rw [List.mapM_cons, h a (.head _), c78_mapM_aux f g l fun b hb => h b (.tail _ hb)]; rfl

theorem c78_own_aux {H : Text → Nat} {history : List (Text × V)} {m : HMap Text V} (h : BoundIn H history m) :
    ∃ names, ownNames m = some names ∧ NamesOf history names := by
  refine ⟨m.buckets.flatten.map (·.key), ?_, ?_, h.names⟩
  · unfold ownNames
    have e : ∀ i : Nat, m.atIndex i = m.buckets.flatten[i]? := by
      intro i
      unfold HMap.atIndex
      rw [if_neg (by omega), c17_atIndexLoop_aux _ _ 0 (by omega)]
      simp
    simp only [e, h.inv.num]
    generalize m.buckets.flatten = l
    rw [c78_mapM_aux _ (fun i => (l[i]?.map (·.key)).getD []) _ fun i hi => by
      rw [List.getElem?_eq_getElem (List.mem_range.mp hi)]; rfl]
    congr 1
    apply List.ext_getElem (by simp)
    intro i h1 h2
    simp only [List.length_map, List.length_range] at h1
    simp [List.getElem?_eq_getElem h1]
  · have := h.inv.distinct
    unfold List.Nodup
    rw [List.pairwise_map]
    refine this.imp fun {a b} hab e => ?_
    exact Bool.noConfusion (hab.symm.trans ((stringIsEqual_iff a.key b.key).mpr e))

theorem c78_names_aux {H : Text → Nat} {chain : List (List (Text × V))} {envs : List (HMap Text V)} (h : List.Forall₂ (BoundIn H) chain envs) :
    ∃ groups, List.Forall₂ NamesOf chain groups ∧ visibleNames envs = some groups.reverse.flatten := by
  induction h with
  | nil => exact ⟨[], .nil, rfl⟩
  | cons h1 _ ih =>
    obtain ⟨own, g1, g2⟩ := c78_own_aux h1
    obtain ⟨groups, g3, g4⟩ := ih
    exact ⟨own :: groups, .cons g2 g3, by simp [visibleNames, g4, g1]⟩

theorem c78_lev_aux (s t : Text) : levenshtein s t = some (lev s t) := by
  obtain ⟨n, h1, h2, h3⟩ := c42_levenshtein_is_edit_distance s t
  rw [h1, Nat.le_antisymm (h3 _ (edits_lev s t)) (lev_le h2)]

theorem c78_distance_aux {s t : Text} {d : Nat} : EditDistance s t d ↔ d = lev s t := by
  refine ⟨fun ⟨h1, h2⟩ => Nat.le_antisymm (h2 _ (edits_lev s t)) (lev_le h1), ?_⟩
  rintro rfl
  exact ⟨edits_lev s t, fun m hm => lev_le hm⟩

theorem c78_most_aux : ∀ (k : Nat) (s t : Text), s.length + t.length ≤ k → lev s t ≤ max s.length t.length := by
  intro k
  induction k with
  | zero =>
    intro s t h
    have : s = [] := List.length_eq_zero_iff.mp (by omega)
    subst this
    rw [lev_nil_left]; omega
  | succ k ih =>
    intro s t h
    cases s with
    | nil => rw [lev_nil_left]; omega
    | cons a s =>
      cases t with
      | nil => rw [lev_nil_right]; omega
      | cons b t =>
        simp only [List.length_cons] at h ⊢
        have := ih s t (by omega)
        rw [lev_cons]
        split
        · omega
        · omega

theorem c78_shortest_aux (name : Text) (names : List Text) : ∀ b, ∃ best, shortest name names b = some best ∧ best ≤ b ∧ (∀ n ∈ names, best ≤ lev name n) ∧
    (best = b ∨ ∃ n ∈ names, best = lev name n) := by
  induction names with
  | nil => intro b; exact ⟨b, rfl, Nat.le_refl _, by simp, .inl rfl⟩
  | cons n ns ih =>
    intro b
    obtain ⟨best, h1, h2, h3, h4⟩ := ih (if lev name n < b then lev name n else b)
    refine ⟨best, by simp only [shortest, c78_lev_aux, h1], ?_, ?_, ?_⟩
    · split at h2 <;> omega
    · intro m hm
      rcases List.mem_cons.mp hm with rfl | hm
      · split at h2 <;> omega
      · exact h3 m hm
    · rcases h4 with h4 | ⟨m, hm, h4⟩
      · split at h4
        · exact .inr ⟨n, .head _, h4⟩
        · exact .inl h4
      · exact .inr ⟨m, .tail _ hm, h4⟩

theorem c78_count_aux (name : Text) (best : Nat) (names : List Text) : ∀ k,
    countBest name best names k = some (k + (names.filter fun n => decide (lev name n = best)).length) := by
  induction names with
  | nil => intro k; rfl
  | cons n ns ih =>
    intro k
    simp only [countBest, c78_lev_aux, ih, List.filter_cons]
    split <;> rename_i h <;> simp [h] <;> omega

/-- the pieces that are left when some were added -/
def c78Left (k : Nat) : List Text → Text
  | [] => []
  | bs@(_ :: _) => if k = 0 then suggestion bs else alternatives bs

theorem c78_collect_aux (name : Text) (best total : Nat) (names : List Text) : ∀ k acc,
    k + (names.filter fun n => decide (lev name n = best)).length = total →
    collectBest name best total names k acc = some (acc ++ c78Left k (names.filter fun n => decide (lev name n = best))) := by
  induction names with
  | nil => intro k acc _; simp [collectBest, c78Left]
  | cons n ns ih =>
    intro k acc hk
    simp only [collectBest, c78_lev_aux]
    by_cases h : lev name n = best
    · simp only [List.filter_cons, h, decide_true, if_true] at hk ⊢
      rw [ih _ _ (by simp only [List.length_cons] at hk; omega)]
      generalize (ns.filter fun n => decide (lev name n = best)) = l at hk
      simp only [List.length_cons] at hk
      cases k with
      | zero =>
        cases l with
        | nil => simp at hk; subst hk; simp [c78Left, suggestion, alternatives, quoted, txt]
        | cons z l => rw [if_pos rfl, if_neg (by simp at hk; omega)]; simp [c78Left, suggestion, quoted, txt]
      | succ k =>
        rw [if_neg (by omega)]
        cases l with
        | nil => rw [if_pos (by simp at hk; omega)]; simp [c78Left, alternatives, quoted, txt]
        | cons z l => rw [if_neg (by simp at hk; omega)]; simp [c78Left, alternatives, quoted, txt]
    · simp only [List.filter_cons, h, decide_false, Bool.false_eq_true, if_false] at hk ⊢
      exact ih _ _ hk

theorem c78_clean_aux {a : Text} (h : ∀ c ∈ a, c ≠ 0) : beforeNul a = a := c77_before_aux h

theorem c78_before_ne_aux : ∀ n : Text, ∀ c ∈ beforeNul n, c ≠ 0
  | [], c, h => by cases h
  | a :: n, c, h => by
    unfold beforeNul at h
    rw [List.takeWhile_cons] at h
    split at h
    · rename_i ha
      rcases List.mem_cons.mp h with rfl | h
      · simpa using ha
      · exact c78_before_ne_aux n c h
    · cases h

theorem c78_quoted_aux (n : Text) : ∀ c ∈ quoted n, c ≠ 0 := by
  intro c hc
  simp only [quoted, List.mem_append] at hc
  rcases hc with (h | h) | h
  · revert c; decide
  · exact c78_before_ne_aux n c h
  · revert c; decide

theorem c78_alternatives_aux : ∀ bs, ∀ c ∈ alternatives bs, c ≠ 0
  | [], c, h => by revert c; decide
  | [z], c, h => by
    simp only [alternatives, List.mem_append] at h
    rcases h with (h | h) | h
    · revert c; decide
    · exact c78_quoted_aux _ c h
    · revert c; decide
  | b :: z :: bs, c, h => by
    simp only [alternatives, List.mem_append] at h
    rcases h with (h | h) | h
    · revert c; decide
    · exact c78_quoted_aux _ c h
    · exact c78_alternatives_aux (z :: bs) c h

theorem c78_suggestion_aux : ∀ bs, ∀ c ∈ suggestion bs, c ≠ 0
  | [], c, h => by cases h
  | a :: bs, c, h => by
    simp only [suggestion, List.mem_append] at h
    rcases h with (h | h) | h
    · revert c; decide
    · exact c78_quoted_aux _ c h
    · exact c78_alternatives_aux bs c h

theorem c78_message_aux {name : Text} {names : List Text} (h : name.length < 2 ^ 31) (hs : ∀ n ∈ names, n.length < 2 ^ 31) :
    ∃ msg, message name names = some msg ∧ Suggested name names msg := by
  obtain ⟨best, h1, h2, h3, h4⟩ := c78_shortest_aux name names 2147483647
  refine ⟨txt "Unbound symbol " ++ quoted name ++ txt ". " ++ suggestion (names.filter fun n => decide (lev name n = best)), ?_, fun n => decide (lev name n = best), ?_, rfl⟩
  · simp only [message, h1, c78_count_aux]
    rw [c78_collect_aux _ _ _ _ 0 [] rfl]
    simp only [List.nil_append]
    have : c78Left 0 (names.filter fun n => decide (lev name n = best)) = suggestion (names.filter fun n => decide (lev name n = best)) := by
      generalize (names.filter fun n => decide (lev name n = best)) = l
      cases l <;> rfl
    rw [this, c78_clean_aux (c78_suggestion_aux _)]
    simp [quoted, txt]
  · intro n hn
    rw [decide_eq_true_iff]
    have hmost : lev name n ≤ 2147483647 := by
      have := c78_most_aux _ name n (Nat.le_refl _)
      have := hs n hn
      omega
    refine ⟨fun e => ⟨hn, _, c78_distance_aux.mpr rfl, fun m hm d hd => ?_⟩, ?_⟩
    · rw [c78_distance_aux.mp hd, e]; exact h3 m hm
    · rintro ⟨_, d, hd, hall⟩
      rw [c78_distance_aux.mp hd] at hall
      have := h3 n hn
      rcases h4 with rfl | ⟨m, hm, rfl⟩
      · omega
      · have := hall m hm _ (c78_distance_aux.mpr rfl)
        omega

theorem c78_histories_aux (H : Text → Nat) : ∀ chain : List (List (Text × V)), ∃ envs,
    chain.mapM (fun history => bound H history HMap.new) = some envs ∧ List.Forall₂ (BoundIn H) chain envs
  | [] => ⟨[], rfl, .nil⟩
  | history :: chain => by
    obtain ⟨m, h1, h2⟩ := c78_history_aux H history
    obtain ⟨envs, h3, h4⟩ := c78_histories_aux H chain
    exact ⟨m :: envs, by rw [List.mapM_cons, h1, h3]; rfl, .cons h2 h4⟩

theorem c78_innermost_none_aux {chain : List (List (Text × V))} {name : Text} (h : innermost chain name = none) :
    ∀ history ∈ chain, name ∉ history.map (·.1) := by
  induction chain with
  | nil => simp
  | cons history chain ih =>
    simp only [innermost, Option.or_eq_none_iff, latest, Option.map_eq_none_iff, List.find?_eq_none] at h
    intro g hg hn
    rcases List.mem_cons.mp hg with rfl | hg
    · obtain ⟨b, hb, rfl⟩ := List.mem_map.mp hn
      exact h.1 b (List.mem_reverse.mpr hb) (by simp)
    · exact ih h.2 g hg hn

theorem c78_one_aux {n : Text} {x : V} {g : List Text} (h : NamesOf [(n, x)] g) : g = [n] := by
  obtain ⟨h1, h2⟩ := h
  simp only [List.map_cons, List.map_nil, List.mem_singleton] at h2
  match g, h1, h2 with
  | [], _, h2 => exact absurd ((h2 n).mpr rfl) (by simp)
  | [a], _, h2 => rw [(h2 a).mp (by simp)]
  | a :: b :: g, h1, h2 =>
    have ha := (h2 a).mp (by simp)
    have hb := (h2 b).mp (by simp)
    subst ha; subst hb
    exact absurd h1 (by simp)

/-! ### Theorems -/

/-- Evaluating a symbol never aborts.  If the name is bound, the value is the latest one of the innermost environment that binds it; otherwise there is an error whose
message suggests the nearest of all names bound in these environments, the outermost environment first. -/
theorem c78_symbol (H : Text → Nat) (chain : List (List (Text × V))) (name : Text) (hn : name.length < 2 ^ 31)
    (hl : ∀ history ∈ chain, ∀ b ∈ history, b.1.length < 2 ^ 31) :
    ∃ envs r, chain.mapM (fun history => bound H history HMap.new) = some envs ∧ symbol H envs name = some r ∧
      match innermost chain name with
      | some v => r = .value v
      | none => ∃ groups msg, r = .error msg ∧ List.Forall₂ NamesOf chain groups ∧ Suggested name groups.reverse.flatten msg := by
  obtain ⟨envs, h1, h2⟩ := c78_histories_aux H chain
  have hg := c78_get_aux h2 name
  cases hi : innermost chain name with
  | some v => exact ⟨envs, _, h1, by simp only [symbol, hg, hi], rfl⟩
  | none =>
    obtain ⟨groups, g1, g2⟩ := c78_names_aux h2
    have hs : ∀ n ∈ groups.reverse.flatten, n.length < 2 ^ 31 := by
      clear g2 hg hi h1
      induction g1 generalizing envs with
      | nil => intro n hn; simp at hn
      | cons k1 _ ih =>
        cases h2 with
        | cons _ h2 =>
        intro n hn
        simp only [List.reverse_cons, List.flatten_append, List.mem_append, List.flatten_cons, List.flatten_nil, List.append_nil] at hn
        rcases hn with hn | hn
        · exact ih (fun history hh => hl history (.tail _ hh)) _ h2 n hn
        · obtain ⟨b, hb, rfl⟩ := List.mem_map.mp ((k1.2 n).mp hn)
          exact hl _ (.head _) b hb
    obtain ⟨msg, m1, m2⟩ := c78_message_aux hn hs
    exact ⟨envs, _, h1, by simp only [symbol, hg, hi, g2, m1, Option.map_some], groups, msg, rfl, g1, m2⟩

/-- The names that are suggested are bound in one of the environments and differ from the name that was asked for; there is a suggestion if anything is bound at all. -/
theorem c78_suggestions {chain : List (List (Text × V))} {groups : List (List Text)} {name : Text} (h : innermost chain name = none)
    (hg : List.Forall₂ NamesOf chain groups) :
    (∀ n, Closest name groups.reverse.flatten n → n ≠ name ∧ ∃ history ∈ chain, n ∈ history.map (·.1)) ∧
    ((∃ n, Closest name groups.reverse.flatten n) ↔ ∃ history ∈ chain, history ≠ []) := by
  have hm : ∀ n, n ∈ groups.reverse.flatten ↔ ∃ history ∈ chain, n ∈ history.map (·.1) := by
    clear h
    induction hg with
    | nil => simp
    | cons k1 _ ih =>
      intro n
      have := ih n
      simp only [List.mem_flatten, List.mem_reverse] at this
      simp only [List.reverse_cons, List.flatten_append, List.mem_append, List.flatten_cons, List.flatten_nil, List.append_nil, k1.2 n,
        List.exists_mem_cons_iff, List.mem_flatten, List.mem_reverse, this]
      exact or_comm
  refine ⟨fun n hc => ?_, fun ⟨n, hc⟩ => ?_, fun ⟨history, hh, hne⟩ => ?_⟩
  · obtain ⟨history, hh, hn⟩ := (hm n).mp hc.1
    exact ⟨fun e => c78_innermost_none_aux h history hh (e ▸ hn), history, hh, hn⟩
  · obtain ⟨history, hh, hn⟩ := (hm n).mp hc.1
    exact ⟨history, hh, fun e => by subst e; cases hn⟩
  · obtain ⟨b, hb⟩ := List.exists_mem_of_ne_nil _ hne
    have hin := (hm b.1).mpr ⟨history, hh, List.mem_map_of_mem hb⟩
    obtain ⟨best, _, _, h3, h4⟩ := c78_shortest_aux name groups.reverse.flatten (lev name b.1)
    have : ∃ n ∈ groups.reverse.flatten, best = lev name n := h4.elim (fun e => ⟨_, hin, e⟩) id
    obtain ⟨n, hn, rfl⟩ := this
    exact ⟨n, hn, _, c78_distance_aux.mpr rfl, fun m hm e he => by rw [c78_distance_aux.mp he]; exact h3 m hm⟩

/-- What does not hold: that a name is suggested once.  A name that is bound in two environments is suggested twice. -/
theorem c78_suggested_twice (H : Text → Nat) (v w : V) :
    ∃ envs, [[(txt "foo", v)], [(txt "foo", w)]].mapM (fun history => bound H history HMap.new) = some envs ∧
      symbol H envs (txt "fo") = some (.error (txt "Unbound symbol 'fo'. Did you mean 'foo' or 'foo'?")) := by
  obtain ⟨envs, r, h1, h2, h3⟩ := c78_symbol H [[(txt "foo", v)], [(txt "foo", w)]] (txt "fo") (by decide) (by simp [txt])
  have hi : innermost [[(txt "foo", v)], [(txt "foo", w)]] (txt "fo") = none := by simp [innermost, latest, txt]
  rw [hi] at h3
  obtain ⟨groups, msg, rfl, hg, near, n1, rfl⟩ := h3
  have one : ∀ (g : List Text) (x : V), NamesOf [(txt "foo", x)] g → g = [txt "foo"] := fun g x h => c78_one_aux h
  cases hg with
  | cons g1 hg =>
    cases hg with
    | cons g2 hg =>
      cases hg
      obtain rfl := one _ _ g1
      obtain rfl := one _ _ g2
      have hnear : near (txt "foo") = true := by
        refine (n1 _ (by simp)).mpr ⟨by simp, _, c78_distance_aux.mpr rfl, fun m hm e he => ?_⟩
        simp at hm
        subst hm
        exact Nat.le_of_eq (c78_distance_aux.mp he).symm
      refine ⟨envs, h1, ?_⟩
      rw [h2]
      have hf : List.filter near [[txt "foo"], [txt "foo"]].reverse.flatten = [txt "foo", txt "foo"] := by
        simp only [List.reverse_cons, List.reverse_nil, List.nil_append, List.cons_append, List.flatten_cons, List.flatten_nil, List.filter_cons, hnear, if_true,
          List.filter_nil]
      rw [hf]
      rfl

/-! ### Examples -/

/-- a bound name: the innermost environment wins, and in it the latest binding -/
example : ∃ envs, [[(txt "a", 1), (txt "b", 2), (txt "a", 3)], [(txt "a", 4)]].mapM (fun history => bound List.sum history HMap.new) = some envs ∧
    symbol List.sum envs (txt "a") = some (.value 3) := by
  obtain ⟨envs, r, h1, h2, h3⟩ := c78_symbol List.sum [[(txt "a", 1), (txt "b", 2), (txt "a", 3)], [(txt "a", 4)]] (txt "a") (by decide) (by decide)
  have hi : innermost [[(txt "a", 1), (txt "b", 2), (txt "a", 3)], [(txt "a", 4)]] (txt "a") = some 3 := by decide
  rw [hi] at h3
  exact ⟨envs, h1, by rw [h2, h3]⟩

/-- three names are equally near, one is farther -/
example : message (txt "cat") [txt "cut", txt "bat", txt "dog", txt "cats"] =
    some (txt "Unbound symbol 'cat'. Did you mean 'cut', 'bat' or 'cats'?") := by
  decide +kernel

/-- nothing is bound -/
example : message (txt "cat") [] = some (txt "Unbound symbol 'cat'. ") := by decide +kernel

/-- the names of an environment where one of them was bound again -/
example : NamesOf [(txt "a", 1), (txt "b", 2), (txt "a", 3)] [txt "b", txt "a"] :=
  ⟨by decide, fun n => by simp [txt]; exact fun h => .inr h⟩

end Dern.Props
