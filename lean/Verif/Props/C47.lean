import Verif.Props.Effects
import Verif.Props.C42
import Verif.Props.C44
/-
C47: asking about texts.

`(starts-with? s t)`, `(distance s t)`, `(find s key)` on strings and symbols, `(split s c)`: the answers are those of plain
texts; they are new values and nothing else happens.
-/
namespace Dern.Props
open Dern
open Dern.Spec (EditDistance OccursAt Pieces)
open Dern.Prog (Library)
variable {W : World} {L : Library}

/-! ### Specification -/

/-- a value is a string -/
def IsStr (v : Vm) (x : Ref) : Prop := ∃ s, v.HasObj x (.str s)

/-- what `starts-with?` does with the values `ts` -/
inductive StartsRun (W : World) (ts : List Ref) (v : Vm) (r : Ref) (w : Vm) (tr : List Event) : Prop
  | count : ts.length ≠ 2 → GivesError W v r w tr → StartsRun W ts v r w tr
  | strings {x y s t b} : ts = [x, y] → v.HasObj x (.str s) → v.HasObj y (.str t) → (b = true ↔ ∃ rest, s = t ++ rest) →
      Gives W (.bool b) v r w tr → StartsRun W ts v r w tr
  | others {x y} : ts = [x, y] → ¬ (IsStr v x ∧ IsStr v y) → GivesConst W .false (.bool false) v r w tr → StartsRun W ts v r w tr

/-- the value has the text `s` -/
inductive HasText (v : Vm) (x : Ref) (s : Text) : Prop
  | str : v.HasObj x (.str s) → HasText v x s
  | sym : v.HasObj x (.sym s) → HasText v x s
  | chr : v.HasObj x (.chr s) → HasText v x s

/-- the value is a number -/
def IsNum (v : Vm) (x : Ref) : Prop := (∃ n, v.HasObj x (.int n)) ∨ ∃ d, v.HasObj x (.real d)

/-- what `distance` does with the values `ts`; distances of texts are given as int32_t -/
inductive DistanceRun (W : World) (ts : List Ref) (v : Vm) (r : Ref) (w : Vm) (tr : List Event) : Prop
  | count : ts.length ≠ 2 → GivesError W v r w tr → DistanceRun W ts v r w tr
  | texts {x y s t n} : ts = [x, y] → HasText v x s → HasText v y t → EditDistance s t n →
      Gives W (.int (Int.bmod n (2 ^ 32))) v r w tr → DistanceRun W ts v r w tr
  | numbers {x y d} : ts = [x, y] → IsNum v x → IsNum v y → Gives W (.real d) v r w tr → DistanceRun W ts v r w tr
  | others {x y} : ts = [x, y] → ¬ ((∃ s, HasText v x s) ∧ ∃ t, HasText v y t) → ¬ (IsNum v x ∧ IsNum v y) →
      GivesError W v r w tr → DistanceRun W ts v r w tr

/-- the positions where `P` holds, in ascending order, as a new vector of integers (int32_t) -/
def GivesPositions (W : World) (P : Nat → Prop) (v : Vm) (r : Ref) (w : Vm) (tr : List Event) : Prop :=
  ∃ l : List Nat, l.Pairwise (· < ·) ∧ (∀ k, k ∈ l ↔ P k) ∧ GivesVec W (l.map fun (k : Nat) => .int (Int.bmod k (2 ^ 32))) v r w tr

/-- what is looked for in a text: the text of a value; the numeral of an integer; some text for a real -/
inductive SearchKey (v : Vm) (x : Ref) (t : Text) : Prop
  | text : HasText v x t → SearchKey v x t
  | int {n} : v.HasObj x (.int n) → t = printInt n → SearchKey v x t
  | real {d} : v.HasObj x (.real d) → SearchKey v x t

/-- What `find` does with a string or symbol and one key.  (Of a character that holds more than one code point, only the first
one is looked for.) -/
inductive FindTextRun (W : World) (ts : List Ref) (v : Vm) (r : Ref) (w : Vm) (tr : List Event) : Prop
  | char {x y s c cs} : ts = [x, y] → (v.HasObj x (.str s) ∨ v.HasObj x (.sym s)) → v.HasObj y (.chr (c :: cs)) →
      GivesPositions W (fun k => s[k]? = some c) v r w tr → FindTextRun W ts v r w tr
  | text {x y s t} : ts = [x, y] → (v.HasObj x (.str s) ∨ v.HasObj x (.sym s)) → (∀ t, ¬ v.HasObj y (.chr t)) → SearchKey v y t → t ≠ [] →
      GivesPositions W (OccursAt t s) v r w tr → FindTextRun W ts v r w tr
  | empty {x y s} : ts = [x, y] → v.HasObj x (.str s) → v.HasObj y (.str []) → GivesVec W [] v r w tr → FindTextRun W ts v r w tr
  | others {x y} : ts = [x, y] → (∀ t, ¬ SearchKey v y t) → GivesError W v r w tr → FindTextRun W ts v r w tr

/-- the first value is a string or symbol, and there is one more -/
def OneKey (ts : List Ref) (v : Vm) : Prop := ∃ x y s, ts = [x, y] ∧ (v.HasObj x (.str s) ∨ v.HasObj x (.sym s))

/-- What `split` does with the values `ts`.  The delimiter is encoded and decoded again; what that does to codes that are not
characters is not said. -/
inductive SplitRun (W : World) (ts : List Ref) (v : Vm) (r : Ref) (w : Vm) (tr : List Event) : Prop
  | count : ts.length ≠ 2 → GivesError W v r w tr → SplitRun W ts v r w tr
  | pieces {x y s d ps} : ts = [x, y] → v.HasObj x (.str s) → v.HasObj y (.chr d) → (∀ c ∈ d, PrintCh c) → d ≠ [] → Pieces d s ps →
      GivesVec W ((ps.filter (· ≠ [])).map .str) v r w tr → SplitRun W ts v r w tr
  | nothing {x y d} : ts = [x, y] → v.HasObj x (.str []) → v.HasObj y (.chr d) → GivesVec W [] v r w tr → SplitRun W ts v r w tr
  | odd {x y s d} {qs : List Text} : ts = [x, y] → v.HasObj x (.str s) → v.HasObj y (.chr d) → ¬ (∀ c ∈ d, PrintCh c) →
      GivesVec W (qs.map .str) v r w tr → SplitRun W ts v r w tr
  | others {x y} : ts = [x, y] → ¬ (IsStr v x ∧ ∃ d, v.HasObj y (.chr d)) → GivesError W v r w tr → SplitRun W ts v r w tr

/-! ### Proofs -/

theorem c47_two_aux {ts : List Ref} (h : ∀ x y, ts = [x, y] → False) : ts.length ≠ 2 := by
  intro e
  obtain ⟨x, y, rfl⟩ := List.length_eq_two.mp e
  exact h x y rfl

theorem c47_str_aux {v : Vm} {x : Ref} {c : Cell} (hc : v.mem x = some c) (h : ∀ s, c.obj ≠ .str s) : ¬ IsStr v x := by
  rintro ⟨s, c', hc', ho⟩
  cases same_cell hc hc'
  exact h s ho

theorem c47_startsRun_aux {n : Nat} {h : Handler} {args env : Ref} {ts : List Ref} {v : Vm} (F : Fine W h) (C : Copies W h) (k : Held W args ts env v) :
    Wp W n h (Prog.biStartsWith args env) v fun a u tr => KeepsBuiltins v u ∧ ∀ r w, a = some r → Ends u w → StartsRun W ts v r w tr := by
  unfold Prog.biStartsWith
  refine c34_first_aux k ?_
  split
  · rename_i x y
    refine wp_bind (wp_push (wp_bind (wp_read fun cx hx => wp_bind (wp_read fun cy hy => ?_))))
    have hx' : v.mem x = some cx := hx
    have hy' : v.mem y = some cy := hy
    simp only [List.nil_append]
    split
    · rename_i s t hs ht
      refine wp_bind (wp_pop fun st hst => ?_)
      cases hst
      obtain ⟨b, hb, hb'⟩ := c44_starts_with s t
      rw [hb]
      simp only [List.nil_append]
      exact giveMono_aux (give_aux k (by simp)) (Q := fun v r w tr => StartsRun W [x, y] v r w tr) fun r w tr g =>
        .strings rfl ⟨cx, hx', hs⟩ ⟨cy, hy', ht⟩ hb' g
    · rename_i hno
      refine wp_bind (wp_pop fun st hst => ?_)
      cases hst
      refine giveMono_aux (giveConst_aux F C k (o := .bool false) rfl (by simp)) (Q := fun v r w tr => StartsRun W [x, y] v r w tr) fun r w tr g =>
        .others rfl ?_ g
      rintro ⟨⟨s, c1, h1, ho1⟩, ⟨t, c2, h2, ho2⟩⟩
      cases same_cell h1 hx'
      cases same_cell h2 hy'
      exact hno s t ho1 ho2
  · rename_i hne
    exact giveMono_aux (c34_error_aux k _) (Q := fun v r w tr => StartsRun W ts v r w tr) fun r w tr g => .count (c47_two_aux hne) g

theorem c47_anyText_aux {v : Vm} {x : Ref} {c : Cell} (hc : v.mem x = some c) {s : Text} : Prog.anyText c.obj = some s ↔ HasText v x s := by
  constructor
  · intro h
    unfold Prog.anyText at h
    cases ho : c.obj <;> rw [ho] at h <;> simp at h
    · subst h; exact .str ⟨c, hc, ho⟩
    · subst h; exact .chr ⟨c, hc, ho⟩
    · subst h; exact .sym ⟨c, hc, ho⟩
  · rintro (⟨c', hc', ho⟩ | ⟨c', hc', ho⟩ | ⟨c', hc', ho⟩) <;> cases same_cell hc hc' <;> rw [ho] <;> rfl

theorem c47_isNum_aux {v : Vm} {x : Ref} {c : Cell} (hc : v.mem x = some c) : Prog.isNumber c.obj = true ↔ IsNum v x := by
  constructor
  · intro h
    unfold Prog.isNumber at h
    cases ho : c.obj <;> rw [ho] at h <;> simp at h
    · exact .inl ⟨_, c, hc, ho⟩
    · exact .inr ⟨_, c, hc, ho⟩
  · rintro (⟨_, c', hc', ho⟩ | ⟨_, c', hc', ho⟩) <;> cases same_cell hc hc' <;> rw [ho] <;> rfl

/-- a new real -/
theorem giveReal_aux {n : Nat} {h : Handler} {args env : Ref} {ts : List Ref} {v : Vm} (k : Held W args ts env v) :
    Wp W n h (do let d ← Prog.real; let r ← Prog.alloc (.real d); pure (some r)) v fun a u t => KeepsBuiltins v u ∧
      ∀ r w, a = some r → Ends u w → ∃ d, Gives W (.real d) v r w t := by
  refine wp_bind (wp_real fun d => wp_bind (wp_alloc (k.here (E := nobody)).tick.sane fun r w a => wp_pure ?_))
  have g : Vm.Step W (fun x => x = args) nobody v w := k.here.tick.alloc a trivial
  refine ⟨keeps_of_quiet g.quiet, ?_⟩
  rintro _ w' ⟨⟩ e
  exact ⟨_, c34_finish_aux (by simp) k.sane g.quiet a.fresh ⟨_, a.cell, rfl⟩ e⟩

theorem c47_distanceRun_aux {n : Nat} {h : Handler} {args env : Ref} {ts : List Ref} {v : Vm} (k : Held W args ts env v) :
    Wp W n h (Prog.biDistance args env) v fun a u tr => KeepsBuiltins v u ∧ ∀ r w, a = some r → Ends u w → DistanceRun W ts v r w tr := by
  unfold Prog.biDistance
  refine c34_first_aux k ?_
  split
  · rename_i x y
    refine wp_bind (wp_read fun cx hx => wp_bind (wp_read fun cy hy => ?_))
    simp only [List.nil_append]
    split
    · rename_i s t hs ht
      obtain ⟨m, hm, hd⟩ := c42_levenshtein_is_edit_distance s t
      rw [hm]
      exact giveMono_aux (give_aux k (by simp)) (Q := fun v r w tr => DistanceRun W [x, y] v r w tr) fun r w tr g =>
        .texts rfl ((c47_anyText_aux hx).mp hs) ((c47_anyText_aux hy).mp ht) hd g
    · rename_i hno
      split
      · rename_i hn
        simp only [Bool.and_eq_true] at hn
        refine giveMono_aux (P := fun v r w t => ∃ d, Gives W (.real d) v r w t) (giveReal_aux k) (Q := fun v r w tr => DistanceRun W [x, y] v r w tr) fun r w tr ⟨d, g⟩ =>
          .numbers rfl ((c47_isNum_aux hx).mp hn.1) ((c47_isNum_aux hy).mp hn.2) g
      · rename_i hn
        simp only [Bool.and_eq_true, not_and] at hn
        refine giveMono_aux (c34_error_aux k _) (Q := fun v r w tr => DistanceRun W [x, y] v r w tr) fun r w tr g =>
          .others rfl ?_ ?_ g
        · rintro ⟨⟨s, hs⟩, ⟨t, ht⟩⟩
          exact hno s t ((c47_anyText_aux hx).mpr hs) ((c47_anyText_aux hy).mpr ht)
        · rintro ⟨h1, h2⟩
          exact hn ((c47_isNum_aux hx).mpr h1) ((c47_isNum_aux hy).mpr h2)
  · rename_i hne
    exact giveMono_aux (c34_error_aux k _) (Q := fun v r w tr => DistanceRun W ts v r w tr) fun r w tr g => .count (c47_two_aux hne) g

theorem c47_appendInts_aux {n : Nat} {h : Handler} {X : Ref → Prop} {v : Vm} {r : Ref} : ∀ (ns : List Nat) (os : List Obj) (u : Vm), Building W X v r os u →
    Wp W n h (Prog.appendInts r ns) u fun _ w t => t = [] ∧ w.stack = u.stack ∧ Building W X v r (os ++ ns.map fun (k : Nat) => .int (Int.bmod k (2 ^ 32))) w := by
  intro ns
  induction ns with
  | nil => intro os u b; exact wp_pure ⟨rfl, rfl, by simpa using b⟩
  | cons k ns ih =>
    intro os u b
    unfold Prog.appendInts
    refine b.put (fun _ => trivial) fun w b' hs => Wp.mono (ih _ w b') ?_
    rintro _ w' t ⟨ht, hst, hb⟩
    exact ⟨ht, hst.trans hs, by simpa using hb⟩

theorem c47_appendStrs_aux {n : Nat} {h : Handler} {X : Ref → Prop} {v : Vm} {r : Ref} : ∀ (ns : List Text) (os : List Obj) (u : Vm), Building W X v r os u →
    Wp W n h (Prog.appendStrs r ns) u fun _ w t => t = [] ∧ w.stack = u.stack ∧ Building W X v r (os ++ ns.map .str) w := by
  intro ns
  induction ns with
  | nil => intro os u b; exact wp_pure ⟨rfl, rfl, by simpa using b⟩
  | cons k ns ih =>
    intro os u b
    unfold Prog.appendStrs
    refine b.put (fun _ => trivial) fun w b' hs => Wp.mono (ih _ w b') ?_
    rintro _ w' t ⟨ht, hst, hb⟩
    exact ⟨ht, hst.trans hs, by simpa using hb⟩

/-- a new vector of integers -/
theorem c47_indexVector_aux {n : Nat} {h : Handler} {X : Ref → Prop} {v u : Vm} (g : Vm.Step W X nobody v u) {f : Option (List Nat)} :
    Wp W n h (Prog.indexVector f) u fun a w t => t = [] ∧ w.stack = u.stack ∧ Vm.Step W X nobody v w ∧ ∃ l, f = some l ∧ ∃ r, a = some r ∧
      ∀ w', Ends w w' → GivesVec W (l.map fun (k : Nat) => .int (Int.bmod k (2 ^ 32))) v r w' [] := by
  unfold Prog.indexVector
  split
  · exact wp_fail
  · rename_i ns
    refine wp_bind (wp_alloc g.sane fun r w a => wp_bind (wp_push ?_))
    have b := Building.start g a
    refine wp_bind (Wp.mono (c47_appendInts_aux ns [] _ b) ?_)
    rintro _ w1 t ⟨rfl, hs, b1⟩
    refine wp_bind (wp_pop fun s hs1 => wp_pure ?_)
    have e : s = u.stack := by
      have := hs.symm.trans hs1
      simp only [List.cons.injEq, true_and] at this
      rw [← this, a.stack]
    refine ⟨rfl, e, b1.step.pop hs1, ns, rfl, r, rfl, fun w' e' => ?_⟩
    refine Building.finish (by simpa using b1) ?_ (Ends.pop.trans e')
    intro o ho
    simp only [List.mem_map] at ho
    obtain ⟨k, _, rfl⟩ := ho
    simp

theorem c47_whole_aux {s t : Text} {l : List Nat} (h : Prog.findWhole s t = some l) :
    t ≠ [] ∧ l.Pairwise (· < ·) ∧ ∀ k, k ∈ l ↔ OccursAt t s k := by
  have := c44_find_string s t 0 t.length
  unfold Prog.findWhole at h
  split at this
  · rw [this] at h; cases h
  · rename_i r hr
    have h0 : r = 0 := by
      unfold Spec.position at hr
      simp at hr
      exact hr.2.symm
    subst h0
    split at this
    · rename_i hc
      obtain ⟨l', h1, h2, h3⟩ := this
      rw [h] at h1; cases h1
      refine ⟨fun e => by simp [e] at hc, h2, fun k => ?_⟩
      rw [h3]; simp
    · rw [this] at h; cases h

theorem c47_char_aux {s t : Text} {l : List Nat} (h : findChar s t 0 = some l) :
    ∃ c cs, t = c :: cs ∧ l.Pairwise (· < ·) ∧ ∀ k, k ∈ l ↔ s[k]? = some c := by
  have := c44_find_char s t 0
  split at this
  · rw [this] at h; cases h
  · rename_i r hr
    have h0 : r = 0 ∧ 0 < t.length := by
      unfold Spec.position at hr
      simp at hr
      exact ⟨hr.2.symm, by omega⟩
    obtain ⟨rfl, h0⟩ := h0
    obtain ⟨l', h1, h2, h3⟩ := this
    rw [h] at h1; cases h1
    match t, h0 with
    | c :: cs, _ =>
      refine ⟨c, cs, rfl, h2, fun k => ?_⟩
      rw [h3]
      simp only [List.getElem?_cons_zero, and_iff_right_iff_imp]
      intro e
      exact (List.getElem?_eq_some_iff.mp e).1

/-- what `find` does with a text and one key -/
theorem c47_inText_aux {n : Nat} {h : Handler} {args env : Ref} {v u : Vm} {x y : Ref} (k : Held W args [x, y] env v) (hu : u.mem = v.mem)
    (g : Vm.Step W (fun z => z = args) nobody v u) {isSym : Bool} {s : Text}
    (hx : if isSym then v.HasObj x (.sym s) else v.HasObj x (.str s)) :
    Wp W n h (Prog.findInText isSym s y) u fun a w t => w.stack = u.stack ∧ Vm.Step W (fun z => z = args) nobody v w ∧ ∃ r, a = some r ∧
      ∀ w', Ends w w' → FindTextRun W [x, y] v r w' t := by
  unfold Prog.findInText
  refine wp_bind (wp_read fun c hc => ?_)
  rw [hu] at hc
  have hx' : v.HasObj x (.str s) ∨ v.HasObj x (.sym s) := by
    cases isSym
    · exact .inl hx
    · exact .inr hx
  have whole : ∀ {t : Text}, (∀ t, c.obj ≠ .chr t) → SearchKey v y t → ∀ u, Vm.Step W (fun z => z = args) nobody v u →
      Wp W n h (Prog.indexVector (Prog.findWhole s t)) u fun a w t => w.stack = u.stack ∧ Vm.Step W (fun z => z = args) nobody v w ∧ ∃ r, a = some r ∧
      ∀ w', Ends w w' → FindTextRun W [x, y] v r w' t := by
    intro t hn hk u g
    refine Wp.mono (c47_indexVector_aux g) ?_
    rintro a w tr ⟨rfl, hs, gw, l, hl, r, rfl, hr⟩
    obtain ⟨h1, h2, h3⟩ := c47_whole_aux hl
    refine ⟨hs, gw, r, rfl, fun w' e => .text rfl hx' ?_ hk h1 ⟨l, h2, h3, hr w' e⟩⟩
    rintro t ⟨c', hc', ho⟩
    cases same_cell hc hc'
    exact hn t ho
  split
  · rename_i t ho
    refine Wp.mono (c47_indexVector_aux g) ?_
    rintro a w tr ⟨rfl, hs, gw, l, hl, r, rfl, hr⟩
    obtain ⟨c1, cs, rfl, h1, h2⟩ := c47_char_aux hl
    exact ⟨hs, gw, r, rfl, fun w' e => .char rfl hx' ⟨c, hc, ho⟩ ⟨l, h1, h2, hr w' e⟩⟩
  · rename_i t ho
    split
    · rename_i hw
      obtain ⟨hw1, hw2⟩ := hw
      subst hw1
      refine wp_bind (wp_alloc g.sane fun r w a => wp_pure ?_)
      refine ⟨a.stack, g.alloc a (by simp [PubObj]), r, rfl, fun w' e => ?_⟩
      have ht : t = [] := by
        cases t with
        | nil => rfl
        | cons b t =>
          have := c44_find_string s (b :: t) 0 (b :: t).length
          have hp : Spec.position (b :: t).length 0 = some 0 := by simp [Spec.position]
          rw [hp] at this
          simp only [Nat.zero_add, Nat.le_refl, and_true] at this
          rw [if_pos (by simp)] at this
          obtain ⟨l, h1, _⟩ := this
          unfold Prog.findWhole at hw2
          rw [hw2] at h1; cases h1
      subst ht
      refine .empty rfl hx ⟨c, hc, ho⟩ ⟨rfl, (g.alloc a (by simp [PubObj])).quiet.trans g.sane0 e.quiet, fun h => a.fresh (h.mono g.quiet.births), [],
        e.hasObj ⟨_, a.cell, rfl⟩ (by simp), by simp, .nil⟩
    · exact Wp.mono (whole (by rw [ho]; simp) (.text (.str ⟨c, hc, ho⟩)) u g) fun _ _ _ h => by simpa using h
  · rename_i t ho
    exact Wp.mono (whole (by rw [ho]; simp) (.text (.sym ⟨c, hc, ho⟩)) u g) fun _ _ _ h => by simpa using h
  · rename_i m ho
    exact Wp.mono (whole (by rw [ho]; simp) (.int ⟨c, hc, ho⟩ rfl) u g) fun _ _ _ h => by simpa using h
  · rename_i d ho
    refine wp_bind (wp_text fun t => ?_)
    exact Wp.mono (whole (by rw [ho]; simp) (.real ⟨c, hc, ho⟩) _ g.tick) fun _ _ _ h => by simpa using h
  · rename_i h1 h2 h3 h4 h5
    refine wps_errorStack (E := nobody) g fun r w gw hs he fr => ⟨hs, gw, r, rfl, fun w' e => .others rfl ?_ ⟨rfl, gw.quiet.trans k.sane e.quiet,
      fr, e.isErr he⟩⟩
    rintro t ((⟨c', hc', ho⟩ | ⟨c', hc', ho⟩ | ⟨c', hc', ho⟩) | ⟨⟨c', hc', ho⟩, _⟩ | ⟨c', hc', ho⟩) <;> cases same_cell hc hc'
    · exact h2 _ ho
    · exact h3 _ ho
    · exact h1 _ ho
    · exact h4 _ ho
    · exact h5 _ ho

theorem c47_findRun_aux {n : Nat} {h : Handler} {args env : Ref} {ts : List Ref} {v : Vm} (k : Held W args ts env v) (hp : OneKey ts v) :
    Wp W n h (Prog.biFind args env) v fun a u tr => KeepsBuiltins v u ∧ ∀ r w, a = some r → Ends u w → FindTextRun W ts v r w tr := by
  obtain ⟨x, y, s, rfl, hx⟩ := hp
  unfold Prog.biFind
  refine c34_first_aux k ?_
  refine wp_bind (wp_push (wp_bind (wp_push ?_)))
  have g1 := (k.here (E := nobody)).push k.old
  have g2 : Vm.Step W (fun z => z = args) nobody v { v with stack := env :: args :: v.stack } := g1.push (r := env) k.env.1
  have fin : ∀ {isSym : Bool}, (if isSym then v.HasObj x (.sym s) else v.HasObj x (.str s)) →
    Wp W n h (do let r ← Prog.findInText isSym s y; Prog.pop env; Prog.pop args; pure r) { v with stack := env :: args :: v.stack }
      fun a u tr => KeepsBuiltins v u ∧ ∀ r w, a = some r → Ends u w → FindTextRun W [x, y] v r w tr := by
    intro isSym hx
    refine wp_bind (Wp.mono (c47_inText_aux (u := { v with stack := env :: args :: v.stack }) k rfl g2 hx) ?_)
    rintro _ w t ⟨hs, gw, r, rfl, hr⟩
    refine wp_bind (wp_pop fun s1 hs1 => wp_bind (wp_pop fun s2 hs2 => wp_pure ⟨keeps_mem gw.quiet rfl, ?_⟩))
    rintro _ w' ⟨⟩ e
    simpa using hr w' ((Ends.pop (s := s2)).trans e)
  unfold Prog.findFrom
  simp only [bind_assoc]
  refine wp_bind (wp_read fun c hc => ?_)
  have hc' : v.mem x = some c := hc
  rcases hx with ⟨c', h', ho⟩ | ⟨c', h', ho⟩
  · cases same_cell hc' h'
    rw [ho]
    exact Wp.mono (fin (isSym := false) ⟨c, hc', ho⟩) fun _ _ _ h => by simpa using h
  · cases same_cell hc' h'
    rw [ho]
    exact Wp.mono (fin (isSym := true) ⟨c, hc', ho⟩) fun _ _ _ h => by simpa using h

theorem c47_splitRun_aux {n : Nat} {h : Handler} {args env : Ref} {ts : List Ref} {v : Vm} (k : Held W args ts env v) :
    Wp W n h (Prog.biSplit args env) v fun a u tr => KeepsBuiltins v u ∧ ∀ r w, a = some r → Ends u w → SplitRun W ts v r w tr := by
  unfold Prog.biSplit
  refine c34_first_aux k ?_
  split
  · rename_i x y
    refine wp_bind (wp_read fun cx hx => ?_)
    split
    · rename_i s hs
      refine wp_bind (wp_read fun cy hy => ?_)
      split
      · rename_i d hd
        refine wp_bind (wp_alloc k.sane fun r u a => wp_bind (wp_push ?_))
        have b := Building.start (k.here (E := nobody)) a
        split
        · exact wp_fail
        · rename_i d' hd'
          split
          · exact wp_fail
          · rename_i qs hq
            refine wp_bind (Wp.mono (c47_appendStrs_aux qs [] _ b) ?_)
            rintro _ w1 t ⟨rfl, hst, b1⟩
            refine wp_bind (wp_pop fun st hs1 => wp_pure ?_)
            refine ⟨keeps_mem b1.step.quiet rfl, ?_⟩
            rintro _ w' ⟨⟩ e
            have gv : GivesVec W (qs.map .str) v r w' [] := by
              refine Building.finish (by simpa using b1) ?_ (Ends.pop.trans e)
              intro o ho
              simp only [List.mem_map] at ho
              obtain ⟨k, _, rfl⟩ := ho
              simp
            by_cases hc : ∀ c ∈ d, PrintCh c
            · rw [recode_eq d hc] at hd'
              cases hd'
              cases d with
              | nil =>
                cases s with
                | nil =>
                  have : qs = [] := by simp [Dern.split, splitLoop] at hq; exact hq
                  subst this
                  exact .nothing rfl ⟨cx, hx, hs⟩ ⟨cy, hy, hd⟩ gv
                | cons c cs => rw [c44_split_empty_aborts] at hq; cases hq
              | cons c cs =>
                obtain ⟨ps, hps, he⟩ := c44_split s (c :: cs) (by simp)
                rw [hq] at he; cases he
                exact .pieces rfl ⟨cx, hx, hs⟩ ⟨cy, hy, hd⟩ hc (by simp) hps gv
            · exact .odd rfl ⟨cx, hx, hs⟩ ⟨cy, hy, hd⟩ hc gv
      · rename_i hno
        refine giveMono_aux (c34_error_aux k _) (Q := fun v r w tr => SplitRun W [x, y] v r w tr) fun r w tr g => .others rfl ?_ g
        rintro ⟨_, d, c', hc', ho⟩
        cases same_cell hy hc'
        exact hno d ho
    · rename_i hno
      refine giveMono_aux (c34_error_aux k _) (Q := fun v r w tr => SplitRun W [x, y] v r w tr) fun r w tr g => .others rfl ?_ g
      rintro ⟨⟨d, c', hc', ho⟩, _⟩
      cases same_cell hx hc'
      exact hno d ho
  · rename_i hne
    exact giveMono_aux (c34_error_aux k _) (Q := fun v r w tr => SplitRun W ts v r w tr) fun r w tr g => .count (c47_two_aux hne) g

/-! ### Theorems -/

theorem c47_starts_with (hL : L.Safe) {v w : Vm} (rv : v.Reached W L) {form env op : Ref} {name : Text} {xs : List Ref}
    (nc : NamedCall W v form env name op xs) (hop : v.HasObj op (.builtin .startsWith))
    {r : Option Ref} {tr : List Event} (ev : Evaluates W L v form env r w tr) :
    NamedOpCall W (ArgumentsFirst W form env (Runs .startsWith op (StartsRun W))) v env op r w tr :=
  namedBuiltin_aux hL (by simp) (fun _ _ _ _ _ F C k => c47_startsRun_aux F C k) rv nc hop ev

theorem c47_distance (hL : L.Safe) {v w : Vm} (rv : v.Reached W L) {form env op : Ref} {name : Text} {xs : List Ref}
    (nc : NamedCall W v form env name op xs) (hop : v.HasObj op (.builtin .distance))
    {r : Option Ref} {tr : List Event} (ev : Evaluates W L v form env r w tr) :
    NamedOpCall W (ArgumentsFirst W form env (Runs .distance op (DistanceRun W))) v env op r w tr :=
  namedBuiltin_aux hL (by simp) (fun _ _ _ _ _ _ _ k => c47_distanceRun_aux k) rv nc hop ev

/-- `find` in a text, with one key -/
theorem c47_find (hL : L.Safe) {v w : Vm} (rv : v.Reached W L) {form env op : Ref} {name : Text} {xs : List Ref}
    (nc : NamedCall W v form env name op xs) (hop : v.HasObj op (.builtin .find))
    {r : Option Ref} {tr : List Event} (ev : Evaluates W L v form env r w tr) :
    NamedOpCall W (ArgumentsFirst W form env (Runs .find op fun ts u r w tr => OneKey ts u → FindTextRun W ts u r w tr)) v env op r w tr :=
  namedBuiltinPre_aux (Pre := OneKey) hL (by simp) (fun _ _ _ _ _ _ _ k hp => c47_findRun_aux k hp) rv nc hop ev

theorem c47_split (hL : L.Safe) {v w : Vm} (rv : v.Reached W L) {form env op : Ref} {name : Text} {xs : List Ref}
    (nc : NamedCall W v form env name op xs) (hop : v.HasObj op (.builtin .split))
    {r : Option Ref} {tr : List Event} (ev : Evaluates W L v form env r w tr) :
    NamedOpCall W (ArgumentsFirst W form env (Runs .split op (SplitRun W))) v env op r w tr :=
  namedBuiltin_aux hL (by simp) (fun _ _ _ _ _ _ _ k => c47_splitRun_aux k) rv nc hop ev

/-! ### Examples -/

/-- names for the examples -/
def kit4 : List (String × Obj × Bool) :=
  kit3 ++ [("starts-with?", .builtin .startsWith, true), ("distance", .builtin .distance, true), ("find", .builtin .find, true),
    ("split", .builtin .split, true), ("character", .builtin .character, true)]

theorem kit4_plain : ∀ x ∈ kit4, x.2.1.children = [] := by decide

/-- the vector at `r` has these integers or strings as elements -/
def vecAt (w : Vm) (r : Option Ref) : Option (List (Option Obj)) :=
  match objAt w r with
  | some (.vec es) => some (es.map fun x => objAt w (some x))
  | _ => none

/-- `(distance "kitten" "sitting")` -/
example : ∃ (v w : Vm) (form op : Ref) (xs : List Ref) (r : Option Ref) (tr : List Event), v.Reached world library ∧
    NamedCall world v form v.globalEnv (txt "distance") op xs ∧ v.HasObj op (.builtin .distance) ∧
    Evaluates world library v form v.globalEnv r w tr ∧ objAt w r = some (.int 3) := by
  obtain ⟨v, form, r, w, tr, hr, of, oe, ev, h⟩ := stage_exists (table := kit4) (forms := []) (fuel := 60)
    (last := .vec [.sym "distance", .str "kitten", .str "sitting"])
    (P := fun v f r w tr => namedCheck v f "distance" (.builtin .distance) && decide (objAt w r = some (.int 3))) kit4_plain (by decide +kernel)
  simp only [Bool.and_eq_true, decide_eq_true_eq] at h
  obtain ⟨op, xs, h1, h2, h3⟩ := named_of_check h.1 of oe
  exact ⟨v, w, form, op, xs, r, tr, hr, h1, h2, ev, h.2⟩

/-- `(starts-with? "abc" "ab")` -/
example : ∃ (v w : Vm) (form op : Ref) (xs : List Ref) (r : Option Ref) (tr : List Event), v.Reached world library ∧
    NamedCall world v form v.globalEnv (txt "starts-with?") op xs ∧ v.HasObj op (.builtin .startsWith) ∧
    Evaluates world library v form v.globalEnv r w tr ∧ objAt w r = some (.bool true) := by
  obtain ⟨v, form, r, w, tr, hr, of, oe, ev, h⟩ := stage_exists (table := kit4) (forms := []) (fuel := 60)
    (last := .vec [.sym "starts-with?", .str "abc", .str "ab"])
    (P := fun v f r w tr => namedCheck v f "starts-with?" (.builtin .startsWith) && decide (objAt w r = some (.bool true))) kit4_plain (by decide +kernel)
  simp only [Bool.and_eq_true, decide_eq_true_eq] at h
  obtain ⟨op, xs, h1, h2, h3⟩ := named_of_check h.1 of oe
  exact ⟨v, w, form, op, xs, r, tr, hr, h1, h2, ev, h.2⟩

/-- `(find "abcab" "ab")` -/
example : ∃ (v w : Vm) (form op : Ref) (xs : List Ref) (r : Option Ref) (tr : List Event), v.Reached world library ∧
    NamedCall world v form v.globalEnv (txt "find") op xs ∧ v.HasObj op (.builtin .find) ∧
    Evaluates world library v form v.globalEnv r w tr ∧ vecAt w r = some [some (.int 0), some (.int 3)] := by
  obtain ⟨v, form, r, w, tr, hr, of, oe, ev, h⟩ := stage_exists (table := kit4) (forms := []) (fuel := 60)
    (last := .vec [.sym "find", .str "abcab", .str "ab"])
    (P := fun v f r w tr => namedCheck v f "find" (.builtin .find) && decide (vecAt w r = some [some (.int 0), some (.int 3)])) kit4_plain (by decide +kernel)
  simp only [Bool.and_eq_true, decide_eq_true_eq] at h
  obtain ⟨op, xs, h1, h2, h3⟩ := named_of_check h.1 of oe
  exact ⟨v, w, form, op, xs, r, tr, hr, h1, h2, ev, h.2⟩

/-- `(split "ab,,c" (character 44))` -/
example : ∃ (v w : Vm) (form op : Ref) (xs : List Ref) (r : Option Ref) (tr : List Event), v.Reached world library ∧
    NamedCall world v form v.globalEnv (txt "split") op xs ∧ v.HasObj op (.builtin .split) ∧
    Evaluates world library v form v.globalEnv r w tr ∧ vecAt w r = some [some (.str (txt "ab")), some (.str (txt "c"))] := by
  obtain ⟨v, form, r, w, tr, hr, of, oe, ev, h⟩ := stage_exists (table := kit4) (forms := []) (fuel := 60)
    (last := .vec [.sym "split", .str "ab,,c", .vec [.sym "character", .int 44]])
    (P := fun v f r w tr => namedCheck v f "split" (.builtin .split) && decide (vecAt w r = some [some (.str (txt "ab")), some (.str (txt "c"))]))
    kit4_plain (by decide +kernel)
  simp only [Bool.and_eq_true, decide_eq_true_eq] at h
  obtain ⟨op, xs, h1, h2, h3⟩ := named_of_check h.1 of oe
  exact ⟨v, w, form, op, xs, r, tr, hr, h1, h2, ev, h.2⟩

end Dern.Props
