import Verif.Dern.SafeContainers
/-
`Ok` for the builtin functions that give elements of containers.
-/
namespace Dern.Prog
variable {P : Ref → Prop} {s : List Ref}

/-- every value in some buckets is public -/
def PubBuckets (P : Ref → Prop) (bs : List (Nat × List (Ref × Ref))) : Prop := ∀ b ∈ bs, ∀ e ∈ b.2, P e.1 ∧ P e.2

theorem pub_bucket1 {k : Nat} {x : Ref × Ref} {l : List (Ref × Ref)} {bs} (hx : P x.1 ∧ P x.2) (h : PubBuckets P ((k, l) :: bs)) :
    PubBuckets P ((k, x :: l) :: bs) := by
  intro b hb e he
  rcases List.mem_cons.1 hb with rfl | hb
  · rcases List.mem_cons.1 he with rfl | he
    · exact hx
    · exact h (k, l) (by simp) e he
  · exact h b (by simp [hb]) e he

theorem pub_bucket2 {k : Nat} {x : Ref × Ref} {bs} (hx : P x.1 ∧ P x.2) (h : PubBuckets P bs) :
    PubBuckets P ((k, [x]) :: bs) := by
  intro b hb e he
  rcases List.mem_cons.1 hb with rfl | hb
  · rcases List.mem_cons.1 he with rfl | he
    · exact hx
    · simp at he
  · exact h b hb e he

theorem ok_bucketsOf {nb : Nat} {es : List (Ref × Ref)} : ∀ {Q : List (Nat × List (Ref × Ref)) → List Ref → Prop},
    (∀ e ∈ es, P e.1 ∧ P e.2) → (∀ bs, PubBuckets P bs → Q bs s) → Ok P (bucketsOf nb es) s Q := by
  induction es with
  | nil => intro Q _ h; exact h _ (by simp [PubBuckets])
  | cons x xs ih =>
    intro Q h h'
    unfold bucketsOf
    ok
    · ok_side
    refine ih (by ok_side) fun bs hbs => ?_
    ok
    all_goals refine h' _ ?_
    all_goals first | exact pub_bucket1 (h x (by simp)) hbs | exact pub_bucket2 (h x (by simp)) hbs
macro_rules | `(tactic| ok_rule) => `(tactic| with_reducible refine ok_bucketsOf ?_ fun bs hbs => ?_)

theorem fromBack_mem {idx : Nat} {bs : List (List (Ref × Ref))} : ∀ {c : Nat} {e}, fromBack idx bs c = some e → ∃ b ∈ bs, e ∈ b := by
  induction bs with
  | nil => intro c e h; simp [fromBack] at h
  | cons b bs ih =>
    intro c e h
    unfold fromBack at h
    split at h
    · split at h <;> exact ⟨b, by simp, List.mem_of_getElem? h⟩
    · obtain ⟨b', h1, h2⟩ := ih h
      exact ⟨b', by simp [h1], h2⟩

theorem ok_mapAt {nb : Nat} {es : List (Ref × Ref)} {i : Int} {Q : Option (Ref × Ref) → List Ref → Prop}
    (h : ∀ e ∈ es, P e.1 ∧ P e.2) (h' : ∀ a, (∀ e, a = some e → P e.1 ∧ P e.2) → Q a s) : Ok P (mapAt nb es i) s Q := by
  unfold mapAt
  ok
  · exact h' _ fun e he => h e (List.mem_of_getElem? he)
  · ok_side
  · rename_i bs hbs
    refine h' _ fun e he => ?_
    obtain ⟨b, h1, h2⟩ := fromBack_mem he
    simp only [List.mem_map, List.mem_reverse] at h1
    obtain ⟨c, hc, rfl⟩ := h1
    exact hbs c hc e h2
macro_rules | `(tactic| ok_rule) => `(tactic| with_reducible refine ok_mapAt ?_ fun a ha => ?_)

theorem mem_of_bind {es : List Ref} {o : Option Nat} {x : Ref} (h : (o.bind fun i => es[i]?) = some x) : x ∈ es := by
  cases o with
  | none => simp at h
  | some i => exact List.mem_of_getElem? h

theorem pub_indexed {c : Cell} {o : Option Nat} {es : List Ref} {a : Option Ref}
    (h : (o.bind fun i => es[i]?) = a) (e : c.obj = .vec es ∨ c.obj = .list es) (hc : PubCell P c) : PubOpt P a := by
  rintro x rfl
  have hx := mem_of_bind h
  have := hc.obj
  rcases e with e | e <;> rw [e] at this <;> exact this x hx

theorem ok_mapElement {m index how : Ref} {Q} (hm : P m) (hindex : P index) (hhow : P how)
    (h' : ∀ x : Option Ref × Option Ref, PubOpt P x.1 → PubOpt P x.2 → Q x s) :
    Ok P (mapElement m index how) s Q := by
  unfold mapElement
  ok
  all_goals first | ok_side | (refine h' _ ?_ ?_ <;> ok_side) | skip
macro_rules | `(tactic| ok_rule) => `(tactic| with_reducible refine ok_mapElement ?_ ?_ ?_ fun x hx hx' => ?_)

theorem ok_biLnAt {args : Ref} {env : Ref} {Q} (hargs : P args) (henv : P env)  (h' : ∀ a, PubOpt P a → Q a s) :
    Ok P (biLnAt args env) s Q := by
  unfold biLnAt
  ok
  all_goals first | ok_side | exact ‹∀ a, PubOpt P a → Q a s› _ (pub_indexed ‹_› (.inl ‹_›) ‹_›) | exact ‹∀ a, PubOpt P a → Q a s› _ (pub_indexed rfl (.inr ‹_›) ‹_›) | exact pub_indexed ‹_› (.inr ‹_›) ‹_› _ rfl
macro_rules | `(tactic| ok_rule) => `(tactic| with_reducible refine ok_biLnAt ?_ ?_ fun a ha => ?_)

theorem ok_indexOf {o} {Q}   (h' : ∀ b, Q b s) :
    Ok P (indexOf o) s Q := by
  unfold indexOf
  ok
  all_goals ok_side
macro_rules | `(tactic| ok_rule) => `(tactic| with_reducible refine ok_indexOf fun b => ?_)

theorem ok_appendChars {r : Ref} (hr : P r) {xs : Text} : ∀ {Q : Unit → List Ref → Prop}, Q () s →
    Ok P (appendChars r xs) s Q := by
  induction xs with
  | nil => intro Q h; exact h
  | cons x xs ih =>
    intro Q h'
    unfold appendChars
    ok
    all_goals first | ok_side | skip
    all_goals exact ih h'
macro_rules | `(tactic| ok_rule) => `(tactic| with_reducible refine ok_appendChars ?_ ?_)

theorem ok_cpText {t} {i} {j} {Q}   (h' : ∀ a, PubOpt P a → Q a s) :
    Ok P (cpText t i j) s Q := by
  unfold cpText
  ok
  all_goals ok_side
macro_rules | `(tactic| ok_rule) => `(tactic| with_reducible refine ok_cpText fun a ha => ?_)

theorem ok_cpVec {es : List Ref} {i} {j} {a} {b} {Q} (hes : ∀ x ∈ es, P x)  (h' : ∀ a, PubOpt P a → Q a s) :
    Ok P (cpVec es i j a b) s Q := by
  unfold cpVec
  ok
  all_goals first | ok_side | grind [List.mem_of_mem_take, List.mem_of_mem_drop, List.mem_of_getElem?]
macro_rules | `(tactic| ok_rule) => `(tactic| with_reducible refine ok_cpVec ?_ fun a ha => ?_)

/-- a payload without references -/
def Bare (o : Option Obj) : Prop := ∀ P, ∀ x, o = some x → PubObj P x

theorem ok_versionObj {v k} {Q} (h' : ∀ o, Bare o → Q o s) : Ok P (versionObj v k) s Q := by
  unfold versionObj
  ok
  all_goals first | exact h' _ (by simp [Bare, PubObj]) | simp
macro_rules | `(tactic| ok_rule) => `(tactic| with_reducible refine ok_versionObj fun o ho => ?_)

theorem ok_versionAt {v} {i} {Q}   (h' : ∀ a, PubOpt P a → Q a s) :
    Ok P (versionAt v i) s Q := by
  unfold versionAt
  ok
  all_goals first | exact ‹Bare _› _ _ rfl | ok_side
macro_rules | `(tactic| ok_rule) => `(tactic| with_reducible refine ok_versionAt fun a ha => ?_)

theorem ok_bitAt {n} {i} {Q}   (h' : ∀ a, PubOpt P a → Q a s) :
    Ok P (bitAt n i) s Q := by
  unfold bitAt
  ok
  all_goals ok_side
macro_rules | `(tactic| ok_rule) => `(tactic| with_reducible refine ok_bitAt fun a ha => ?_)

theorem ok_cpIndices {index : Ref} {rest : List Ref} {Q} (hindex : P index) (hrest : ∀ x ∈ rest, P x)
    (h' : ∀ x : Option (Int × Int) × Option Ref, PubOpt P x.2 → Q x s) :
    Ok P (cpIndices index rest) s Q := by
  unfold cpIndices
  ok
  all_goals first | ok_side | (refine h' _ ?_ <;> ok_side) | skip
macro_rules | `(tactic| ok_rule) => `(tactic| with_reducible refine ok_cpIndices ?_ ?_ fun x hx => ?_)

theorem ok_cpAtText {t} {index : Ref} {rest : List Ref} {Q} (hindex : P index) (hrest : ∀ x ∈ rest, P x)  (h' : ∀ a, PubOpt P a → Q a s) :
    Ok P (cpAtText t index rest) s Q := by
  unfold cpAtText
  ok
  all_goals ok_side
macro_rules | `(tactic| ok_rule) => `(tactic| with_reducible refine ok_cpAtText ?_ ?_ fun a ha => ?_)

theorem ok_cpAtVec {es : List Ref} {index : Ref} {rest : List Ref} {Q} (hes : ∀ x ∈ es, P x) (hindex : P index) (hrest : ∀ x ∈ rest, P x)  (h' : ∀ a, PubOpt P a → Q a s) :
    Ok P (cpAtVec es index rest) s Q := by
  unfold cpAtVec
  ok
  all_goals ok_side
macro_rules | `(tactic| ok_rule) => `(tactic| with_reducible refine ok_cpAtVec ?_ ?_ ?_ fun a ha => ?_)

theorem ok_biCpAt {args : Ref} {env : Ref} {Q} (hargs : P args) (henv : P env)  (h' : ∀ a, PubOpt P a → Q a s) :
    Ok P (biCpAt args env) s Q := by
  unfold biCpAt
  ok
  all_goals first | ok_side | exact ‹∀ a, PubOpt P a → Q a s› _ (pub_indexed ‹_› (.inl ‹_›) ‹_›) | exact ‹∀ a, PubOpt P a → Q a s› _ (pub_indexed rfl (.inr ‹_›) ‹_›) | exact pub_indexed ‹_› (.inr ‹_›) ‹_› _ rfl
macro_rules | `(tactic| ok_rule) => `(tactic| with_reducible refine ok_biCpAt ?_ ?_ fun a ha => ?_)

end Dern.Prog
