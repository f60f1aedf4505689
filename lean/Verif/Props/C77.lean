import Mathlib.Data.List.Forall2
import Verif.Dern.Registry
import Verif.Props.C02
import Verif.Props.C17
import Verif.Props.C41
/-
C77: libraries, command line arguments and environment variables of a virtual machine.
-/
namespace Dern.Props
open Dern Dern.Utf8 Dern.Registry
open Dern.Spec (Entries MapOp position beforeNul)
variable {Lib : Type}

/-! ### Specification -/

/-- what was registered: libraries with their names and texts, in the order of their registration -/
structure Registered (Lib : Type) where
  libraries : List (Text × Lib)
  args : List Text
  vars : List Text

/-- one call, when C strings are texts -/
def Registered.apply (s : Registered Lib) : HostOp Text Lib → Registered Lib × HostAnswer Lib
  | .addLibrary name l =>
    if name ∈ s.libraries.map (·.1) then (s, .flag false) else ({ s with libraries := s.libraries ++ [(name, l)] }, .flag true)
  | .hasLibrary name => (s, .flag (decide (name ∈ s.libraries.map (·.1))))
  | .getLibrary name => (s, .library ((s.libraries.find? fun e => e.1 = name).map (·.2)))
  | .addArgument t => ({ s with args := s.args ++ [t] }, .flag true)
  | .addVariable t => ({ s with vars := s.vars ++ [t] }, .flag true)
  | .countArguments => (s, .count s.args.length)
  | .countVariables => (s, .count s.vars.length)
  | .argumentAt i => (s, .text (((position s.args.length i).bind fun k => s.args[k]?).map octs))
  | .variableAt i => (s, .text (((position s.vars.length i).bind fun k => s.vars[k]?).map octs))

/-- the answers to a history of calls -/
def Registered.answers (s : Registered Lib) : List (HostOp Text Lib) → List (HostAnswer Lib)
  | [] => []
  | op :: ops => (s.apply op).2 :: (s.apply op).1.answers ops

/-- a C string, and its longest beginning that is well-formed UTF-8 -/
def Read (os : List Octet) (t : Text) : Prop := (∃ rest, LongestText (os.map BitVec.toNat) t rest) ∧ ∀ c ∈ t, _root_.Spec.Utf8.IsScalar c

/-- the same call with C strings and with texts -/
inductive SameCall : HostOp (List Octet) Lib → HostOp Text Lib → Prop
  | addLibrary {os t} (l : Lib) : Read os t → SameCall (.addLibrary os l) (.addLibrary t l)
  | hasLibrary {os t} : Read os t → SameCall (.hasLibrary os) (.hasLibrary t)
  | getLibrary {os t} : Read os t → SameCall (.getLibrary os) (.getLibrary t)
  | addArgument {os t} : Read os t → SameCall (.addArgument os) (.addArgument t)
  | addVariable {os t} : Read os t → SameCall (.addVariable os) (.addVariable t)
  | countArguments : SameCall .countArguments .countArguments
  | countVariables : SameCall .countVariables .countVariables
  | argumentAt (i : Int) : SameCall (.argumentAt i) (.argumentAt i)
  | variableAt (i : Int) : SameCall (.variableAt i) (.variableAt i)

/-! ### Proofs -/

theorem c77_keys_aux (H : Text → Nat) : (keys H).Lawful where
  refl := fun a => (stringIsEqual_iff a a).mpr rfl
  symm := fun a b h => (stringIsEqual_iff b a).mpr ((stringIsEqual_iff a b).mp h).symm
  trans := fun a b c h h' => (stringIsEqual_iff a c).mpr (((stringIsEqual_iff a b).mp h).trans ((stringIsEqual_iff b c).mp h'))
  hash := fun a b h => by rw [(stringIsEqual_iff a b).mp h]

theorem c77_decode_aux {os : List Octet} {t : Text} (h : Read os t) : ∃ r, fromBuffer os = some r ∧ r.chars.map BitVec.toNat = t := by
  obtain ⟨⟨rest, hl⟩, _⟩ := h
  obtain ⟨r, rest', h1, h2, _⟩ := c02_string_longest_partial os
  exact ⟨r, h1, (c02_longest_unique h2 hl).1⟩

theorem c77_input_aux {os : List Octet} {t : Text} (h : Read os t) : inputText os = some t := by
  obtain ⟨r, h1, h2⟩ := c77_decode_aux h
  simp [inputText, h1, h2]

/-- a string holds a text of characters -/
def Fits (s : Str) (t : Text) : Prop := StrHolds s t ∧ ∀ c ∈ t, _root_.Spec.Utf8.IsScalar c ∧ c ≠ 0

theorem c77_new_aux (g : Growth) {os : List Octet} {t : Text} (h : Read os t) : ∃ s, Str.new g os = some s ∧ Fits s t := by
  obtain ⟨r, h1, h2⟩ := c77_decode_aux h
  obtain ⟨⟨rest, hl⟩, hs⟩ := h
  obtain ⟨w, g1, g2, g3⟩ := c41_pushAll_aux g t (Vec.new (os.length / 4)) [] (c18_new_aux _) (by simp [Vec.elems, Vec.new])
  refine ⟨{ chars := w, octets := Vec.new 1, error := r.errorAt }, by simp only [Str.new, h1, h2, g1], ⟨g2, by simpa using g3, c18_new_aux _, .inl rfl⟩, fun c hc => ⟨hs c hc, ?_⟩⟩
  exact Nat.ne_of_gt (hl.chars c hc).1

/-- a vector of addresses of strings -/
structure Shelf (S : Nat → Str) (n : Nat) (v : Vec Nat) (ts : List Text) : Prop where
  inv : v.Inv
  all : ∃ as, v.elems = as.map some ∧ List.Forall₂ (fun a t => a < n ∧ Fits (S a) t) as ts

/-- the registry corresponds to what was registered -/
structure Mirrors (H : Text → Nat) (R : Registry Lib) (s : Registered Lib) : Prop where
  inv : R.libraries.Inv (keys H)
  perm : (R.libraries.buckets.flatten.map HMap.entry).Perm (s.libraries.map fun e => (e.1, [e.2]))
  args : Shelf R.strings R.next R.args s.args
  vars : Shelf R.strings R.next R.vars s.vars

theorem c77_lookup_aux {H : Text → Nat} {R : Registry Lib} {s : Registered Lib} (m : Mirrors H R s) (t : Text) :
    ∃ r, R.libraries.get (keys H) t = some r ∧ r.map (fun x => x.2.2.values) = (s.libraries.find? fun e => e.1 = t).map fun e => [e.2] := by
  obtain ⟨r, h1, h2⟩ := c17_get_aux (c77_keys_aux H) m.inv t
  refine ⟨r, h1, ?_⟩
  have hp := c17_find_perm_aux (c77_keys_aux H) t m.perm (by
    have := m.inv.distinct
    rw [List.pairwise_map]
    exact this)
  rw [hp] at h2
  have h3 := congrArg (Option.map Prod.snd) h2
  rw [Option.map_map] at h3
  rw [show (r.map fun x => x.2.2.values) = r.map (Prod.snd ∘ fun x => (x.2.2.key, x.2.2.values)) from rfl, h3]
  unfold Entries.lookup
  rw [List.find?_map, Option.map_map]
  have : ((fun e : Text × List Lib => (keys H).eqv t e.1) ∘ fun e : Text × Lib => (e.1, [e.2])) = fun e => decide (e.1 = t) := by
    funext e
    have := stringIsEqual_iff t e.1
    simp only [Function.comp, keys]
    by_cases h : e.1 = t
    · subst h; simp [this]
    · rw [decide_eq_false h]
      cases hb : stringIsEqual t e.1 with
      | false => rfl
      | true => exact absurd (this.mp hb).symm h
  rw [this]; rfl

theorem c77_find_aux {s : List (Text × Lib)} {t : Text} : (s.find? fun e => e.1 = t).isSome = decide (t ∈ s.map (·.1)) := by
  rw [Bool.eq_iff_iff, List.find?_isSome]
  simp [eq_comm]

theorem c77_has_aux {H : Text → Nat} {R : Registry Lib} {s : Registered Lib} (m : Mirrors H R s) {os : List Octet} {t : Text} (h : Read os t) :
    hasLibrary H R os = some (decide (t ∈ s.libraries.map (·.1))) := by
  obtain ⟨r, h1, h2⟩ := c77_lookup_aux m t
  have := congrArg Option.isSome h2
  simp only [Option.isSome_map, c77_find_aux] at this
  simp only [hasLibrary, c77_input_aux h, h1, this]

theorem c77_get_aux {H : Text → Nat} {R : Registry Lib} {s : Registered Lib} (m : Mirrors H R s) {os : List Octet} {t : Text} (h : Read os t) :
    getLibrary H R os = some ((s.libraries.find? fun e => e.1 = t).map (·.2)) := by
  obtain ⟨r, h1, h2⟩ := c77_lookup_aux m t
  simp only [getLibrary, c77_input_aux h, h1]
  cases hf : s.libraries.find? fun e => e.1 = t with
  | none =>
    rw [hf] at h2
    cases r with
    | none => rfl
    | some x => simp at h2
  | some e =>
    rw [hf] at h2
    cases r with
    | none => simp at h2
    | some x =>
      simp only [Option.map_some, Option.some.injEq] at h2
      obtain ⟨i, j, x⟩ := x
      simp only at h2
      simp [HMap.elemValue, h2]

theorem c77_add_aux {H : Text → Nat} {R : Registry Lib} {s : Registered Lib} (m : Mirrors H R s) {os : List Octet} {t : Text} (h : Read os t) (l : Lib) :
    ∃ R', addLibrary H R os l = some (R', !decide (t ∈ s.libraries.map (·.1))) ∧ Mirrors H R' (s.apply (.addLibrary t l)).1 := by
  unfold addLibrary
  rw [c77_has_aux m h]
  by_cases hm : t ∈ s.libraries.map (·.1)
  · simp only [hm, decide_true, Registered.apply, if_true]
    exact ⟨R, rfl, m⟩
  · simp only [hm, decide_false, c77_input_aux h, Registered.apply, if_false]
    obtain ⟨m', h1, h2, h3⟩ := c17_step_aux (c77_keys_aux H) m.inv _ m.perm (.put t l)
    have hany : ((s.libraries.map fun e => (e.1, [e.2])).any fun e => (keys H).eqv t e.1) = false := by
      rw [Bool.eq_false_iff]
      intro hx
      simp only [List.any_map, List.any_eq_true, Function.comp] at hx
      obtain ⟨e, he, h4⟩ := hx
      exact hm (by rw [(stringIsEqual_iff t e.1).mp h4]; exact List.mem_map_of_mem he)
    simp only [HMap.apply] at h1
    simp only [MapOp.apply, hany, Bool.false_eq_true, if_false] at h3
    rw [h1]
    exact ⟨_, rfl, h2, by simpa using h3, m.args, m.vars⟩

theorem Shelf.put {S : Nat → Str} {n : Nat} {v : Vec Nat} {ts : List Text} (f : Shelf S n v ts) {s : Str} : Shelf (setStr S n s) (n + 1) v ts := by
  obtain ⟨hi, as, he, ha⟩ := f
  refine ⟨hi, as, he, ?_⟩
  refine List.Forall₂.imp ?_ ha
  rintro a t ⟨h1, h2⟩
  refine ⟨by omega, ?_⟩
  unfold setStr
  rw [if_neg (by omega)]
  exact h2

theorem Shelf.add {S : Nat → Str} {n : Nat} {v : Vec Nat} {ts : List Text} (f : Shelf S n v ts) (g : Growth) {s : Str} {t : Text} (h : Fits s t) :
    ∃ v', v.pushBack g n = some (v', true) ∧ Shelf (setStr S n s) (n + 1) v' (ts ++ [t]) := by
  obtain ⟨hi, as, he, ha⟩ := f.put (s := s)
  obtain ⟨w, h1, h2, h3, _⟩ := c18_step_aux g v as (.pushBack n) hi he
  simp only [Vec.apply, Dern.Spec.SeqOp.apply] at h1 h3
  refine ⟨w, h1, h2, as ++ [n], h3, ?_⟩
  refine List.rel_append ha (.cons ⟨by omega, ?_⟩ .nil)
  unfold setStr
  rw [if_pos rfl]
  exact h

/-- the octets of one of the strings become known -/
theorem Shelf.known {S : Nat → Str} {n a : Nat} {v : Vec Nat} {ts : List Text} (f : Shelf S n v ts) {s : Str} {t : Text} (h : Fits (S a) t) (h' : Fits s t) :
    Shelf (setStr S a s) n v ts := by
  obtain ⟨hi, as, he, ha⟩ := f
  refine ⟨hi, as, he, ?_⟩
  refine List.Forall₂.imp ?_ ha
  rintro b u ⟨h1, h2⟩
  refine ⟨h1, ?_⟩
  unfold setStr
  split
  · rename_i e
    subst e
    have := (c41_text_aux h.1).symm.trans (c41_text_aux h2.1)
    subst this
    exact h'
  · exact h2

theorem c77_before_aux {t : Text} (h : ∀ c ∈ t, c ≠ 0) : beforeNul t = t := by
  unfold beforeNul
  induction t with
  | nil => rfl
  | cons c t ih =>
    rw [List.takeWhile_cons, if_pos (by simpa using h c (.head _)), ih fun c hc => h c (.tail _ hc)]

theorem c77_at_aux (g : Growth) {S : Nat → Str} {n : Nat} {v : Vec Nat} {ts : List Text} (f : Shelf S n v ts) (i : Int) :
    ∃ S', textAt g v S i = some (S', ((position ts.length i).bind fun k => ts[k]?).map octs) ∧
      (S' = S ∨ ∃ a s t, S' = setStr S a s ∧ Fits (S a) t ∧ Fits s t) := by
  obtain ⟨hi, as, he, ha⟩ := f
  have hn : v.num = ts.length := by rw [← Vec.elems_length hi, he, List.length_map, ha.length_eq]
  unfold textAt Vec.getAt
  rw [Vec.index_eq, hn]
  cases hp : position ts.length i with
  | none => exact ⟨S, rfl, .inl rfl⟩
  | some k =>
    have hk := Vec.position_lt hp
    have hka : k < as.length := by rw [ha.length_eq]; exact hk
    have e := Vec.elems_get (v := v) k
    rw [if_pos (by omega), he, List.getElem?_map, List.getElem?_eq_getElem hka] at e
    have hf := ha.get hka hk
    simp only [List.get_eq_getElem] at hf
    obtain ⟨s', h1, h2⟩ := c41_cString_aux g hf.2.1 fun c hc => (hf.2.2 c hc).1
    rw [c77_before_aux fun c hc => (hf.2.2 c hc).2] at h1
    refine ⟨setStr S as[k] s', ?_, .inr ⟨_, _, _, rfl, hf.2, h2, hf.2.2⟩⟩
    simp only [← e, Option.map_some, h1]
    simp [List.getElem?_eq_getElem hk]

theorem c77_step_aux {H : Text → Nat} (g : Growth) {R : Registry Lib} {s : Registered Lib} (m : Mirrors H R s) {op : HostOp (List Octet) Lib} {op' : HostOp Text Lib}
    (h : SameCall op op') : ∃ R', Registry.apply H g R op = some (R', (s.apply op').2) ∧ Mirrors H R' (s.apply op').1 := by
  cases h with
  | addLibrary l h =>
    obtain ⟨R', h1, h2⟩ := c77_add_aux m h l
    refine ⟨R', ?_, h2⟩
    simp only [Registry.apply, h1, Option.map_some, Registered.apply]
    split <;> rename_i hm <;> simp [hm]
  | hasLibrary h => exact ⟨R, by simp only [Registry.apply, c77_has_aux m h, Option.map_some, Registered.apply], m⟩
  | getLibrary h => exact ⟨R, by simp only [Registry.apply, c77_get_aux m h, Option.map_some, Registered.apply], m⟩
  | addArgument h =>
    obtain ⟨x, h1, h2⟩ := c77_new_aux g h
    obtain ⟨v', h3, h4⟩ := m.args.add g h2
    exact ⟨{ R with args := v', strings := setStr R.strings R.next x, next := R.next + 1 },
      by simp only [Registry.apply, addArgument, h1, h3, Option.map_some, Registered.apply], m.inv, m.perm, h4, m.vars.put⟩
  | addVariable h =>
    obtain ⟨x, h1, h2⟩ := c77_new_aux g h
    obtain ⟨v', h3, h4⟩ := m.vars.add g h2
    exact ⟨{ R with vars := v', strings := setStr R.strings R.next x, next := R.next + 1 },
      by simp only [Registry.apply, addVariable, h1, h3, Option.map_some, Registered.apply], m.inv, m.perm, m.args.put, h4⟩
  | countArguments =>
    obtain ⟨hi, as, he, ha⟩ := m.args
    have hn : R.args.num = s.args.length := by rw [← Vec.elems_length hi, he, List.length_map, ha.length_eq]
    exact ⟨R, by simp only [Registry.apply, hn, Registered.apply], m⟩
  | countVariables =>
    obtain ⟨hi, as, he, ha⟩ := m.vars
    have hn : R.vars.num = s.vars.length := by rw [← Vec.elems_length hi, he, List.length_map, ha.length_eq]
    exact ⟨R, by simp only [Registry.apply, hn, Registered.apply], m⟩
  | argumentAt i =>
    obtain ⟨S', h1, h2⟩ := c77_at_aux g m.args i
    refine ⟨{ R with strings := S' }, by simp only [Registry.apply, h1, Option.map_some, Registered.apply], m.inv, m.perm, ?_, ?_⟩ <;>
      rcases h2 with rfl | ⟨a, x, t, rfl, h3, h4⟩
    · exact m.args
    · exact m.args.known h3 h4
    · exact m.vars
    · exact m.vars.known h3 h4
  | variableAt i =>
    obtain ⟨S', h1, h2⟩ := c77_at_aux g m.vars i
    refine ⟨{ R with strings := S' }, by simp only [Registry.apply, h1, Option.map_some, Registered.apply], m.inv, m.perm, ?_, ?_⟩ <;>
      rcases h2 with rfl | ⟨a, x, t, rfl, h3, h4⟩
    · exact m.args
    · exact m.args.known h3 h4
    · exact m.vars
    · exact m.vars.known h3 h4

theorem c77_run_aux {H : Text → Nat} (g : Growth) {ops : List (HostOp (List Octet) Lib)} {ops' : List (HostOp Text Lib)} (h : List.Forall₂ SameCall ops ops') :
    ∀ {R : Registry Lib} {s : Registered Lib}, Mirrors H R s → ∃ R', Registry.run H g R ops = some (R', s.answers ops') := by
  induction h with
  | nil => intro R s m; exact ⟨R, rfl⟩
  | cons h1 _ ih =>
    intro R s m
    obtain ⟨R1, g1, g2⟩ := c77_step_aux g m h1
    obtain ⟨R2, k⟩ := ih g2
    exact ⟨R2, by simp only [Registry.run, g1, k, Option.map_some, Registered.answers]⟩

/-- what is registered after a history -/
def Registered.after (s : Registered Lib) : List (HostOp Text Lib) → Registered Lib
  | [] => s
  | op :: ops => (s.apply op).1.after ops

theorem Registered.answers_append (s : Registered Lib) (ops more : List (HostOp Text Lib)) :
    s.answers (ops ++ more) = s.answers ops ++ (s.after ops).answers more := by
  induction ops generalizing s with
  | nil => rfl
  | cons op ops ih => simp [Registered.answers, Registered.after, ih]

theorem Registered.answers_length (s : Registered Lib) (ops : List (HostOp Text Lib)) : (s.answers ops).length = ops.length := by
  induction ops generalizing s with
  | nil => rfl
  | cons op ops ih => simp [Registered.answers, ih]

theorem c77_stays_aux {t : Text} {e : Text × Lib} (ops : List (HostOp Text Lib)) : ∀ s : Registered Lib, (s.libraries.find? fun e => e.1 = t) = some e →
    ((s.after ops).libraries.find? fun e => e.1 = t) = some e := by
  induction ops with
  | nil => intro s h; exact h
  | cons op ops ih =>
    intro s h
    refine ih _ ?_
    cases op <;> simp only [Registered.apply] <;> try exact h
    split
    · exact h
    · rw [List.find?_append, h]; rfl

theorem c77_read_aux {os : List Octet} {t : Text} {e : Option Nat} (h : fromBuffer os = some ⟨t.map (BitVec.ofNat 32), e⟩) (ht : ∀ c ∈ t, _root_.Spec.Utf8.IsScalar c) :
    Read os t := by
  obtain ⟨r, rest, h1, h2, _⟩ := c02_string_longest_partial os
  rw [h] at h1; cases h1
  have : ((t.map (BitVec.ofNat 32)).map BitVec.toNat : Text) = t := by
    rw [List.map_map]
    conv => rhs; rw [← List.map_id t]
    refine List.map_congr_left fun c hc => ?_
    have := (ht c hc).1
    simp
    omega
  exact ⟨⟨rest, by rw [← this]; exact h2⟩, ht⟩

/-! ### Theorems -/

/-- Every history of calls: nothing aborts, and the answers are those of the lists of what was registered.  (`H` is the hash of names, `S` the content of
memory where no string is yet.) -/
theorem c77_registry (H : Text → Nat) (g : Growth) (S : Nat → Str) {ops : List (HostOp (List Octet) Lib)} {ops' : List (HostOp Text Lib)}
    (h : List.Forall₂ SameCall ops ops') : ∃ R, Registry.run H g (Registry.new S) ops = some (R, (⟨[], [], []⟩ : Registered Lib).answers ops') :=
  c77_run_aux g h ⟨HMap.new_inv _, by simp [Registry.new, HMap.new], ⟨c18_new_aux _, [], by simp [Registry.new, Vec.elems, Vec.new], .nil⟩,
    ⟨c18_new_aux _, [], by simp [Registry.new, Vec.elems, Vec.new], .nil⟩⟩

/-- A text in UTF-8 is read as itself, so it comes back with the same octets. -/
theorem c77_utf8 {t : Text} (ht : ∀ c ∈ t, _root_.Spec.Utf8.IsScalar c ∧ c ≠ 0) : Read (octs t) t := by
  obtain ⟨d1, d2⟩ := c41_decode_aux ht
  exact c77_read_aux d1 fun c hc => (ht c hc).1

/-- A library that was found under a name is found under this name after everything that happens later. -/
theorem c77_library_stays (H : Text → Nat) (g : Growth) (S : Nat → Str) {ops more : List (HostOp (List Octet) Lib)} {ops' more' : List (HostOp Text Lib)}
    (h : List.Forall₂ SameCall ops ops') (h' : List.Forall₂ SameCall more more') {os : List Octet} {t : Text} (hr : Read os t) :
    ∃ R as, Registry.run H g (Registry.new S) (ops ++ [.getLibrary os] ++ more ++ [.getLibrary os]) = some (R, as) ∧
      ∀ l, as[ops.length]? = some (.library (some l)) → as.getLast? = some (.library (some l)) := by
  obtain ⟨R, hR⟩ := c77_registry H g S (ops := ops ++ [.getLibrary os] ++ more ++ [.getLibrary os]) (ops' := ops' ++ [.getLibrary t] ++ more' ++ [.getLibrary t])
    (List.rel_append (List.rel_append (List.rel_append h (.cons (.getLibrary hr) .nil)) h') (.cons (.getLibrary hr) .nil))
  refine ⟨R, _, hR, fun l hl => ?_⟩
  have hlen : ops.length = ((⟨[], [], []⟩ : Registered Lib).answers ops').length := by rw [Registered.answers_length, h.length_eq]
  simp only [Registered.answers_append, List.append_assoc] at hl ⊢
  rw [hlen, List.getElem?_append_right (Nat.le_refl _), Nat.sub_self] at hl
  simp only [Registered.answers, Registered.apply, List.cons_append, List.nil_append, List.getElem?_cons_zero, Option.some.injEq, HostAnswer.library.injEq,
    Option.map_eq_some_iff] at hl
  obtain ⟨e, he, rfl⟩ := hl
  have hs := c77_stays_aux more' _ (c77_stays_aux [.getLibrary t] _ he)
  simp only [← List.append_assoc, List.getLast?_append, Registered.answers, Registered.apply, List.getLast?_singleton, Option.some_or]
  have := congrArg (fun x => some (HostAnswer.library (x.map Prod.snd))) hs
  exact this

/-- What does not hold: the end of a C string that is not UTF-8 is lost, without a word.  An argument in Latin-1 comes back as the empty text, and a library is refused
because a library of another name is there. -/
theorem c77_malformed_is_cut (H : Text → Nat) (g : Growth) (S : Nat → Str) (a b : Lib) :
    (∃ R, Registry.run H g (Registry.new S : Registry Lib) [.addArgument [0xE9], .argumentAt 0] = some (R, [.flag true, .text (some [])])) ∧
    ∃ R, Registry.run H g (Registry.new S) [.addLibrary [97, 255, 49] a, .addLibrary [97, 255, 50] b, .getLibrary [97, 255, 50]] =
      some (R, [.flag true, .flag false, .library (some a)]) := by
  have r1 : Read [0xE9] [] := c77_read_aux (e := some 0) (by decide) (by simp)
  have r2 : Read [97, 255, 49] [97] := c77_read_aux (e := some 1) (by decide) (by decide)
  have r3 : Read [97, 255, 50] [97] := c77_read_aux (e := some 1) (by decide) (by decide)
  refine ⟨?_, ?_⟩
  · obtain ⟨R, h⟩ := c77_registry H g S (Lib := Lib) (.cons (.addArgument r1) (.cons (.argumentAt 0) .nil))
    exact ⟨R, h⟩
  · obtain ⟨R, h⟩ := c77_registry H g S (.cons (.addLibrary a r2) (.cons (.addLibrary b r3) (.cons (.getLibrary r3) .nil)))
    exact ⟨R, h⟩

/-! ### Examples -/

/-- two libraries, a third registration under a name that is taken, arguments and variables, an index from the end and an index too large -/
example (H : Text → Nat) (g : Growth) (S : Nat → Str) : ∃ R, Registry.run H g (Registry.new S)
    [.addLibrary [97] 1, .addLibrary [195, 164] 2, .addLibrary [97] 3, .getLibrary [97], .getLibrary [195, 164], .hasLibrary [98],
      .addArgument [98, 195, 164], .addArgument [99], .addVariable [80, 61, 113], .countArguments, .countVariables, .argumentAt 0, .argumentAt (-1),
      .argumentAt 2, .variableAt 0] = some (R,
    [.flag true, .flag true, .flag false, .library (some 1), .library (some 2), .flag false, .flag true, .flag true, .flag true, .count 2, .count 1,
      .text (some [98, 195, 164]), .text (some [99]), .text none, .text (some [80, 61, 113])]) := by
  have ra : Read [97] [97] := c77_utf8 (t := [97]) (by decide)
  have rb : Read [98] [98] := c77_utf8 (t := [98]) (by decide)
  have rc : Read [99] [99] := c77_utf8 (t := [99]) (by decide)
  have rä : Read [195, 164] [228] := c77_utf8 (t := [228]) (by decide)
  have rbä : Read [98, 195, 164] [98, 228] := c77_utf8 (t := [98, 228]) (by decide)
  have rp : Read [80, 61, 113] [80, 61, 113] := c77_utf8 (t := [80, 61, 113]) (by decide)
  obtain ⟨R, h⟩ := c77_registry H g S (.cons (.addLibrary 1 ra) (.cons (.addLibrary 2 rä) (.cons (.addLibrary 3 ra) (.cons (.getLibrary ra)
    (.cons (.getLibrary rä) (.cons (.hasLibrary rb) (.cons (.addArgument rbä) (.cons (.addArgument rc) (.cons (.addVariable rp) (.cons .countArguments
    (.cons .countVariables (.cons (.argumentAt 0) (.cons (.argumentAt (-1)) (.cons (.argumentAt 2) (.cons (.variableAt 0) .nil)))))))))))))))
  exact ⟨R, h⟩

/-- a library that is found is found again after another registration under its name -/
example (H : Text → Nat) (g : Growth) (S : Nat → Str) : ∃ R as, Registry.run H g (Registry.new S)
    ([.addLibrary [97] 1] ++ [.getLibrary [97]] ++ [.addLibrary [97] 2, .addArgument [97]] ++ [.getLibrary [97]]) = some (R, as) ∧
      ∀ l, as[1]? = some (.library (some l)) → as.getLast? = some (.library (some l)) := by
  have ra : Read [97] [97] := c77_utf8 (t := [97]) (by decide)
  exact c77_library_stays H g S (.cons (.addLibrary 1 ra) .nil) (.cons (.addLibrary 2 ra) (.cons (.addArgument ra) .nil)) ra

end Dern.Props
