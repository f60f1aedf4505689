import Verif.Dern.Arguments
import Verif.Dern.Total
import Verif.Props.C49
import Verif.Props.Machine
/-
C73: arguments for functions written in C, and C data.
-/
namespace Dern.Props
open Dern
open Dern.Prog (Argument getArgument getOfType getEvaluated getVectorEvaluated)
variable {W : World} {n : Nat} {h : Handler}

/-! ### Specification -/

/-- a text and its characters: strings, symbols and characters -/
inductive TextObj : Obj → Text → Prop
  | str {t} : TextObj (.str t) t
  | sym {t} : TextObj (.sym t) t
  | chr {t} : TextObj (.chr t) t

/-- a value is what the function asked for, and what it is given besides the value -/
inductive Fitting (C : Nat → CData) : Want → Obj → Payload → Prop
  | integer {k} : Fitting C .number (.int k) (.number (.inl k))
  | real {d} : Fitting C .number (.real d) (.number (.inr d))
  | boolean {b} : Fitting C .boolean (.bool b) (.boolean b)
  | text {o t} : TextObj o t → Fitting C .text o (.text t)
  | string {t} : Fitting C .string (.str t) (.text t)
  | function {f} : Fitting C .function (.fn f) .none
  | vector {es} : Fitting C .vector (.vec es) .none
  | environment {bs e} : Fitting C .environment (.env bs e) .none
  | symbol {t} : Fitting C .symbol (.sym t) (.text t)
  | thisSymbol {t} : Fitting C (.thisSymbol t) (.sym t) (.text t)
  | oneOf {as o t i} : TextObj o t → as[i]? = some t → (∀ j, j < i → as[j]? ≠ some t) → Fitting C (.oneOf as) o (.index i t)
  | cData {id plugin typeName} : (C id).plugin = plugin → (C id).typeName = typeName → Fitting C (.cData typeName plugin) (.cdata id) (.data (C id).payload)

/-- a new error was made that is not on the stack; nothing that can be reached has changed -/
structure Unpushed (W : World) (v : Vm) (e : Ref) (w : Vm) : Prop where
  err : w.IsErr e
  new : ¬ v.Old W e
  stack : w.stack = v.stack
  kept : ∀ z, v.Kept z → z ≠ e → w.mem z = v.mem z
  out : w.out = v.out
  ret : w.functionReturn = v.functionReturn
  quit : w.quit = v.quit

/-! ### Proofs -/

theorem c73_alternative_aux (t : Text) : ∀ (as : List Text) (k i : Nat), Prog.alternative t as k = some i ↔
    k ≤ i ∧ as[i - k]? = some t ∧ ∀ j, j < i - k → as[j]? ≠ some t := by
  intro as
  induction as with
  | nil => intro k i; simp [Prog.alternative]
  | cons a as ih =>
    intro k i
    simp only [Prog.alternative]
    split
    · next ht =>
      subst ht
      constructor
      · intro h; cases h; simp
      · rintro ⟨h1, h2, h3⟩
        rcases Nat.eq_or_lt_of_le h1 with rfl | hlt
        · rfl
        · exact absurd rfl (h3 0 (by omega))
    · next ht =>
      rw [ih]
      constructor
      · rintro ⟨h1, h2, h3⟩
        obtain ⟨m, hm⟩ : ∃ m, i - k = m + 1 := ⟨i - k - 1, by omega⟩
        have hm' : i - (k + 1) = m := by omega
        rw [hm'] at h2 h3
        refine ⟨by omega, by rw [hm]; exact h2, fun j hj => ?_⟩
        cases j with
        | zero => intro h; simp at h; exact ht h.symm
        | succ j => exact h3 j (by omega)
      · rintro ⟨h1, h2, h3⟩
        rcases Nat.eq_or_lt_of_le h1 with rfl | hlt
        · simp at h2; exact absurd h2.symm ht
        · obtain ⟨m, hm⟩ : ∃ m, i - k = m + 1 := ⟨i - k - 1, by omega⟩
          have hm' : i - (k + 1) = m := by omega
          rw [hm']
          rw [hm] at h2 h3
          exact ⟨by omega, h2, fun j hj => h3 (j + 1) (by omega)⟩

theorem c73_oneOf_aux {t : Text} {as : List Text} {p : Payload} :
    ((Prog.alternative t as 0).map fun i => Payload.index i t) = some p ↔
      ∃ i, p = .index i t ∧ as[i]? = some t ∧ ∀ j, j < i → as[j]? ≠ some t := by
  rw [Option.map_eq_some_iff]
  constructor
  · rintro ⟨i, h1, h2⟩
    obtain ⟨_, h3, h4⟩ := (c73_alternative_aux t as 0 i).mp h1
    exact ⟨i, h2.symm, h3, h4⟩
  · rintro ⟨i, h1, h2, h3⟩
    exact ⟨i, (c73_alternative_aux t as 0 i).mpr ⟨by omega, h2, h3⟩, h1.symm⟩

theorem c73_named_aux (d : CData) (plugin typeName : Text) : d.isNamed plugin typeName = true ↔ d.plugin = plugin ∧ d.typeName = typeName := by
  unfold CData.isNamed
  split
  · next h => simp [h]
  · next h =>
    split
    · next h' => simp [h']
    · next h' => simp only [ne_eq, not_not] at h h'; simp [h, h']

theorem c73_pick_aux (C : Nat → CData) (want : Want) (o : Obj) (p : Payload) : Prog.pick C want o = some p ↔ Fitting C want o p := by
  constructor
  · intro h
    unfold Prog.pick at h
    split at h
    · cases h; exact .integer
    · cases h; exact .real
    · cases h; exact .boolean
    · cases h; exact .text .str
    · cases h; exact .text .sym
    · cases h; exact .text .chr
    · cases h; exact .string
    · cases h; exact .function
    · cases h; exact .vector
    · cases h; exact .environment
    · cases h; exact .symbol
    · split at h
      · next ht => cases h; subst ht; exact .thisSymbol
      · cases h
    · obtain ⟨i, rfl, h1, h2⟩ := c73_oneOf_aux.mp h; exact .oneOf .str h1 h2
    · obtain ⟨i, rfl, h1, h2⟩ := c73_oneOf_aux.mp h; exact .oneOf .sym h1 h2
    · obtain ⟨i, rfl, h1, h2⟩ := c73_oneOf_aux.mp h; exact .oneOf .chr h1 h2
    · split at h
      · next hn =>
        cases h
        obtain ⟨h1, h2⟩ := (c73_named_aux _ _ _).mp hn
        exact .cData h1 h2
      · cases h
    · cases h
  · intro h
    cases h with
    | text ht => cases ht <;> rfl
    | thisSymbol => simp [Prog.pick]
    | oneOf ht h1 h2 => cases ht <;> exact c73_oneOf_aux.mpr ⟨_, rfl, h1, h2⟩
    | cData h1 h2 =>
      simp only [Prog.pick]
      rw [if_pos ((c73_named_aux _ _ _).mpr ⟨h1, h2⟩)]
    | _ => rfl

theorem c73_verify_aux {v : Vm} {self : Ref} {es : List Ref} (hv : v.HasVec self es) : run W n h (Prog.verifyVec self) v = .ok (es, v, []) := by
  obtain ⟨c, hc, ho⟩ := hv
  unfold Prog.verifyVec
  rw [run_bind, show run W n h (Prog.read self) v = .ok (c, v, []) from run_perform (o := .read self) (by simp only [step, quiet, M.read, Mem.read, hc]; rfl)]
  simp only [ho]
  rfl

theorem c73_read_aux {v : Vm} {x : Ref} {c : Cell} (hc : v.mem x = some c) : run W n h (Prog.read x) v = .ok (c, v, []) :=
  run_perform (o := .read x) (by simp only [step, quiet, M.read, Mem.read, hc]; rfl)

theorem c73_self_aux (t : Text) : Spec.sign (Spec.lexCmp t t) = 0 := by
  rw [Spec.lexCmp_refl]; rfl

theorem c73_other_aux {s t : Text} (hst : s ≠ t) : Spec.sign (Spec.lexCmp s t) ≠ 0 := by
  intro h
  apply hst
  apply Spec.lexCmp_eq
  cases hc : Spec.lexCmp s t <;> rw [hc] at h <;> simp [Spec.sign] at h ⊢

/-! ### Theorems -/

/-- C73.  If the element that the index denotes is what the function asks for, it is given the element and its payload, no error, and nothing changes. -/
theorem c73_given (C : Nat → CData) {want : Want} {v : Vm} {self x : Ref} {es : List Ref} {i : Int} {o : Obj} {p : Payload}
    (hv : v.HasVec self es) (hi : ElementAt es i x) (hx : v.HasObj x o) (hp : Fitting C want o p) :
    run W n h (getArgument C want self i) v = .ok (⟨some x, some p, none⟩, v, []) := by
  obtain ⟨d, hd, hod⟩ := hx
  have hi := (c49_indexIn_aux es i x).mpr hi
  have hp := (c73_pick_aux C want o p).mpr hp
  unfold getArgument
  rw [run_bind, c73_verify_aux hv]
  simp only [hi]
  rw [run_bind, c73_read_aux hd]
  subst hod
  simp only [hp]
  rfl

/-- C73.  If the element is not what the function asks for, it is given a new error that is not on the stack, and no element; nothing that can be reached changes.
(`Wt`: unless a new value cannot be created.) -/
theorem c73_refused (C : Nat → CData) {want : Want} {v : Vm} (sv : v.Sane W) {self x : Ref} {es : List Ref} {i : Int} {o : Obj}
    (hv : v.HasVec self es) (hi : ElementAt es i x) (hx : v.HasObj x o) (hp : ∀ p, ¬ Fitting C want o p) :
    Wt W n h (getArgument C want self i) v fun a w tr => a.value = none ∧ a.payload = none ∧ (∃ e, a.error = some e ∧ Unpushed W v e w) ∧ tr = [] := by
  obtain ⟨d, hd, hod⟩ := hx
  have hi := (c49_indexIn_aux es i x).mpr hi
  have hp : Prog.pick C want d.obj = none := by
    cases e : Prog.pick C want d.obj with
    | none => rfl
    | some p => exact absurd ((c73_pick_aux C want o p).mp (by rw [← hod]; exact e)) (hp p)
  unfold getArgument
  refine wt_bind (wt_verifyVec hv ?_)
  simp only [hi]
  refine wt_bind (wt_read hd ?_)
  simp only [hp]
  refine wt_bind (wt_error sv fun r w t a => wt_pure ?_)
  refine ⟨rfl, rfl, ⟨r, rfl, ⟨_, _, _, a.cell, rfl⟩, a.fresh, a.stack, fun z hz hne => a.kept z hz hne, a.out, a.ret, a.quit⟩, rfl⟩

/-- C73.  An index that denotes no element ends the program. -/
theorem c73_outside (C : Nat → CData) {want : Want} {v : Vm} {self : Ref} {es : List Ref} {i : Int}
    (hv : v.HasVec self es) (hi : ∀ x, ¬ ElementAt es i x) : run W n h (getArgument C want self i) v = .error .abort := by
  have hi : (Prog.indexIn es.length i).bind (es[·]?) = none := by
    cases e : (Prog.indexIn es.length i).bind (es[·]?) with
    | none => rfl
    | some x => exact absurd ((c49_indexIn_aux es i x).mp e) (hi x)
  unfold getArgument
  rw [run_bind, c73_verify_aux hv]
  simp only [hi]
  rfl

/-- C73, the other way round: whenever such a function returns, it has either given the element with this index, which is what was asked for, with its payload and without
an error, or only an error.  In particular a plugin only ever gets the payload of C data that has both its own name and the type name it asks for. -/
theorem c73_only (C : Nat → CData) {want : Want} {v w : Vm} (sv : v.Sane W) {self : Ref} {i : Int} {a : Argument} {tr : List Event}
    (e : run W n h (getArgument C want self i) v = .ok (a, w, tr)) :
    ∃ es x o, v.HasVec self es ∧ ElementAt es i x ∧ v.HasObj x o ∧
      ((∃ p, a = ⟨some x, some p, none⟩ ∧ Fitting C want o p ∧ w = v) ∨
        ((∀ p, ¬ Fitting C want o p) ∧ a.value = none ∧ a.payload = none ∧ ∃ e, a.error = some e ∧ Unpushed W v e w)) := by
  revert e
  suffices H : Wp W n h (getArgument C want self i) v fun a w _ => ∃ es x o, v.HasVec self es ∧ ElementAt es i x ∧ v.HasObj x o ∧
      ((∃ p, a = ⟨some x, some p, none⟩ ∧ Fitting C want o p ∧ w = v) ∨
        ((∀ p, ¬ Fitting C want o p) ∧ a.value = none ∧ a.payload = none ∧ ∃ e, a.error = some e ∧ Unpushed W v e w)) from fun e => H _ _ _ e
  unfold getArgument
  refine wp_bind (wp_verifyVec fun c es hc ho => ?_)
  split
  · exact wp_fail
  · next x hi =>
    refine wp_bind (wp_read fun d hd => ?_)
    have hi := (c49_indexIn_aux es i x).mp hi
    split
    · next p hp =>
      exact wp_pure ⟨es, x, d.obj, ⟨c, hc, ho⟩, hi, ⟨d, hd, rfl⟩, .inl ⟨p, rfl, (c73_pick_aux C want _ p).mp hp, rfl⟩⟩
    · next hp =>
      refine wp_bind (Wt.wp (wt_error sv fun r w t a => wp_pure ?_))
      refine ⟨es, x, d.obj, ⟨c, hc, ho⟩, hi, ⟨d, hd, rfl⟩, .inr ⟨fun p hf => ?_, rfl, rfl, r, rfl,
        ⟨⟨_, _, _, a.cell, rfl⟩, a.fresh, a.stack, fun z hz hne => a.kept z hz hne, a.out, a.ret, a.quit⟩⟩⟩
      rw [(c73_pick_aux C want _ p).mpr hf] at hp
      cases hp

/-- C73, elements of a type: the element if it has that type, null if it has another, and an index that denotes no element ends the program; nothing changes. -/
theorem c73_of_type {tag : Nat} {v : Vm} {self : Ref} {es : List Ref} {i : Int} (hv : v.HasVec self es) :
    (∀ x o, ElementAt es i x → v.HasObj x o → run W n h (getOfType tag self i) v = .ok (if o.tag = tag then some x else none, v, [])) ∧
    ((∀ x, ¬ ElementAt es i x) → run W n h (getOfType tag self i) v = .error .abort) := by
  unfold getOfType
  rw [run_bind, c73_verify_aux hv]
  refine ⟨fun x o hi ⟨d, hd, hod⟩ => ?_, fun hi => ?_⟩
  · have hi := (c49_indexIn_aux es i x).mpr hi
    simp only [hi]
    rw [run_bind, c73_read_aux hd]
    subst hod
    by_cases ht : d.obj.tag = tag
    · simp only [if_pos ht]; rfl
    · simp only [if_neg ht]; rfl
  · have hi : (Prog.indexIn es.length i).bind (es[·]?) = none := by
      cases e : (Prog.indexIn es.length i).bind (es[·]?) with
      | none => rfl
      | some x => exact absurd ((c49_indexIn_aux es i x).mp e) (hi x)
    simp only [hi]
    rfl

/-- C73, with evaluation: whenever a function that asks for a number (or for something callable) to be evaluated first returns, exactly one evaluation took place, that of
the element with this index in the given environment; the function has either been given its value, which is a number (callable), or only an error. -/
theorem c73_evaluated {L : Prog.Library} (hL : L.Safe) {v w : Vm} (rv : v.Reached W L) {callable : Bool} {self env : Ref} (os : v.Old W self) (oe : v.Old W env)
    {i : Int} {a : Argument} {tr : List Event} (e : run W n (handle W L n) (getEvaluated callable self i env) v = .ok (a, w, tr)) :
    ∃ es x y o u, v.HasVec self es ∧ ElementAt es i x ∧ tr = [⟨x, env, v, some y, u⟩] ∧ u.HasObj y o ∧
      ((∃ p, a = ⟨some y, some p, none⟩ ∧ w = u ∧ if callable then Prog.isCallable o = true else Fitting (fun _ => ⟨[], [], 0, [], false, 0⟩) .number o p) ∨
        ((if callable then Prog.isCallable o = false else ∀ p, ¬ Fitting (fun _ => ⟨[], [], 0, [], false, 0⟩) .number o p) ∧
          a.value = none ∧ a.payload = none ∧ ∃ e, a.error = some e ∧ Unpushed W u e w)) := by
  obtain ⟨sv, cv⟩ := rv.good hL
  revert e
  suffices H : Wp W n (handle W L n) (getEvaluated callable self i env) v fun a w tr => ∃ es x y o u, v.HasVec self es ∧ ElementAt es i x ∧
      tr = [⟨x, env, v, some y, u⟩] ∧ u.HasObj y o ∧
      ((∃ p, a = ⟨some y, some p, none⟩ ∧ w = u ∧ if callable then Prog.isCallable o = true else Fitting (fun _ => ⟨[], [], 0, [], false, 0⟩) .number o p) ∨
        ((if callable then Prog.isCallable o = false else ∀ p, ¬ Fitting (fun _ => ⟨[], [], 0, [], false, 0⟩) .number o p) ∧
          a.value = none ∧ a.payload = none ∧ ∃ e, a.error = some e ∧ Unpushed W u e w)) from fun e => H _ _ _ e
  unfold getEvaluated
  refine wp_bind (wp_verifyVec fun c es hc ho => ?_)
  split
  · exact wp_fail
  · next x hi =>
    have hi := (c49_indexIn_aux es i x).mp hi
    have ox : v.Old W x := by
      have := (cv.cells self c hc).obj
      rw [ho] at this
      exact this x (by cases hi with
        | front _ he => exact List.mem_of_getElem? he
        | back _ he => exact List.mem_reverse.mp (List.mem_of_getElem? he))
    refine wp_bind (wps_eval (handler_fine hL n) (.refl sv cv (E := nobody)) ⟨ox, id⟩ ⟨oe, id⟩ fun b u g hst hb => ?_)
    have rest : ∀ y, b = some y → Wp W n (handle W L n) (do
        let c ← Prog.read y
        match (if callable then (if Prog.isCallable c.obj then some Payload.none else none) else Prog.pick (fun _ => ⟨[], [], 0, [], false, 0⟩) .number c.obj) with
        | some p => pure (⟨some y, some p, none⟩ : Argument)
        | none => do
          let e ← Prog.error "Builtin '%s' expects …"
          pure ⟨none, none, e⟩) u fun a w tr' => ∃ es x' y o u', v.HasVec self es ∧ ElementAt es i x' ∧
      [] ++ ([⟨x, env, v, b, u⟩] ++ ([] ++ tr')) = [⟨x', env, v, some y, u'⟩] ∧ u'.HasObj y o ∧
      ((∃ p, a = ⟨some y, some p, none⟩ ∧ w = u' ∧ if callable then Prog.isCallable o = true else Fitting (fun _ => ⟨[], [], 0, [], false, 0⟩) .number o p) ∨
        ((if callable then Prog.isCallable o = false else ∀ p, ¬ Fitting (fun _ => ⟨[], [], 0, [], false, 0⟩) .number o p) ∧
          a.value = none ∧ a.payload = none ∧ ∃ e, a.error = some e ∧ Unpushed W u' e w)) := by
      rintro y rfl
      refine wp_bind (wp_read fun d hd => ?_)
      split
      · next p hp =>
        refine wp_pure ⟨es, x, y, d.obj, u, ⟨c, hc, ho⟩, hi, rfl, ⟨d, hd, rfl⟩, .inl ⟨p, rfl, rfl, ?_⟩⟩
        cases callable
        · exact (c73_pick_aux _ _ _ p).mp hp
        · simp only [if_true] at hp ⊢
          split at hp
          · assumption
          · cases hp
      · next hp =>
        refine wp_bind (Wt.wp (wt_error g.sane fun r w t a => wp_pure ?_))
        refine ⟨es, x, y, d.obj, u, ⟨c, hc, ho⟩, hi, rfl, ⟨d, hd, rfl⟩, .inr ⟨?_, rfl, rfl, r, rfl,
          ⟨⟨_, _, _, a.cell, rfl⟩, a.fresh, a.stack, fun z hz hne => a.kept z hz hne, a.out, a.ret, a.quit⟩⟩⟩
        cases callable
        · intro p hf
          have := (c73_pick_aux _ _ _ p).mpr hf
          simp only [Bool.false_eq_true, if_false] at hp
          rw [this] at hp; cases hp
        · simp only [if_true] at hp ⊢
          split at hp
          · cases hp
          · next h => exact Bool.eq_false_iff.mpr h
    cases callable
    · exact wp_bind (wp_deref fun y hy => Wp.mono (rest y hy) fun _ _ _ hh => by simpa using hh)
    · exact wp_bind (wp_require fun y hy => Wp.mono (rest y hy) fun _ _ _ hh => by simpa using hh)

/-- C73: what is given is determined by the value. -/
theorem c73_payload_unique (C : Nat → CData) {want : Want} {o : Obj} {p q : Payload} (hp : Fitting C want o p) (hq : Fitting C want o q) : p = q := by
  have := (c73_pick_aux C want o p).mpr hp
  rw [(c73_pick_aux C want o q).mpr hq] at this
  exact (Option.some.inj this).symm

/-- C73: the payload of C data is given exactly for the plugin and the type it was made with. -/
theorem c73_c_data (C : Nat → CData) {plugin typeName : Text} {id : Nat} :
    (∃ p, Fitting C (.cData typeName plugin) (.cdata id) p) ↔ (C id).plugin = plugin ∧ (C id).typeName = typeName :=
  ⟨fun ⟨_, hp⟩ => by cases hp with | cData h1 h2 => exact ⟨h1, h2⟩, fun ⟨h1, h2⟩ => ⟨_, .cData h1 h2⟩⟩

/-- C73, a copy: a new structure with the same names and payload. -/
theorem c73_copied (d : CData) (a : Nat) (h1 : ∀ c ∈ d.plugin, PrintCh c) (h2 : ∀ c ∈ d.typeName, PrintCh c) (h3 : ∀ c ∈ d.compareCallback, PrintCh c) :
    d.copy a = some { d with address := a } := by
  simp [CData.copy, recode_eq _ h1, recode_eq _ h2, recode_eq _ h3]

/-- C73, what does not hold: C data is never equal to itself or to its copy.  Only C data with the same payload and different names in both places is. -/
theorem c73_never_equal_itself (d e : CData) : (d.isEqual e = true ↔ d.payload = e.payload ∧ d.plugin ≠ e.plugin ∧ d.typeName ≠ e.typeName) ∧ d.isEqual d = false := by
  have self : ∀ t, stringIsEqual t t = true := fun t => (stringIsEqual_iff t t).mpr rfl
  have key : ∀ e : CData, d.isEqual e = true ↔ d.payload = e.payload ∧ d.plugin ≠ e.plugin ∧ d.typeName ≠ e.typeName := by
    intro e
    unfold CData.isEqual
    by_cases h1 : d.payload = e.payload
    · by_cases h2 : d.plugin = e.plugin
      · simp [h1, self, h2]
      · by_cases h3 : d.typeName = e.typeName
        · simp [h1, self, h3]
        · have h2' : stringIsEqual d.plugin e.plugin = false := by rw [← Bool.not_eq_true, stringIsEqual_iff]; exact h2
          have h3' : stringIsEqual d.typeName e.typeName = false := by rw [← Bool.not_eq_true, stringIsEqual_iff]; exact h3
          simp [h1, h2', h3', h2, h3]
    · simp [h1]
  refine ⟨key e, ?_⟩
  rw [← Bool.not_eq_true, key]
  simp

/-- C73, comparing: by the plugin names, then by the type names; if both are the same, by the comparator of the library, 0 if the library is not known; without a comparator
only a structure and itself can be compared. -/
theorem c73_compared (lib : Text → Option (Text → CData → CData → Option Int)) (d e : CData) (h1 : ∀ c ∈ d.plugin ++ e.plugin, PrintCh c)
    (h2 : ∀ c ∈ d.typeName ++ e.typeName, PrintCh c) :
    (d.plugin ≠ e.plugin → d.compare lib e = .ok (Spec.sign (Spec.lexCmp d.plugin e.plugin))) ∧
    (d.plugin = e.plugin → d.typeName ≠ e.typeName → d.compare lib e = .ok (Spec.sign (Spec.lexCmp d.typeName e.typeName))) ∧
    (d.plugin = e.plugin → d.typeName = e.typeName → d.compareCallback ≠ [] → lib d.plugin = none → d.compare lib e = .ok 0) ∧
    (∀ f k, d.plugin = e.plugin → d.typeName = e.typeName → d.compareCallback ≠ [] → lib d.plugin = some f → f d.compareCallback d e = some k →
      d.compare lib e = .ok k) ∧
    (d.plugin = e.plugin → d.typeName = e.typeName → d.compareCallback = [] → d.compare lib e = if d.address = e.address then .ok 0 else .error .ub) := by
  have n1 := stringCompare_eq d.plugin e.plugin (fun c hc => h1 c (by simp [hc])) (fun c hc => h1 c (by simp [hc]))
  have n2 := stringCompare_eq d.typeName e.typeName (fun c hc => h2 c (by simp [hc])) (fun c hc => h2 c (by simp [hc]))
  have z : ∀ t : Text, Spec.sign (Spec.lexCmp t t) = 0 := fun t => c73_self_aux t
  have nz : ∀ s t : Text, s ≠ t → Spec.sign (Spec.lexCmp s t) ≠ 0 := fun s t hst => c73_other_aux hst
  have b : ∀ (k : Int) (f : Int → Res Int), ((Except.ok k : Res Int) >>= f) = f k := fun _ _ => rfl
  refine ⟨fun hp => ?_, fun hp ht => ?_, fun hp ht hc hl => ?_, fun f k hp ht hc hl hf => ?_, fun hp ht hc => ?_⟩
  · simp only [CData.compare, n1, b, if_pos (nz _ _ hp)]
  · simp only [CData.compare, n1, n2, b]
    rw [if_neg (by rw [hp, z]; simp), if_pos (nz _ _ ht)]
  all_goals
    simp only [CData.compare, n1, n2, b]
    rw [if_neg (by rw [hp, z]; simp), if_neg (by rw [ht, z]; simp)]
  · rw [if_pos hc]; simp only [hl]
  · rw [if_pos hc]; simp only [hl, hf]
  · rw [if_neg (by simp [hc])]

/-! ### Examples -/

/-- a reachable state with the vector `(name 5)` -/
theorem c73_state_aux : ∃ v : Vm, v.Reached world library ∧ v.HasVec 12 [10, 11] ∧ v.HasObj 10 (.sym (txt "name")) ∧ v.HasObj 11 (.int 5) := by
  obtain ⟨v, x, hv, h⟩ := build_exists (f := .vec [.sym "name", .int 5]) (fuel := 20)
    (P := fun v _ => objAt v (some 12) == some (.vec [10, 11]) && objAt v (some 10) == some (.sym (txt "name")) && objAt v (some 11) == some (.int 5))
    (by decide +kernel)
  simp only [Bool.and_eq_true, beq_iff_eq] at h
  have at' : ∀ {r : Ref} {o : Obj}, objAt v (some r) = some o → ∃ c, v.mem r = some c ∧ c.obj = o := by
    intro r o h
    simpa [objAt, Option.map_eq_some_iff] using h
  exact ⟨v, hv, at' h.1.1, at' h.1.2, at' h.2⟩

/-- the last element of `(name 5)` as a number, its first as one of the texts `nick` and `name`; the first is no number; there is no third -/
example (C : Nat → CData) : ∃ v : Vm, v.Sane world ∧
    run world n h (getArgument C .number 12 (-1)) v = .ok (⟨some 11, some (.number (.inl 5)), none⟩, v, []) ∧
    run world n h (getArgument C (.oneOf [txt "nick", txt "name"]) 12 0) v = .ok (⟨some 10, some (.index 1 (txt "name")), none⟩, v, []) ∧
    Wt world n h (getArgument C .number 12 0) v (fun a w tr => a.value = none ∧ a.payload = none ∧ (∃ e, a.error = some e ∧ Unpushed world v e w) ∧ tr = []) ∧
    run world n h (getArgument C .number 12 2) v = .error .abort := by
  obtain ⟨v, hr, h1, h2, h3⟩ := c73_state_aux
  have sv := (Vm.Leads.good library_safe (base_sane world) (base_closed world) hr).1
  refine ⟨v, sv, c73_given C h1 (.back (k := 0) rfl rfl) h3 .integer, c73_given C h1 (.front (k := 0) rfl rfl) h2 (.oneOf .sym rfl ?_),
    c73_refused C sv h1 (.front (k := 0) rfl rfl) h2 (fun p hp => by cases hp), c73_outside C h1 ?_⟩
  · intro j hj
    obtain rfl : j = 0 := by omega
    decide
  · intro x hx
    cases hx with
    | @front k e he => obtain rfl : k = 2 := by omega
                       cases he
    | @back k e he => omega

/-- a plugin asks for its own data: `window` of `sdl2` is not given as `texture`, nor to another plugin -/
example : Fitting (fun _ => ⟨txt "sdl2", txt "window", 77, [], true, 1⟩) (.cData (txt "window") (txt "sdl2")) (.cdata 0) (.data 77) ∧
    (∀ p, ¬ Fitting (fun _ => ⟨txt "sdl2", txt "window", 77, [], true, 1⟩) (.cData (txt "texture") (txt "sdl2")) (.cdata 0) p) ∧
    (∀ p, ¬ Fitting (fun _ => ⟨txt "sdl2", txt "window", 77, [], true, 1⟩) (.cData (txt "window") (txt "socket")) (.cdata 0) p) := by
  refine ⟨.cData rfl rfl, fun p hp => ?_, fun p hp => ?_⟩
  · exact absurd ((c73_c_data _).mp ⟨p, hp⟩).2 (by decide)
  · exact absurd ((c73_c_data _).mp ⟨p, hp⟩).1 (by decide)

/-- two structures with the same payload of one plugin -/
example : (CData.copy ⟨txt "sdl2", txt "window", 77, txt "cmp", true, 1⟩ 2 = some ⟨txt "sdl2", txt "window", 77, txt "cmp", true, 2⟩) ∧
    (CData.isEqual ⟨txt "sdl2", txt "window", 77, txt "cmp", true, 1⟩ ⟨txt "sdl2", txt "window", 77, txt "cmp", true, 2⟩ = false) ∧
    (CData.compare (fun _ => none) ⟨txt "sdl2", txt "window", 77, [], true, 1⟩ ⟨txt "sdl2", txt "texture", 78, [], true, 2⟩ = .ok 1) ∧
    (CData.compare (fun _ => none) ⟨txt "sdl2", txt "window", 77, [], true, 1⟩ ⟨txt "sdl2", txt "window", 78, [], true, 2⟩ = .error .ub) := by
  decide +kernel

/-- some runs of the function below -/
def c73Unchecked (v : Vm) (self : Ref) : Bool :=
  match run world 30 (handle world library 30) (getVectorEvaluated (fun _ => ⟨[], [], 0, [], false, 0⟩) self 0 (v.root .globalEnv)) v with
  | .ok (a, w, _) => a.error.isNone && match objAt w a.value with
    | some (.vec _) => false
    | some _ => true
    | none => false
  | .error _ => false

/-- What does not hold: that the function that asks for a vector to be evaluated first gives a vector or an error.  It checks the element, not its value. -/
theorem c73_vector_unchecked : ∃ (v w : Vm) (self y : Ref) (o : Obj) (a : Argument) (tr : List Event), v.Reached world library ∧
    run world 30 (handle world library 30) (getVectorEvaluated (fun _ => ⟨[], [], 0, [], false, 0⟩) self 0 (v.root .globalEnv)) v = .ok (a, w, tr) ∧
    a.error = none ∧ a.value = some y ∧ w.HasObj y o ∧ ∀ es, o ≠ .vec es := by
  obtain ⟨v, x, hv, h⟩ := build_exists (f := .vec [.vec [.int 5]]) (fuel := 20) (P := c73Unchecked) (by decide +kernel)
  unfold c73Unchecked at h
  split at h
  · next a w tr e =>
    simp only [Bool.and_eq_true, Option.isNone_iff_eq_none] at h
    obtain ⟨h1, h2⟩ := h
    split at h2
    · cases h2
    · next o hno ho =>
      cases hav : a.value with
      | none => rw [hav] at ho; simp [objAt] at ho
      | some y =>
        rw [hav] at ho
        exact ⟨v, w, x, y, o, a, tr, hv, e, h1, hav, by simpa [Vm.HasObj, objAt, Option.map_eq_some_iff] using ho, fun es he => hno es (by subst he; rfl)⟩
    · cases h2
  · cases h

/-- one state in which an evaluated element is a number -/
example : ∃ (v : Vm) (self : Ref) (a : Argument) (w : Vm) (tr : List Event), v.Reached world library ∧
    run world 30 (handle world library 30) (getEvaluated false self 0 (v.root .globalEnv)) v = .ok (a, w, tr) ∧ a.error = none := by
  obtain ⟨v, x, hv, h⟩ := build_exists (f := .vec [.int 5]) (fuel := 20)
    (P := fun v x => match run world 30 (handle world library 30) (getEvaluated false x 0 (v.root .globalEnv)) v with
      | .ok (a, _, _) => a.error.isNone
      | .error _ => false) (by decide +kernel)
  split at h
  · next a w tr e => exact ⟨v, x, a, w, tr, hv, e, Option.isNone_iff_eq_none.mp h⟩
  · cases h

end Dern.Props
