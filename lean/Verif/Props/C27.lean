import Verif.Props.C28
/-
C27: binding of arguments to formals.

`c28_function` says that a call of a function evaluates the arguments and then applies the function to
their values `ts` (`FnApply`), in the state `u` after their evaluation.  Here: the application succeeds in
binding exactly if the number of arguments fits (`Accepts`), and then the body sees each formal bound to
its argument.

Negative results: a function whose only formal is `...` aborts the program when called; the special form
`fn` checks for `.` instead of `...`, so it accepts functions that can never be called.
-/
namespace Dern.Props
open Dern
open Dern.Prog (Library)
variable {W : World} {L : Library}

theorem c27_bound_aux {names : List Text} {vals : List Ref} {bs : List Binding} (b : BoundTo names vals bs) (hn : names.Nodup)
    {e : Ref} {enc : Option Ref} {w : Vm} (he : w.HasObj e (.env bs enc)) {i : Nat} {name : Text} {t : Ref} (h1 : names[i]? = some name)
    (h2 : vals[i]? = some t) : Binds w.mem name e t := by
  obtain ⟨x, hx, hx'⟩ := b.each i name h1 fun j hj e => by
    have := (List.getElem?_inj (by
      by_contra hh
      rw [List.getElem?_eq_none (by omega)] at h1; cases h1) hn).mp (h1.trans e.symm)
    omega
  obtain ⟨c, hc, ho⟩ := he
  rw [h2] at hx'
  cases hx'
  exact .here hc ho hx

theorem c27_unbound_aux {names : List Text} {vals : List Ref} {bs : List Binding} (b : BoundTo names vals bs)
    {name : Text} (h1 : name ∉ names) : ∀ x ∈ bs, x.name ≠ name := fun x hx e => h1 (e ▸ b.only x hx)

/-- A function whose formals are the distinct symbols `names`, none of them `...`, applied to the values
`ts`: if there are not exactly as many of them, the result is a new error and nothing is evaluated;
otherwise the body is evaluated in an environment that binds the i-th formal to the i-th value, and
nothing else. -/
theorem c27_fixed {op : Ref} {ts formals : List Ref} {u w : Vm} {r : Option Ref} {tr : List Event} {f : FnData} {names : List Text}
    (h : FnApply W op ts u r w tr) (hf : u.IsFn op f) (hfs : u.HasVec f.formals formals) (hns : u.Names formals names)
    (hd : names.Nodup) (hno : txt "..." ∉ names) :
    (ts.length ≠ names.length ∧ tr = [] ∧ Vm.Quiet W nobody u w ∧ ∃ x, r = some x ∧ ¬ u.Old W x ∧ w.IsErr x) ∨
    (ts.length = names.length ∧ ∃ e u1, ¬ u.Old W e ∧ Vm.Quiet W nobody u u1 ∧
      (∀ (i : Nat) name t, names[i]? = some name → ts[i]? = some t → Binds u1.mem name e t) ∧
      (∃ bs, u1.HasObj e (.env bs (some f.env)) ∧ ∀ b ∈ bs, b.name ∈ names) ∧ FnBody W op e r w 0 none u1 tr) := by
  obtain ⟨f', formals', names', h1, h2, h3, h⟩ := h
  obtain rfl : f' = f := by
    rcases h1 with h1 | h1 <;> rcases hf with hf | hf <;> cases h1.unique hf <;> rfl
  obtain rfl : formals' = formals := by
    obtain ⟨c, hc, ho⟩ := h2
    obtain ⟨c', hc', ho'⟩ := hfs
    rw [hc] at hc'; cases hc'
    rw [ho] at ho'; cases ho'; rfl
  obtain rfl : names' = names := by
    clear h hd hno h2 hfs hf h1
    unfold Vm.Names at h3 hns
    induction h3 generalizing names with
    | nil => cases hns; rfl
    | cons a _ ih =>
      cases hns with
      | cons b hns =>
        have := a.unique b
        cases this
        rw [ih hns]
  rcases h with ⟨hna, h⟩ | ⟨e, u1, he, hq, hx, hb⟩
  · exact .inl ⟨fun hh => hna (.inl ⟨hno, hh⟩), h⟩
  · cases hx with
    | plain p1 p2 p3 p4 =>
      exact .inr ⟨p2, e, u1, he, hq, fun i name t k1 k2 => c27_bound_aux p3 hd p4 k1 k2, ⟨_, p4, p3.only⟩, hb⟩
    | rest p1 => exact absurd (by rw [p1]; simp) hno

/-- A function with the formals `names… m ...`, all different, applied to the values `ts`: if there are fewer
than the fixed ones, the result is a new error and nothing is evaluated; otherwise the body is evaluated in
an environment that binds the i-th fixed formal to the i-th value, `m` to a new vector of the
remaining values, and nothing else. -/
theorem c27_rest {op : Ref} {ts formals : List Ref} {u w : Vm} {r : Option Ref} {tr : List Event} {f : FnData} {names : List Text} {m : Text}
    (h : FnApply W op ts u r w tr) (hf : u.IsFn op f) (hfs : u.HasVec f.formals formals)
    (hns : u.Names formals (names ++ [m, txt "..."])) (hd : (names ++ [m, txt "..."]).Nodup) :
    (ts.length < names.length ∧ tr = [] ∧ Vm.Quiet W nobody u w ∧ ∃ x, r = some x ∧ ¬ u.Old W x ∧ w.IsErr x) ∨
    (names.length ≤ ts.length ∧ ∃ e u1 rest, ¬ u.Old W e ∧ Vm.Quiet W nobody u u1 ∧
      (∀ (i : Nat) name t, names[i]? = some name → ts[i]? = some t → Binds u1.mem name e t) ∧
      Binds u1.mem m e rest ∧ u1.HasVec rest (ts.drop names.length) ∧ ¬ u.Old W rest ∧
      (∃ bs, u1.HasObj e (.env bs (some f.env)) ∧ ∀ b ∈ bs, b.name ∈ names ++ [m]) ∧ FnBody W op e r w 0 none u1 tr) := by
  obtain ⟨f', formals', names', h1, h2, h3, h⟩ := h
  obtain rfl : f' = f := by
    rcases h1 with h1 | h1 <;> rcases hf with hf | hf <;> cases h1.unique hf <;> rfl
  obtain rfl : formals' = formals := by
    obtain ⟨c, hc, ho⟩ := h2
    obtain ⟨c', hc', ho'⟩ := hfs
    rw [hc] at hc'; cases hc'
    rw [ho] at ho'; cases ho'; rfl
  obtain rfl : names' = names ++ [m, txt "..."] := by
    clear h hd h2 hfs hf h1
    generalize names ++ [m, txt "..."] = l at hns
    unfold Vm.Names at h3 hns
    induction h3 generalizing l with
    | nil => cases hns; rfl
    | cons a _ ih =>
      cases hns with
      | cons b hns =>
        have := a.unique b
        cases this
        rw [ih _ hns]
  have hd' : (names ++ [m]).Nodup ∧ txt "..." ∉ names ++ [m] := by
    have e : names ++ [m, txt "..."] = (names ++ [m]) ++ [txt "..."] := by simp
    rw [e, List.nodup_append] at hd
    exact ⟨hd.1, fun hh => hd.2.2 _ hh _ (by simp) rfl⟩
  rcases h with ⟨hna, h⟩ | ⟨e, u1, he, hq, hx, hb⟩
  · refine .inl ⟨?_, h⟩
    by_contra hh
    exact hna (.inr ⟨names, m, rfl, hd'.2, by omega⟩)
  · cases hx with
    | plain p1 => simp at p1
    | @rest ns m' rest bs p1 p2 p3 p4 p5 p6 p7 =>
      have hl : names.length = ns.length := by
        have := congrArg List.length p1
        simpa using this
      obtain ⟨rfl, h'⟩ := List.append_inj p1 hl
      simp only [List.cons.injEq, and_true] at h'
      subst h'
      refine .inr ⟨p3, e, u1, rest, he, hq, ?_, ?_, p5, p4, ⟨bs, p7, p6.only⟩, hb⟩
      · intro i name t k1 k2
        have hi : i < names.length := by
          by_contra hh
          rw [List.getElem?_eq_none (by omega)] at k1; cases k1
        refine c27_bound_aux p6 hd'.1 p7 (i := i) (by rw [List.getElem?_append_left hi]; exact k1) ?_
        rw [List.getElem?_append_left (by simp; omega), List.getElem?_take_of_lt hi]
        exact k2
      · exact c27_bound_aux p6 hd'.1 p7 (i := names.length) (by simp) (by
          rw [List.getElem?_append_right (by simp)]; simp [p3])

/-- In general, repeated formals included: the binding succeeds exactly if the function accepts that many
arguments. -/
theorem c27_accepts {op : Ref} {ts : List Ref} {u w : Vm} {r : Option Ref} {tr : List Event}
    (h : FnApply W op ts u r w tr) : ∃ f formals names, u.IsFn op f ∧ u.HasVec f.formals formals ∧ u.Names formals names ∧
      ((∃ e u1, Extended W u names ts e f.env u1 ∧ FnBody W op e r w 0 none u1 tr) → Accepts names ts.length) ∧
      (¬ Accepts names ts.length → tr = [] ∧ ∃ x, r = some x ∧ w.IsErr x) ∧
      (Accepts names ts.length → ∃ e u1, Extended W u names ts e f.env u1 ∧ FnBody W op e r w 0 none u1 tr) := by
  obtain ⟨f, fs, names, h1, h2, h3, h⟩ := h
  refine ⟨f, fs, names, h1, h2, h3, fun ⟨e, u1, hx, _⟩ => hx.accepts, fun hna => ?_, fun ha => ?_⟩
  · rcases h with ⟨_, h4, _, x, h5, _, h6⟩ | ⟨e, u1, _, _, hx, _⟩
    · exact ⟨h4, x, h5, h6⟩
    · exact absurd hx.accepts hna
  · rcases h with ⟨h, _⟩ | ⟨e, u1, _, _, hx, hb⟩
    · exact absurd ha h
    · exact ⟨e, u1, hx, hb⟩

/-- `((fn (a b rest ...) (+ a b)) 1 2 3)` -/
example : stageCheck kit [] (.vec [.vec [.sym "fn", .vec [.sym "a", .sym "rest", .sym "..."], .sym "rest"], .int 1, .int 2, .int 3]) 60
    (fun _ _ r w _ => match objAt w r with
      | some (.vec [a, b]) => decide (objAt w (some a) = some (.int 2) ∧ objAt w (some b) = some (.int 3))
      | _ => false) = true := by
  decide +kernel

/-- `((fn (a b) a) 1)` is an error -/
example : stageCheck kit [] (.vec [.vec [.sym "fn", .vec [.sym "a", .sym "b"], .sym "a"], .int 1]) 60
    (fun _ _ r w _ => match objAt w r with | some (.err _ _) => true | _ => false) = true := by
  decide +kernel

/-- the hypotheses hold: `f` is a function with two formals, and `(f 1 2)` is applied -/
example : ∃ (v w : Vm) (form op : Ref) (xs : List Ref) (f : FnData) (r : Option Ref) (tr : List Event), v.Reached world library ∧
    NamedCall world v form v.globalEnv (txt "f") op xs ∧ v.HasObj op (.fn f) ∧
    Evaluates world library v form v.globalEnv r w tr ∧ objAt w r = some (.int 3) := by
  obtain ⟨v, form, r, w, tr, hr, of, oe, ev, h⟩ := stage_exists (table := kit)
    (forms := [.vec [.sym "define", .sym "f", .sym "as", .vec [.sym "fn", .vec [.sym "a", .sym "b"], .vec [.sym "+", .sym "a", .sym "b"]], .str "d",
      .vec [.sym "quote", .vec [.sym "a", .str "x", .sym "b", .str "y"]], .sym "howto-no"]])
    (fuel := 60) (last := .vec [.sym "f", .int 1, .int 2])
    (P := fun v f r w tr => (match objAt v (some v.globalEnv) with
      | some (.env bs _) => (match bs.find? (fun b => b.name = txt "f") with
        | some b => (match objAt v (some b.val) with | some (.fn g) => namedCheck v f "f" (.fn g) | _ => false)
        | none => false)
      | _ => false) && decide (objAt w r = some (.int 3))) kit_plain (by decide +kernel)
  simp only [Bool.and_eq_true, decide_eq_true_eq] at h
  obtain ⟨h, h'⟩ := h
  split at h
  · split at h
    · split at h
      · rename_i g _
        obtain ⟨op, xs, h1, h2, h3⟩ := named_of_check h of oe
        exact ⟨v, w, form, op, xs, g, r, tr, hr, h1, h2, ev, h'⟩
      · cases h
    · cases h
  · cases h

/-- Calling a function whose only formal is `...` aborts. -/
example : (match run world 60 (handler world (Prog.body library) 60) (do
      let f ← setup kit [] (.vec [.vec [.sym "fn", .vec [.sym "..."], .int 1], .int 1])
      Prog.eval f (← Prog.root .globalEnv)) (Vm.base world.malloc) with
    | .error .assert => true
    | _ => false) = true := by
  decide +kernel

end Dern.Props
