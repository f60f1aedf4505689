import Verif.Dern.SafeOutside
import Verif.Props.C36
import Verif.Props.C59
import Verif.Props.C62
import Verif.Props.OutsideMachine
/-
C64: programs that read programs: `read-and-eval-string`, `read-and-eval-path` and `require` of a source file.

The theorems are about the machine with its whole standard library (`Prog.outsideLibrary`).  What reading a text does is what it does at the top level:
`Session` of C36 (the forms are evaluated one after the other in the global environment, until the first error).  The text of
a file is arbitrary; `require` may find the library loaded already, find a source file with an arbitrary text, or find nothing (loading a shared
library is not modelled).
-/
namespace Dern.Props
open Dern
open Dern.Prog (Library)
variable {W : World} {L : Library}

/-- Reading the text `t` and evaluating its forms from the state `v`, as the host does (C36): the result is `r`.  An empty text is an error. -/
inductive ReadsText (W : World) (ct : Ctype) (t : Text) (v : Vm) (r : Ref) (w : Vm) (tr : List Event) : Prop
  | nothing : t = [] → GivesError W v r w tr → ReadsText W ct t v r w tr
  | forms {u : Vm} : t ≠ [] → Session W ct t (some r) u none v t tr → Ends u w → ReadsText W ct t v r w tr

/-- `(read-and-eval-string s)`: reads the text of the string, which ends where the first U+0000 is -/
inductive ReadStringRun (W : World) (ct : Ctype) (ts : List Ref) (v : Vm) (r : Ref) (w : Vm) (tr : List Event) : Prop
  | text {x : Ref} {s t : Text} : ts = [x] → v.HasObj x (.str s) → ((∀ c ∈ s, Spec.Utf8.IsScalar c) → t = s.takeWhile (· ≠ 0)) → ReadsText W ct t v r w tr →
      ReadStringRun W ct ts v r w tr
  | unfit : (¬ ∃ x s, ts = [x] ∧ v.HasObj x (.str s)) → GivesError W v r w tr → ReadStringRun W ct ts v r w tr

/-- `(read-and-eval-path p)`: reads some text, the text of the file -/
inductive ReadPathRun (W : World) (ct : Ctype) (ts : List Ref) (v : Vm) (r : Ref) (w : Vm) (tr : List Event) : Prop
  | file {x : Ref} {s t : Text} : ts = [x] → v.HasObj x (.str s) → ReadsText W ct t v r w tr → ReadPathRun W ct ts v r w tr
  | unfit : (¬ ∃ x s, ts = [x] ∧ v.HasObj x (.str s)) → GivesError W v r w tr → ReadPathRun W ct ts v r w tr

/-- `(require 'name)`: true if the library is there already; otherwise the source file, if there is one, is read, and the result is
the name of the file, or an error if reading it gave an error -/
inductive RequireRun (W : World) (ct : Ctype) (ts : List Ref) (v : Vm) (r : Ref) (w : Vm) (tr : List Event) : Prop
  | loaded {x : Ref} {s : Text} : ts = [x] → v.HasObj x (.sym s) → Gives W (.bool true) v r w tr → RequireRun W ct ts v r w tr
  | source {x z : Ref} {s t s' : Text} {u : Vm} : ts = [x] → v.HasObj x (.sym s) → ReadsText W ct t v z u tr → ¬ u.IsErr z → (Spec.Clean s → s' = s) →
      Gives W (.str (s' ++ txt ".dern")) u r w [] → RequireRun W ct ts v r w tr
  | failed {x z : Ref} {s t : Text} {u : Vm} : ts = [x] → v.HasObj x (.sym s) → ReadsText W ct t v z u tr → u.IsErr z →
      GivesError W u r w [] → RequireRun W ct ts v r w tr
  | missing {x : Ref} {s : Text} : ts = [x] → v.HasObj x (.sym s) → GivesError W v r w tr → RequireRun W ct ts v r w tr
  | unfit : (¬ ∃ x s, ts = [x] ∧ v.HasObj x (.sym s)) → GivesError W v r w tr → RequireRun W ct ts v r w tr

/-! ### Proofs -/

/-- the C string of a text ends at the first U+0000 -/
theorem c64_cString_aux (s : Text) (h : ∀ c ∈ s, Spec.Utf8.IsScalar c) :
    ∃ t, ensureOctets s = octetsOf (s.takeWhile (· ≠ 0)) ++ 0 :: t ∧ (ensureOctets s).getLast? = some 0 := by
  induction s with
  | nil => exact ⟨[], rfl, rfl⟩
  | cons c cs ih =>
    obtain ⟨t, h1, h2⟩ := ih fun c hc => h c (by simp [hc])
    have hc := h c (by simp)
    obtain ⟨e, g1, _, _, g2⟩ := Utf8.encode_spec (BitVec.ofNat 32 c) (by rw [toNat_ofNat_scalar hc]; exact hc)
    have hl : (e.toList ++ ensureOctets cs).getLast? = some 0 := by rw [List.getLast?_append, h2]; rfl
    by_cases h0 : c = 0
    · subst h0
      have : e.toList = [0] := by
        have g3 : e.toList.map BitVec.toNat = [0] := g2
        generalize e.toList = l at g3 ⊢
        match l, g3 with
        | [], g3 => simp at g3
        | _ :: _ :: _, g3 => simp at g3
        | [x], g3 =>
          simp only [List.map_cons, List.map_nil, List.cons.injEq, and_true] at g3
          rw [BitVec.eq_of_toNat_eq (x := x) (y := 0) (by rw [g3]; rfl)]
      refine ⟨ensureOctets cs, ?_, ?_⟩
      · simp only [ensureOctets, g1, this]; rfl
      · simp only [ensureOctets, g1]; exact hl
    · refine ⟨t, ?_, ?_⟩
      · rw [List.takeWhile_cons_of_pos (by simpa using h0)]
        simp only [ensureOctets, octetsOf, g1, h1, List.append_assoc]
      · simp only [ensureOctets, g1]; exact hl

theorem c64_text_aux (s : Text) (h : ∀ c ∈ s, Spec.Utf8.IsScalar c) : getCString s = some (octetsOf (s.takeWhile (· ≠ 0))) := by
  obtain ⟨t, h1, h2⟩ := c64_cString_aux s h
  have hp : ∀ c ∈ s.takeWhile (· ≠ 0), PrintCh c := fun c hc =>
    ⟨h c ((List.takeWhile_prefix _).subset hc), by simpa using List.mem_takeWhile_imp hc⟩
  unfold getCString
  simp only
  rw [if_neg (by rw [h1]; simp), if_pos h2, h1]
  congr 1
  have := octetsOf_ne_zero _ hp
  generalize octetsOf (s.takeWhile (· ≠ 0)) = l at this
  induction l with
  | nil => simp
  | cons a l ih =>
    rw [List.cons_append, List.takeWhile_cons_of_pos (by simpa using this a (by simp)), ih fun o ho => this o (by simp [ho])]

section
variable {n : Nat} {args env : Ref} {ts : List Ref} {v : Vm}

theorem c64_tickQuiet_aux {v w : Vm} {k : Nat} (q : Vm.Quiet W nobody { v with ticks := k } w) : Vm.Quiet W nobody v w :=
  ⟨q.births, q.cells, q.gone, q.ret, q.quit, q.exitCode, q.out, fun which => (q.roots which).trans (by cases which <;> rfl), q.readably⟩

theorem c64_tick_aux {v w : Vm} {ct : Ctype} {whole t : Text} {r last : Option Ref} {k : Nat} {tr : List Event}
    (s : Session W ct whole r w last { v with ticks := k } t tr) : Session W ct whole r w last v t tr := by
  have qs : ∀ {w : Vm}, Vm.Quiet W nobody { v with ticks := k } w → Vm.Quiet W nobody v w := c64_tickQuiet_aux
  cases s with
  | finished h1 h2 h3 => exact .finished (qs h1) h2 h3
  | blank h1 h2 h3 h4 h5 h6 h7 => exact .blank h1 h2 ⟨h3.nil, h3.true, h3.false⟩ h4 (qs h5) h6 h7
  | form h1 h2 h3 h4 h5 h6 h7 h8 h9 h10 h11 => exact .form h1 h2 ⟨h3.nil, h3.true, h3.false⟩ h4 (qs h5) h6 h7 h8 h9 h10 h11
  | failed h1 h2 h3 h4 h5 h6 h7 h8 h9 h10 h11 h12 => exact .failed h1 h2 ⟨h3.nil, h3.true, h3.false⟩ h4 (qs h5) h6 h7 h8 h9 h10 h11 h12
  | nothing h1 h2 h3 h4 h5 h6 h7 h8 h9 h10 h11 => exact .nothing h1 h2 ⟨h3.nil, h3.true, h3.false⟩ h4 (qs h5) h6 h7 h8 h9 h10 h11
  | syntaxError h1 h2 h3 h4 h5 h6 h7 h8 h9 h10 => exact .syntaxError h1 h2 ⟨h3.nil, h3.true, h3.false⟩ h4 h5 h6 h7 h8 h9 (qs h10)
  | exited h1 h2 h3 h4 h5 h6 => exact .exited h1 h2 ⟨h3.nil, h3.true, h3.false⟩ (qs h4) h5 fun e he => qs (h6 e he)
  | spoilt h => exact .spoilt fun i => h ⟨i.nil, i.true, i.false⟩

/-- reading a text -/
theorem c64_evalText_aux (hL : L.Safe) (ct : Ctype) (k : Nat) (t : Text) {v : Vm} (sv : v.Sane W) (cv : v.Closed W nobody) :
    Wp W n (handle W L n) (Prog.evalText ct k t) v fun a u tr => (u.Sane W ∧ u.Closed W nobody) ∧
      ∀ r w, a = some r → Ends u w → ReadsText W ct t v r w tr := by
  refine wp_and ?_ ?_
  · intro a u tr e
    have := run_sound (X := nobody) (n := n) (handler_sound hL n) (Prog.evalText ct k t) v [] v.stack
      (fun _ _ s => s = []) sv cv (by simp) (fun P hP => Prog.ok_evalText fun _ _ => rfl)
    rw [e] at this
    exact ⟨this.1.sane, this.1.closed⟩
  · unfold Prog.evalText Prog.readAll
    by_cases ht : t = []
    · subst ht
      rw [if_pos rfl]
      refine wpm_error (Mid.refl sv cv) fun x w m h1 _ h3 => ?_
      rintro _ w' ⟨⟩ e
      exact .nothing rfl ⟨rfl, m.quiet.trans sv e.quiet, h1, e.isErr h3⟩
    · rw [if_neg ht]
      refine (c36_loop_aux hL ct t k t none v sv cv).mono fun a u tr h => ?_
      rintro r w rfl e
      exact .forms ht (h v.stack) e

theorem c64_tickText_aux {v w : Vm} {ct : Ctype} {t : Text} {r : Ref} {k : Nat} {tr : List Event}
    (h : ReadsText W ct t { v with ticks := k } r w tr) : ReadsText W ct t v r w tr := by
  cases h with
  | nothing ht h => exact .nothing ht ⟨h.1, c64_tickQuiet_aux h.2.1, h.2.2⟩
  | forms ht h e => exact .forms ht (c64_tick_aux h) e

theorem c64_held_aux (k : Held W args ts env v) : Held W args ts env { v with ticks := v.ticks + 1 } :=
  ⟨(k.here (E := nobody)).tick.sane, (k.here (E := nobody)).tick.closed, k.vec, k.env, k.pub⟩

theorem wp_answerBool {h : Handler} {what : String} {v : Vm} {Q : Bool → Vm → List Event → Prop} (hq : ∀ b, Q b { v with ticks := v.ticks + 1 } []) :
    Wp W n h (Prog.answerBool what) v Q := by
  unfold Prog.answerBool
  exact wp_bind (wp_text fun t => wp_pure (hq _))

theorem c64_string_aux (hL : L.Safe) (ct : Ctype) (b : Nat) (k : Held W args ts env v) :
    Wp W n (handle W L n) (Prog.biReadString ct b args env) v fun a u tr => ∀ r w, a = some r → Ends u w → ReadStringRun W ct ts v r w tr := by
  unfold Prog.biReadString
  refine c34_first_aux k ?_
  match ts with
  | [] => exact (c34_error_aux k _).mono fun _ _ _ h r w e1 e2 => .unfit (by simp) (h.2 r w e1 e2)
  | _ :: _ :: _ => exact (c34_error_aux k _).mono fun _ _ _ h r w e1 e2 => .unfit (by simp) (h.2 r w e1 e2)
  | [x] =>
    refine wp_bind (wp_read fun c hc => ?_)
    split
    · rename_i s ho
      have hs : v.HasObj x (.str s) := ⟨c, hc, ho⟩
      cases hcs : getCString s with
      | none => exact wp_fail
      | some o =>
        simp only
        cases hi : inputText o with
        | none => exact wp_fail
        | some t =>
          simp only
          refine (c64_evalText_aux hL ct b t k.sane k.closed.open').mono fun a u tr h r w e1 e2 => ?_
          refine .text rfl hs (fun hc => ?_) (h.2 r w e1 e2)
          rw [c64_text_aux s hc] at hcs
          cases hcs
          have hp : ∀ c ∈ s.takeWhile (· ≠ 0), PrintCh c := fun c hc' =>
            ⟨hc c ((List.takeWhile_prefix _).subset hc'), by simpa using List.mem_takeWhile_imp hc'⟩
          simp only [inputText, fromBuffer_octets _ hp, Option.map_some, Option.some.injEq] at hi
          rw [← hi]; exact map_back _ hp
    · rename_i hno
      exact (c34_error_aux k _).mono fun _ _ _ h r w e1 e2 => .unfit (by
        rintro ⟨_, s, ⟨⟩, d, hd, ho⟩
        obtain rfl := same_cell hc hd
        exact hno s ho) (h.2 r w e1 e2)

theorem c64_path_aux (hL : L.Safe) (ct : Ctype) (b : Nat) (k : Held W args ts env v) :
    Wp W n (handle W L n) (Prog.biReadPath ct b args env) v fun a u tr => ∀ r w, a = some r → Ends u w → ReadPathRun W ct ts v r w tr := by
  unfold Prog.biReadPath
  refine c34_first_aux k ?_
  match ts with
  | [] => exact (c34_error_aux k _).mono fun _ _ _ h r w e1 e2 => .unfit (by simp) (h.2 r w e1 e2)
  | _ :: _ :: _ => exact (c34_error_aux k _).mono fun _ _ _ h r w e1 e2 => .unfit (by simp) (h.2 r w e1 e2)
  | [x] =>
    refine wp_bind (wp_read fun c hc => ?_)
    split
    · rename_i s ho
      have hs : v.HasObj x (.str s) := ⟨c, hc, ho⟩
      cases hcs : getCString s with
      | none => exact wp_fail
      | some o =>
        simp only
        refine wp_bind (wp_text fun t => ?_)
        have k' := c64_held_aux k
        refine (c64_evalText_aux hL ct b t k'.sane k'.closed.open').mono fun a u tr h r w e1 e2 => ?_
        exact .file rfl hs (c64_tickText_aux (h.2 r w e1 e2))
    · rename_i hno
      exact (c34_error_aux k _).mono fun _ _ _ h r w e1 e2 => .unfit (by
        rintro ⟨_, s, ⟨⟩, d, hd, ho⟩
        obtain rfl := same_cell hc hd
        exact hno s ho) (h.2 r w e1 e2)

theorem c64_require_aux (hL : L.Safe) (ct : Ctype) (b : Nat) (k : Held W args ts env v) :
    Wp W n (handle W L n) (Prog.biRequire ct b args env) v fun a u tr => ∀ r w, a = some r → Ends u w → RequireRun W ct ts v r w tr := by
  unfold Prog.biRequire
  refine c34_first_aux k ?_
  match ts with
  | [] => exact (c34_error_aux k _).mono fun _ _ _ h r w e1 e2 => .unfit (by simp) (h.2 r w e1 e2)
  | _ :: _ :: _ => exact (c34_error_aux k _).mono fun _ _ _ h r w e1 e2 => .unfit (by simp) (h.2 r w e1 e2)
  | [x] =>
    refine wp_bind (wp_read fun c hc => ?_)
    split
    · rename_i s ho
      have hs : v.HasObj x (.sym s) := ⟨c, hc, ho⟩
      refine wp_bind (wp_answerBool fun b1 => ?_)
      have k1 := c64_held_aux k
      have err : ∀ {u' : Vm} {r w tr} (j : Nat), GivesError W { u' with ticks := j } r w tr → GivesError W u' r w tr := fun _ h =>
        ⟨h.1, c64_tickQuiet_aux h.2.1, h.2.2⟩
      have giv : ∀ {u' : Vm} {o r w tr} (j : Nat), Gives W o { u' with ticks := j } r w tr → Gives W o u' r w tr := fun _ h =>
        ⟨h.1, c64_tickQuiet_aux h.2.1, h.2.2⟩
      split
      · exact (give_aux k1 (by simp)).mono fun _ _ _ h r w e1 e2 => .loaded rfl hs (giv _ (h.2 r w e1 e2))
      · unfold Prog.requireFile
        refine wp_bind (wp_answerBool fun b2 => ?_)
        have k2 := c64_held_aux k1
        split
        · refine wp_bind (wp_text fun t => ?_)
          have k3 := c64_held_aux k2
          refine wp_bind ((c64_evalText_aux hL ct b t k3.sane k3.closed.open').mono fun a u tr h => ?_)
          obtain ⟨⟨su, cu⟩, h⟩ := h
          cases a with
          | none => exact wp_bind wp_fail
          | some z =>
            have hz : ReadsText W ct t v z u tr := c64_tickText_aux (c64_tickText_aux (c64_tickText_aux (h z u rfl (.refl u))))
            refine wp_bind (wp_pure (wp_bind (wp_read fun d hd => ?_)))
            split
            · rename_i m l hdo
              refine wps_error (E := nobody) (X := nobody) (Vm.Step.refl su cu) fun r w t gw hp hm fr => ?_
              rintro _ w' ⟨⟩ e
              simp only [List.append_nil, List.nil_append]
              exact .failed rfl hs hz ⟨m, l, d, hd, hdo⟩ ⟨rfl, gw.quiet.trans su e.quiet, fr, e.isErr ⟨_, _, _, hm, rfl⟩⟩
            · rename_i hno
              split
              · exact wp_fail
              · rename_i s' hs'
                refine wp_bind (wp_alloc su fun r w a => wp_pure ?_)
                rintro _ w' ⟨⟩ e
                simp only [List.append_nil, List.nil_append]
                refine .source rfl hs hz (s' := s') ?_ ?_ (c34_finish_aux (by simp) su (a.quiet su) a.fresh ⟨_, a.cell, rfl⟩ e)
                · rintro ⟨m, l, d', hd', hdo⟩
                  obtain rfl := same_cell hd hd'
                  exact hno m l hdo
                · intro hc
                  rw [recode_eq s hc] at hs'
                  cases hs'; rfl
        · refine wp_bind (wp_answerBool fun b3 => ?_)
          have k3 := c64_held_aux k2
          split
          · exact wp_fail
          · exact (c34_error_aux k3 _).mono fun _ _ _ h r w e1 e2 => .missing rfl hs (err _ (err _ (err _ (h.2 r w e1 e2))))
    · rename_i hno
      exact (c34_error_aux k _).mono fun _ _ _ h r w e1 e2 => .unfit (by
        rintro ⟨_, s, ⟨⟩, d, hd, ho⟩
        obtain rfl := same_cell hc hd
        exact hno s ho) (h.2 r w e1 e2)

end

/-! ### Theorems -/

/-- All entries of a trace are evaluations. -/
theorem c64_events {v w : Vm} {form env : Ref} {r : Option Ref} {tr : List Event} (ev : Evaluates W L v form env r w tr) :
    ∀ e ∈ tr, ∃ sub, Evaluates W L e.pre e.form e.env e.result e.post sub := by
  obtain ⟨n, e⟩ := ev
  exact run_events (body := Prog.body L) (fun c v a w t h => handler_events n c v a w t h) _ _ _ _ _ e

/-- `read-and-eval-string`: the forms of the string are evaluated as those of a text that the host gives to the machine. -/
theorem c64_read_string {ct : Ctype} {bound : Nat} {v w : Vm} (rv : v.Reached W (Prog.outsideLibrary ct bound)) {form env op : Ref} {name : Text} {xs : List Ref}
    (nc : NamedCall W v form env name op xs) (hop : v.HasObj op (.builtin (.other "read-and-eval-string"))) {r : Option Ref} {tr : List Event}
    (ev : Evaluates W (Prog.outsideLibrary ct bound) v form env r w tr) :
    NamedOpCall W (ArgumentsFirst W form env (RunsThrough (.other "read-and-eval-string") op (ReadStringRun W ct))) v env op r w tr :=
  namedBuiltinThrough_aux (Prog.outsideLibrary_safe ct bound) (by simp) rv
    (fun _ _ _ _ k _ => c64_string_aux (Prog.outsideLibrary_safe ct bound) ct bound k) nc hop ev

/-- `read-and-eval-path`: the same for the text of a file. -/
theorem c64_read_path {ct : Ctype} {bound : Nat} {v w : Vm} (rv : v.Reached W (Prog.outsideLibrary ct bound)) {form env op : Ref} {name : Text} {xs : List Ref}
    (nc : NamedCall W v form env name op xs) (hop : v.HasObj op (.builtin (.other "read-and-eval-path"))) {r : Option Ref} {tr : List Event}
    (ev : Evaluates W (Prog.outsideLibrary ct bound) v form env r w tr) :
    NamedOpCall W (ArgumentsFirst W form env (RunsThrough (.other "read-and-eval-path") op (ReadPathRun W ct))) v env op r w tr :=
  namedBuiltinThrough_aux (Prog.outsideLibrary_safe ct bound) (by simp) rv
    (fun _ _ _ _ k _ => c64_path_aux (Prog.outsideLibrary_safe ct bound) ct bound k) nc hop ev

/-- `require` of a library that is there already, of a source file, or of nothing. -/
theorem c64_require {ct : Ctype} {bound : Nat} {v w : Vm} (rv : v.Reached W (Prog.outsideLibrary ct bound)) {form env op : Ref} {name : Text} {xs : List Ref}
    (nc : NamedCall W v form env name op xs) (hop : v.HasObj op (.builtin (.other "require"))) {r : Option Ref} {tr : List Event}
    (ev : Evaluates W (Prog.outsideLibrary ct bound) v form env r w tr) :
    NamedOpCall W (ArgumentsFirst W form env (RunsThrough (.other "require") op (RequireRun W ct))) v env op r w tr :=
  namedBuiltinThrough_aux (Prog.outsideLibrary_safe ct bound) (by simp) rv
    (fun _ _ _ _ k _ => c64_require_aux (Prog.outsideLibrary_safe ct bound) ct bound k) nc hop ev

/-! ### Examples -/

/-- names for the examples -/
def kit19 : List (String × Obj × Bool) := [("read-and-eval-string", .builtin (.other "read-and-eval-string"), false),
  ("read-and-eval-path", .builtin (.other "read-and-eval-path"), false), ("require", .builtin (.other "require"), false),
  ("+", .builtin .plus, true), ("quote", .special .quote, false)]

theorem kit19_plain : ∀ x ∈ kit19, x.2.1.children = [] := by decide

/-- the forms of a string -/
example : ∃ (v w : Vm) (form op : Ref) (xs : List Ref) (r : Option Ref) (tr : List Event), v.Reached (outWorld []) outLibrary ∧
    NamedCall (outWorld []) v form v.globalEnv (txt "read-and-eval-string") op xs ∧ v.HasObj op (.builtin (.other "read-and-eval-string")) ∧
    Evaluates (outWorld []) outLibrary v form v.globalEnv r w tr ∧ objAt w r = some (.int 7) := by
  obtain ⟨v, form, r, w, tr, hr, of, oe, ev, h⟩ := out_exists (answers := []) (table := kit19) (forms := []) (fuel := 40)
    (last := .vec [.sym "read-and-eval-string", .str "(+ {D+1} {D+2}) (+ {D+3} {D+4})"])
    (P := fun v f r w tr => namedCheck v f "read-and-eval-string" (.builtin (.other "read-and-eval-string")) && decide (objAt w r = some (.int 7))) kit19_plain (by decide +kernel)
  simp only [Bool.and_eq_true, decide_eq_true_eq] at h
  obtain ⟨op, xs, h1, h2, h3⟩ := named_of_check h.1 of oe
  exact ⟨v, w, form, op, xs, r, tr, hr, h1, h2, ev, h.2⟩

/-- a string that is no program -/
example : ∃ (v w : Vm) (form op : Ref) (xs : List Ref) (r : Option Ref) (tr : List Event), v.Reached (outWorld []) outLibrary ∧
    NamedCall (outWorld []) v form v.globalEnv (txt "read-and-eval-string") op xs ∧ v.HasObj op (.builtin (.other "read-and-eval-string")) ∧
    Evaluates (outWorld []) outLibrary v form v.globalEnv r w tr ∧ (objAt w r).any (fun o => match o with | .err _ _ => true | _ => false) = true := by
  obtain ⟨v, form, r, w, tr, hr, of, oe, ev, h⟩ := out_exists (answers := []) (table := kit19) (forms := []) (fuel := 40)
    (last := .vec [.sym "read-and-eval-string", .str "(quote a) (quote"])
    (P := fun v f r w tr => namedCheck v f "read-and-eval-string" (.builtin (.other "read-and-eval-string")) && decide ((objAt w r).any (fun o => match o with | .err _ _ => true | _ => false) = true)) kit19_plain (by decide +kernel)
  simp only [Bool.and_eq_true, decide_eq_true_eq] at h
  obtain ⟨op, xs, h1, h2, h3⟩ := named_of_check h.1 of oe
  exact ⟨v, w, form, op, xs, r, tr, hr, h1, h2, ev, h.2⟩

/-- the empty string -/
example : ∃ (v w : Vm) (form op : Ref) (xs : List Ref) (r : Option Ref) (tr : List Event), v.Reached (outWorld []) outLibrary ∧
    NamedCall (outWorld []) v form v.globalEnv (txt "read-and-eval-string") op xs ∧ v.HasObj op (.builtin (.other "read-and-eval-string")) ∧
    Evaluates (outWorld []) outLibrary v form v.globalEnv r w tr ∧ (objAt w r).any (fun o => match o with | .err _ _ => true | _ => false) = true := by
  obtain ⟨v, form, r, w, tr, hr, of, oe, ev, h⟩ := out_exists (answers := []) (table := kit19) (forms := []) (fuel := 40)
    (last := .vec [.sym "read-and-eval-string", .str ""])
    (P := fun v f r w tr => namedCheck v f "read-and-eval-string" (.builtin (.other "read-and-eval-string")) && decide ((objAt w r).any (fun o => match o with | .err _ _ => true | _ => false) = true)) kit19_plain (by decide +kernel)
  simp only [Bool.and_eq_true, decide_eq_true_eq] at h
  obtain ⟨op, xs, h1, h2, h3⟩ := named_of_check h.1 of oe
  exact ⟨v, w, form, op, xs, r, tr, hr, h1, h2, ev, h.2⟩

/-- the forms of a file -/
example : ∃ (v w : Vm) (form op : Ref) (xs : List Ref) (r : Option Ref) (tr : List Event), v.Reached (outWorld [("file", txt "(+ {D+1} {D+2}) (+ {D+3} {D+4})")]) outLibrary ∧
    NamedCall (outWorld [("file", txt "(+ {D+1} {D+2}) (+ {D+3} {D+4})")]) v form v.globalEnv (txt "read-and-eval-path") op xs ∧ v.HasObj op (.builtin (.other "read-and-eval-path")) ∧
    Evaluates (outWorld [("file", txt "(+ {D+1} {D+2}) (+ {D+3} {D+4})")]) outLibrary v form v.globalEnv r w tr ∧ objAt w r = some (.int 7) := by
  obtain ⟨v, form, r, w, tr, hr, of, oe, ev, h⟩ := out_exists (answers := [("file", txt "(+ {D+1} {D+2}) (+ {D+3} {D+4})")]) (table := kit19) (forms := []) (fuel := 40)
    (last := .vec [.sym "read-and-eval-path", .str "a.dern"])
    (P := fun v f r w tr => namedCheck v f "read-and-eval-path" (.builtin (.other "read-and-eval-path")) && decide (objAt w r = some (.int 7))) kit19_plain (by decide +kernel)
  simp only [Bool.and_eq_true, decide_eq_true_eq] at h
  obtain ⟨op, xs, h1, h2, h3⟩ := named_of_check h.1 of oe
  exact ⟨v, w, form, op, xs, r, tr, hr, h1, h2, ev, h.2⟩

/-- a source file -/
example : ∃ (v w : Vm) (form op : Ref) (xs : List Ref) (r : Option Ref) (tr : List Event), v.Reached (outWorld [("file", txt "(quote a) true"), ("source file", [1])]) outLibrary ∧
    NamedCall (outWorld [("file", txt "(quote a) true"), ("source file", [1])]) v form v.globalEnv (txt "require") op xs ∧ v.HasObj op (.builtin (.other "require")) ∧
    Evaluates (outWorld [("file", txt "(quote a) true"), ("source file", [1])]) outLibrary v form v.globalEnv r w tr ∧ objAt w r = some (.str (txt "a.dern")) := by
  obtain ⟨v, form, r, w, tr, hr, of, oe, ev, h⟩ := out_exists (answers := [("file", txt "(quote a) true"), ("source file", [1])]) (table := kit19) (forms := []) (fuel := 40)
    (last := .vec [.sym "require", .vec [.sym "quote", .sym "a"]])
    (P := fun v f r w tr => namedCheck v f "require" (.builtin (.other "require")) && decide (objAt w r = some (.str (txt "a.dern")))) kit19_plain (by decide +kernel)
  simp only [Bool.and_eq_true, decide_eq_true_eq] at h
  obtain ⟨op, xs, h1, h2, h3⟩ := named_of_check h.1 of oe
  exact ⟨v, w, form, op, xs, r, tr, hr, h1, h2, ev, h.2⟩

/-- a source file with an error -/
example : ∃ (v w : Vm) (form op : Ref) (xs : List Ref) (r : Option Ref) (tr : List Event), v.Reached (outWorld [("file", txt "(oops)"), ("source file", [1])]) outLibrary ∧
    NamedCall (outWorld [("file", txt "(oops)"), ("source file", [1])]) v form v.globalEnv (txt "require") op xs ∧ v.HasObj op (.builtin (.other "require")) ∧
    Evaluates (outWorld [("file", txt "(oops)"), ("source file", [1])]) outLibrary v form v.globalEnv r w tr ∧ (objAt w r).any (fun o => match o with | .err _ _ => true | _ => false) = true := by
  obtain ⟨v, form, r, w, tr, hr, of, oe, ev, h⟩ := out_exists (answers := [("file", txt "(oops)"), ("source file", [1])]) (table := kit19) (forms := []) (fuel := 40)
    (last := .vec [.sym "require", .vec [.sym "quote", .sym "a"]])
    (P := fun v f r w tr => namedCheck v f "require" (.builtin (.other "require")) && decide ((objAt w r).any (fun o => match o with | .err _ _ => true | _ => false) = true)) kit19_plain (by decide +kernel)
  simp only [Bool.and_eq_true, decide_eq_true_eq] at h
  obtain ⟨op, xs, h1, h2, h3⟩ := named_of_check h.1 of oe
  exact ⟨v, w, form, op, xs, r, tr, hr, h1, h2, ev, h.2⟩

/-- a library that is there already -/
example : ∃ (v w : Vm) (form op : Ref) (xs : List Ref) (r : Option Ref) (tr : List Event), v.Reached (outWorld [("loaded", [1])]) outLibrary ∧
    NamedCall (outWorld [("loaded", [1])]) v form v.globalEnv (txt "require") op xs ∧ v.HasObj op (.builtin (.other "require")) ∧
    Evaluates (outWorld [("loaded", [1])]) outLibrary v form v.globalEnv r w tr ∧ objAt w r = some (.bool true) := by
  obtain ⟨v, form, r, w, tr, hr, of, oe, ev, h⟩ := out_exists (answers := [("loaded", [1])]) (table := kit19) (forms := []) (fuel := 40)
    (last := .vec [.sym "require", .vec [.sym "quote", .sym "a"]])
    (P := fun v f r w tr => namedCheck v f "require" (.builtin (.other "require")) && decide (objAt w r = some (.bool true))) kit19_plain (by decide +kernel)
  simp only [Bool.and_eq_true, decide_eq_true_eq] at h
  obtain ⟨op, xs, h1, h2, h3⟩ := named_of_check h.1 of oe
  exact ⟨v, w, form, op, xs, r, tr, hr, h1, h2, ev, h.2⟩

end Dern.Props
