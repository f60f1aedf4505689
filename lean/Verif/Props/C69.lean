import Verif.Dern.SafeRepl
import Verif.Props.C03
import Verif.Props.C51
import Verif.Props.C36
/-
C69: the interactive session: what is typed is evaluated form by form and answered.

`Prog.repl ct os` is the loop of the program `dern` on the octets `os` of its standard input; everything it writes appears in the output of the
machine (`out`).

The forms are those of the parser (`parse`, whose relation to texts is C05 to C08).  A form that is not complete at the end of a line is
continued on the next line; so is a form whose evaluation has no value.  The rest of a line after the first form is lost.

Not covered: what follows once a program has changed one of the constants nil, true and false (`Dialogue.spoilt`), as in C36.
-/
namespace Dern.Props
open Dern
open Dern.Spec
open Dern.Prog (Library)
variable {W : World} {L : Library}

/-! ### Specification -/

/-- the standard input: complete lines, each with its newline at its end and nowhere else, and a last line without newline -/
structure Typed (os : List _root_.Dern.Utf8.Octet) (lines : List Text) (last : Text) : Prop where
  octets : os.map BitVec.toNat = encodeText (lines.flatten ++ last)
  clean : Clean (lines.flatten ++ last)
  line : ∀ l ∈ lines, ∃ s, l = s ++ letters "\n" ∧ '\n'.toNat ∉ s
  rest : '\n'.toNat ∉ last

/-- from `v` to `w` nothing has happened, except that the octets have been written (and values may have been made and collected); in particular the
constants have not been changed -/
def OnlyWrote (W : World) (os : List Nat) (v w : Vm) : Prop := Vm.Quiet W nobody (Vm.wrote v os) w ∧ (Intact v → Intact w)

/-- what precedes the message of an error found when `n` characters of the text had been read: the position of the next character, or of
the last one -/
def AtPosition (t : Text) (n : Nat) (s : Text) : Prop :=
  ∃ l c i, Decimal (_root_.Spec.Position.line t (min n (t.length - 1))) l ∧ Decimal (_root_.Spec.Position.column t (min n (t.length - 1))) c ∧
    Decimal n i ∧ s = letters "At line " ++ l ++ letters ", column " ++ c ++ letters " (character index " ++ i ++ letters " from the start of the stream):\n"

/-- The answer to the text `t`, from `v` to `w`: the evaluation made, if any, and whether the text is done with. -/
inductive Reply (W : World) (ct : Ctype) (v : Vm) (t : Text) : Bool → Vm → List Event → Prop
  /-- the text does not hold a complete form -/
  | more {w : Vm} {rest : Text} : parse ct t = (.null, rest) → OnlyWrote W (letters "| ") v w → Reply W ct v t false w []
  /-- the first form is made and evaluated in the global environment, and its value is printed -/
  | form {w : Vm} {rest : Text} {tree : Tree} {e : Event} {x : Ref} {os : List Nat} : v.quit = false → parse ct t = (.val tree, rest) →
      Vm.Quiet W nobody v e.pre → ShowsIn e.pre.mem (Vm.New W v e.pre) e.form tree → e.env = v.globalEnv → e.result = some x →
      e.post.globalEnv = v.globalEnv → (¬ e.post.IsErr e.form → ∀ s, Shown W e.post false x s → os = encodeText s) →
      OnlyWrote W (os ++ letters "\n") e.post w → Reply W ct v t true w [e]
  /-- the first form has no value -/
  | nothing {w : Vm} {rest : Text} {tree : Tree} {e : Event} : v.quit = false → parse ct t = (.val tree, rest) →
      Vm.Quiet W nobody v e.pre → ShowsIn e.pre.mem (Vm.New W v e.pre) e.form tree → e.env = v.globalEnv → e.result = none →
      e.post.globalEnv = v.globalEnv → OnlyWrote W (letters "| ") e.post w → Reply W ct v t false w [e]
  /-- the text is not well-formed: the error and its position are printed -/
  | syntaxError {w : Vm} {rest : Text} {msg : String} {e : Event} {x : Ref} {os : List Nat} : v.quit = false → parse ct t = (.err msg, rest) →
      e.form = x → e.result = some x → ¬ v.Old W x → e.post.IsErr x → Vm.Quiet W nobody v e.post →
      (∀ s, Shown W e.post false x s → ∃ p, AtPosition t (t.length - rest.length) p ∧ os = encodeText (p ++ s)) →
      OnlyWrote W (os ++ letters "\n") e.post w → Reply W ct v t true w [e]
  /-- after an exit nothing is evaluated any more; the answer is a new nil -/
  | exited {w : Vm} {rest : Text} {out : ParseOut} {e : Event} {x : Ref} {os : List Nat} : v.quit = true → parse ct t = (out, rest) → out ≠ .null →
      e.result = some x → ¬ v.Old W x → e.post.HasObj x .nil → Vm.Quiet W nobody v e.post →
      OnlyWrote W (os ++ letters "\n") e.post w → Reply W ct v t true w [e]

/-- How the session goes on from the state `v` with the text `acc` still to be completed and the lines to come, until it ends in the state
`w`. -/
inductive Dialogue (W : World) (ct : Ctype) (w : Vm) : Vm → Text → List Text → List Event → Prop
  /-- at the end of the input -/
  | ended {v : Vm} {acc : Text} : Vm.Quiet W nobody v w → Dialogue W ct w v acc [] []
  /-- the text has to be continued -/
  | goesOn {v u : Vm} {acc l : Text} {ls : List Text} {tr1 tr : List Event} : Intact v → Reply W ct v (acc ++ l) false u tr1 →
      Dialogue W ct w u (acc ++ l) ls tr → Dialogue W ct w v acc (l :: ls) (tr1 ++ tr)
  /-- the text has been answered: the next line starts afresh -/
  | answered {v u u' : Vm} {acc l : Text} {ls : List Text} {tr1 tr : List Event} : Intact v → Reply W ct v (acc ++ l) true u tr1 →
      u.quit = false → OnlyWrote W (letters "> ") u u' → Dialogue W ct w u' [] ls tr → Dialogue W ct w v acc (l :: ls) (tr1 ++ tr)
  /-- the program exits: no further line is read -/
  | quits {v u : Vm} {acc l : Text} {ls : List Text} {tr : List Event} : Intact v → Reply W ct v (acc ++ l) true u tr →
      u.quit = true → Vm.Quiet W nobody u w → Dialogue W ct w v acc (l :: ls) tr
  /-- a constant has been changed: no claim -/
  | spoilt {v : Vm} {acc : Text} {ls : List Text} {tr : List Event} : ¬ Intact v → Dialogue W ct w v acc ls tr

/-- The trees are evaluated in order in the environment, and the value of each is printed before the next prompt. -/
inductive AnswersAll (W : World) (env : Ref) : Vm → List Tree → List Event → Vm → Prop
  | none {v : Vm} : AnswersAll W env v [] [] v
  | one {v u u' w : Vm} {tree : Tree} {trees : List Tree} {e : Event} {tr : List Event} {x : Ref} {os : List Nat} : Vm.Quiet W nobody v e.pre →
      e.env = env → ShowsIn e.pre.mem (Vm.New W v e.pre) e.form tree → e.result = some x →
      (¬ e.post.IsErr e.form → ∀ s, Shown W e.post false x s → os = encodeText s) → OnlyWrote W (os ++ letters "\n") e.post u → OnlyWrote W (letters "> ") u u' →
      AnswersAll W env u' trees tr w → AnswersAll W env v (tree :: trees) (e :: tr) w

/-! ### Proofs -/

theorem quiet_wroteBoth {v w : Vm} {E : Ref → Prop} (o : List Nat) (q : Vm.Quiet W E v w) : Vm.Quiet W E (Vm.wrote v o) (Vm.wrote w o) :=
  ⟨q.births, q.cells, q.gone, q.ret, q.quit, q.exitCode, by show w.out ++ o = v.out ++ o; rw [q.out],
    fun which => (show (Vm.wrote w o).root which = w.root which by cases which <;> rfl).trans
      ((q.roots which).trans (by cases which <;> rfl)), q.readably⟩

theorem c69_wrote_wrote_aux {v : Vm} {o o' : List Nat} : Vm.wrote (Vm.wrote v o) o' = Vm.wrote v (o ++ o') := by simp [Vm.wrote]

theorem c69_intact_aux {v : Vm} {o : List Nat} (i : Intact v) : Intact (Vm.wrote v o) := ⟨i.nil, i.true, i.false⟩

theorem c69_good_aux {v : Vm} {o : List Nat} (sv : v.Sane W) (cv : v.Closed W nobody) : (Vm.wrote v o).Sane W ∧ (Vm.wrote v o).Closed W nobody := by
  have g := good_same (w := Vm.wrote v o) sv cv rfl rfl rfl rfl (fun which => by cases which <;> rfl) cv.stack cv.ret
  exact ⟨g.sane, g.closed⟩

theorem c69_where_aux {t rest : Text} (ht : t ≠ []) : AtPosition t (t.length - rest.length) (whereText t rest) := by
  have hl : 0 < t.length := List.length_pos_iff.mpr ht
  refine ⟨decDigits _, decDigits _, decDigits _, decimal_decDigits _, decimal_decDigits _, decimal_decDigits _, ?_⟩
  have key : ∀ n ≤ t.length, ((Input.new t).advance n).line = _root_.Spec.Position.line t (min n (t.length - 1)) ∧
      ((Input.new t).advance n).column = _root_.Spec.Position.column t (min n (t.length - 1)) ∧ ((Input.new t).advance n).index = n := by
    intro n hn
    by_cases h : n < t.length
    · obtain ⟨h1, _, h2, h3⟩ := c03_position_exact t n h
      rw [show min n (t.length - 1) = n by omega]
      exact ⟨h2, h3, h1⟩
    · obtain ⟨h1, _, h2, h3⟩ := c03_position_at_end t n (by omega) ht
      rw [show min n (t.length - 1) = t.length - 1 by omega]
      exact ⟨h2, h3, by omega⟩
  obtain ⟨h1, h2, h3⟩ := key (t.length - rest.length) (by omega)
  unfold whereText
  rw [h1, h2, h3]
  rfl

theorem c69_decClean_aux (n : Nat) : ∀ c ∈ decDigits n, c < 128 := fun c hc => by
  have := (decimal_decDigits n).digits c hc
  have h9 : '9'.toNat = 57 := rfl
  rw [h9] at this
  have := this.2
  exact Nat.lt_of_le_of_lt this (by decide)

theorem c69_whereAscii_aux {t rest : Text} : encodeText (whereText t rest) = whereText t rest := by
  refine encodeText_ascii _ fun c hc => ?_
  unfold whereText at hc
  simp only [List.mem_append] at hc
  rcases hc with (((((h | h) | h) | h) | h) | h) | h
  · revert c; decide
  · exact c69_decClean_aux _ _ h
  · revert c; decide
  · exact c69_decClean_aux _ _ h
  · revert c; decide
  · exact c69_decClean_aux _ _ h
  · revert c; decide

theorem c69_push_aux {v : Vm} {x : Ref} (sv : v.Sane W) (cv : v.Closed W nobody) (hx : v.Old W x) :
    Vm.Sane W { v with stack := x :: v.stack } ∧ Vm.Closed W nobody { v with stack := x :: v.stack } :=
  c36_stack_aux sv cv fun y hy => by
    rcases List.mem_cons.mp hy with rfl | hy
    · exact hx
    · exact cv.stack y hy

/-- printing the answer, from the state `u` after the evaluation -/
theorem c69_print_aux {n : Nat} {h : Handler} {x r : Ref} {p : Text} {u : Vm} {Q : Bool → Vm → List Event → Prop}
    (hq : ∀ os s, (¬ u.IsErr x → ∀ t, Shown W u false r t → os = encodeText t) → (u.IsErr x → ∀ t, Shown W u false r t → os = p ++ encodeText t) →
      (∀ y ∈ s, y ∈ u.stack) → Q true { Vm.wrote u (os ++ letters "\n") with stack := s } []) :
    Wp W n h (do
      let s ← Prog.print false r
      let o ← Prog.octetsOf s
      match (← Prog.read x).obj with
      | .err _ _ => Prog.emit (p ++ o)
      | _ => Prog.emit o
      Prog.pop x
      Prog.emit [10]
      pure true) u Q := by
  refine wp_bind (wp_print fun t ht => ?_)
  unfold Prog.octetsOf
  cases hc : getCString t with
  | none => exact wp_bind wp_fail
  | some o =>
    have hs : ∀ t', Shown W u false r t' → o.map BitVec.toNat = encodeText t' := by
      intro t' h'
      obtain ⟨rfl, hcl⟩ := c51_shown_aux h' ht
      rw [getCString_eq _ hcl] at hc
      cases hc
      exact encodeText_octets _ hcl
    refine wp_bind (wp_pure (wp_bind (wp_read fun c hc => ?_)))
    have fin : ∀ os, (¬ u.IsErr x → ∀ t, Shown W u false r t → os = encodeText t) → (u.IsErr x → ∀ t, Shown W u false r t → os = p ++ encodeText t) →
        Wp W n h (do
          Prog.emit os
          Prog.pop x
          Prog.emit [10]
          pure true) u Q := by
      intro os h1 h2
      refine wp_bind (wp_emit (wp_bind (wp_pop fun s hs => wp_bind (wp_emit (wp_pure ?_)))))
      have := hq os s h1 h2 fun y hy => by
        have hs : u.stack = x :: s := hs
        rw [hs]; exact List.mem_cons_of_mem _ hy
      rw [show letters "\n" = [10] from rfl] at this
      simpa [Vm.wrote] using this
    split
    · rename_i m l ho
      exact fin _ (fun hn => absurd ⟨m, l, c, hc, ho⟩ hn) fun _ t ht => by rw [hs t ht]
    · rename_i hno
      refine fin _ (fun _ t ht => hs t ht) ?_
      rintro ⟨m, l, c', hc', ho⟩
      obtain rfl := same_cell hc hc'
      exact absurd ho (hno _ _)

theorem c69_end_aux {v : Vm} {s : List Ref} {o : List Nat} : OnlyWrote W o v { Vm.wrote v o with stack := s } :=
  ⟨(Ends.pop (v := Vm.wrote v o)).quiet, fun i => ⟨i.nil, i.true, i.false⟩⟩

theorem c69_only_aux {v : Vm} {o : List Nat} : OnlyWrote W o v (Vm.wrote v o) := ⟨.refl _, c69_intact_aux⟩

theorem c69_parse_aux {ct : Ctype} {t rest : Text} {k : Token} (h : lex ct t = (.tok k, rest)) :
    parse ct t = parseTok ct (2 * t.length + 2) k rest := by
  unfold parse
  simp only [parseNext, h]

/-- one turn -/
theorem c69_turn_aux {n : Nat} (hL : L.Safe) (ct : Ctype) {t : Text} (ht : t ≠ []) {v : Vm} (sv : v.Sane W) (cv : v.Closed W nobody) (iv : Intact v) :
    Wp W n (handle W L n) (Prog.replTurn ct t) v fun b w tr => Reply W ct v t b w tr ∧ w.Sane W ∧ w.Closed W nobody := by
  have F : Fine W (handle W L n) := handler_fine hL n
  have C : Copies W (handle W L n) := handler_copies n
  unfold Prog.replTurn
  split
  · exact wp_fail
  · exact wp_fail
  · exact wp_fail
  · rename_i k rest hlex
    have hparse := c69_parse_aux hlex
    refine wp_bind (Wp.mono ((parse_ok C F ct _).1 k rest v sv cv iv) ?_)
    rintro ⟨a, rest'⟩ u tr ⟨rfl, m, hrest, ha⟩
    simp only at hrest ha ⊢
    have hp : parse ct t = ((parse ct t).1, rest') := by rw [hrest, ← hparse]
    rw [← hparse] at ha
    have wrote : ∀ {w : Vm} {o : List Nat}, w.Sane W → w.Closed W nobody → (Vm.wrote w o).Sane W ∧ (Vm.wrote w o).Closed W nobody :=
      fun s c => c69_good_aux s c
    have outcome : (parse ct t).1 = .null ∧ a = none ∨ ∃ x, a = some x ∧ u.Old W x ∧ (parse ct t).1 ≠ .null := by
      rcases ha.cases with ⟨tree, x, ho, rfl, hx⟩ | ⟨msg, x, ho, rfl, hx, hx'⟩ | ⟨ho, rfl⟩
      · exact .inr ⟨x, rfl, hx.here.2, by rw [ho]; simp⟩
      · exact .inr ⟨x, rfl, hx.2, by rw [ho]; simp⟩
      · exact .inl ⟨ho, rfl⟩
    rcases outcome with ⟨ho, rfl⟩ | ⟨x, rfl, hxo, hnn⟩
    · simp only
      rw [ho] at hp
      refine wp_bind (wp_emit (wp_pure ⟨?_, wrote m.sane m.closed⟩))
      exact .more hp ⟨quiet_wroteBoth _ m.quiet, fun _ => c69_intact_aux (m.intact cv iv)⟩
    · simp only
      refine wp_bind (wp_push (wp_bind (wp_root (wp_bind ?_))))
      obtain ⟨s1, c1⟩ := c69_push_aux m.sane m.closed hxo
      have hroot : ({ u with stack := x :: u.stack } : Vm).root .globalEnv = v.globalEnv := m.quiet.roots .globalEnv
      rw [hroot]
      have oe : ({ u with stack := x :: u.stack } : Vm).Pub W nobody v.globalEnv := by rw [← hroot]; exact c1.roots .globalEnv
      have last : ∀ {w : Vm} {s : List Ref} {o : List Nat}, w.Sane W → w.Closed W nobody → (∀ y ∈ s, y ∈ w.stack) →
          Vm.Sane W { Vm.wrote w o with stack := s } ∧ Vm.Closed W nobody { Vm.wrote w o with stack := s } := by
        intro w s o s2 c2 h
        obtain ⟨s3, c3⟩ := c69_good_aux (o := o) s2 c2
        exact c36_stack_aux s3 c3 fun y hy => c3.stack y (h y hy)
      rcases Bool.eq_false_or_eq_true v.quit with hq | hq
      · refine wp_call fun b w t1 e => ?_
        obtain ⟨r, rfl, al⟩ := c36_evalQuit_aux s1 (m.quiet.quit.trans hq) e
        have et := F.eval _ _ _ _ _ _ e
        subst et
        have m1 : Mid W v [x] { u with stack := x :: u.stack } := by simpa using m.push hxo
        have mw := m1.alloc (o := .nil) trivial al
        simp only
        refine c69_print_aux fun os s _ _ hs => ⟨?_, last mw.sane mw.closed hs⟩
        exact .exited hq hp hnn rfl (fun h => al.fresh (h.mono m.pure.births)) ⟨_, al.cell, rfl⟩ mw.quiet c69_end_aux
      · have qu : ({ u with stack := x :: u.stack } : Vm).quit = false := m.quiet.quit.trans hq
        have qq : Vm.Quiet W nobody v { u with stack := x :: u.stack } := m.quiet.trans sv (Ends.pop (v := u)).quiet
        rcases ha.cases with ⟨tree, x', ho, hx', hx⟩ | ⟨msg, x', ho, hx', hx, hxe⟩ | ⟨ho, hx'⟩
        · cases hx'
          rw [ho] at hp
          refine wps_eval (X := nobody) (E := nobody) (v0 := { u with stack := x :: u.stack }) F (.refl s1 c1) ⟨hxo, id⟩ oe fun b w g hst pb => ?_
          have hge : w.globalEnv = v.globalEnv := (g.later.roots .globalEnv).trans hroot
          cases b with
          | none =>
            simp only
            refine wp_bind (wp_emit (wp_bind (wp_pop fun s hs => wp_pure ⟨?_, last g.sane g.closed fun y hy => ?_⟩)))
            · exact .nothing hq hp (e := ⟨x, v.globalEnv, { u with stack := x :: u.stack }, none, w⟩) qq hx rfl rfl hge c69_end_aux
            · have hs : w.stack = x :: s := hs
              rw [hs]; exact List.mem_cons_of_mem _ hy
          | some r =>
            simp only
            refine c69_print_aux fun os s h1 _ hs => ⟨?_, last g.sane g.closed hs⟩
            exact .form hq hp (e := ⟨x, v.globalEnv, { u with stack := x :: u.stack }, some r, w⟩) qq hx rfl rfl hge h1 c69_end_aux
        · cases hx'
          rw [ho] at hp
          refine wp_call fun b w t1 e => ?_
          obtain ⟨rfl, en⟩ := c36_evalErr_aux qu hxe e
          have et := F.eval _ _ _ _ _ _ e
          subst et
          have sp := F.spec nobody (.eval x v.globalEnv) _ _ s1 c1 (by simp [Call.refs, oe]; exact ⟨hxo, id⟩) rfl
          rw [e] at sp
          have hwe : w.IsErr x := en.isErr hxe
          simp only
          refine c69_print_aux fun os s _ h2 hs => ⟨?_, last sp.1.sane sp.1.closed hs⟩
          refine .syntaxError hq hp rfl rfl hx.1 hwe (qq.trans sv en.quiet) (fun s' hs' => ⟨whereText t rest', c69_where_aux ht, ?_⟩) c69_end_aux
          rw [h2 hwe s' hs', encodeText_append, c69_whereAscii_aux]
        · cases hx'

theorem c69_octetsAppend_aux : ∀ (s t : Text), Clean s → octetsOf (s ++ t) = octetsOf s ++ octetsOf t := by
  intro s t
  induction s with
  | nil => intro _; rfl
  | cons c s ih =>
    intro h
    obtain ⟨e, h1, _⟩ := encode_ch (h c (by simp))
    simp only [List.cons_append, octetsOf, h1, ih fun c hc => h c (by simp [hc]), List.append_assoc]

theorem c69_encodeNewline_aux (c : Nat) (h : c ≠ 10) : 10 ∉ _root_.Spec.Utf8.encode c := by
  unfold _root_.Spec.Utf8.encode; (repeat' split) <;> simp <;> omega

theorem c69_noNewline_aux : ∀ (s : Text), Clean s → '\n'.toNat ∉ s → (10 : Utf8.Octet) ∉ octetsOf s := by
  intro s hs hn hm
  have : 10 ∈ (octetsOf s).map BitVec.toNat := List.mem_map.mpr ⟨10, hm, rfl⟩
  rw [encodeText_octets s hs, encodeText, List.mem_flatMap] at this
  obtain ⟨c, hc, h⟩ := this
  exact c69_encodeNewline_aux c (fun e => hn (by subst e; exact hc)) h

theorem c69_readLine_aux : ∀ (a b : List Utf8.Octet), (10 : Utf8.Octet) ∉ a → readLine (a ++ 10 :: b) = some (a ++ [10], b) := by
  intro a b
  induction a with
  | nil => intro _; rfl
  | cons o a ih =>
    intro h
    simp only [List.mem_cons, not_or] at h
    rw [List.cons_append, readLine, if_neg fun e => h.1 e.symm, ih h.2]
    rfl

theorem c69_readEnd_aux : ∀ (a : List Utf8.Octet), (10 : Utf8.Octet) ∉ a → readLine a = none := by
  intro a
  induction a with
  | nil => intro _; rfl
  | cons o a ih =>
    intro h
    simp only [List.mem_cons, not_or] at h
    rw [readLine, if_neg fun e => h.1 e.symm, ih h.2]
    rfl

theorem c69_inputText_aux (s : Text) (h : Clean s) : inputText (octetsOf s) = some s := by
  rw [inputText, fromBuffer_octets s h, Option.map_some, map_back s h]

theorem c69_pushedText_aux (s : Text) (h : Clean s) : pushedText s = some s := by
  simp only [pushedText, getCString_eq s h]
  exact c69_inputText_aux s h

/-- the loop -/
theorem c69_loop_aux {n : Nat} (hL : L.Safe) (ct : Ctype) (last : Text) (hlast : '\n'.toNat ∉ last) : ∀ (k : Nat) (lines : List Text) (acc : Text) (v : Vm),
    Clean (lines.flatten ++ last) → (∀ l ∈ lines, ∃ s, l = s ++ letters "\n" ∧ '\n'.toNat ∉ s) → v.Sane W → v.Closed W nobody →
    Wp W n (handle W L n) (Prog.replLoop ct k (octetsOf (lines.flatten ++ last)) acc) v fun _ w tr => Dialogue W ct w v acc lines tr := by
  intro k
  induction k with
  | zero => intro lines acc v _ _ _ _; unfold Prog.replLoop; exact wp_fail
  | succ k ih =>
    intro lines acc v hc hl sv cv
    by_cases iv : Intact v
    case neg => exact fun r w tr _ => .spoilt iv
    cases lines with
    | nil =>
      unfold Prog.replLoop
      rw [c69_readEnd_aux _ (c69_noNewline_aux _ hc hlast)]
      exact wp_pure (.ended (.refl v))
    | cons l lines =>
      obtain ⟨s, rfl, hs⟩ := hl l (by simp)
      rw [List.flatten_cons, List.append_assoc] at hc ⊢
      have c1 : Clean (s ++ letters "\n") := fun c h => hc c (List.mem_append_left _ h)
      have c2 : Clean s := fun c h => c1 c (List.mem_append_left _ h)
      have c3 : Clean (lines.flatten ++ last) := fun c h => hc c (List.mem_append_right _ h)
      have e1 : octetsOf (s ++ letters "\n") = octetsOf s ++ [10] := by
        rw [c69_octetsAppend_aux _ _ c2]; rfl
      unfold Prog.replLoop
      rw [c69_octetsAppend_aux _ _ c1, e1, List.append_assoc]
      rw [show octetsOf s ++ ([10] ++ octetsOf (lines.flatten ++ last)) = octetsOf s ++ 10 :: octetsOf (lines.flatten ++ last) from rfl]
      rw [c69_readLine_aux _ _ (c69_noNewline_aux _ c2 hs)]
      simp only
      rw [← e1, c69_inputText_aux _ c1]
      obtain ⟨c, cs, hcs⟩ : ∃ c cs, s ++ letters "\n" = c :: cs := by
        cases s with
        | nil => exact ⟨_, _, rfl⟩
        | cons c s => exact ⟨_, _, rfl⟩
      rw [hcs] at c1 ⊢
      simp only
      rw [c69_pushedText_aux _ c1]
      simp only
      have ne : acc ++ c :: cs ≠ [] := by simp
      have hl' : ∀ l ∈ lines, ∃ s, l = s ++ letters "\n" ∧ '\n'.toNat ∉ s := fun l h => hl l (by simp [h])
      refine wp_bind (Wp.mono (c69_turn_aux hL ct ne sv cv iv) ?_)
      rintro b u tr ⟨hr, su, cu⟩
      cases b with
      | false =>
        simp only [Bool.false_eq_true, if_false]
        exact Wp.mono (ih lines (acc ++ c :: cs) u c3 hl' su cu) fun _ w tr' h => .goesOn iv hr h
      | true =>
        simp only [if_true]
        refine wp_bind (wp_isQuit ?_)
        rcases Bool.eq_false_or_eq_true u.quit with hq | hq
        · rw [hq]
          simp only [if_true]
          refine wp_pure ?_
          simpa using Dialogue.quits iv hr hq (.refl u)
        · rw [hq]
          simp only [Bool.false_eq_true, if_false]
          refine wp_bind (wp_emit ?_)
          obtain ⟨su', cu'⟩ := c69_good_aux (o := txt "> ") su cu
          refine Wp.mono (ih lines [] _ c3 hl' su' cu') fun _ w tr' h => ?_
          simpa using Dialogue.answered iv hr hq c69_only_aux h

/-- octets are what they are as numbers -/
theorem c69_octets_aux {os : List Utf8.Octet} {t : Text} (hc : Clean t) (h : os.map BitVec.toNat = encodeText t) : os = octetsOf t := by
  rw [← encodeText_octets t hc] at h
  exact List.map_injective_iff.mpr (fun a b => BitVec.eq_of_toNat_eq) h

/-! ### Theorems -/

/-- The session, from every state of the machine, on every input that is valid UTF-8 text without U+0000: the lines are put together to texts, and
for each text the first form is evaluated, once the text holds a complete form, in the global environment, and answered. -/
theorem c69_dialogue_partial (hL : L.Safe) {v w : Vm} (rv : v.Reached W L) {ct : Ctype} {os : List Utf8.Octet} {lines : List Text} {last : Text}
    (ht : Typed os lines last) {n : Nat} {tr : List Event} (e : run W n (handler W (Prog.body L) n) (Prog.repl ct os) v = .ok ((), w, tr)) :
    Dialogue W ct w (Vm.wrote v (letters "> ")) [] lines tr ∧ ∀ e ∈ tr, ∃ sub, Evaluates W L e.pre e.form e.env e.result e.post sub := by
  obtain ⟨sv, cv⟩ := rv.good hL
  refine ⟨?_, run_events (body := Prog.body L) (fun c v a w t h => handler_events n c v a w t h) _ _ _ _ _ e⟩
  rw [c69_octets_aux ht.clean ht.octets] at e
  have : Wp W n (handle W L n) (Prog.repl ct (octetsOf (lines.flatten ++ last))) v fun _ w tr =>
      Dialogue W ct w (Vm.wrote v (letters "> ")) [] lines tr := by
    unfold Prog.repl
    refine wp_bind (wp_emit ?_)
    obtain ⟨su', cu'⟩ := c69_good_aux (o := txt "> ") sv cv
    exact Wp.mono (c69_loop_aux hL ct last ht.rest _ lines [] _ ht.clean ht.line su' cu') fun _ w tr' h => by rw [List.nil_append]; exact h
  exact this _ _ _ e

theorem c69_order_aux {ct : Ctype} {w : Vm} {env : Ref} {v : Vm} {acc : Text} {lines : List Text} {tr : List Event} (d : Dialogue W ct w v acc lines tr) :
    ∀ {trees : List Tree}, acc = [] → List.Forall₂ (fun l tree => ∃ rest, parse ct l = (.val tree, rest)) lines trees → v.globalEnv = env →
    Intact v → v.quit = false → (∀ e ∈ tr, Intact e.post ∧ e.post.quit = false ∧ e.result ≠ none) →
    ∃ u, AnswersAll W env v trees tr u ∧ Vm.Quiet W nobody u w := by
  induction d with
  | ended q =>
    intro trees _ hf _ _ _ _
    cases hf
    exact ⟨_, .none, q⟩
  | @goesOn v u acc l ls tr1 tr i r d ih =>
    intro trees hacc hf hge hi hq hall
    subst hacc
    obtain ⟨_, tree, trees', ⟨rest, hp⟩, hf', rfl⟩ : ∃ x tree trees', (∃ rest, parse ct l = (.val tree, rest)) ∧ List.Forall₂ _ ls trees' ∧ trees = tree :: trees' := by
      cases hf with | cons h1 h2 => exact ⟨0, _, _, h1, h2, rfl⟩
    rw [List.nil_append] at r
    cases r with
    | more h _ => rw [hp] at h; cases h
    | nothing h1 h2 h3 h4 h5 h6 => exact absurd h6 (hall _ (by simp)).2.2
  | @answered v u u' acc l ls tr1 tr i r hu o d ih =>
    intro trees hacc hf hge hi hq hall
    subst hacc
    obtain ⟨_, tree, trees', ⟨rest, hp⟩, hf', rfl⟩ : ∃ x tree trees', (∃ rest, parse ct l = (.val tree, rest)) ∧ List.Forall₂ _ ls trees' ∧ trees = tree :: trees' := by
      cases hf with | cons h1 h2 => exact ⟨0, _, _, h1, h2, rfl⟩
    rw [List.nil_append] at r
    cases r with
    | @form w0 rest0 tree0 e x os h1 h2 h3 h4 h5 h6 h7 h8 h9 =>
      rw [hp] at h2
      cases h2
      obtain ⟨ip, qp, _⟩ := hall e (by simp)
      have g1 : u.globalEnv = e.post.globalEnv := h9.1.roots .globalEnv
      have g2 : u'.globalEnv = u.globalEnv := o.1.roots .globalEnv
      obtain ⟨w', a, q⟩ := ih rfl hf' (g2.trans (g1.trans (h7.trans hge))) (o.2 (h9.2 ip)) (o.1.quit.trans hu) fun e he => hall e (by simp [he])
      exact ⟨w', .one h3 (h5.trans hge) h4 h6 h8 h9 o a, q⟩
    | syntaxError h1 h2 => rw [hp] at h2; cases h2
    | exited h1 => rw [hq] at h1; cases h1
  | @quits v u acc l ls tr i r hu q =>
    intro trees hacc hf hge hi hq hall
    subst hacc
    obtain ⟨_, tree, trees', ⟨rest, hp⟩, hf', rfl⟩ : ∃ x tree trees', (∃ rest, parse ct l = (.val tree, rest)) ∧ List.Forall₂ _ ls trees' ∧ trees = tree :: trees' := by
      cases hf with | cons h1 h2 => exact ⟨0, _, _, h1, h2, rfl⟩
    rw [List.nil_append] at r
    cases r with
    | @form w0 rest0 tree0 e x os h1 h2 h3 h4 h5 h6 h7 h8 h9 =>
      obtain ⟨_, qp, _⟩ := hall e (by simp)
      have := h9.1.quit.trans qp
      rw [hu] at this; cases this
    | syntaxError h1 h2 => rw [hp] at h2; cases h2
    | exited h1 => rw [hq] at h1; cases h1
  | spoilt h => intro trees _ hf _ hi; exact absurd hi h

/-- If every line holds a complete form, and the evaluations neither exit nor change the constants, and all have values: the first form of every line is
evaluated, in order, in the global environment, and its value is printed before the next prompt. -/
theorem c69_in_order (hL : L.Safe) {v w : Vm} (rv : v.Reached W L) {ct : Ctype} {os : List Utf8.Octet} {lines : List Text} {last : Text}
    (ht : Typed os lines last) {n : Nat} {tr : List Event} (e : run W n (handler W (Prog.body L) n) (Prog.repl ct os) v = .ok ((), w, tr))
    {trees : List Tree} (hf : List.Forall₂ (fun l tree => ∃ rest, parse ct l = (.val tree, rest)) lines trees) (hi : Intact v) (hq : v.quit = false)
    (hall : ∀ e ∈ tr, Intact e.post ∧ e.post.quit = false ∧ e.result ≠ none) :
    ∃ u, AnswersAll W v.globalEnv (Vm.wrote v (letters "> ")) trees tr u ∧ Vm.Quiet W nobody u w := by
  obtain ⟨d, _⟩ := c69_dialogue_partial hL rv ht e
  exact c69_order_aux d rfl hf rfl (c69_intact_aux hi) hq hall

theorem c69_spaces_aux {ct : Ctype} (hct : ct.C) : ∀ (s t : Text), (∀ c ∈ s, spaceC c = true) → popWhitespace ct (s ++ t) = popWhitespace ct t := by
  intro s t
  induction s with
  | nil => intro _; rfl
  | cons c s ih =>
    intro h
    have hc := h c (by simp)
    have : c < 128 := by
      simp only [spaceC, Bool.or_eq_true, beq_iff_eq, Bool.and_eq_true, decide_eq_true_eq] at hc
      rcases hc with rfl | ⟨_, hc⟩
      · decide
      · exact Nat.lt_of_le_of_lt hc (by decide)
    rw [List.cons_append, popWhitespace, hct.space c this, hc]
    exact ih fun c hc => h c (by simp [hc])

/-- A first line without any complete token (a blank line, a comment, the beginning of a string) makes the program read an uninitialised variable: the
session has no defined behaviour. -/
theorem c69_no_token {ct : Ctype} {v : Vm} {os : List Utf8.Octet} {l rest : Text} {lines : List Text} {last : Text} (ht : Typed os (l :: lines) last)
    (hn : lex ct l = (.null, rest)) (n : Nat) (h : Handler) : run W n h (Prog.repl ct os) v = .error .ub := by
  obtain ⟨s, rfl, hs⟩ := ht.line l (by simp)
  have hc := ht.clean
  rw [c69_octets_aux ht.clean ht.octets]
  rw [List.flatten_cons, List.append_assoc] at hc ⊢
  have c1 : Clean (s ++ letters "\n") := fun c h => hc c (List.mem_append_left _ h)
  have c2 : Clean s := fun c h => c1 c (List.mem_append_left _ h)
  have e1 : octetsOf (s ++ letters "\n") = octetsOf s ++ [10] := by
    rw [c69_octetsAppend_aux _ _ c2]; rfl
  have e2 : octetsOf (s ++ letters "\n" ++ (lines.flatten ++ last)) = octetsOf s ++ 10 :: octetsOf (lines.flatten ++ last) := by
    rw [c69_octetsAppend_aux _ _ c1, e1, List.append_assoc]; rfl
  unfold Prog.repl Prog.replLoop
  rw [e2, c69_readLine_aux _ _ (c69_noNewline_aux _ c2 hs)]
  simp only
  rw [← e1, c69_inputText_aux _ c1]
  obtain ⟨c, cs, hcs⟩ : ∃ c cs, s ++ letters "\n" = c :: cs := by
    cases s with
    | nil => exact ⟨_, _, rfl⟩
    | cons c s => exact ⟨_, _, rfl⟩
  rw [hcs] at c1 hn ⊢
  simp only
  rw [c69_pushedText_aux _ c1]
  simp only [List.nil_append, Prog.replTurn, hn]
  rfl

/-- In particular a blank line does. -/
theorem c69_blank_line {ct : Ctype} (hct : ct.C) {v : Vm} {os : List Utf8.Octet} {l : Text} {lines : List Text} {last : Text} (ht : Typed os (l :: lines) last)
    (hl : ∀ c ∈ l, spaceC c = true) (n : Nat) (h : Handler) : run W n h (Prog.repl ct os) v = .error .ub := by
  refine c69_no_token ht (rest := []) ?_ n h
  have := c69_spaces_aux hct l [] hl
  rw [List.append_nil] at this
  simp only [lex, skipTrivia, skipTriviaFuel, this, popWhitespace]

theorem c69_list_aux {ct : Ctype} : ∀ (fuel : Nat) (acc : List Tree) (t : Text), (parseList ct fuel acc t).1 ≠ .null := by
  intro fuel
  induction fuel with
  | zero => intro acc t; simp [parseList]
  | succ fuel ih =>
    intro acc t
    unfold parseList
    split
    any_goals (simp; done)
    split
    · simp
    · exact ih _ _
    · rename_i h1 _
      intro h
      exact h1 _ (Prod.ext h rfl)

/-- A text that begins with a parenthesis is never continued on the next line: if the parenthesis is not closed, the answer is an error. -/
theorem c69_unclosed {ct : Ctype} (hct : ct.C) {v w : Vm} {s t : Text} {tr : List Event} (hs : ∀ c ∈ s, spaceC c = true)
    (hr : Reply W ct v (s ++ letters "(" ++ t) false w tr) : ∃ e tree rest, tr = [e] ∧ parse ct (s ++ letters "(" ++ t) = (.val tree, rest) ∧ e.result = none := by
  have hp : (parse ct (s ++ letters "(" ++ t)).1 ≠ .null := by
    have e1 : popWhitespace ct (s ++ letters "(" ++ t) = 40 :: t := by
      rw [List.append_assoc, c69_spaces_aux hct s _ hs]
      show popWhitespace ct (40 :: t) = _
      rw [popWhitespace, hct.space 40 (by decide)]
      rfl
    have e2 : lex ct (s ++ letters "(" ++ t) = (.tok .lparen, t) := by
      simp only [lex, skipTrivia, skipTriviaFuel, e1]
      rfl
    unfold parse
    simp only [parseNext, e2, parseTok]
    exact c69_list_aux _ _ _
  cases hr with
  | more h => rw [h] at hp; exact absurd rfl hp
  | nothing _ h _ _ _ h' => exact ⟨_, _, _, rfl, h, h'⟩

/-! ### Examples -/

/-- the octets of an ASCII text -/
def typedOctets (t : String) : List Utf8.Octet := (txt t).map (BitVec.ofNat 8)

/-- for examples: the machine with some functions, after a session -/
def replCheck (t : String) (fuel : Nat) (P : Vm → Vm → List Event → Bool) : Bool :=
  match run world fuel (handler world (Prog.body library) fuel) (setup kit [] (.int 0)) (Vm.base world.malloc) with
  | .error _ => false
  | .ok (_, v, _) =>
    match run world fuel (handler world (Prog.body library) fuel) (Prog.repl asciiCtype (typedOctets t)) v with
    | .error _ => false
    | .ok (_, w, tr) => P v w tr

theorem c69_check_aux {t : String} {fuel : Nat} {P : Vm → Vm → List Event → Bool} (h : replCheck t fuel P = true) :
    ∃ v w tr, v.Reached world library ∧ run world fuel (handler world (Prog.body library) fuel) (Prog.repl asciiCtype (typedOctets t)) v = .ok ((), w, tr) ∧
      P v w tr = true := by
  unfold replCheck at h
  split at h
  · cases h
  · rename_i f v t e
    split at h
    · cases h
    · rename_i r w tr e'
      exact ⟨v, w, tr, .host .refl (fun P _ => Machine.ok_setup kit [] _ kit_plain fun _ _ => trivial) e, e', h⟩

theorem c69_text1_aux : parse asciiCtype (txt "(quote a) oops\n") = (.val (.vec [.sym (txt "quote"), .sym (txt "a")]), txt " oops\n") := by
  have h : (match parse asciiCtype (txt "(quote a) oops\n") with
    | (.val (.vec [.sym a, .sym b]), rest) => decide (a = txt "quote" ∧ b = txt "a" ∧ rest = txt " oops\n")
    | _ => false) = true := by decide +kernel
  split at h
  · rename_i e
    obtain ⟨rfl, rfl, rfl⟩ := of_decide_eq_true h
    exact e
  · cases h

theorem c69_text2_aux : parse asciiCtype (txt "true\n") = (.val (.bool true), txt "\n") := by
  have h : (match parse asciiCtype (txt "true\n") with
    | (.val (.bool b), rest) => decide (b = true ∧ rest = txt "\n")
    | _ => false) = true := by decide +kernel
  split at h
  · rename_i e
    obtain ⟨rfl, rfl⟩ := of_decide_eq_true h
    exact e
  · cases h

/-- The hypotheses of `c69_in_order` hold for two lines; what follows the first form of the first line is ignored. -/
example : ∃ (v w : Vm) (n : Nat) (tr : List Event) (lines : List Text) (last : Text) (trees : List Tree), v.Reached world library ∧
    Typed (typedOctets "(quote a) oops\ntrue\nlost") lines last ∧
    run world n (handler world (Prog.body library) n) (Prog.repl asciiCtype (typedOctets "(quote a) oops\ntrue\nlost")) v = .ok ((), w, tr) ∧
    List.Forall₂ (fun l tree => ∃ rest, parse asciiCtype l = (.val tree, rest)) lines trees ∧
    Intact v ∧ v.quit = false ∧ (∀ e ∈ tr, Intact e.post ∧ e.post.quit = false ∧ e.result ≠ none) ∧ tr.length = 2 ∧ w.out = letters "> a\n> true\n> " := by
  obtain ⟨v, w, tr, hr, hd, h⟩ := c69_check_aux (t := "(quote a) oops\ntrue\nlost") (fuel := 60)
    (P := fun v w tr => intactCheck v && (!v.quit && (tr.all (fun e => intactCheck e.post && (!e.post.quit && e.result.isSome)) &&
      (tr.length == 2 && decide (w.out = letters "> a\n> true\n> "))))) (by decide +kernel)
  simp only [Bool.and_eq_true, Bool.not_eq_true', List.all_eq_true, beq_iff_eq, decide_eq_true_eq] at h
  obtain ⟨h1, h2, h3, h4, h5⟩ := h
  refine ⟨v, w, 60, tr, [txt "(quote a) oops\n", txt "true\n"], txt "lost", [.vec [.sym (txt "quote"), .sym (txt "a")], .bool true], hr,
    ⟨by decide, by unfold Clean; decide, ?_, by decide⟩, hd, .cons ⟨_, c69_text1_aux⟩ (.cons ⟨_, c69_text2_aux⟩ .nil), c36_intact_aux h1, h2,
    fun e he => ⟨c36_intact_aux (h3 e he).1, (h3 e he).2.1, fun hn => by have := (h3 e he).2.2; rw [hn] at this; cases this⟩, h4, h5⟩
  intro l hl
  simp only [List.mem_cons, List.not_mem_nil, or_false] at hl
  rcases hl with rfl | rfl
  · exact ⟨txt "(quote a) oops", by decide, by decide⟩
  · exact ⟨txt "true", by decide, by decide⟩

/-- a quote and what it quotes on the next line -/
example : replCheck "'\nb\n" 60 (fun _ w tr => tr.length == 1 && decide (w.out = letters "> | b\n> ")) = true := by decide +kernel

/-- a string that is not finished on its first line has the same effect as a blank line -/
example : (lex asciiCtype (txt "[a\n")).1 = .null := by decide +kernel

/-- after an exit no further line is read -/
example : replCheck "(exit)\ntrue\n" 60 (fun _ w tr => tr.length == 1 && w.quit) = true := by decide +kernel

/-- an unclosed parenthesis is an error -/
example : replCheck "(quote\ntrue\n" 60 (fun _ w tr => tr.length == 2 && decide (letters "true\n> " <:+ w.out)) = true := by decide +kernel

/-- The hypotheses of `c69_blank_line` hold. -/
example : Typed (typedOctets " \ntrue\n") [txt " \n", txt "true\n"] [] ∧ ∀ c ∈ txt " \n", spaceC c = true := by
  refine ⟨⟨by decide, by unfold Clean; decide, ?_, by decide⟩, by decide⟩
  intro l hl
  simp only [List.mem_cons, List.not_mem_nil, or_false] at hl
  rcases hl with rfl | rfl
  · exact ⟨txt " ", by decide, by decide⟩
  · exact ⟨txt "true", by decide, by decide⟩

end Dern.Props
