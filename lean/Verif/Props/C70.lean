import Verif.Props.C69
import Verif.Props.C64
/-
C70: the command `dern`: its options, the order in which it evaluates what it is given, and its exit code.

Not covered: what follows once a program has changed one of the constants nil, true and false (as in C36 and C69); what the usage and the version
look like; environment variables.
-/
namespace Dern.Props
open Dern
open Dern.Spec
open Dern.Prog (Library)
variable {W : World} {L : Library}

/-! ### Specification -/

/-- an option with its operand -/
inductive Opt where
  | colors | interactive | debug | keepLibraries
  | evaluate (s : Text)
  | search (dir : Text)

/-- how an option is written -/
inductive Spelled : Opt → List Text → Prop
  | colors {a} : a = letters "-c" ∨ a = letters "--color-diagnostics" → Spelled .colors [a]
  | interactive {a} : a = letters "-i" ∨ a = letters "--interactive" → Spelled .interactive [a]
  | debug {a} : a = letters "-g" ∨ a = letters "--debug" → Spelled .debug [a]
  | keepLibraries {a} : a = letters "-d" ∨ a = letters "--no-dlclose" → Spelled .keepLibraries [a]
  | evaluate {a s} : a = letters "-e" ∨ a = letters "--evaluate" → Spelled (.evaluate s) [a, s]
  | search {a d} : a = letters "-I" ∨ a = letters "--include" → Spelled (.search d) [a, d]

/-- the options in front of a command line -/
inductive SpelledAll : List Opt → List Text → Prop
  | none : SpelledAll [] []
  | next {o os as bs} : Spelled o as → SpelledAll os bs → SpelledAll (o :: os) (as ++ bs)

/-- the strings to be evaluated -/
def stringsIn (os : List Opt) : List Text := os.filterMap fun | .evaluate s => some s | _ => none

/-- the directories to be searched -/
def dirsIn (os : List Opt) : List Text := os.filterMap fun | .search d => some d | _ => none

/-- the options say what the list says, and the file is this one -/
structure OptionsSay (o : Options) (os : List Opt) (file : Option Text) : Prop where
  strings : o.strings = stringsIn os
  dirs : o.dirs = dirsIn os
  interactive : o.interactive = true ↔ Opt.interactive ∈ os
  colors : o.colors = true ↔ Opt.colors ∈ os
  debug : o.debug = true ↔ Opt.debug ∈ os
  keepLibraries : o.keepLibraries = true ↔ Opt.keepLibraries ∈ os
  file : o.file = file

/-- the text `t` is read and its forms are evaluated (C36); the empty text is an error -/
inductive TextRun (W : World) (ct : Ctype) (t : Text) (v : Vm) (r : Option Ref) (w : Vm) (tr : List Event) : Prop
  | nothing {x : Ref} : t = [] → r = some x → GivesError W v x w tr → TextRun W ct t v r w tr
  | forms : t ≠ [] → Session W ct t r w none v t tr → TextRun W ct t v r w tr

/-- the error `x` is printed, with a newline, after a position -/
def Reports (W : World) (pos : List Nat) (x : Ref) (v w : Vm) : Prop :=
  ∃ os, (∀ s, Shown W v false x s → os = encodeText s) ∧ OnlyWrote W (pos ++ os ++ letters "\n") v w

/-- the position in messages about the strings of `-e`: the beginning -/
def startPosition : List Nat := letters "At line 1, column 1 (character index 0 from the start of the stream):\n"

/-- The strings are read one after the other, until one is incomplete or gives an error: has one failed? -/
inductive StringsRun (W : World) (ct : Ctype) (w : Vm) : Vm → List Text → Bool → List Event → Prop
  | done {v : Vm} : Vm.Quiet W nobody v w → StringsRun W ct w v [] false []
  | next {v u : Vm} {t : Text} {ts : List Text} {b : Bool} {x : Ref} {tr1 tr : List Event} : TextRun W ct t v (some x) u tr1 → ¬ u.IsErr x →
      StringsRun W ct w u ts b tr → StringsRun W ct w v (t :: ts) b (tr1 ++ tr)
  | incomplete {v u : Vm} {t : Text} {ts : List Text} {tr : List Event} : TextRun W ct t v none u tr →
      OnlyWrote W (startPosition ++ letters "Incomplete input\n") u w → StringsRun W ct w v (t :: ts) true tr
  | failed {v u : Vm} {t : Text} {ts : List Text} {x : Ref} {tr : List Event} : TextRun W ct t v (some x) u tr → u.IsErr x →
      Reports W startPosition x u w → StringsRun W ct w v (t :: ts) true tr

/-- The file, if one is given, is read: has it failed?  If it can be read its text is some text. -/
inductive FileRun (W : World) (ct : Ctype) (v w : Vm) : Option Text → Bool → List Event → Prop
  | none : Vm.Quiet W nobody v w → FileRun W ct v w none false []
  | unreadable {f : Text} {msg : List Nat} : OnlyWrote W msg v w → FileRun W ct v w (some f) true []
  | read {f t : Text} {x : Ref} {tr : List Event} : TextRun W ct t v (some x) w tr → ¬ w.IsErr x → FileRun W ct v w (some f) false tr
  | failed {u : Vm} {f t : Text} {x : Ref} {pos : List Nat} {tr : List Event} : TextRun W ct t v (some x) u tr → u.IsErr x →
      Reports W pos x u w → FileRun W ct v w (some f) true tr

/-- The whole command, after its options: the strings, then the file, then the session, each only if what came before has not failed; the session
only if there is neither string nor file, or if it is asked for. -/
inductive CommandRun (W : World) (ct : Ctype) (o : Options) (lines : List Text) (v w : Vm) : Bool → List Event → Prop
  | string {tr : List Event} : StringsRun W ct w v o.strings true tr → CommandRun W ct o lines v w true tr
  | file {u : Vm} {tr1 tr2 : List Event} : StringsRun W ct u v o.strings false tr1 → FileRun W ct u w o.file true tr2 →
      CommandRun W ct o lines v w true (tr1 ++ tr2)
  | batch {u : Vm} {tr1 tr2 : List Event} : StringsRun W ct u v o.strings false tr1 → FileRun W ct u w o.file false tr2 →
      o.strings ≠ [] ∨ o.file ≠ none → o.interactive = false → CommandRun W ct o lines v w false (tr1 ++ tr2)
  | session {u u1 u2 : Vm} {tr1 tr2 tr3 : List Event} : StringsRun W ct u v o.strings false tr1 → FileRun W ct u u1 o.file false tr2 →
      (o.strings = [] ∧ o.file = none) ∨ o.interactive = true → OnlyWrote W (letters "> ") u1 u2 → Dialogue W ct w u2 [] lines tr3 →
      CommandRun W ct o lines v w false (tr1 ++ tr2 ++ tr3)

/-! ### Proofs -/

theorem c70_options_aux {os : List Opt} {as : List Text} (h : SpelledAll os as) : ∀ (bs : List Text) (o : Options), ∃ o',
    readOptions (as ++ bs) .nothing o = readOptions bs .nothing o' ∧ o'.strings = o.strings ++ stringsIn os ∧ o'.dirs = o.dirs ++ dirsIn os ∧
    (o'.interactive = true ↔ o.interactive = true ∨ Opt.interactive ∈ os) ∧ (o'.colors = true ↔ o.colors = true ∨ Opt.colors ∈ os) ∧
    (o'.debug = true ↔ o.debug = true ∨ Opt.debug ∈ os) ∧ (o'.keepLibraries = true ↔ o.keepLibraries = true ∨ Opt.keepLibraries ∈ os) ∧
    o'.file = o.file := by
  induction h with
  | none => intro bs o; exact ⟨o, rfl, by simp [stringsIn], by simp [dirsIn], by simp, by simp, by simp, by simp, rfl⟩
  | @next op os as' bs' hs hall ih =>
    intro bs o
    rw [List.append_assoc]
    cases hs with
    | colors h =>
      obtain ⟨o', h1, h2⟩ := ih bs { o with colors := true }
      refine ⟨o', ?_, by simpa [stringsIn, dirsIn] using h2⟩
      rw [← h1]
      rcases h with rfl | rfl <;> rfl
    | interactive h =>
      obtain ⟨o', h1, h2⟩ := ih bs { o with interactive := true }
      refine ⟨o', ?_, by simpa [stringsIn, dirsIn] using h2⟩
      rw [← h1]
      rcases h with rfl | rfl <;> rfl
    | debug h =>
      obtain ⟨o', h1, h2⟩ := ih bs { o with debug := true }
      refine ⟨o', ?_, by simpa [stringsIn, dirsIn] using h2⟩
      rw [← h1]
      rcases h with rfl | rfl <;> rfl
    | keepLibraries h =>
      obtain ⟨o', h1, h2⟩ := ih bs { o with keepLibraries := true }
      refine ⟨o', ?_, by simpa [stringsIn, dirsIn] using h2⟩
      rw [← h1]
      rcases h with rfl | rfl <;> rfl
    | @evaluate a s h =>
      obtain ⟨o', h1, h2⟩ := ih bs { o with strings := o.strings ++ [s] }
      refine ⟨o', ?_, by simpa [stringsIn, dirsIn] using h2⟩
      rw [← h1]
      rcases h with rfl | rfl <;> rfl
    | @search a d h =>
      obtain ⟨o', h1, h2⟩ := ih bs { o with dirs := o.dirs ++ [d] }
      refine ⟨o', ?_, by simpa [stringsIn, dirsIn] using h2⟩
      rw [← h1]
      rcases h with rfl | rfl <;> rfl

theorem c70_text_aux {n : Nat} (hL : L.Safe) (ct : Ctype) (k : Nat) (t : Text) {v : Vm} (sv : v.Sane W) (cv : v.Closed W nobody) :
    Wp W n (handle W L n) (Prog.evalText ct k t) v fun a u tr => (u.Sane W ∧ u.Closed W nobody) ∧ TextRun W ct t v a u tr := by
  refine wp_and (Wp.mono (c64_evalText_aux hL ct k t sv cv) fun _ _ _ h => h.1) ?_
  unfold Prog.evalText Prog.readAll
  by_cases ht : t = []
  · subst ht
    rw [if_pos rfl]
    exact wpm_error (Mid.refl sv cv) fun x w m h1 _ h3 => .nothing rfl rfl ⟨rfl, m.quiet, h1, h3⟩
  · rw [if_neg ht]
    exact (c36_loop_aux hL ct t k t none v sv cv).mono fun a u tr h => .forms ht (h v.stack)

theorem c70_report_aux {n : Nat} {h : Handler} {pos : Text} {x : Ref} {v : Vm} {Q : Unit → Vm → List Event → Prop}
    (hq : ∀ os, Reports W pos x v (Vm.wrote v os) → Q () (Vm.wrote v os) []) : Wp W n h (Prog.replError pos x) v Q := by
  unfold Prog.replError Prog.octetsOf
  refine wp_bind (wp_print fun t ht => ?_)
  cases hc : getCString t with
  | none => exact wp_bind wp_fail
  | some o =>
    refine wp_bind (wp_pure (wp_bind (wp_emit (wp_emit ?_))))
    rw [c69_wrote_wrote_aux]
    refine hq _ ⟨o.map BitVec.toNat, fun t' h' => ?_, c69_only_aux⟩
    obtain ⟨rfl, hcl⟩ := c51_shown_aux h' ht
    rw [getCString_eq _ hcl] at hc
    cases hc
    exact encodeText_octets _ hcl

theorem c70_strings_aux {n : Nat} (hL : L.Safe) (ct : Ctype) (k : Nat) : ∀ (ts : List Text) (v : Vm), (∀ t ∈ ts, Clean t) → v.Sane W → v.Closed W nobody →
    Wp W n (handle W L n) (Prog.replStrings ct k ts) v fun b w tr => StringsRun W ct w v ts b tr ∧ w.Sane W ∧ w.Closed W nobody := by
  intro ts
  induction ts with
  | nil => intro v _ sv cv; exact wp_pure ⟨.done (.refl v), sv, cv⟩
  | cons t ts ih =>
    intro v hc sv cv
    unfold Prog.replStrings
    rw [c69_pushedText_aux t (hc t (by simp))]
    refine wp_bind (Wp.mono (c70_text_aux hL ct k t sv cv) ?_)
    rintro a u tr1 ⟨⟨su, cu⟩, hr⟩
    cases a with
    | none =>
      simp only
      refine wp_bind (wp_emit (wp_bind (wp_emit (wp_pure ?_))))
      rw [c69_wrote_wrote_aux]
      refine ⟨?_, c69_good_aux su cu⟩
      have e1 : whereText [] [] ++ txt "Incomplete input" ++ [10] = startPosition ++ letters "Incomplete input\n" := by decide +kernel
      rw [e1]
      simpa using StringsRun.incomplete (ts := ts) hr c69_only_aux
    | some x =>
      simp only
      refine wp_bind (wp_read fun c hc' => ?_)
      split
      · rename_i m l ho
        refine wp_bind (c70_report_aux fun os h => wp_pure ⟨?_, c69_good_aux su cu⟩)
        have e1 : whereText [] [] = startPosition := by decide +kernel
        rw [e1] at h
        simpa using StringsRun.failed (ts := ts) hr ⟨m, l, c, hc', ho⟩ h
      · rename_i hno
        refine Wp.mono (ih u (fun t h => hc t (by simp [h])) su cu) ?_
        rintro b w tr ⟨h, sw, cw⟩
        refine ⟨?_, sw, cw⟩
        simp only [List.nil_append]
        refine .next hr ?_ h
        rintro ⟨m, l, c', hc2, ho⟩
        obtain rfl := same_cell hc' hc2
        exact hno _ _ ho

theorem c70_tickText_aux {v w : Vm} {ct : Ctype} {t : Text} {r : Option Ref} {k : Nat} {tr : List Event}
    (h : TextRun W ct t { v with ticks := k } r w tr) : TextRun W ct t v r w tr := by
  cases h with
  | nothing ht hr h => exact .nothing ht hr ⟨h.1, c64_tickQuiet_aux h.2.1, h.2.2⟩
  | forms ht h => exact .forms ht (c64_tick_aux h)

theorem c70_tick_aux {v : Vm} {k : Nat} (sv : v.Sane W) (cv : v.Closed W nobody) : Vm.Sane W { v with ticks := k } ∧ Vm.Closed W nobody { v with ticks := k } := by
  have g := good_same (w := { v with ticks := k }) sv cv rfl rfl rfl rfl (fun which => by cases which <;> rfl) cv.stack cv.ret
  exact ⟨g.sane, g.closed⟩

theorem c70_shownTick_aux {v : Vm} {k : Nat} {x : Ref} {s : Text} (h : Shown W v false x s) : Shown W { v with ticks := k } false x s :=
  c51_shownSame_aux (v := v) (w := { v with ticks := k }) rfl rfl h

theorem c70_tickWrote_aux {v w : Vm} {k : Nat} {o : List Nat} (h : OnlyWrote W o { v with ticks := k } w) : OnlyWrote W o v w :=
  ⟨c64_tickQuiet_aux (v := Vm.wrote v o) (k := k) h.1, fun i => h.2 ⟨i.nil, i.true, i.false⟩⟩

theorem c70_file_aux {n : Nat} (hL : L.Safe) (ct : Ctype) (k : Nat) (f : Option Text) {v : Vm} (sv : v.Sane W) (cv : v.Closed W nobody) :
    Wp W n (handle W L n) (Prog.replFile ct k f) v fun b w tr => FileRun W ct v w f b tr ∧ w.Sane W ∧ w.Closed W nobody := by
  unfold Prog.replFile
  cases f with
  | none => exact wp_pure ⟨.none (.refl v), sv, cv⟩
  | some f =>
    refine wp_bind (wp_answerBool fun b => ?_)
    obtain ⟨s1, c1⟩ := c70_tick_aux (k := v.ticks + 1) sv cv
    cases b with
    | false =>
      simp only [Bool.false_eq_true, if_false]
      refine wp_bind (wp_text fun msg => wp_bind (wp_emit (wp_bind (wp_emit (wp_pure ?_)))))
      rw [c69_wrote_wrote_aux]
      obtain ⟨s2, c2⟩ := c70_tick_aux (k := v.ticks + 1 + 1) s1 c1
      exact ⟨.unreadable (msg := msg ++ [10]) (c70_tickWrote_aux (c70_tickWrote_aux c69_only_aux)), c69_good_aux s2 c2⟩
    | true =>
      simp only [if_true]
      refine wp_bind (wp_text fun t => ?_)
      obtain ⟨s2, c2⟩ := c70_tick_aux (k := v.ticks + 1 + 1) s1 c1
      refine wp_bind (Wp.mono (c70_text_aux hL ct k t s2 c2) ?_)
      rintro a u tr1 ⟨⟨su, cu⟩, hr⟩
      have hr := c70_tickText_aux (c70_tickText_aux hr)
      refine wp_bind (wp_require fun x hx => ?_)
      subst hx
      refine wp_bind (wp_read fun c hc' => ?_)
      split
      · rename_i m l ho
        refine wp_bind (wp_text fun pos => ?_)
        obtain ⟨su', cu'⟩ := c70_tick_aux (k := u.ticks + 1) su cu
        refine wp_bind (c70_report_aux fun os h => wp_pure ⟨?_, c69_good_aux su' cu'⟩)
        obtain ⟨os', h1, h2⟩ := h
        have : Reports W pos x u (Vm.wrote { u with ticks := u.ticks + 1 } os) := ⟨os', fun s hs => h1 s (c70_shownTick_aux hs), c70_tickWrote_aux h2⟩
        simpa using FileRun.failed (f := f) hr ⟨m, l, c, hc', ho⟩ this
      · rename_i hno
        refine wp_pure ⟨?_, su, cu⟩
        have : ¬ u.IsErr x := by
          rintro ⟨m, l, c', hc2, ho⟩
          obtain rfl := same_cell hc' hc2
          exact hno _ _ ho
        simpa using FileRun.read (f := f) hr this

/-! ### Theorems -/

/-- The options of a command line that consists of options, perhaps a file that does not begin with `-`, and anything after the file. -/
theorem c70_options {os : List Opt} {as : List Text} (h : SpelledAll os as) :
    (∃ o, readOptions as .nothing {} = .go o ∧ OptionsSay o os none) ∧
    ∀ f bs, (f.head? ≠ some '-'.toNat) → ∃ o, readOptions (as ++ f :: bs) .nothing {} = .go o ∧ OptionsSay o os (some f) := by
  constructor
  · obtain ⟨o, h1, h2, h3, h4, h5, h6, h7, h8⟩ := c70_options_aux h [] {}
    rw [List.append_nil] at h1
    exact ⟨o, by rw [h1]; rfl, by simpa using h2, by simpa using h3, by simpa using h4, by simpa using h5, by simpa using h6, by simpa using h7, h8⟩
  · intro f bs hf
    obtain ⟨o, h1, h2, h3, h4, h5, h6, h7, h8⟩ := c70_options_aux h (f :: bs) {}
    refine ⟨{ o with file := some f }, ?_, by simpa using h2, by simpa using h3, by simpa using h4, by simpa using h5, by simpa using h6, by simpa using h7, rfl⟩
    rw [h1]
    have key : ∀ s : String, (txt s).head? = some '-'.toNat → f ≠ txt s := by rintro s hs rfl; exact hf hs
    unfold readOptions
    rw [if_neg (not_or.mpr ⟨key _ (by decide), key _ (by decide)⟩), if_neg (not_or.mpr ⟨key _ (by decide), key _ (by decide)⟩),
      if_neg (not_or.mpr ⟨key _ (by decide), key _ (by decide)⟩), if_neg (not_or.mpr ⟨key _ (by decide), key _ (by decide)⟩),
      if_neg (not_or.mpr ⟨key _ (by decide), key _ (by decide)⟩), if_neg (not_or.mpr ⟨key _ (by decide), key _ (by decide)⟩),
      if_neg (not_or.mpr ⟨key _ (by decide), key _ (by decide)⟩), if_neg (not_or.mpr ⟨key _ (by decide), key _ (by decide)⟩),
      if_neg (show ¬ f.head? = some 45 from hf)]

/-- Options may be followed by `-v` or `-h`: then nothing is evaluated; the same for an unknown option. -/
theorem c70_others {os : List Opt} {as : List Text} (h : SpelledAll os as) (bs : List Text) :
    (∀ a, a = letters "-v" ∨ a = letters "--version" → readOptions (as ++ a :: bs) .nothing {} = .version) ∧
    (∀ a, a = letters "-h" ∨ a = letters "--help" → readOptions (as ++ a :: bs) .nothing {} = .help) ∧
    ∀ a s, a = '-'.toNat :: s →
      a ∉ ["-c", "--color-diagnostics", "-i", "--interactive", "-I", "--include", "-e", "--evaluate", "-v", "--version", "-h", "--help", "-g", "--debug",
        "-d", "--no-dlclose"].map letters →
      readOptions (as ++ a :: bs) .nothing {} = .unknown := by
  refine ⟨?_, ?_, ?_⟩
  · intro a ha
    obtain ⟨o, h1, _⟩ := c70_options_aux h (a :: bs) {}
    rw [h1]
    rcases ha with rfl | rfl <;> rfl
  · intro a ha
    obtain ⟨o, h1, _⟩ := c70_options_aux h (a :: bs) {}
    rw [h1]
    rcases ha with rfl | rfl <;> rfl
  · intro a s ha hn
    obtain ⟨o, h1, _⟩ := c70_options_aux h (a :: bs) {}
    rw [h1]
    simp only [List.map_cons, List.map_nil, List.mem_cons, List.not_mem_nil, or_false, not_or] at hn
    obtain ⟨n1, n2, n3, n4, n5, n6, n7, n8, n9, n10, n11, n12, n13, n14, n15, n16⟩ := hn
    have hl : (letters : String → Text) = txt := rfl
    rw [hl] at n1 n2 n3 n4 n5 n6 n7 n8 n9 n10 n11 n12 n13 n14 n15 n16
    unfold readOptions
    rw [if_neg (not_or.mpr ⟨n1, n2⟩), if_neg (not_or.mpr ⟨n3, n4⟩), if_neg (not_or.mpr ⟨n5, n6⟩), if_neg (not_or.mpr ⟨n7, n8⟩),
      if_neg (not_or.mpr ⟨n9, n10⟩), if_neg (not_or.mpr ⟨n11, n12⟩), if_neg (not_or.mpr ⟨n13, n14⟩), if_neg (not_or.mpr ⟨n15, n16⟩),
      if_pos (by rw [ha]; rfl)]

/-- The command, from every state of the machine, for every choice of options and every input that is valid UTF-8 text without U+0000: the strings
are evaluated in order, then the file, then the session; the first failure ends it with exit code 1, otherwise the exit code is that of the machine. -/
theorem c70_command_partial (hL : L.Safe) {v w : Vm} (rv : v.Reached W L) {ct : Ctype} {o : Options} (hs : ∀ t ∈ o.strings, Clean t)
    {os : List Utf8.Octet} {lines : List Text} {last : Text} (ht : Typed os lines last) {n k : Nat} {failed : Bool} {tr : List Event}
    (e : run W n (handler W (Prog.body L) n) (Prog.replMain ct k o os) v = .ok (failed, w, tr)) :
    CommandRun W ct o lines v w failed tr ∧ (failed = true → exitStatus failed w = 1) ∧ (failed = false → exitStatus failed w = w.exitCode) ∧
    w.stack = v.stack ∧ ∀ e ∈ tr, ∃ sub, Evaluates W L e.pre e.form e.env e.result e.post sub := by
  obtain ⟨sv, cv⟩ := rv.good hL
  refine ⟨?_, fun h => by rw [h]; rfl, fun h => by rw [h]; rfl, ?_,
    run_events (body := Prog.body L) (fun c v a w t h => handler_events n c v a w t h) _ _ _ _ _ e⟩
  · suffices H : Wp W n (handle W L n) (Prog.replMain ct k o os) v fun b w tr => CommandRun W ct o lines v w b tr from H _ _ _ e
    unfold Prog.replMain
    refine wp_bind (Wp.mono (c70_strings_aux hL ct k o.strings v hs sv cv) ?_)
    rintro b u tr1 ⟨h1, su, cu⟩
    cases b with
    | true =>
      simp only [if_true]
      exact wp_pure (by simpa using CommandRun.string h1)
    | false =>
      simp only [Bool.false_eq_true, if_false]
      refine wp_bind (Wp.mono (c70_file_aux hL ct k o.file su cu) ?_)
      rintro b u1 tr2 ⟨h2, su1, cu1⟩
      cases b with
      | true =>
        simp only [if_true]
        exact wp_pure (by simpa using CommandRun.file h1 h2)
      | false =>
        simp only [Bool.false_eq_true, if_false]
        by_cases hb : (o.strings ≠ [] ∨ o.file ≠ none) ∧ o.interactive = false
        · rw [if_pos hb]
          exact wp_pure (by simpa using CommandRun.batch h1 h2 hb.1 hb.2)
        · rw [if_neg hb]
          have hb' : (o.strings = [] ∧ o.file = none) ∨ o.interactive = true := by
            rcases Bool.eq_false_or_eq_true o.interactive with h | h
            · exact .inr h
            · refine .inl ⟨?_, ?_⟩
              · cases hs : o.strings with
                | nil => rfl
                | cons a as => exact absurd ⟨.inl (by rw [hs]; simp), h⟩ hb
              · cases hf : o.file with
                | none => rfl
                | some a => exact absurd ⟨.inr (by rw [hf]; simp), h⟩ hb
          unfold Prog.repl
          rw [c69_octets_aux ht.clean ht.octets]
          obtain ⟨su', cu'⟩ := c69_good_aux (o := txt "> ") su1 cu1
          refine wp_bind (wp_bind (wp_emit (Wp.mono (c69_loop_aux hL ct last ht.rest _ lines [] _ ht.clean ht.line su' cu') ?_)))
          intro _ w tr3 h3
          refine wp_pure ?_
          simpa using CommandRun.session h1 h2 hb' c69_only_aux h3
  · have := run_sound (X := nobody) (n := n) (handler_sound hL n) (Prog.replMain ct k o os) v [] v.stack
      (fun _ _ s => s = []) sv cv (by simp) (fun P hP => Prog.ok_replMain fun _ => rfl)
    have e' : run W n (handler W (Prog.body L) n) (Prog.replMain ct k o os) v = _ := e
    rw [e'] at this
    obtain ⟨_, s', h1, h2⟩ := this
    rw [h1, h2]; rfl

/-! ### Examples -/

/-- for examples: the machine with some functions, after the command -/
def mainCheck (o : Options) (t : String) (fuel : Nat) (P : Vm → Bool → Vm → List Event → Bool) : Bool :=
  match run world fuel (handler world (Prog.body library) fuel) (setup kit [] (.int 0)) (Vm.base world.malloc) with
  | .error _ => false
  | .ok (_, v, _) =>
    match run world fuel (handler world (Prog.body library) fuel) (Prog.replMain asciiCtype 10 o (typedOctets t)) v with
    | .error _ => false
    | .ok (b, w, tr) => P v b w tr

/-- A command line: `dern -e true -i file -e` -/
example : SpelledAll [.evaluate (letters "true"), .interactive] [letters "-e", letters "true", letters "-i"] ∧ (letters "file").head? ≠ some '-'.toNat :=
  ⟨.next (as := [letters "-e", letters "true"]) (.evaluate (.inl rfl)) (.next (as := [letters "-i"]) (.interactive (.inl rfl)) .none), by decide⟩

/-- two strings, and no session although there are lines -/
example : mainCheck { strings := [letters "true", letters "(exit)"] } "oops\n" 60 (fun _ b w tr => !b && tr.length == 2 && w.quit && decide (w.out = []) &&
    decide (exitStatus b w = 0)) = true := by decide +kernel

/-- a string that fails: nothing else is evaluated -/
example : mainCheck { strings := [letters "true", letters "(oops)", letters "true"], interactive := true } "true\n" 60 (fun _ b w tr => b && tr.length == 2 &&
    decide (exitStatus b w = 1)) = true := by decide +kernel

/-- an incomplete string -/
example : mainCheck { strings := [letters "'"] } "" 60 (fun _ b w tr => b && tr.length == 0 &&
    decide (w.out = startPosition ++ letters "Incomplete input\n")) = true := by decide +kernel

/-- The hypotheses of `c70_command_partial` hold for a command with a string and a session. -/
example : ∃ (v w : Vm) (n : Nat) (tr : List Event), v.Reached world library ∧ (∀ t ∈ [letters "true"], Clean t) ∧ Typed (typedOctets "nil\n") [letters "nil\n"] [] ∧
    run world n (handler world (Prog.body library) n) (Prog.replMain asciiCtype 10 { strings := [letters "true"], interactive := true } (typedOctets "nil\n")) v =
      .ok (false, w, tr) ∧ tr.length = 2 ∧ w.out = letters "> nil\n> " := by
  have h : mainCheck { strings := [letters "true"], interactive := true } "nil\n" 60 (fun _ b w tr => !b && (tr.length == 2 &&
    decide (w.out = letters "> nil\n> "))) = true := by decide +kernel
  unfold mainCheck at h
  split at h
  · cases h
  · rename_i f v t e
    split at h
    · cases h
    · rename_i b w tr e'
      simp only [Bool.and_eq_true, Bool.not_eq_true', beq_iff_eq, decide_eq_true_eq] at h
      obtain ⟨rfl, h2, h3⟩ := h
      refine ⟨v, w, 60, tr, .host .refl (fun P _ => Machine.ok_setup kit [] _ kit_plain fun _ _ => trivial) e, by unfold Clean; decide,
        ⟨by decide, by unfold Clean; decide, ?_, by decide⟩, e', h2, h3⟩
      intro l hl
      simp only [List.mem_cons, List.not_mem_nil, or_false] at hl
      subst hl
      exact ⟨txt "nil", by decide, by decide⟩

end Dern.Props
