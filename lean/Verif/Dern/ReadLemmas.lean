import Verif.Dern.Read
import Verif.Dern.Copy
import Verif.Dern.Calls
/-
The reader on the heap builds the trees of the parser.
-/
namespace Dern
open Prog (Library)
open Spec (Reach)
variable {W : World} {n : Nat} {h : Handler} {v0 v w u : Vm} {s : List Ref} {r x : Ref} {o : Obj}

/-- no value is exempt -/
abbrev noOne : Ref → Prop := fun _ => False

/-- Between `v0` and `u` values have only been created and collected; what was in use is still there; `s` has been
pushed. -/
structure Mid (W : World) (v0 : Vm) (s : List Ref) (u : Vm) : Prop where
  sane0 : v0.Sane W
  sane : u.Sane W
  closed : u.Closed W fun _ => False
  pure : Vm.Pure W v0 u
  quiet : Vm.Quiet W noOne v0 u
  stack : u.stack = s ++ v0.stack

theorem Mid.refl (sv : v.Sane W) (cv : v.Closed W fun _ => False) : Mid W v [] v :=
  ⟨sv, sv, cv, ⟨Nat.le_refl _, fun _ _ h => .inl h, fun _ _ h => h, fun _ _ => rfl⟩, .refl v, rfl⟩

theorem Mid.step (m : Mid W v0 s u) : Vm.Step W (fun _ => False) noOne v0 u := ⟨m.sane0, m.sane, m.closed, m.quiet⟩

theorem Mid.keptUp (m : Mid W v0 s u) {z : Ref} (hz : v0.Kept z) : u.Kept z := by
  induction hz with
  | root h' => exact .root (by rw [m.stack]; exact List.mem_append_right _ h')
  | @step a b ha he ih =>
    obtain ⟨c, hc, hb⟩ := he
    exact ih.step ⟨c, by rw [m.pure.kept a ha]; exact hc, hb⟩

theorem Mid.closed0 (_ : Mid W v0 s u) (c0 : v0.Closed W fun _ => False) : v0.Closed W fun _ => False := c0

theorem Mid.trans (m : Mid W v0 s u) {s' : List Ref} (m' : Mid W u s' w) : Mid W v0 (s' ++ s) w where
  sane0 := m.sane0
  sane := m'.sane
  closed := m'.closed
  pure := by
    refine ⟨Nat.le_trans m.pure.births m'.pure.births, ?_, ?_, ?_⟩
    · intro z c hc
      rcases m.pure.cells z c hc with e | e
      · exact m'.pure.cells z c e
      · exact .inr (m'.pure.gone z ((m.sane0.old z c hc).mono m.pure.births) e)
    · intro z ho hz
      exact m'.pure.gone z (ho.mono m.pure.births) (m.pure.gone z ho hz)
    · intro z hz
      rw [m'.pure.kept z (m.keptUp hz), m.pure.kept z hz]
  quiet := m.quiet.trans m.sane0 m'.quiet
  stack := by rw [m'.stack, m.stack, List.append_assoc]

theorem Mid.sub (m : Mid W v0 s u) (m' : Mid W u [] w) : Mid W v0 s w := m.trans m'

theorem Mid.push (m : Mid W v0 s u) (hr : u.Old W r) : Mid W v0 (r :: s) { u with stack := r :: u.stack } := by
  have g := m.step.push hr
  exact ⟨m.sane0, g.sane, g.closed, ⟨m.pure.births, m.pure.cells, m.pure.gone, m.pure.kept⟩, g.quiet, by simp [m.stack]⟩

theorem Mid.pop (m : Mid W v0 (r :: s) u) {s' : List Ref} (hs : u.stack = x :: s') : Mid W v0 s { u with stack := s' } := by
  have g := m.step.pop hs
  have e := m.stack
  rw [hs] at e
  simp only [List.cons_append, List.cons.injEq] at e
  exact ⟨m.sane0, g.sane, g.closed, ⟨m.pure.births, m.pure.cells, m.pure.gone, m.pure.kept⟩, g.quiet, e.2⟩

theorem Mid.tick (m : Mid W v0 s u) : Mid W v0 s { u with ticks := u.ticks + 1 } := by
  have g := m.step.tick
  exact ⟨m.sane0, g.sane, g.closed, ⟨m.pure.births, m.pure.cells, m.pure.gone, m.pure.kept⟩, g.quiet, m.stack⟩

theorem Allocated.mid (sv : v.Sane W) (cv : v.Closed W fun _ => False) (ho : PubObj (v.Old W) o)
    (a : Allocated W v o r w) : Mid W v [] w := by
  have g := (Vm.Step.refl (E := noOne) sv cv).alloc a (ho.mono fun x hx => ⟨hx, id⟩)
  have hb : v.births ≤ w.births := by rw [a.births]; omega
  have ne : ∀ z, v.Old W z → z ≠ r := by rintro z hz rfl; exact a.fresh hz
  refine ⟨sv, g.sane, g.closed, ⟨hb, ?_, ?_, ?_⟩, g.quiet, by simp [a.stack]⟩
  · intro y c hc
    rcases a.other y (ne y (sv.old y c hc)) with e | e
    · exact .inl (e.trans hc)
    · exact .inr e
  · intro y hy hn
    rcases a.other y (ne y hy) with e | e
    · exact e.trans hn
    · exact e
  · intro y hy
    exact a.kept y hy (ne y (kept_old cv hy))

theorem Mid.alloc (m : Mid W v0 s u) (ho : PubObj (u.Old W) o) (a : Allocated W u o r w) : Mid W v0 s w :=
  m.sub (a.mid m.sane m.closed ho)

/-- changing a value made since the start -/
theorem Mid.write (m : Mid W v0 s u) (c0 : v0.Closed W fun _ => False) (hn : ¬ v0.Old W r) {c d : Cell} (hc : u.mem r = some c)
    (hu : d.uid = c.uid) (hm : d.mark = c.mark) (hd : PubCell (u.Old W) d) : Mid W v0 s { u with mem := u.mem.set r d } := by
  have other : ∀ z, z ≠ r → (u.mem.set r d) z = u.mem z := fun z hz => Mem.set_other _ _ hz
  have g := m.step.modify (.inr hn) hc hu hm (hd.mono fun _ h => ⟨h, id⟩)
  refine ⟨m.sane0, g.sane, g.closed, ⟨m.pure.births, ?_, ?_, ?_⟩, g.quiet, m.stack⟩
  · intro z c' hc'
    have : z ≠ r := by rintro rfl; exact hn (m.sane0.old _ _ hc')
    show u.mem.set r d z = _ ∨ u.mem.set r d z = _
    rw [other z this]; exact m.pure.cells z c' hc'
  · intro z hz hz'
    have : z ≠ r := by rintro rfl; exact hn hz
    show u.mem.set r d z = _
    rw [other z this]; exact m.pure.gone z hz hz'
  · intro z hz
    have : z ≠ r := by rintro rfl; exact hn (kept_old c0 hz)
    show u.mem.set r d z = _
    rw [other z this]; exact m.pure.kept z hz

/-- the constants nil, true and false are what they were at the start (or gone) -/
structure Intact (v : Vm) : Prop where
  nil : ∀ c, v.mem v.valueNil = some c → c.obj = .nil
  true : ∀ c, v.mem v.valueTrue = some c → c.obj = .bool true
  false : ∀ c, v.mem v.valueFalse = some c → c.obj = .bool false

/-- the constants -/
def Root.lit : Root → Obj
  | .nil => .nil
  | .true => .bool .true
  | _ => .bool .false

theorem Intact.root (i : Intact v) {which : Root} {c : Cell} (hw : which ≠ .globalEnv) (hc : v.mem (v.root which) = some c) :
    c.obj = which.lit := by
  cases which with
  | globalEnv => exact absurd rfl hw
  | nil => exact i.nil c hc
  | true => exact i.true c hc
  | false => exact i.false c hc

theorem Intact.pure (i : Intact v) (cv : v.Closed W fun _ => False) (p : Vm.Pure W v w) (hr : ∀ which, w.root which = v.root which) :
    Intact w := by
  have key : ∀ which c, w.mem (w.root which) = some c → v.mem (v.root which) = some c := by
    intro which c hc
    rw [hr] at hc
    cases e : v.mem (v.root which) with
    | none => rw [p.gone _ (cv.roots which).1 e] at hc; cases hc
    | some d =>
      rcases p.cells _ _ e with e' | e' <;> rw [e'] at hc
      · exact hc
      · cases hc
  exact ⟨fun c hc => i.nil c (key .nil c hc), fun c hc => i.true c (key .true c hc), fun c hc => i.false c (key .false c hc)⟩

theorem Mid.intact (m : Mid W v0 s u) (c0 : v0.Closed W fun _ => False) (i : Intact v0) : Intact u :=
  i.pure c0 m.pure m.quiet.roots

/-- what a literal without parts is on the heap; the value of a real is left open -/
def Tree.AtomIs : Tree → Obj → Prop
  | .nil, o => o = .nil
  | .bool b, o => o = .bool b
  | .int i, o => o = .int i
  | .real _, o => ∃ d, o = .real d
  | .str s, o => o = .str s
  | .chr s, o => o = .chr s
  | .sym s, o => o = .sym s
  | .semver a b c, o => o = .semver { major := a, minor := b, patch := c, pre := [], build := [] }
  | .vec _, _ => False

/-- the value `r` is the tree, all of its parts are in `P` and no value is a part of itself -/
inductive ShowsIn (m : Mem) : (Ref → Prop) → Ref → Tree → Prop
  | atom {P : Ref → Prop} {r : Ref} {c : Cell} {t : Tree} : P r → m r = some c → t.AtomIs c.obj → ShowsIn m P r t
  | vec {P P' : Ref → Prop} {r : Ref} {c : Cell} {rs : List Ref} {ts : List Tree} : P r → m r = some c → c.obj = .vec rs →
      (∀ z, P' z → P z) → ¬ P' r → rs.length = ts.length →
      (∀ (i : Nat) (x : Ref) (t : Tree), rs[i]? = some x → ts[i]? = some t → ShowsIn m P' x t) → ShowsIn m P r (.vec ts)

theorem ShowsIn.mono {m : Mem} {P Q : Ref → Prop} {t : Tree} (h : ShowsIn m P r t) (hq : ∀ z, P z → Q z) : ShowsIn m Q r t := by
  cases h with
  | atom h1 h2 h3 => exact .atom (hq _ h1) h2 h3
  | vec h1 h2 h3 h4 h5 h6 h7 => exact .vec (hq _ h1) h2 h3 (fun z hz => hq z (h4 z hz)) h5 h6 h7

theorem ShowsIn.here {m : Mem} {P : Ref → Prop} {t : Tree} (h : ShowsIn m P r t) : P r := by
  cases h <;> assumption

theorem ShowsIn.notErr {m : Mem} {P : Ref → Prop} {t : Tree} (h : ShowsIn m P r t) :
    ∃ c, m r = some c ∧ ∀ e l, c.obj ≠ .err e l := by
  cases h with
  | atom h1 h2 h3 =>
    refine ⟨_, h2, fun e l he => ?_⟩
    rw [he] at h3
    cases t <;> simp [Tree.AtomIs] at h3
  | vec h1 h2 h3 => exact ⟨_, h2, fun e l he => by rw [h3] at he; cases he⟩

/-- cells that stay -/
theorem ShowsIn.stays {m m' : Mem} {P : Ref → Prop} {t : Tree} (h : ShowsIn m P r t)
    (hm : ∀ z, P z → Reach m.Edge (· = r) z → m' z = m z) : ShowsIn m' P r t := by
  induction h with
  | atom h1 h2 h3 => exact .atom h1 ((hm _ h1 (.root rfl)).trans h2) h3
  | vec h1 h2 h3 h4 h5 h6 h7 ih =>
    refine .vec h1 ((hm _ h1 (.root rfl)).trans h2) h3 h4 h5 h6 fun i x t hx ht => ih i x t hx ht fun z hz hr => hm z (h4 z hz) (hr.mono ?_)
    rintro y rfl
    exact .step (.root rfl) ⟨_, h2, List.mem_append_right _ (by rw [h3]; exact List.mem_of_getElem? hx)⟩

/-- made between `v` and `w` -/
def Vm.New (W : World) (v w : Vm) (z : Ref) : Prop := ¬ v.Old W z ∧ w.Old W z

/-- a value the program returned for the outcome of the parser -/
def ParseOut.Is (W : World) (v w : Vm) (x : Option Ref) : ParseOut → Prop
  | .val t => ∃ r, x = some r ∧ ShowsIn w.mem (Vm.New W v w) r t
  | .err _ => ∃ r, x = some r ∧ Vm.New W v w r ∧ w.IsErr r
  | .null => x = none
  | _ => False

/-- what reading does: the outcome `o` of the parser -/
def ParseOk (W : World) (v : Vm) (o : ParseOut × Text) (a : Option Ref × Text) (w : Vm) (t : List Event) : Prop :=
  t = [] ∧ Mid W v [] w ∧ a.2 = o.2 ∧ o.1.Is W v w a.1

theorem wpm_alloc (m : Mid W v0 s u) (ho : PubObj (u.Old W) o) {Q : Ref → Vm → List Event → Prop}
    (hq : ∀ r w, Mid W v0 s w → Mid W u [] w → ¬ u.Old W r → w.Old W r → w.mem r = some { obj := o, uid := u.nextUid } → Q r w []) :
    Wp W n h (Prog.alloc o) u Q :=
  wp_alloc m.sane fun r w a => hq r w (m.alloc ho a) (a.mid m.sane m.closed ho) a.fresh a.old a.cell

theorem wpm_error (m : Mid W v0 s u) {what : String} {Q : Option Ref → Vm → List Event → Prop}
    (hq : ∀ r w, Mid W v0 s w → ¬ u.Old W r → w.Old W r → w.IsErr r → Q (some r) w []) :
    Wp W n h (Prog.error what) u Q := by
  unfold Prog.error
  refine wp_bind (wp_text fun t => wp_bind (wpm_alloc (o := .err t 0) m.tick trivial fun r w mw _ h1 h2 h3 => wp_pure ?_))
  exact hq r w mw h1 h2 ⟨_, _, _, h3, rfl⟩

theorem wpm_getRoot (C : Copies W h) (F : Fine W h) (m : Mid W v0 s u) (i : Intact u) {which : Root} (hw : which ≠ .globalEnv)
    {Q : Ref → Vm → List Event → Prop}
    (hq : ∀ r w, Mid W v0 s w → ¬ u.Old W r → w.Old W r →
      w.HasObj r which.lit → Q r w []) :
    Wp W n h (Prog.getRoot which) u Q := by
  unfold Prog.getRoot Prog.copyOf
  refine wp_bind (wp_root (wp_bind (wp_call fun a w t e => wp_deref fun r ha => ?_)))
  subst ha
  obtain ⟨sw, rfl, q, fresh⟩ := F.copy _ _ _ _ _ m.sane e
  obtain ⟨_, r', e', k⟩ := C _ _ _ _ _ m.sane m.closed (m.closed.roots which).1 e
  cases e'
  refine hq r w (m.sub ⟨m.sane, k.sane, k.closed, k.pure, q, k.stack⟩) (fresh r rfl) k.old ?_
  cases k.copied with
  | simple hc hc' hf hs ho => exact ⟨_, hc', ho.trans (i.root hw hc)⟩
  | seq hc hc' hf he => have := i.root hw hc; cases which <;> simp_all [Obj.elems, Root.lit]
  | hmap hc hc' hf he => have := i.root hw hc; cases which <;> simp_all [Root.lit]

theorem Vm.New.up (hz : Vm.New W v w x) (hv : v0.births ≤ v.births) (hw : w.births ≤ u.births) : Vm.New W v0 u x :=
  ⟨fun h => hz.1 (h.mono hv), hz.2.mono hw⟩

theorem wp_atomToken (C : Copies W h) (F : Fine W h) (sv : v.Sane W) (cv : v.Closed W fun _ => False) (i : Intact v) (k : Token) :
    Wp W n h (Prog.atomToken k) v fun a w t => t = [] ∧ Mid W v [] w ∧ (parseAtom k).Is W v w a := by
  have m := Mid.refl sv cv
  have one : ∀ (o : Obj) (t : Tree), PubObj (v.Old W) o → t.AtomIs o → Wp W n h (do
      let r ← Prog.alloc o
      pure (some r)) v fun a w t' => t' = [] ∧ Mid W v [] w ∧ (ParseOut.val t).Is W v w a := fun o t ho ht =>
    wp_bind (wpm_alloc m ho fun r w mw _ h1 h2 h3 => wp_pure ⟨rfl, mw, r, rfl, .atom ⟨h1, h2⟩ h3 ht⟩)
  have root : ∀ (which : Root) (t : Tree), which ≠ .globalEnv → t.AtomIs which.lit → Wp W n h (do
      let r ← Prog.getRoot which
      pure (some r)) v fun a w t' => t' = [] ∧ Mid W v [] w ∧ (ParseOut.val t).Is W v w a := fun which t hw ht =>
    wp_bind (wpm_getRoot C F m i hw fun r w mw h1 h2 ⟨c, hc, ho⟩ => wp_pure ⟨rfl, mw, r, rfl, .atom ⟨h1, h2⟩ hc (by rw [ho]; exact ht)⟩)
  have err : ∀ (what : String), Wp W n h (Prog.error what) v fun a w t' => t' = [] ∧ Mid W v [] w ∧ (ParseOut.err what).Is W v w a := fun what =>
    wpm_error m fun r w mw h1 h2 h3 => ⟨rfl, mw, r, rfl, ⟨h1, h2⟩, h3⟩
  have text : ∀ (f : Text → Obj) (g : Text → Tree) (s : Text), (∀ s, PubObj (v.Old W) (f s)) → (∀ s, (g s).AtomIs (f s)) →
      Wp W n h (Prog.textToken f s) v fun a w t' => t' = [] ∧ Mid W v [] w ∧ (textValue g s).Is W v w a := by
    intro f g s hp ht
    unfold Prog.textToken textValue
    split
    · exact wp_fail
    · rename_i s' e
      rw [e]
      exact one _ _ (hp s') (ht s')
  cases k <;> simp only [Prog.atomToken, parseAtom]
  case true_ => exact root .true _ (by simp) rfl
  case false_ => exact root .false _ (by simp) rfl
  case nil_ => exact root .nil _ (by simp) rfl
  case integer i => exact one _ _ trivial rfl
  case real l =>
    refine wp_bind (wp_real fun d => wp_bind (wpm_alloc (o := .real d) m.tick trivial fun r w mw _ h1 h2 h3 => wp_pure ?_))
    exact ⟨rfl, mw, r, rfl, .atom ⟨h1, h2⟩ h3 ⟨_, rfl⟩⟩
  case string s => exact text _ _ s (fun _ => trivial) fun _ => rfl
  case character s => exact text _ _ s (fun _ => trivial) fun _ => rfl
  case symbol s => exact text _ _ s (fun _ => trivial) fun _ => rfl
  case semver a b c => exact one _ _ trivial rfl
  case error msg => exact err msg
  case moreInput => exact wp_pure ⟨rfl, m, rfl⟩
  case rparen => exact err _
  all_goals exact wp_fail

/-- the invariant of the loop over the elements of a list -/
structure Listing (W : World) (v0 B : Vm) (r : Ref) (rs : List Ref) (ts : List Tree) (u : Vm) : Prop where
  closed0 : v0.Closed W fun _ => False
  mid : Mid W v0 [r] u
  new : ¬ v0.Old W r
  base : B.Old W r
  lo : v0.births ≤ B.births
  hi : B.births ≤ u.births
  vec : u.HasVec r rs
  len : rs.length = ts.length
  parts : ∀ (i : Nat) (x : Ref) (t : Tree), rs[i]? = some x → ts[i]? = some t → ShowsIn u.mem (Vm.New W B u) x t

theorem reach_of_kept {m : Mem} {P : Ref → Prop} {z : Ref} (hr : Reach m.Edge (· = x) z) (hx : Reach m.Edge P x) : Reach m.Edge P z :=
  hr.mono fun y hy => hy ▸ hx

theorem Listing.keptVec {B : Vm} {rs : List Ref} {ts : List Tree} (l : Listing W v0 B r rs ts u) : u.Kept r :=
  .root (by rw [l.mid.stack]; simp)

theorem Listing.keptElem {B : Vm} {rs : List Ref} {ts : List Tree} (l : Listing W v0 B r rs ts u) (hx : x ∈ rs) : u.Kept x := by
  obtain ⟨c, hc, ho⟩ := l.vec
  exact l.keptVec.step ⟨c, hc, List.mem_append_right _ (by rw [ho]; exact hx)⟩

/-- something else happens -/
theorem Listing.sub {B : Vm} {rs : List Ref} {ts : List Tree} (l : Listing W v0 B r rs ts u) (m : Mid W u [] w) :
    Listing W v0 B r rs ts w where
  closed0 := l.closed0
  mid := l.mid.sub m
  new := l.new
  base := l.base
  lo := l.lo
  hi := Nat.le_trans l.hi m.pure.births
  vec := by
    obtain ⟨c, hc, ho⟩ := l.vec
    exact ⟨c, by rw [m.pure.kept r l.keptVec]; exact hc, ho⟩
  len := l.len
  parts := fun i x t hx ht => ((l.parts i x t hx ht).stays fun z _ hz => m.pure.kept z (reach_of_kept hz (l.keptElem (List.mem_of_getElem? hx)))).mono
    fun _ hz => hz.up (Nat.le_refl _) m.pure.births

/-- another element, which exists already -/
theorem Listing.append {B : Vm} {rs : List Ref} {ts : List Tree} (l : Listing W v0 B r rs ts u) {t : Tree}
    (hx : ShowsIn u.mem (Vm.New W B u) x t) {c : Cell} (hc : u.mem r = some c) :
    Listing W v0 B r (rs ++ [x]) (ts ++ [t]) { u with mem := u.mem.set r { c with obj := .vec (rs ++ [x]) } } where
  closed0 := l.closed0
  mid := by
    obtain ⟨c', hc', ho⟩ := l.vec
    obtain rfl := same_cell hc hc'
    have pub := l.mid.closed.cells r c hc
    refine l.mid.write l.closed0 l.new hc rfl rfl ⟨?_, pub.docstr, pub.docvec⟩
    have := pub.obj
    rw [ho] at this
    intro y hy
    rcases List.mem_append.mp hy with hy | hy
    · exact this y hy
    · rw [List.mem_singleton.mp hy]; exact hx.here.2
  new := l.new
  base := l.base
  lo := l.lo
  hi := l.hi
  vec := ⟨_, Mem.set_self .., rfl⟩
  len := by simp [l.len]
  parts := by
    intro i y t' hy ht
    have key : ShowsIn u.mem (Vm.New W B u) y t' := by
      by_cases hi : i < rs.length
      · rw [List.getElem?_append_left hi] at hy
        rw [List.getElem?_append_left (by rw [← l.len]; exact hi)] at ht
        exact l.parts i y t' hy ht
      · rw [List.getElem?_append_right (by omega)] at hy
        rw [List.getElem?_append_right (by rw [← l.len]; omega), ← l.len] at ht
        cases hk : i - rs.length with
        | zero => rw [hk] at hy ht; simp at hy ht; subst hy ht; exact hx
        | succ k => rw [hk] at hy; simp at hy
    refine key.stays fun z hz _ => Mem.set_other _ _ ?_
    rintro rfl
    exact hz.1 l.base

/-- the list is complete -/
theorem Listing.done {B : Vm} {rs : List Ref} {ts : List Tree} (l : Listing W v0 B r rs ts u) {s' : List Ref} (hs : u.stack = x :: s') :
    Mid W v0 [] { u with stack := s' } ∧ ShowsIn u.mem (Vm.New W v0 u) r (.vec ts) := by
  obtain ⟨c, hc, ho⟩ := l.vec
  exact ⟨l.mid.pop hs, .vec ⟨l.new, l.base.mono l.hi⟩ hc ho (fun z hz => hz.up l.lo (Nat.le_refl _)) (fun h => h.1 l.base) l.len l.parts⟩

/-- a new list -/
theorem Listing.start (sv : v.Sane W) (cv : v.Closed W fun _ => False) (a : Mid W v [] w) (hn : ¬ v.Old W r) (ho : w.Old W r)
    {c : Cell} (hc : w.mem r = some c) (hv : c.obj = .vec []) : Listing W v w r [] [] { w with stack := r :: w.stack } where
  closed0 := cv
  mid := a.push ho
  new := hn
  base := ho
  lo := a.pure.births
  hi := Nat.le_refl _
  vec := ⟨c, hc, hv⟩
  len := rfl
  parts := by simp

theorem Mid.new (m : Mid W v0 s u) {o : ParseOut} {a : Option Ref} (h : o.Is W u w a) (hw : Mid W u [] w) : o.Is W v0 w a := by
  cases o with
  | val t => obtain ⟨r, hr, hs⟩ := h; exact ⟨r, hr, hs.mono fun z hz => hz.up m.pure.births (Nat.le_refl _)⟩
  | err e => obtain ⟨r, hr, hn, he⟩ := h; exact ⟨r, hr, hn.up m.pure.births (Nat.le_refl _), he⟩
  | _ => exact h

/-- what a parsed element can be -/
theorem ParseOut.Is.cases {o : ParseOut} {a : Option Ref} (h : o.Is W v w a) :
    (∃ t r, o = .val t ∧ a = some r ∧ ShowsIn w.mem (Vm.New W v w) r t) ∨
    (∃ e r, o = .err e ∧ a = some r ∧ Vm.New W v w r ∧ w.IsErr r) ∨ o = .null ∧ a = none := by
  cases o with
  | val t => obtain ⟨r, hr, hs⟩ := h; exact .inl ⟨t, r, rfl, hr, hs⟩
  | err e => obtain ⟨r, hr, hn, he⟩ := h; exact .inr (.inl ⟨e, r, rfl, hr, hn, he⟩)
  | null => exact .inr (.inr ⟨rfl, h⟩)
  | _ => exact h.elim

theorem parse_ok (C : Copies W h) (F : Fine W h) (ct : Ctype) : ∀ fuel,
    (∀ k t v, v.Sane W → (v.Closed W fun _ => False) → Intact v →
      Wp W n h (Prog.parseTok ct fuel k t) v (ParseOk W v (parseTok ct fuel k t))) ∧
    (∀ r rs ts t v0 B u, Intact v0 → Listing W v0 B r rs ts u →
      Wp W n h (Prog.parseList ct fuel r t) u (ParseOk W v0 (parseList ct fuel ts t))) ∧
    (∀ t v, v.Sane W → (v.Closed W fun _ => False) → Intact v →
      Wp W n h (Prog.parseNext ct fuel t) v (ParseOk W v (parseNext ct fuel t))) := by
  intro fuel
  induction fuel with
  | zero =>
    refine ⟨fun k t v _ _ _ => ?_, fun r rs ts t v0 B u _ _ => ?_, fun t v _ _ _ => ?_⟩
    · unfold Prog.parseTok; exact wp_fail
    · unfold Prog.parseList; exact wp_fail
    · unfold Prog.parseNext; exact wp_fail
  | succ fuel ih =>
    obtain ⟨ihT, ihL, ihN⟩ := ih
    refine ⟨fun k t v sv cv iv => ?_, fun r rs ts t v0 B u iv l => ?_, fun t v sv cv iv => ?_⟩
    · have m0 := Mid.refl sv cv
      by_cases h1 : k = .lparen
      · subst h1
        simp only [Prog.parseTok, parseTok]
        refine wp_bind (wpm_alloc (o := .vec []) m0 (by simp [PubObj]) fun r w mw _ h1 h2 h3 => wp_bind (wp_push ?_))
        exact Wp.mono (ihL r [] [] t v w _ iv (Listing.start sv cv mw h1 h2 h3 rfl)) fun a u t h => by simpa using h
      by_cases h2 : k = .quote
      · subst h2
        simp only [Prog.parseTok, parseTok]
        refine wp_bind (wpm_alloc (o := .vec []) m0 (by simp [PubObj]) fun r w mw _ h1 h2 h3 => wp_bind (wp_push ?_))
        have l := Listing.start sv cv mw h1 h2 h3 rfl
        refine wp_bind (wpm_alloc (o := .sym (txt "quote")) l.mid trivial fun q w2 _ m2 h4 h5 h6 => ?_)
        refine wp_bind (wp_append fun c es hc ho => ?_)
        have l2 := l.sub m2
        obtain ⟨c', hc', ho'⟩ := l2.vec
        obtain rfl := same_cell hc hc'
        rw [ho'] at ho
        cases ho
        have l3 := l2.append (x := q) (t := .sym (txt "quote")) (.atom ⟨fun h => h4 (h.mono l.hi), h5⟩ h6 rfl) hc
        simp only [List.nil_append] at l3
        refine wp_bind (Wp.mono (ihN t _ l3.mid.sane l3.mid.closed (l3.mid.intact cv iv)) ?_)
        rintro ⟨a, t'⟩ w4 tr ⟨rfl, m4, ht, ha⟩
        simp only at ht ha
        subst ht
        have l4 := l3.sub m4
        rcases hp : parseNext ct fuel t with ⟨po, rest⟩
        rw [hp] at ha
        simp only at ha ⊢
        rcases ha.cases with ⟨t1, x, rfl, rfl, hx⟩ | ⟨e, x, rfl, rfl, hx, hx'⟩ | ⟨rfl, rfl⟩
        · simp only
          refine wp_bind (wp_read fun d hd => ?_)
          obtain ⟨d', hd', hne⟩ := hx.notErr
          obtain rfl := same_cell hd hd'
          split
          · rename_i m' l' he; exact absurd he (hne _ _)
          · refine wp_bind (wp_append fun c4 es4 hc4 ho4 => wp_bind (wp_pop fun s' hs' => wp_pure ?_))
            obtain ⟨c', hc', ho'⟩ := l4.vec
            obtain rfl := same_cell hc4 hc'
            rw [ho'] at ho4
            cases ho4
            have l5 := l4.append (hx.mono fun z hz => hz.up l3.hi (Nat.le_refl _)) hc4
            have := l5.done hs'
            exact ⟨rfl, this.1, rfl, r, rfl, this.2⟩
        · simp only
          obtain ⟨m', l', d', hd', he⟩ := hx'
          refine wp_bind (wp_read fun d hd => ?_)
          obtain rfl := same_cell hd hd'
          split
          · refine wp_bind (wp_pop fun s' hs' => wp_pure ?_)
            exact ⟨rfl, l4.mid.pop hs', rfl, x, rfl, hx.up (Nat.le_trans l3.lo l3.hi) (Nat.le_refl _), m', l', d, hd, he⟩
          · rename_i hne; exact absurd he (hne _ _)
        · simp only
          refine wp_bind (wp_pop fun s' hs' => wp_pure ?_)
          exact ⟨rfl, l4.mid.pop hs', rfl, rfl⟩
      by_cases h3 : k = .backQuote
      · subst h3
        simp only [Prog.parseTok, parseTok]
        refine wp_bind (Wp.mono (ihN t v sv cv iv) ?_)
        rintro ⟨a, t'⟩ w4 tr ⟨rfl, m4, ht, ha⟩
        simp only at ht ha
        subst ht
        rcases hp : parseNext ct fuel t with ⟨po, rest⟩
        rw [hp] at ha
        simp only at ha ⊢
        rcases ha.cases with ⟨t1, x, rfl, rfl, hx⟩ | ⟨e, x, rfl, rfl, hx, hx'⟩ | ⟨rfl, rfl⟩
        · simp only
          have mp := m4.push hx.here.2
          have kx : Vm.Kept { w4 with stack := x :: w4.stack } x := .root (by simp)
          refine wp_bind (wp_push (wp_bind (wp_read fun d hd => ?_)))
          have hd : w4.mem x = some d := hd
          obtain ⟨d', hd', hne⟩ := hx.notErr
          obtain rfl := same_cell hd hd'
          split
          · rename_i m' l' he; exact absurd he (hne _ _)
          · rename_i es he
            refine wp_bind (wpm_alloc (o := .sym (txt "template")) mp trivial fun q w5 m5 m5' h4 h5 h6 => ?_)
            refine wp_bind (wp_push (wp_bind (wp_verifyVec fun c es' hc ho => wp_bind (wp_setObj fun c' hc' => ?_))))
            have hc : w5.mem x = some c := hc
            have hc' : w5.mem x = some c' := hc'
            obtain rfl := same_cell hc hc'
            have hcd : w4.mem x = some c := (m5'.pure.kept x kx).symm.trans hc
            obtain rfl := same_cell hd hcd
            rw [he] at ho
            cases ho
            refine wp_bind (wp_pop fun s1 hs1 => wp_bind (wp_pop fun s2 hs2 => wp_pure ?_))
            have pub := m5.closed.cells x d hc
            have old := pub.obj
            rw [he] at old
            have mw := (m5.push h5).write cv hx.here.1 hc (d := { d with obj := .vec (q :: es) }) rfl rfl
              ⟨by intro y hy
                  rcases List.mem_cons.mp hy with rfl | hy
                  · exact h5
                  · exact old y hy, pub.docstr, pub.docvec⟩
            have mf := (mw.pop hs1).pop hs2
            cases hx with
            | atom p1 p2 p3 =>
              obtain rfl := same_cell hd p2
              rw [he] at p3
              cases t1 <;> simp [Tree.AtomIs] at p3
            | @vec P P' _ c' rs ts p1 p2 p3 p4 p5 p6 p7 =>
              obtain rfl := same_cell hd p2
              rw [he] at p3
              cases p3
              refine ⟨rfl, mf, rfl, x, rfl, ?_⟩
              have qx : q ≠ x := fun e => h4 (e ▸ p1.2)
              show ShowsIn (w5.mem.set x { d with obj := .vec (q :: es) }) _ x _
              refine .vec (P' := fun z => P' z ∨ z = q) ⟨p1.1, p1.2.mono m5'.pure.births⟩ (Mem.set_self ..) rfl ?_ ?_ (by simp [p6]) ?_
              · rintro z (hz | rfl)
                · exact (p4 z hz).up (Nat.le_refl _) m5'.pure.births
                · exact ⟨fun h => h4 (h.mono m4.pure.births), h5⟩
              · rintro (hz | e)
                · exact p5 hz
                · exact qx e.symm
              · intro i y t' hy ht
                cases i with
                | zero =>
                  simp at hy ht
                  subst hy ht
                  exact .atom (.inr rfl) ((Mem.set_other _ _ qx).trans h6) rfl
                | succ i =>
                  simp at hy ht
                  refine ShowsIn.mono ((p7 i y t' hy ht).stays fun z hz hr => ?_) fun z hz => .inl hz
                  have zx : z ≠ x := fun e => p5 (e ▸ hz)
                  rw [Mem.set_other _ _ zx]
                  refine m5'.pure.kept z (reach_of_kept hr (kx.step ⟨d, hd, List.mem_append_right _ ?_⟩))
                  rw [he]; exact List.mem_of_getElem? hy
          · rename_i hnv
            have ht1 : templateOf t1 = .vec [.sym (txt "template"), t1] := by
              cases hx with
              | atom p1 p2 p3 => cases t1 <;> first | rfl | (simp [Tree.AtomIs] at p3)
              | vec p1 p2 p3 =>
                obtain rfl := same_cell hd p2
                exact absurd p3 (hnv _)
            rw [ht1]
            refine wp_bind (wpm_alloc (o := .sym (txt "template")) mp trivial fun q w5 m5 m5' h4 h5 h6 => ?_)
            refine wp_bind (wp_push (wp_bind (wpm_alloc (o := .vec []) (m5.push h5) (by simp [PubObj]) fun r w6 m6 m6' h7 h8 h9 => ?_)))
            have m6p := m6.push h8
            have nr : ¬ v.Old W r := fun h => h7 ((h.mono m4.pure.births).mono m5'.pure.births)
            have rq : r ≠ q := fun e => h7 (e ▸ h5)
            have rz : ∀ z, Vm.New W v w4 z → z ≠ r := fun z hz e => h7 (e ▸ (hz.2.mono m5'.pure.births))
            refine wp_bind (wp_push (wp_bind (wp_append fun c1 es1 hc1 ho1 => wp_bind (wp_append fun c2 es2 hc2 ho2 => ?_))))
            have hc1 : w6.mem r = some c1 := hc1
            obtain rfl := same_cell h9 hc1
            cases ho1
            have hc2 : (w6.mem.set r { obj := .vec ([] ++ [q]), uid := _ }) r = some c2 := hc2
            rw [Mem.set_self] at hc2
            cases hc2
            cases ho2
            refine wp_bind (wp_pop fun s1 hs1 => wp_bind (wp_pop fun s2 hs2 => wp_bind (wp_pop fun s3 hs3 => wp_pure ?_)))
            have oq : w6.Old W q := h5.mono m6'.pure.births
            have ox : w6.Old W x := (hx.here.2.mono m5'.pure.births).mono m6'.pure.births
            have mw1 := m6p.write cv nr h9 (d := { obj := .vec ([] ++ [q]), uid := _ }) rfl rfl
              ⟨by intro y hy; simp at hy; subst hy; exact oq, by simp [PubOpt], by simp [PubOpt]⟩
            have mw2 := mw1.write cv nr (c := { obj := .vec ([] ++ [q]), uid := _ }) (Mem.set_self ..)
              (d := { obj := .vec ([] ++ [q] ++ [x]), uid := _ }) rfl rfl
              ⟨by intro y hy; simp at hy; rcases hy with rfl | rfl
                  · exact oq
                  · exact ox, by simp [PubOpt], by simp [PubOpt]⟩
            refine ⟨rfl, ((mw2.pop hs1).pop hs2).pop hs3, rfl, r, rfl, ?_⟩
            have hmem : ∀ (c d : Cell) z, z ≠ r → ((w6.mem.set r c).set r d) z = w6.mem z :=
              fun c d z hz => (Mem.set_other _ _ hz).trans (Mem.set_other _ _ hz)
            have hb : w4.births ≤ w6.births := Nat.le_trans m5'.pure.births m6'.pure.births
            refine .vec (P' := fun z => Vm.New W v w4 z ∨ z = q) ⟨nr, h8⟩ (Mem.set_self ..) rfl ?_ ?_ rfl ?_
            · rintro z (hz | rfl)
              · exact hz.up (Nat.le_refl _) hb
              · exact ⟨fun h => h4 (h.mono m4.pure.births), oq⟩
            · rintro (hz | e)
              · exact rz r hz rfl
              · exact rq e
            · intro i y t' hy ht
              match i, hy, ht with
              | 0, hy, ht =>
                simp at hy ht
                subst hy ht
                have kq : Vm.Kept { w5 with stack := q :: w5.stack } q := .root (by simp)
                refine .atom (.inr rfl) ((hmem _ _ _ (Ne.symm rq)).trans ((m6'.pure.kept _ kq).trans h6)) rfl
              | 1, hy, ht =>
                simp at hy ht
                subst hy ht
                refine ShowsIn.mono (hx.stays fun z hz hr => ?_) fun z hz => .inl hz
                refine (hmem _ _ z (rz z hz)).trans ?_
                have kz : Vm.Kept { w4 with stack := x :: w4.stack } z := reach_of_kept hr kx
                have k5 : Vm.Kept w5 z := m5'.keptUp kz
                have k5' : Vm.Kept { w5 with stack := q :: w5.stack } z := k5.mono fun y hy => .root (List.mem_cons_of_mem _ hy)
                exact (m6'.pure.kept z k5').trans (m5'.pure.kept z kz)
              | i + 2, hy, ht => simp at hy
        · simp only
          obtain ⟨m', l', d', hd', he⟩ := hx'
          refine wp_bind (wp_push (wp_bind (wp_read fun d hd => ?_)))
          have hd : w4.mem x = some d := hd
          obtain rfl := same_cell hd hd'
          have mp := m4.push hx.2
          split
          · refine wp_bind (wp_pop fun s' hs' => wp_pure ?_)
            exact ⟨rfl, mp.pop hs', rfl, x, rfl, hx, m', l', d, hd, he⟩
          · rename_i es' he'; rw [he] at he'; cases he'
          · rename_i hne _; exact (hne _ _ he).elim
        · exact wp_pure ⟨rfl, m4, rfl, rfl⟩
      · have e1 : Prog.parseTok ct (fuel + 1) k t = (do
            let x ← Prog.atomToken k
            pure (x, t)) := by cases k <;> first | rfl | contradiction
        have e2 : parseTok ct (fuel + 1) k t = (parseAtom k, t) := by cases k <;> first | rfl | contradiction
        rw [e1, e2]
        refine wp_bind (Wp.mono (wp_atomToken C F sv cv iv k) fun a w tr ⟨h1, h2, h3⟩ => wp_pure ?_)
        exact ⟨by simp [h1], h2, rfl, h3⟩
    · have iu := l.mid.intact l.closed0 iv
      rcases hl : lex ct t with ⟨out, rest⟩
      have fin : ∀ {u : Vm} {rs ts} (what : String) (rest : Text), Listing W v0 B r rs ts u → Wp W n h (do
          Prog.pop r
          let e ← Prog.error what
          pure (e, rest)) u (ParseOk W v0 (.err what, rest)) := by
        intro u rs ts what rest l
        refine wp_bind (wp_pop fun s' hs' => wp_bind (wpm_error (l.mid.pop hs') fun e w mw h1 h2 h3 => wp_pure ?_))
        exact ⟨rfl, mw, rfl, e, rfl, ⟨fun h => h1 (h.mono (Nat.le_trans l.lo l.hi)), h2⟩, h3⟩
      simp only [Prog.parseList, parseList, hl]
      cases out with
      | null => exact fin _ _ l
      | abort => exact wp_fail
      | ub => exact wp_fail
      | tok k =>
        have step : Wp W n h (do
            let __discr ← Prog.parseTok ct fuel k rest
            match __discr with
            | (x, t) => match x with
              | none => do
                Prog.pop r
                let e ← Prog.error balancingError
                pure (e, t)
              | some x => do
                let __do_lift ← Prog.read x
                match __do_lift.obj with
                | .err _ _ => do
                  Prog.pop r
                  pure (some x, t)
                | _ => do
                  Prog.append r x
                  Prog.parseList ct fuel r t) u (ParseOk W v0 (match parseTok ct fuel k rest with
                    | (.null, r) => (.err balancingError, r)
                    | (.val v, r) => parseList ct fuel (ts ++ [v]) r
                    | o => o)) := by
          refine wp_bind (Wp.mono (ihT k rest u l.mid.sane l.mid.closed iu) ?_)
          rintro ⟨a, t'⟩ w4 tr ⟨rfl, m4, ht, ha⟩
          simp only at ht ha
          subst ht
          have l4 := l.sub m4
          rcases hp : parseTok ct fuel k rest with ⟨po, rest'⟩
          rw [hp] at ha
          simp only at ha ⊢
          rcases ha.cases with ⟨t1, x, rfl, rfl, hx⟩ | ⟨e, x, rfl, rfl, hx, hx'⟩ | ⟨rfl, rfl⟩
          · simp only
            refine wp_bind (wp_read fun d hd => ?_)
            obtain ⟨d', hd', hne⟩ := hx.notErr
            obtain rfl := same_cell hd hd'
            split
            · rename_i m' l' he; exact absurd he (hne _ _)
            · refine wp_bind (wp_append fun c4 es4 hc4 ho4 => ?_)
              obtain ⟨c', hc', ho'⟩ := l4.vec
              obtain rfl := same_cell hc4 hc'
              rw [ho'] at ho4
              cases ho4
              have l5 := l4.append (hx.mono fun z hz => hz.up l.hi (Nat.le_refl _)) hc4
              exact Wp.mono (ihL r _ _ rest' v0 B _ iv l5) fun a u t h => by simpa using h
          · simp only
            obtain ⟨m', l', d', hd', he⟩ := hx'
            refine wp_bind (wp_read fun d hd => ?_)
            obtain rfl := same_cell hd hd'
            split
            · refine wp_bind (wp_pop fun s' hs' => wp_pure ?_)
              exact ⟨rfl, l4.mid.pop hs', rfl, x, rfl, hx.up (Nat.le_trans l.lo l.hi) (Nat.le_refl _), m', l', d, hd, he⟩
            · rename_i hne; exact absurd he (hne _ _)
          · exact Wp.mono (fin _ _ l4) fun a u t h => by simpa using h
        cases k with
        | error msg => exact fin _ _ l
        | rparen =>
          refine wp_bind (wp_pop fun s' hs' => wp_pure ?_)
          have := l.done hs'
          exact ⟨rfl, this.1, rfl, r, rfl, this.2⟩
        | _ => exact step
    · rcases hl : lex ct t with ⟨out, rest⟩
      simp only [Prog.parseNext, parseNext, hl]
      cases out with
      | null => exact wp_pure ⟨rfl, .refl sv cv, rfl, rfl⟩
      | abort => exact wp_fail
      | ub => exact wp_fail
      | tok k => exact ihT k rest v sv cv iv

end Dern
