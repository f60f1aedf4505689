import Verif.Dern.ReadBack
/-
C10  Reader inverts the printer on data.

For every tree of vectors over atoms whose own printed form reads back (`Readable`: nil, booleans,
integers above -2^31, strings without ']' and '|', one-character characters, names of symbols,
version numbers, reals whose printed form reads back), parsing the printed form gives the very
same tree and leaves unread exactly what follows it.
-/
namespace Dern.Props
open Dern

/-- `g` is how `%g` prints a real; `rest` is what follows the printed tree: nothing, or a text that
starts with a delimiter. -/
theorem c10_read_print (ct : Ctype) (hct : ct.C) (g : RealLit → Text) (t : Tree)
    (h : Readable ct g t) (rest : Text)
    (hr : rest = [] ∨ ∃ c cs, rest = c :: cs ∧ c < 128 ∧ isDelimiter ct c = true) :
    ∃ s, printTree g t = some s ∧ parse ct (s ++ rest) = (.val t, rest) := by
  obtain ⟨s, h1, _, h3⟩ := readsBack ct hct g t h
  exact ⟨s, h1, h3 rest hr⟩

/-- Hence two readable trees with the same printed form are the same tree. -/
theorem c10_print_injective (ct : Ctype) (hct : ct.C) (g : RealLit → Text) (t u : Tree)
    (ht : Readable ct g t) (hu : Readable ct g u) (h : printTree g t = printTree g u) : t = u := by
  obtain ⟨s, h1, h2⟩ := c10_read_print ct hct g t ht [] (.inl rfl)
  obtain ⟨s', h1', h2'⟩ := c10_read_print ct hct g u hu [] (.inl rfl)
  rw [h1, h1'] at h
  cases h
  rw [h2] at h2'
  cases h2'
  rfl

-- the hypothesis is met by a nested tree with every kind of atom (but reals)
example : Readable asciiCtype (fun _ => []) (.vec [.sym (txt "f"), .int (-7), .vec [], .vec [.str (txt "a (b"),
    .chr [124], .nil, .bool true, .semver 1 20 3]]) := by
  refine .vec _ ?_
  simp only [List.mem_cons, List.not_mem_nil, or_false, forall_eq_or_imp, forall_eq]
  refine ⟨.sym _ ⟨by decide, by decide, by decide, 102, [], by decide⟩, .int _ (by decide) (by decide),
    .vec _ (by simp), .vec _ ?_⟩
  simp only [List.mem_cons, List.not_mem_nil, or_false, forall_eq_or_imp, forall_eq]
  exact ⟨.str _ (by decide) (by decide) (by decide), .chr _ (by decide), .nil, .bool _,
    .semver _ _ _ (by decide) (by decide) (by decide)⟩

end Dern.Props
