import Verif.Spec.Order
/-
Semantic versions and their precedence (https://semver.org 2.0.0, item 11), independent of the
model.
-/
namespace Dern.Spec

/-- a pre-release identifier: a number or a text (code points) -/
inductive Ident where
  | num (n : Nat)
  | lex (s : List Nat)
  deriving DecidableEq, Repr

structure Version where
  major : Nat
  minor : Nat
  patch : Nat
  pre : List Ident
  build : List (List Nat)
  deriving DecidableEq, Repr

/-- 11.4.1-3: numbers numerically, texts in dictionary order, numbers below texts -/
inductive Ident.Lt : Ident → Ident → Prop
  | num {m n} : m < n → Ident.Lt (.num m) (.num n)
  | lex {s t} : lexCmp s t = .lt → Ident.Lt (.lex s) (.lex t)
  | mixed {m s} : Ident.Lt (.num m) (.lex s)

/-- 11.4 and 11.4.4: from left to right until a difference is found; more fields are higher if all
preceding ones are equal -/
inductive PreLt : List Ident → List Ident → Prop
  | more {b bs} : PreLt [] (b :: bs)
  | field {a b as bs} : a.Lt b → PreLt (a :: as) (b :: bs)
  | next {a as bs} : PreLt as bs → PreLt (a :: as) (a :: bs)

/-- 11.2-3: major, minor and patch numerically; a version with a pre-release is below the one
without; build metadata is ignored -/
inductive Version.Precedes : Version → Version → Prop
  | major {v w} : v.major < w.major → Version.Precedes v w
  | minor {v w} : v.major = w.major → v.minor < w.minor → Version.Precedes v w
  | patch {v w} : v.major = w.major → v.minor = w.minor → v.patch < w.patch → Version.Precedes v w
  | release {v w} : v.major = w.major → v.minor = w.minor → v.patch = w.patch →
      v.pre ≠ [] → w.pre = [] → Version.Precedes v w
  | pre {v w} : v.major = w.major → v.minor = w.minor → v.patch = w.patch →
      v.pre ≠ [] → w.pre ≠ [] → PreLt v.pre w.pre → Version.Precedes v w

/-- equal but for build metadata -/
def Version.Same (v w : Version) : Prop :=
  v.major = w.major ∧ v.minor = w.minor ∧ v.patch = w.patch ∧ v.pre = w.pre

end Dern.Spec
