import Verif.Dern.Value
import Verif.Spec.Data
import Verif.Props.C21
/-
The data a value on the heap denotes, and conditions under which comparison is well behaved.
-/
namespace Dern
open Spec (Version Dbl Data)

/-- what a value without references denotes -/
def atomData (r : Ref) : Obj → Option Data
  | .nil => some .nil
  | .bool b => some (.bool b)
  | .int n => some (.int n)
  | .real d => some (.real d)
  | .str s => some (.str s)
  | .chr s => some (.chr s)
  | .sym s => some (.sym s)
  | .err s k => some (.err s k)
  | .special _ => some (.special r)
  | .builtin _ => some (.builtin r)
  | .port _ => some (.port r)
  | .semver v => some (.semver v)
  | _ => none

/-- the value at `r` denotes the data; a cyclic value denotes nothing -/
inductive Denotes (m : Mem) : Ref → Data → Prop
  | atom {r c d} : m r = some c → atomData r c.obj = some d → Denotes m r d
  | vec {r c rs ds} : m r = some c → c.obj = .vec rs → rs.length = ds.length →
      (∀ (i : Nat) (x : Ref) (d : Data), rs[i]? = some x → ds[i]? = some d → Denotes m x d) →
      Denotes m r (.vec ds)
  | queue {r c rs ds mx} : m r = some c → c.obj = .queue mx rs → rs.length = ds.length →
      (∀ (i : Nat) (x : Ref) (d : Data), rs[i]? = some x → ds[i]? = some d → Denotes m x d) →
      Denotes m r (.queue ds)
  | list {r c rs ds} : m r = some c → c.obj = .list rs → rs.length = ds.length →
      (∀ (i : Nat) (x : Ref) (d : Data), rs[i]? = some x → ds[i]? = some d → Denotes m x d) →
      Denotes m r (.list ds)
  | hmap {r c nb es ds} : m r = some c → c.obj = .hmap nb es → es.length = ds.length →
      (∀ (i : Nat) (e : Ref × Ref) (d : Data × Data), es[i]? = some e → ds[i]? = some d →
        Denotes m e.1 d.1) →
      (∀ (i : Nat) (e : Ref × Ref) (d : Data × Data), es[i]? = some e → ds[i]? = some d →
        Denotes m e.2 d.2) →
      Denotes m r (.hmap ds)

/-- texts without NUL made of Unicode scalar values -/
def Printable (s : Text) : Prop := ∀ c ∈ s, PrintCh c

/-- Data on which comparison is an order: no NaN, texts that survive conversion to C strings,
version numbers, line numbers and lengths below 2^31, and no hash maps. -/
inductive Plain : Data → Prop
  | nil : Plain .nil
  | bool {b} : Plain (.bool b)
  | int {n} : Plain (.int n)
  | real {d} : d.isNaN = false → Plain (.real d)
  | str {s} : Printable s → Plain (.str s)
  | chr {s} : Printable s → Plain (.chr s)
  | sym {s} : Printable s → Plain (.sym s)
  | err {s k} : Printable s → k < 2 ^ 31 → Plain (.err s k)
  | vec {es} : es.length < 2 ^ 31 → (∀ d ∈ es, Plain d) → Plain (.vec es)
  | queue {es} : es.length < 2 ^ 31 → (∀ d ∈ es, Plain d) → Plain (.queue es)
  | list {es} : es.length < 2 ^ 31 → (∀ d ∈ es, Plain d) → Plain (.list es)
  | special {p} : Plain (.special p)
  | builtin {p} : Plain (.builtin p)
  | port {p} : Plain (.port p)
  | semver {v} : Props.Modest v → Plain (.semver v)

end Dern
