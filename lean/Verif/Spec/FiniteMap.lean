/-
Specification of an associative container, independent of the model.  `eqv` says which keys count
as equal.

Two specifications: `Entries`, where putting under a key that is present adds one more value to it
(what octaspire_map_put does), and plain partial functions, where assignment replaces.
-/
namespace Dern.Spec

inductive MapOp (κ ν : Type) where
  | put (k : κ) (v : ν)
  | remove (k : κ)
  | clear

/-- distinct keys, each with its values in the order they were put -/
abbrev Entries (κ ν : Type) := List (κ × List ν)

def Entries.lookup {κ ν : Type} (eqv : κ → κ → Bool) (s : Entries κ ν) (k : κ) : Option (κ × List ν) :=
  s.find? fun e => eqv k e.1

def MapOp.apply {κ ν : Type} (eqv : κ → κ → Bool) (s : Entries κ ν) : MapOp κ ν → Entries κ ν
  | .put k v =>
    if s.any (fun e => eqv k e.1) then
      s.map fun e => if eqv k e.1 then (e.1, e.2 ++ [v]) else e
    else s ++ [(k, [v])]
  | .remove k => s.filter fun e => !eqv k e.1
  | .clear => []

def runEntries {κ ν : Type} (eqv : κ → κ → Bool) (ops : List (MapOp κ ν)) : Entries κ ν :=
  ops.foldl (fun s op => op.apply eqv s) []

/-- assignment, deletion and clearing of a plain partial function -/
inductive AssignOp (κ ν : Type) where
  | set (k : κ) (v : ν)
  | remove (k : κ)
  | clear

def AssignOp.apply {κ ν : Type} (eqv : κ → κ → Bool) (f : κ → Option ν) : AssignOp κ ν → κ → Option ν
  | .set k v => fun k' => if eqv k k' then some v else f k'
  | .remove k => fun k' => if eqv k k' then none else f k'
  | .clear => fun _ => none

def runAssign {κ ν : Type} (eqv : κ → κ → Bool) (ops : List (AssignOp κ ν)) : κ → Option ν :=
  ops.foldl (fun f op => op.apply eqv f) fun _ => none

/-- an assignment is octaspire_map_remove followed by octaspire_map_put (this is what
octaspire_dern_environment_set, dern_environment.c:375-392, and dern_value.c:1123-1128 do) -/
def AssignOp.toMapOps {κ ν : Type} : AssignOp κ ν → List (MapOp κ ν)
  | .set k v => [.remove k, .put k v]
  | .remove k => [.remove k]
  | .clear => [.clear]

end Dern.Spec
