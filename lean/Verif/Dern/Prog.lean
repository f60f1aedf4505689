import Verif.Dern.Vm
import Verif.Dern.Value
/-
The language in which the evaluator and the library functions are modelled: programs built from the
operations that the C code performs on the virtual machine.  A procedure of the code that is called
recursively is a `Call`; everything else is a `Prog`.

Running a program records, besides result and state, the evaluations (octaspire_dern_vm_eval) it
performs directly, in order, each with the states before and after.
-/
namespace Dern

/-- recursive procedures of values and loops without a bound in builtin functions -/
inductive Aux
  /-- octaspire_dern_value_as_integer_add, _integer_subtract, _real_add and _real_subtract,
  value.c:2367-2578, 2644-2853 -/
  | number (asInt add : Bool)
  /-- octaspire_dern_value_as_string_push_back and octaspire_dern_value_as_symbol_push_back,
  value.c:2855-3025 -/
  | pushText (isSym : Bool)
  /-- the loop of `copy` on a vector from the index `i` on, stdlib.c:12189-12262 -/
  | copyVec (i : Nat)
  /-- the loop of `copy` on a string from the index `i` on, with the characters selected so far,
  stdlib.c:12279-12352 -/
  | copyStr (i : Nat) (acc : Text)
  /-- the recursive step of `template`, stdlib.c:4302-4327 -/
  | template
  /-- the loop of `howto` over the bindings of the environment from the index `i` on, stdlib.c:12594-12696 -/
  | howto (gen i : Nat)
  deriving DecidableEq, Repr

/-- recursive procedures -/
inductive Call
  /-- octaspire_dern_vm_eval, vm.c:4258-4312 -/
  | eval (value env : Ref)
  /-- a further turn of the loop of octaspire_dern_vm_eval, after a macro call -/
  | again (value env : Ref)
  /-- octaspire_dern_environment_get, environment.c:374-396 -/
  | lookup (env : Ref) (name : Text)
  /-- the loop that evaluates the arguments of a call, from the index `i` on,
  vm.c:3924-3962, 4014-4060 -/
  | argLoop (value : Ref) (gen : Nat) (args env : Ref) (i : Nat)
  /-- the loop that evaluates the forms of the body of the function in the value `operator`, from
  the index `i` on, vm.c:4119-4165; `gen` is the generation of the function record in use -/
  | bodyLoop (operator : Ref) (gen : Nat) (value env : Ref) (i : Nat) (last : Option Ref)
  /-- the loop of `and` and `or`, stdlib.c:5786-5812, 5834-5860 -/
  | logicLoop (isAnd : Bool) (args env : Ref) (i : Nat) (last : Option Ref)
  /-- the loop of `do`, stdlib.c:5884-5917 -/
  | doLoop (args env : Ref) (i : Nat) (last : Option Ref)
  /-- the loop of `while`, stdlib.c:2466-2540, with the number of arguments -/
  | whileLoop (args env : Ref) (numArgs : Nat) (count : Int)
  /-- octaspire_dern_vm_create_new_value_copy, vm.c:1806-2143 -/
  | copy (value : Ref)
  /-- one of the procedures of `Aux` -/
  | aux (k : Aux) (refs : List Ref)
  deriving DecidableEq, Repr

/-- the values every virtual machine has, vm.c:58-61 -/
inductive Root | globalEnv | nil | true | false
  deriving DecidableEq, Repr

/-- operations on the virtual machine -/
inductive Op
  | alloc (o : Obj)                               -- a new value, see `alloc`
  | read (r : Ref)
  | setObj (r : Ref) (o : Obj)                    -- changing a payload in place
  | replace (r : Ref) (o : Obj)                   -- releasing a payload and storing another one
  | setDoc (r : Ref) (docstr docvec : Option Ref)
  | setHowto (r : Ref) (b : Bool)
  | push (r : Ref)
  | pop (r : Ref)
  | getReturn
  | setReturn (x : Option Ref)
  | isQuit
  | quit (code : Option Int)                      -- with the exit code, if one is given
  | root (which : Root)
  | emit (t : Text)                               -- printing
  | text (what : String)                          -- a text composed by the code (error messages …)
  | compare (a b : Ref)                           -- octaspire_dern_value_compare
  | arrange (es : List (Ref × Ref))               -- the buckets and the order of a hash map
  | print (plain : Bool) (r : Ref)                -- octaspire_dern_value_to_string and _to_string_plain
  | readably                                      -- is the machine in print-readably mode?
  | setReadably (b : Bool)
  | real                                          -- the result of floating point arithmetic
  | fail (e : Fault)
  | call (c : Call)

/-- the answers to an operation -/
def Op.Resp : Op → Type
  | .alloc _ => Ref
  | .read _ => Cell
  | .getReturn => Option Ref
  | .isQuit => Bool
  | .root _ => Ref
  | .text _ => Text
  | .compare _ _ => Int
  | .arrange _ => Nat × List (Ref × Ref)
  | .real => Spec.Dbl
  | .print _ _ => Text
  | .readably => Bool
  | .fail _ => Empty
  | .call _ => Option Ref
  | _ => Unit

/-- programs -/
inductive Prog (α : Type) : Type
  | done (a : α)
  | op (o : Op) (k : o.Resp → Prog α)

namespace Prog

def bind : Prog α → (α → Prog β) → Prog β
  | done a, f => f a
  | op o k, f => op o fun a => bind (k a) f

instance : Monad Prog where
  pure := done
  bind := bind

theorem bind_assoc' (p : Prog α) (f : α → Prog β) (g : β → Prog γ) :
    bind (bind p f) g = bind p fun a => bind (f a) g := by
  induction p with
  | done a => rfl
  | op o k ih => simp only [bind]; congr 1; funext a; exact ih a

theorem bind_done (p : Prog α) : bind p done = p := by
  induction p with
  | done a => rfl
  | op o k ih => simp only [bind]; congr 1; funext a; exact ih a

instance : LawfulMonad Prog := LawfulMonad.mk'
  (id_map := fun x => bind_done x)
  (pure_bind := fun _ _ => rfl)
  (bind_assoc := fun x f g => bind_assoc' x f g)

/-- a single operation -/
def perform (o : Op) : Prog o.Resp := op o done

def alloc (o : Obj) : Prog Ref := perform (.alloc o)
def read (r : Ref) : Prog Cell := perform (.read r)
def setObj (r : Ref) (o : Obj) : Prog Unit := perform (.setObj r o)
def replace (r : Ref) (o : Obj) : Prog Unit := perform (.replace r o)
def setDoc (r : Ref) (docstr docvec : Option Ref) : Prog Unit := perform (.setDoc r docstr docvec)
def setHowto (r : Ref) (b : Bool) : Prog Unit := perform (.setHowto r b)
def push (r : Ref) : Prog Unit := perform (.push r)
def pop (r : Ref) : Prog Unit := perform (.pop r)
def getReturn : Prog (Option Ref) := perform .getReturn
def setReturn (x : Option Ref) : Prog Unit := perform (.setReturn x)
def isQuit : Prog Bool := perform .isQuit
def quit (code : Option Int) : Prog Unit := perform (.quit code)
def root (which : Root) : Prog Ref := perform (.root which)
def emit (t : Text) : Prog Unit := perform (.emit t)
def text (what : String) : Prog Text := perform (.text what)
def compare (a b : Ref) : Prog Int := perform (.compare a b)
def arrange (es : List (Ref × Ref)) : Prog (Nat × List (Ref × Ref)) := perform (.arrange es)
def real : Prog Spec.Dbl := perform .real
def print (plain : Bool) (r : Ref) : Prog Text := perform (.print plain r)
def readably : Prog Bool := perform .readably
def setReadably (b : Bool) : Prog Unit := perform (.setReadably b)
def call (c : Call) : Prog (Option Ref) := perform (.call c)
def fail (e : Fault) : Prog α := op (.fail e) fun (x : Empty) => nomatch x

/-- octaspire_dern_vm_eval -/
def eval (value env : Ref) : Prog (Option Ref) := call (.eval value env)

/-- using a pointer that must not be null -/
def deref : Option Ref → Prog Ref
  | some r => pure r
  | none => fail .null

end Prog

/-! ### running programs -/

/-- What the model takes from outside: the allocator, the texts the code composes (messages),
the printed forms of reals, builtins and specials, the results of floating point arithmetic, and the order of the elements of a hash
map with its number of buckets.  The `n`-th
answer may depend on anything, because every statement holds for every `World`. -/
structure World where
  malloc : Malloc
  text : Nat → String → Text
  fmt : Obj → Text
  real : Nat → Spec.Dbl
  arrange : Nat → List (Ref × Ref) → Nat × List (Ref × Ref)
  perm : ∀ n es, (arrange n es).2.Perm es
  buckets : ∀ n es, 0 < (arrange n es).1

/-- an evaluation of `form` in `env` that started in the state `pre` and ended in the state `post` -/
structure Event where
  form : Ref
  env : Ref
  pre : Vm
  result : Option Ref
  post : Vm

/-- the result, the state afterwards and the evaluations performed -/
abbrev Outcome (α : Type) := Res (α × Vm × List Event)

/-- how calls are carried out -/
abbrev Handler := Call → Vm → Outcome (Option Ref)

/-- an operation without evaluations -/
def quiet (x : M α) (v : Vm) : Outcome α :=
  match x v with
  | .ok (a, w) => .ok (a, w, [])
  | .error e => .error e

def Vm.root (v : Vm) : Root → Ref
  | .globalEnv => v.globalEnv
  | .nil => v.valueNil
  | .true => v.valueTrue
  | .false => v.valueFalse

/-- carrying out one operation; `n` bounds the depth of comparisons -/
def step (W : World) (n : Nat) (h : Handler) : (o : Op) → Vm → Outcome o.Resp
  | .alloc o, v => quiet (Dern.alloc W.malloc o) v
  | .read r, v => quiet (M.read r) v
  | .setObj r o, v => quiet (M.write r fun c => { c with obj := o }) v
  | .replace r o, v => quiet (M.write r fun c => { c with obj := o, gen := c.gen + 1 }) v
  | .setDoc r ds dv, v => quiet (M.write r fun c => { c with docstr := ds, docvec := dv }) v
  | .setHowto r b, v => quiet (M.write r fun c => { c with howto := b }) v
  | .push r, v => quiet (Dern.push r) v
  | .pop r, v => quiet (Dern.pop r) v
  | .getReturn, v => .ok (v.functionReturn, v, [])
  | .setReturn x, v => .ok ((), { v with functionReturn := x }, [])
  | .isQuit, v => .ok (v.quit, v, [])
  | .quit code, v => .ok ((), { v with quit := true, exitCode := code.getD v.exitCode }, [])
  | .root which, v => .ok (v.root which, v, [])
  | .emit t, v => .ok ((), { v with out := v.out ++ t }, [])
  | .text what, v => .ok (W.text v.ticks what, { v with ticks := v.ticks + 1 }, [])
  | .arrange es, v => .ok (W.arrange v.ticks es, { v with ticks := v.ticks + 1 }, [])
  | .real, v => .ok (W.real v.ticks, { v with ticks := v.ticks + 1 }, [])
  | .compare a b, v =>
    match compareRef v.mem n a b with
    | .ok c => .ok (c, v, [])
    | .error e => .error e
  | .print plain r, v =>
    match printRef v.mem W.fmt v.readably n plain r with
    | .ok t => .ok (t, v, [])
    | .error e => .error e
  | .readably, v => .ok (v.readably, v, [])
  | .setReadably b, v => .ok ((), { v with readably := b }, [])
  | .fail e, _ => .error e
  | .call c, v => h c v

/-- carrying out a program -/
def run (W : World) (n : Nat) (h : Handler) : Prog α → Vm → Outcome α
  | .done a, v => .ok (a, v, [])
  | .op o k, v =>
    match step W n h o v with
    | .error e => .error e
    | .ok (a, w, t) =>
      match run W n h (k a) w with
      | .error e => .error e
      | .ok (b, w', t') => .ok (b, w', t ++ t')

/-- The handler that carries out the calls with the procedures `body`, up to the given depth.  An
evaluation is recorded as one event; the other procedures are part of their caller. -/
def handler (W : World) (body : Call → Prog (Option Ref)) : Nat → Handler
  | 0, _, _ => .error .fuel
  | n + 1, c, v =>
    match run W n (handler W body n) (body c) v with
    | .error e => .error e
    | .ok (r, w, t) =>
      .ok (r, w, match c with | .eval value env => [⟨value, env, v, r, w⟩] | _ => t)

end Dern
