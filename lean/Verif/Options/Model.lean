/-!
# Model of option contexts: `BaseOptions`, `BaseCtx` (src/convtools/utils.py 75-128)

Modelled: the shared heap of option objects, the per-thread namespace `_ctx` (`threading.local`,
utils.py 72) with its two slots `options` and `prev_options`, and the `as` variables of the open
`with` statements, through which a program assigns options.

Simplifications: an option object is a total function from the declared option names (utils.py
78-82) to values, so undeclared attributes do not exist.  Option objects are truthy (no option
class in the repo defines `__bool__`/`__len__`), so `if prev_options` tests for None.  A slot
missing from the namespace and a slot holding None are identified, as `getattr(.., None)` does
(utils.py 112, 125).  Exceptions inside a `with` body just skip the rest of the body: `__exit__`
ignores its arguments, so a run is any well-bracketed list of events.
-/
set_option autoImplicit false

namespace Verif.Options

variable {Name Val : Type} [DecidableEq Name]

/-- An option object (utils.py 85-99). -/
abbrev Obj (Name Val : Type) := Name → Val

/-- `threading.local()` namespace of one thread (utils.py 72): addresses of the objects in
`options` and `prev_options`; `refs` are the `as` variables, innermost open context first. -/
structure Thread where
  options : Option Nat
  prev : Option Nat
  refs : List Nat

/-- The whole process: all option objects ever made and the state of each thread. -/
structure World (Name Val : Type) where
  heap : List (Obj Name Val)
  threads : Nat → Thread

/-- Process start. -/
def init : World Name Val := ⟨[], fun _ => ⟨none, none, []⟩⟩

/-- What a thread can do. `set i n v` is `options_i.n = v` for the `as` variable of the `i`-th
innermost open context; `toDefaults i n?` is utils.py 94-99. -/
inductive Ev (Name Val : Type) where
  | enter
  | exit
  | set (i : Nat) (n : Name) (v : Val)
  | toDefaults (i : Nat) (n? : Option Name)
  | read (n : Name)

/-- Attribute assignment. -/
def upd (o : Obj Name Val) (n : Name) (v : Val) : Obj Name Val := fun m => if m = n then v else o m

/-- utils.py 94-99 -/
def resetObj (defaults o : Obj Name Val) : Option Name → Obj Name Val
  | some n => upd o n (defaults n)
  | none => defaults

/-- Change the thread `t`. -/
def setThread (ts : Nat → Thread) (t : Nat) (s : Thread) : Nat → Thread :=
  fun u => if u = t then s else ts u

/-- The option object in force for thread `t`: the one in `options`, else the class with its
defaults (utils.py 113-116 and 125-127). -/
def currentObj (defaults : Obj Name Val) (w : World Name Val) (t : Nat) : Obj Name Val :=
  match (w.threads t).options with
  | some p => (w.heap[p]?).getD defaults
  | none => defaults

/-- utils.py 111-117: `__enter__`; `clone` (88-92) makes a new object with the same options. -/
def enter (defaults : Obj Name Val) (w : World Name Val) (t : Nat) : World Name Val :=
  let s := w.threads t
  { heap := w.heap ++ [currentObj defaults w t]
    threads := setThread w.threads t ⟨some w.heap.length, s.options, w.heap.length :: s.refs⟩ }

/-- utils.py 119-121: `__exit__`. -/
def exit (w : World Name Val) (t : Nat) : World Name Val :=
  let s := w.threads t
  { w with threads := setThread w.threads t ⟨s.prev, none, s.refs.tail⟩ }

/-- Attribute assignment through an `as` variable. -/
def modify (w : World Name Val) (t : Nat) (i : Nat) (f : Obj Name Val → Obj Name Val) :
    World Name Val :=
  match (w.threads t).refs[i]? with
  | some a => { w with heap := w.heap.modify a f }
  | none => w

/-- utils.py 123-128: `get_option_value`. -/
def readOpt (defaults : Obj Name Val) (w : World Name Val) (t : Nat) (n : Name) : Val :=
  currentObj defaults w t n

/-- One event of thread `t`; a read produces an output. -/
def step (defaults : Obj Name Val) (w : World Name Val) (t : Nat) :
    Ev Name Val → World Name Val × Option Val
  | .enter => (enter defaults w t, none)
  | .exit => (exit w t, none)
  | .set i n v => (modify w t i (upd · n v), none)
  | .toDefaults i n? => (modify w t i (resetObj defaults · n?), none)
  | .read n => (w, some (readOpt defaults w t n))

/-- A run of interleaved threads: final world and, per read, the thread and the value read. -/
def run (defaults : Obj Name Val) (w : World Name Val) :
    List (Nat × Ev Name Val) → World Name Val × List (Nat × Val)
  | [] => (w, [])
  | (t, e) :: es =>
    let (w', o) := step defaults w t e
    let (w'', os) := run defaults w' es
    (w'', (o.map (t, ·)).toList ++ os)

end Verif.Options
