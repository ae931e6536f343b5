import Verif.Py.Dict
/-!
# Model of the run time of labels: calls and generators of one converter
(src/convtools/base.py 70-99 and 503-512)

A converter owns one dict `labels_` (base.py 503, 509-511), used by all its calls.  The generated
code is abstracted to what it does to that dict: a call is a `CallProg`, which may return a
generator, a `GenProg`, or a plain value with a generator inside (a list, a tuple, an object): the
test of base.py 74 looks at the result itself only.  Programs are trees whose continuations depend on the values read, so every
deterministic label-using code is covered.

Events are atomic label operations, so that schedules of several threads are covered too; the
clean-up loop (base.py 84-87, 96-99) is one atomic step.  Not modelled: asynchronous exceptions
between the operations of `__call__` itself; a result holding several generators.
-/
set_option autoImplicit false

namespace Verif.Labels

variable {V : Type}

/-- Body of a generator returned by a converter. -/
inductive GenProg (V : Type) where
  | done
  | fail
  | add (label : String) (v : V) (k : GenProg V)
  | get (label : String) (k : V → GenProg V)
  | yield (v : V) (k : GenProg V)

/-- The code of one converter call up to its return. -/
inductive CallProg (V : Type) where
  | ret (v : V)
  | fail
  | retGen (body : GenProg V)
  | retHolding (body : GenProg V)                  -- e.g. `return (…, (… for i in …))`
  | add (label : String) (v : V) (k : CallProg V)
  | get (label : String) (k : V → CallProg V)

/-- What the client of one use observes. -/
inductive Out (V : Type) where
  | returned (v : V)
  | raised
  | gotGenerator
  | gotHolder
  | yielded (v : V)
  | stopped
  | closed
  deriving DecidableEq

/-- State of one use of the converter. -/
inductive St (V : Type) where
  | calling (p : CallProg V)                       -- inside `_main_converter(*args)` (base.py 73)
  | suspended (started : Bool) (p : GenProg V)     -- wrapped generator (76, 89-99) not running
  | running (p : GenProg V)                        -- inside `yield from` (91)
  | held (p : GenProg V)                           -- not wrapped, inside the returned value (77)
  | heldRunning (p : GenProg V)
  | over

/-- A use: its state and what its client has seen. -/
structure Use (V : Type) where
  st : St V
  out : List (Out V)

/-- One converter: its `labels_` and all its uses. -/
structure World (V : Type) where
  labels : List (String × V)
  uses : List (Use V)

/-- What can happen to a use: the running code makes one step; the client resumes the generator
(`next`) or closes/drops it. -/
inductive Act where
  | step
  | next
  | close
  deriving DecidableEq

/-- One action on one use, given the shared labels. -/
def act (labels : List (String × V)) (u : Use V) : Act → List (String × V) × Use V
  | .step =>
    match u.st with
    -- base.py 77, 82-87: plain result, labels dropped
    | .calling (.ret v) => ([], ⟨.over, u.out ++ [.returned v]⟩)
    -- base.py 78-87
    | .calling .fail => ([], ⟨.over, u.out ++ [.raised]⟩)
    -- base.py 74-76: labels are kept; the wrapper's body has not started
    | .calling (.retGen b) => (labels, ⟨.suspended false b, u.out ++ [.gotGenerator]⟩)
    -- base.py 77, 82-87: the result is no generator, so labels are dropped
    | .calling (.retHolding b) => ([], ⟨.held b, u.out ++ [.gotHolder]⟩)
    -- `add_label_` = labels_.__setitem__ (base.py 509)
    | .calling (.add l v k) => (Dict.set labels l v, ⟨.calling k, u.out⟩)
    -- `get_by_label_` = labels_.__getitem__ (base.py 510); KeyError is an exception of the call
    | .calling (.get l k) =>
      match Dict.get? labels l with
      | some v => (labels, ⟨.calling (k v), u.out⟩)
      | none => ([], ⟨.over, u.out ++ [.raised]⟩)
    -- base.py 91, 95-99
    | .running .done => ([], ⟨.over, u.out ++ [.stopped]⟩)
    | .running .fail => ([], ⟨.over, u.out ++ [.raised]⟩)
    | .running (.add l v k) => (Dict.set labels l v, ⟨.running k, u.out⟩)
    | .running (.get l k) =>
      match Dict.get? labels l with
      | some v => (labels, ⟨.running (k v), u.out⟩)
      | none => ([], ⟨.over, u.out ++ [.raised]⟩)
    | .running (.yield v k) => (labels, ⟨.suspended true k, u.out ++ [.yielded v]⟩)
    -- the bare generator: nothing cleans up after it
    | .heldRunning .done => (labels, ⟨.over, u.out ++ [.stopped]⟩)
    | .heldRunning .fail => (labels, ⟨.over, u.out ++ [.raised]⟩)
    | .heldRunning (.add l v k) => (Dict.set labels l v, ⟨.heldRunning k, u.out⟩)
    | .heldRunning (.get l k) =>
      match Dict.get? labels l with
      | some v => (labels, ⟨.heldRunning (k v), u.out⟩)
      | none => (labels, ⟨.over, u.out ++ [.raised]⟩)
    | .heldRunning (.yield v k) => (labels, ⟨.held k, u.out ++ [.yielded v]⟩)
    | _ => (labels, u)
  | .next =>
    match u.st with
    | .suspended _ p => (labels, ⟨.running p, u.out⟩)
    | .held p => (labels, ⟨.heldRunning p, u.out⟩)
    | _ => (labels, u)
  | .close =>
    match u.st with
    -- GeneratorExit inside `yield from`: the `finally` of base.py 95-99 runs
    | .suspended true _ => ([], ⟨.over, u.out ++ [.closed]⟩)
    -- closing a generator that was never started does not execute any of its code
    | .suspended false _ => (labels, ⟨.over, u.out ++ [.closed]⟩)
    | .held _ => (labels, ⟨.over, u.out ++ [.closed]⟩)
    | _ => (labels, u)

/-- Client and scheduler events: a new call, or an action on use `i`. -/
inductive Ev (V : Type) where
  | call (p : CallProg V)
  | act (i : Nat) (a : Act)

/-- One event. -/
def step (w : World V) : Ev V → World V
  | .call p => { w with uses := w.uses ++ [⟨.calling p, []⟩] }
  | .act i a =>
    match w.uses[i]? with
    | some u =>
      let (l, u') := act w.labels u a
      ⟨l, w.uses.set i u'⟩
    | none => w

/-- A schedule. -/
def run (w : World V) (es : List (Ev V)) : World V := es.foldl step w

/-- A fresh converter (base.py 503). -/
def init : World V := ⟨[], []⟩

end Verif.Labels
