import Mathlib.Data.Nat.Notation
/-!
# Model of generator comprehensions: chained Python generators
(src/convtools/base.py 1527-1535 and 1556-1560)

`GeneratorComp` gives the code `(item for i in input if cond)`; piping one generator comprehension
into another gives generators whose inputs are generators.  A generator is a suspended loop: it is
modelled by its stage (the functions of its item and condition code) and whether it is finished.  The
functions and the input change an arbitrary state `σ` (calls made, labels, the position of the
input's iterator, …) and may raise; the input may be infinite.  As the loop inside a generator need
not end, the functions here have fuel and give `none` if it is used up.

Not modelled: re-entrant use of a running generator ("generator already executing"), `send`, `throw`
and `close` (see `Labels` for closing).
-/
set_option autoImplicit false

namespace Verif.Lazy

variable {σ V E : Type}

/-- What `next(it)` gives. -/
inductive Pull (V E : Type) where
  | yield (v : V)
  | stop
  | raise (e : E)
  deriving DecidableEq

/-- The code of one generator comprehension (base.py 1527-1535): its item, and the condition if there
is one; both get the value of the loop variable. -/
structure Stage (σ V E : Type) where
  item : V → σ → Except E V × σ
  cond : Option (V → σ → Except E Bool × σ)

/-- `if {condition_code}` (base.py 1530-1534). -/
def Stage.test (g : Stage σ V E) (v : V) (w : σ) : Except E Bool × σ :=
  match g.cond with
  | none => (.ok true, w)
  | some c => c v w

/-- Generators, the outermost first: each has its stage and whether it is finished. -/
abbrev Gens (σ V E : Type) := List (Stage σ V E × Bool)

/-- `(item for i in input if cond)` evaluated (base.py 1556-1560): Python calls `iter` on the input of the
innermost generator at once (`iter` of a generator is the generator); nothing else runs. -/
def create (iter : σ → Except E Unit × σ) (stages : List (Stage σ V E)) (w : σ) :
    Except E (Gens σ V E) × σ :=
  match iter w with
  | (.ok (), w') => (.ok (stages.map fun g => (g, false)), w')
  | (.error e, w') => (.error e, w')

/-- `next` of the outermost generator (base.py 1527-1535: `for`, `if`, item); `pull` is `next` of the
innermost generator's input.  A generator is finished when its loop ends or an exception leaves it. -/
def next (pull : σ → Pull V E × σ) : ℕ → Gens σ V E → σ → Option (Pull V E × Gens σ V E × σ)
  | 0, _, _ => none
  | _ + 1, [], w => some ((pull w).1, [], (pull w).2)
  | _ + 1, (g, true) :: gs, w => some (.stop, (g, true) :: gs, w)
  | n + 1, (g, false) :: gs, w =>
    match next pull n gs w with
    | none => none
    | some (.stop, gs', w1) => some (.stop, (g, true) :: gs', w1)
    | some (.raise e, gs', w1) => some (.raise e, (g, true) :: gs', w1)
    | some (.yield v, gs', w1) =>
      match g.test v w1 with
      | (.error e, w2) => some (.raise e, (g, true) :: gs', w2)
      | (.ok false, w2) => next pull n ((g, false) :: gs') w2
      | (.ok true, w2) =>
        match g.item v w2 with
        | (.error e, w3) => some (.raise e, (g, true) :: gs', w3)
        | (.ok u, w3) => some (.yield u, (g, false) :: gs', w3)

/-- A client calling `next` `k` times (on what base.py 1556-1560 returns), going on after exceptions and
`StopIteration`. -/
def takes (pull : σ → Pull V E × σ) (n : ℕ) :
    ℕ → Gens σ V E → σ → Option (List (Pull V E) × Gens σ V E × σ)
  | 0, gs, w => some ([], gs, w)
  | k + 1, gs, w =>
    match next pull n gs w with
    | none => none
    | some (r, gs1, w1) =>
      match takes pull n k gs1 w1 with
      | none => none
      | some (rs, gs2, w2) => some (r :: rs, gs2, w2)

end Verif.Lazy
