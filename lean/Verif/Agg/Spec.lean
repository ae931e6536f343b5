import Verif.Agg.Model

/-!
# What an aggregation should compute

Each reduce on its own, over a plain list of rows; groups by first appearance of their key.
Nothing here mentions blocks, merging, checksums or the dictionary of groups.
-/
set_option autoImplicit false

namespace Verif.Agg

variable {R V E K : Type}

/-- The rows that pass the filter of a reduce, in order. -/
def passing (condSem : String → R → Except E Bool) (cond : Option String) :
    List R → Except E (List R)
  | [] => .ok []
  | row :: rows =>
    match condHolds condSem row cond, passing condSem cond rows with
    | .ok true, .ok kept => .ok (row :: kept)
    | .ok false, .ok kept => .ok kept
    | .error e, _ => .error e
    | _, .error e => .error e

/-- A reduce folded over rows: while nothing has been accumulated the starting code applies,
afterwards the combining code. -/
def foldRows (r : Red R V E) : Option V → List R → Except E (Option V)
  | v, [] => .ok v
  | none, row :: rows =>
    match r.init row none with
    | .ok v => foldRows r v rows
    | .error e => .error e
  | some x, row :: rows =>
    match r.two row (some x) with
    | .ok v => foldRows r v rows
    | .error e => .error e

/-- The reduce computed alone over the rows. -/
def alone (condSem : String → R → Except E Bool) (r : Red R V E) (rows : List R) :
    Except E (Option V) :=
  match passing condSem r.cond rows with
  | .ok kept => foldRows r none kept
  | .error e => .error e

/-- Every reduce computed alone over the rows. -/
def allAlone (condSem : String → R → Except E Bool) (rows : List R) :
    List (Red R V E) → Except E (List (Option V))
  | [] => .ok []
  | r :: rs =>
    match alone condSem r rows, allAlone condSem rows rs with
    | .ok v, .ok vs => .ok (v :: vs)
    | .error e, _ => .error e
    | _, .error e => .error e

/-- The keys of all rows. -/
def keysOf (keyOf : R → Except E K) : List R → Except E (List K)
  | [] => .ok []
  | row :: rows =>
    match keyOf row, keysOf keyOf rows with
    | .ok k, .ok ks => .ok (k :: ks)
    | .error e, _ => .error e
    | _, .error e => .error e

/-- Distinct keys in order of first appearance. -/
def firstSeen [BEq K] : List K → List K
  | [] => []
  | k :: ks => k :: (firstSeen ks).filter (fun k' => !(k == k'))

/-- The rows whose key equals `k`, in input order. -/
def rowsWith [BEq K] (keyOf : R → Except E K) (k : K) (rows : List R) : List R :=
  rows.filter (fun row => match keyOf row with | .ok k' => k' == k | .error _ => false)

/-- For every given key the reduces computed alone over the rows with that key. -/
def eachGroup [BEq K] (condSem : String → R → Except E Bool) (keyOf : R → Except E K)
    (rs : List (Red R V E)) (rows : List R) : List K → Except E (List (K × List (Option V)))
  | [] => .ok []
  | k :: ks =>
    match allAlone condSem (rowsWith keyOf k rows) rs,
        eachGroup condSem keyOf rs rows ks with
    | .ok vs, .ok out => .ok ((k, vs) :: out)
    | .error e, _ => .error e
    | _, .error e => .error e

/-- What `group_by(...).aggregate(...)` should give: one entry per distinct key in order of first
appearance, with every reduce computed alone over the rows of that key. -/
def groupSpec [BEq K] (condSem : String → R → Except E Bool) (keyOf : R → Except E K)
    (rs : List (Red R V E)) (rows : List R) : Except E (List (K × List (Option V))) :=
  match keysOf keyOf rows with
  | .ok ks => eachGroup condSem keyOf rs rows (firstSeen ks)
  | .error e => .error e

/-- Unconditional initialisation really initialises: a reduce flagged `unconditional_init` leaves a
value in its slot on its first row. -/
def Inits (r : Red R V E) : Prop :=
  r.uncond = true → ∀ row v, r.init row none = .ok v → v ≠ none

/-- Combining never loses the accumulated value. -/
def Keeps (r : Red R V E) : Prop :=
  ∀ row x v, r.two row (some x) = .ok v → v ≠ none

/-- Reduces sharing a hash are the same reduction under the same filter. -/
def Faithful (rs : List (Red R V E)) : Prop :=
  ∀ r ∈ rs, ∀ r' ∈ rs, r.hash = r'.hash →
    r.cond = r'.cond ∧ r.init = r'.init ∧ r.two = r'.two

end Verif.Agg
