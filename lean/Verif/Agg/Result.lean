import Verif.Agg.Model
import Verif.Py.Sort

/-!
# Aggregations: the container of the reduces, the list of results and its sorting

Source: `/repo/src/convtools/aggregations.py` lines 753-785, 1029-1035, 1119-1142, 1226-1236.
-/
set_option autoImplicit false

namespace Verif.Agg

variable {R V E K W C : Type}

/-- The lines of `__init__` in the class `AggData` (1129-1134). -/
def initLines (n : Nat) : List String :=
  (List.range n).map (fun i => "        self.v" ++ toString i ++ " = _none")

/-- The text of the class is compiled (`_gen_agg_data_container` 1126-1142): a method without lines is a syntax error.
In `c.aggregate` the line `{} = _none` (1207-1210), with no variable on its left, is a syntax error as well. -/
def compiles (number : Nat) : Bool := !(initLines number).isEmpty

/-- `sort_key` and `sort_key_reverse` (983-984, 1029-1035): `False` means that `sort` has not been called. -/
inductive SortKey (W C E : Type)
  | off
  | by (key : W → Except E C) (reverse : Bool)

/-- Applied to each element, the first exception is raised. -/
def mapAll {A B : Type} (f : A → Except E B) : List A → Except E (List B)
  | [] => .ok []
  | a :: as =>
    match f a with
    | .error e => .error e
    | .ok b =>
      match mapAll f as with
      | .error e => .error e
      | .ok bs => .ok (b :: bs)

/-- `result_.sort(key=…, reverse=…)` (1226-1233): `list.sort` takes the keys of all elements first.  Simplification:
comparisons of keys (`lt`) do not raise. -/
def listSort (lt : C → C → Bool) (key : W → Except E C) (reverse : Bool) (xs : List W) : Except E (List W) :=
  match mapAll key xs with
  | .error e => .error e
  | .ok cs => .ok ((PySort.pySorted (fun a b => lt a.1 b.1) reverse (cs.zip xs)).map Prod.snd)

/-- The line `{code_sorting}` of the templates (764, 783). -/
def sortResult (lt : C → C → Bool) : SortKey W C E → List W → Except E (List W)
  | .off, xs => .ok xs
  | .by key reverse, xs => listSort lt key reverse xs

/-- `group_by(...).aggregate(...).sort(...)` (GROUPER_TEMPLATE 753-766): `none` if the code is not accepted by Python,
otherwise what the compiled function does. `result` is the result expression, given the key and the values of the
reduces (1120-1124). -/
def groupByCode [BEq K] (condSem : String → R → Except E Bool) (keyOf : R → Except E K) (rs : List (Red R V E))
    (result : K → List (Option V) → Except E W) (lt : C → C → Bool) (sort : SortKey W C E) :
    Option (List R → Except E (List W)) :=
  if compiles (compile false rs).items.length then
    some fun rows =>
      match groupBy condSem keyOf rs rows with
      | .error e => .error e
      | .ok groups =>
        match mapAll (fun g => result g.1 g.2) groups with
        | .error e => .error e
        | .ok xs => sortResult lt sort xs
  else none

/-- `c.aggregate(...)` (AGGREGATE_TEMPLATE 768-785), without `sort`. -/
def aggregateCode (condSem : String → R → Except E Bool) (rs : List (Red R V E))
    (result : List (Option V) → Except E W) : Option (List R → Except E W) :=
  if compiles (compile true rs).items.length then
    some fun rows =>
      match aggregate condSem rs rows with
      | .error e => .error e
      | .ok vs => result vs
  else none

end Verif.Agg
