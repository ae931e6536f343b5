import Verif.Py.Dict

/-!
# Joins

Source: `/repo/src/convtools/joins.py` (all of it) and, for the pieces it is generated from,
`base.py` 1079-1130 (`ConversionWrapper`, `NamedConversion`), 1133-1179 (`And`, `Eq`) and
`aggregations.py` 381-390 (`DictArray`).

`A` is the type of row objects: equality of `A` is object identity.  `V` is the type of the values
computed from rows, compared with Python's `==` (`BEq V`).

Simplifications:
* the conversions of a condition are functions of the rows they mention (they may raise, they have no
  side effects); a condition piped from another conversion is not covered;
* keys are hashable, and `==` on them is what dict lookup uses;
* the resulting generator is consumed to its end;
* the left and the right input are different objects.
-/

set_option autoImplicit false

namespace Verif.Join

open Verif

variable {A V E : Type}

/-- A conversion used in a condition, by the set of names it depends on (`_get_join_deps` 86-92). -/
inductive Term (A V E : Type)
  | neither (v : Except E V)
  | left (f : A → Except E V)
  | right (f : A → Except E V)
  | both (f : A → A → Except E V)

/-- `LEFT_NAME in deps` (86-92). -/
def Term.usesLeft : Term A V E → Bool
  | .neither _ => false
  | .left _ => true
  | .right _ => false
  | .both _ => true

/-- `RIGHT_NAME in deps` (86-92). -/
def Term.usesRight : Term A V E → Bool
  | .neither _ => false
  | .left _ => false
  | .right _ => true
  | .both _ => true

/-- The value for given inputs of the two named conversions (`NamedConversion` 1118-1130). -/
def Term.eval (t : Term A V E) (l r : A) : Except E V :=
  match t with
  | .neither v => v
  | .left f => f l
  | .right f => f r
  | .both f => f l r

/-- A condition: `Eq` (base.py 1173), `And` (1165), or any other conversion. -/
inductive Cond (A V E : Type)
  | eq (args : List (Term A V E))
  | and (args : List (Cond A V E))
  | other (t : Term A V E)

/-- An unsplittable part of a condition. -/
inductive Atom (A V E : Type)
  | eq (args : List (Term A V E))
  | other (t : Term A V E)

/-- The lists of `_JoinConditions` (40-48); hashers are kept as pairs since both lists are always
extended together (110-111). -/
structure Parts (A V E : Type) where
  inner : List (Atom A V E) := []
  leftColl : List (Atom A V E) := []
  leftRow : List (Atom A V E) := []
  rightColl : List (Atom A V E) := []
  rightRow : List (Atom A V E) := []
  hashers : List (Term A V E × Term A V E) := []
  pre : List (Atom A V E) := []

/-- The `how` argument after `"full"` has become `"outer"` (49-57). -/
inductive How
  | inner
  | left
  | right
  | outer
  deriving DecidableEq

/-- `self.left_join` (53). -/
def How.leftJoin : How → Bool
  | .left => true
  | .outer => true
  | _ => false

/-- `self.right_join` (54). -/
def How.rightJoin : How → Bool
  | .right => true
  | .outer => true
  | _ => false

/-- `_add_left_filter` (59-63). -/
def addLeft (how : How) (p : Parts A V E) (a : Atom A V E) : Parts A V E :=
  if how.leftJoin then { p with leftRow := p.leftRow ++ [a] }
  else { p with leftColl := p.leftColl ++ [a] }

/-- `_add_right_filter` (65-69). -/
def addRight (how : How) (p : Parts A V E) (a : Atom A V E) : Parts A V E :=
  if how.rightJoin then { p with rightRow := p.rightRow ++ [a] }
  else { p with rightColl := p.rightColl ++ [a] }

/-- The placement by dependencies shared by `consume_eq` (113-119) and `consume_other` (121-132). -/
def place (how : How) (p : Parts A V E) (a : Atom A V E) (usesLeft usesRight : Bool) : Parts A V E :=
  if usesLeft then addLeft how p a
  else if usesRight then addRight how p a
  else { p with pre := p.pre ++ [a] }

/-- `consume_eq` (94-119). -/
def consumeEq (how : How) (p : Parts A V E) (args : List (Term A V E)) : Parts A V E :=
  match args with
  | [a, b] =>
    if (a.usesLeft && a.usesRight) || (b.usesLeft && b.usesRight) then
      { p with inner := p.inner ++ [.eq args] }
    else if (a.usesLeft || b.usesLeft) && (a.usesRight || b.usesRight) then
      if a.usesLeft then { p with hashers := p.hashers ++ [(a, b)] }
      else { p with hashers := p.hashers ++ [(b, a)] }
    else place how p (.eq args) (a.usesLeft || b.usesLeft) (a.usesRight || b.usesRight)
  | _ => { p with inner := p.inner ++ [.eq args] }

/-- `consume_other` (121-132). -/
def consumeOther (how : How) (p : Parts A V E) (t : Term A V E) : Parts A V E :=
  if t.usesLeft && t.usesRight then { p with inner := p.inner ++ [.other t] }
  else place how p (.other t) t.usesLeft t.usesRight

mutual

/-- The dispatch of `from_condition` (77-82) and of the loop of `consume_and` (139-144). -/
def consume (how : How) : Parts A V E → Cond A V E → Parts A V E
  | p, .eq args => consumeEq how p args
  | p, .and args => consumeAll how p args
  | p, .other t => consumeOther how p t

/-- The loop of `consume_and` (138-144). -/
def consumeAll (how : How) : Parts A V E → List (Cond A V E) → Parts A V E
  | p, [] => p
  | p, c :: cs => consumeAll how (consume how p c) cs

end

/-- `from_condition` (71-84); `none` is the condition `True`. -/
def fromCondition (how : How) : Option (Cond A V E) → Parts A V E
  | none => {}
  | some c => consume how {} c

/-- Values of a chain of arguments `a == b == ...` (base.py 1173-1178): a Python comparison chain
evaluates arguments until a comparison fails. -/
def chainEq [BEq V] (v : V) : List (Except E V) → Except E Bool
  | [] => .ok true
  | .error e :: _ => .error e
  | .ok w :: rest => if v == w then chainEq w rest else .ok false

/-- The truth of an atom for given inputs. -/
def Atom.holds [BEq V] (truthy : V → Bool) (a : Atom A V E) (l r : A) : Except E Bool :=
  match a with
  | .other t =>
    match t.eval l r with
    | .ok v => .ok (truthy v)
    | .error e => .error e
  | .eq [] => .ok true
  | .eq (t :: ts) =>
    match t.eval l r with
    | .ok v => chainEq v (ts.map (fun t => t.eval l r))
    | .error e => .error e

/-- The truth of `And` of atoms (186-191, 209-214, 228-234, 366-371): left to right until one is
false. -/
def allHold [BEq V] (truthy : V → Bool) (l r : A) : List (Atom A V E) → Except E Bool
  | [] => .ok true
  | a :: as =>
    match a.holds truthy l r with
    | .ok true => allHold truthy l r as
    | other => other

/-- `(x for x in xs if p(x))`, consumed. -/
def filterE {B : Type} (p : B → Except E Bool) : List B → Except E (List B)
  | [] => .ok []
  | x :: xs =>
    match p x with
    | .error e => .error e
    | .ok b =>
      match filterE p xs with
      | .error e => .error e
      | .ok ys => .ok (if b then x :: ys else ys)

/-- The key of a row: the hashers of its side, evaluated on the row (250-260): outside of the
`ConversionWrapper` a named conversion takes the current row. -/
def keyOf (ts : List (Term A V E)) (row : A) : Except E (List V) :=
  match ts with
  | [] => .ok []
  | t :: ts =>
    match t.eval row row, keyOf ts row with
    | .ok v, .ok vs => .ok (v :: vs)
    | .error e, _ => .error e
    | _, .error e => .error e

/-- `hash_to_items` (262-271): `DictArray` of (key, row), `{}` for no rows. -/
def hashItems [BEq V] (ts : List (Term A V E)) :
    List (List V × List A) → List A → Except E (List (List V × List A))
  | d, [] => .ok d
  | d, row :: rows =>
    match keyOf ts row with
    | .error e => .error e
    | .ok k => hashItems ts (Dict.set d k ((Dict.get? d k).getD [] ++ [row])) rows

/-- The source of `right_items` (262-283). -/
inductive Source (A V : Type)
  /-- the dict under the label `hash_to_items` -/
  | hashed (d : List (List V × List A))
  /-- a reusable collection under the label `right_collection` -/
  | items (rows : List A)
  /-- an iterator under that label, with what is left in it -/
  | iter (rows : List A)

/-- What iterating `{right_items}` for a left row gives (272-283), and the source afterwards. -/
def Source.take [BEq V] (leftKeys : List (Term A V E)) (src : Source A V) (row : A) :
    Except E (List A × Source A V) :=
  match src with
  | .items rows => .ok (rows, src)
  | .iter rows => .ok (rows, .iter [])
  | .hashed d =>
    match keyOf leftKeys row with
    | .error e => .error e
    | .ok k => .ok ((Dict.get? d k).getD [], src)

/-- The inner generator of one left row: `(right_item for right_item in {right_items} if
{condition})` (289-297, 333-341), where `swapped` exchanges the inputs of the named conversions
(237-247). -/
def matches_ [BEq V] (truthy : V → Bool) (swapped : Bool) (cond : List (Atom A V E)) (row : A)
    (items : List A) : Except E (List A) :=
  filterE (fun item => if swapped then allHold truthy item row cond else allHold truthy row item cond)
    items

/-- The loop over the left rows: every left row with its matching right rows. -/
def rowLoop [BEq V] (truthy : V → Bool) (swapped : Bool) (leftKeys : List (Term A V E))
    (cond : List (Atom A V E)) : Source A V → List A → Except E (List (A × List A))
  | _, [] => .ok []
  | src, row :: rows =>
    match src.take leftKeys row with
    | .error e => .error e
    | .ok (items, src') =>
      match matches_ truthy swapped cond row items with
      | .error e => .error e
      | .ok ms =>
        match rowLoop truthy swapped leftKeys cond src' rows with
        | .error e => .error e
        | .ok out => .ok ((row, ms) :: out)

/-- The pairs of the inner join (288-298). -/
def innerPairs (l : List (A × List A)) : List (A × A) :=
  l.flatMap (fun p => p.2.map (fun r => (p.1, r)))

/-- `_left_joiner` and `_left_joiner_swapped` (302-329). -/
def leftPairs (none_ : A) (swapped : Bool) (l : List (A × List A)) : List (A × A) :=
  l.flatMap (fun p =>
    match p.2 with
    | [] => [if swapped then (none_, p.1) else (p.1, none_)]
    | rs => rs.map (fun r => if swapped then (r, p.1) else (p.1, r)))

/-- `_add_right_part` (347-357): `id()` of everything yielded second, including `None`. -/
def addRightPart [DecidableEq A] (none_ : A) (pairs : List (A × A)) (right : List A) : List (A × A) :=
  pairs ++ (right.filter (fun r => !(pairs.any (fun p => decide (p.2 = r))))).map (fun r => (none_, r))

/-- The generated `join(left, right)` function (183-376) on its own inputs, for the parts of the
condition; `oneShot` tells that the right input is an iterator, `none_` is `None`.  Filters of the
collections are generators: they are evaluated here before the loop, so that for conversions which
raise this is only right about which exceptions are possible, not about how many rows come first. -/
def joinCore [DecidableEq A] [BEq V] (truthy : V → Bool) (none_ : A) (swapped : Bool) (how : How)
    (p : Parts A V E) (left right : List A) (oneShot : Bool) : Except E (List (A × A)) :=
  let rightFilters := if swapped then p.leftColl else p.rightColl
  let leftFilters := if swapped then p.rightColl else p.leftColl
  match allHold truthy none_ none_ p.pre with
  | .error e => .error e
  | .ok false => .ok []
  | .ok true =>
    match filterE (fun r => allHold truthy r r rightFilters) right,
        filterE (fun l => allHold truthy l l leftFilters) left with
    | .error e, _ => .error e
    | _, .error e => .error e
    | .ok right', .ok left' =>
      let oneShot' := (oneShot || !rightFilters.isEmpty) && !decide (how = .outer)
      let plain : Source A V := if oneShot' then .iter right' else .items right'
      let src : Except E (Source A V) :=
        if p.hashers.isEmpty then .ok plain
        else match hashItems (p.hashers.map Prod.snd) [] right' with
          | .error e => .error e
          | .ok d => .ok (.hashed d)
      match src with
      | .error e => .error e
      | .ok src =>
        match rowLoop truthy swapped (p.hashers.map Prod.fst)
            (p.leftRow ++ p.rightRow ++ p.inner) src left' with
        | .error e => .error e
        | .ok l =>
          match how with
          | .inner => .ok (innerPairs l)
          | .outer => .ok (addRightPart none_ (leftPairs none_ swapped l) right')
          | _ => .ok (leftPairs none_ swapped l)

/-- `join` (149-376) applied to its inputs: a right join is a left join with the inputs exchanged
(167-171), the condition split for a left join (173). -/
def joinRows [DecidableEq A] [BEq V] (truthy : V → Bool) (none_ : A) (how : How)
    (cond : Option (Cond A V E)) (left right : List A) (oneShotLeft oneShotRight : Bool) :
    Except E (List (A × A)) :=
  if how = .right then
    joinCore truthy none_ true .left (fromCondition .left cond) right left oneShotLeft
  else
    joinCore truthy none_ false how (fromCondition how cond) left right oneShotRight

end Verif.Join
