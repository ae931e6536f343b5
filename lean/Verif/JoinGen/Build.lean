import Verif.JoinGen.Model

/-!
# The code of a join from its condition

`joins.py` 173-247: which lists of `_JoinConditions` become which pieces of the code.  The conversions of
the condition are the functions of `Join/Model.lean` (without effects); the inputs are lists, or iterators
over lists, and the state holds what is left in the iterators.
-/

set_option autoImplicit false

namespace Verif.JoinGen

open Verif Verif.Lazy Verif.Join

variable {A V E : Type}

/-- What is left of the inputs, and the pairs the client has got (not in the code: the client of
joins.py 285-362). -/
structure St (A : Type) where
  left : List A
  right : List A
  out : List (A × A)
  deriving DecidableEq

/-- `next` of the iterator of the left input (joins.py 202, 290, 338). -/
def popLeft (w : St A) : Pull A E × St A :=
  match w.left with
  | [] => (.stop, w)
  | l :: ls => (.yield l, { w with left := ls })

/-- `next` of the iterator of the right input (joins.py 178, 283). -/
def popRight (w : St A) : Pull A E × St A :=
  match w.right with
  | [] => (.stop, w)
  | r :: rs => (.yield r, { w with right := rs })

/-- `And(...)` of a list of filters on one row, if there are any (joins.py 184-197, 208-220). -/
def filterOf [BEq V] (truthy : V → Bool) (as : List (Atom A V E)) :
    Option (A → St A → Except E Bool × St A) :=
  if as.isEmpty then none else some fun x w => (allHold truthy x x as, w)

/-- The code of a join from the parts of its condition (joins.py 167-376); `right` are the rows of the
right side of the loop, `oneShot` tells that it is an iterator. -/
def build [BEq V] (truthy : V → Bool) (none_ : A) (kind : Kind) (p : Parts A V E) (right : List A)
    (oneShot : Bool) : Code (St A) A (List V) E where
  kind := kind
  pullL := popLeft
  pullR := popRight
  rows := if oneShot then none else some right
  pre := if p.pre.isEmpty then none else some fun w => (allHold truthy none_ none_ p.pre, w)
  leftFilter := filterOf truthy (if kind = .left true then p.rightColl else p.leftColl)
  rightFilter := filterOf truthy (if kind = .left true then p.leftColl else p.rightColl)
  keys := if p.hashers.isEmpty then none else
    some (fun l w => (keyOf (p.hashers.map Prod.fst) l, w),
      fun r w => (keyOf (p.hashers.map Prod.snd) r, w))
  cond := if (p.leftRow ++ p.rightRow ++ p.inner).isEmpty then none else
    some fun l r w =>
      (if kind = .left true then allHold truthy r l (p.leftRow ++ p.rightRow ++ p.inner)
        else allHold truthy l r (p.leftRow ++ p.rightRow ++ p.inner), w)
  none_ := none_

/-- The kind of the code and the way the condition is split (joins.py 167-173). -/
def kindOf : How → Kind
  | .inner => .inner
  | .left => .left false
  | .right => .left true
  | .outer => .outer

/-- `join` (joins.py 149-376): for a right join the sides are exchanged. -/
def joinCode [BEq V] (truthy : V → Bool) (none_ : A) (how : How) (cond : Option (Cond A V E))
    (left right : List A) (oneShotLeft oneShotRight : Bool) : Code (St A) A (List V) E × St A :=
  if how = .right then
    (build truthy none_ (.left true) (fromCondition .left cond) left oneShotLeft, ⟨right, left, []⟩)
  else
    (build truthy none_ (kindOf how) (fromCondition how cond) right oneShotRight, ⟨left, right, []⟩)

/-- A client that collects the pairs (of joins.py 285-362). -/
def keep (p : A × A) (w : St A) : Flow E × St A := (.go, { w with out := w.out ++ [p] })

end Verif.JoinGen
