import Verif.Join.Model

/-!
# What joins should give

Nested loops over plain lists with the condition evaluated for the pair as a whole.  Nothing here
mentions the splitting of the condition, hashing, labels or iterators.
-/

set_option autoImplicit false

namespace Verif.Join

open Verif

variable {A V E : Type}

mutual

/-- The truth of a condition for a pair: Python's short-circuiting `and`, chained `==`. -/
def Cond.sat [BEq V] (truthy : V → Bool) (l r : A) : Cond A V E → Except E Bool
  | .eq args => Atom.holds truthy (.eq args) l r
  | .other t => Atom.holds truthy (.other t) l r
  | .and cs => satAll truthy l r cs

/-- `and` of conditions. -/
def satAll [BEq V] (truthy : V → Bool) (l r : A) : List (Cond A V E) → Except E Bool
  | [] => .ok true
  | c :: cs =>
    match c.sat truthy l r with
    | .ok true => satAll truthy l r cs
    | other => other

end

/-- The truth of the `condition` argument; `none` is `True`. -/
def satOpt [BEq V] (truthy : V → Bool) (l r : A) : Option (Cond A V E) → Except E Bool
  | none => .ok true
  | some c => c.sat truthy l r

/-- The pair matches. -/
def matchB [BEq V] (truthy : V → Bool) (c : Option (Cond A V E)) (l r : A) : Bool :=
  match satOpt truthy l r c with
  | .ok b => b
  | .error _ => false

/-- All matching pairs by left position, then right position. -/
def innerSpec (m : A → A → Bool) (left right : List A) : List (A × A) :=
  left.flatMap (fun l => (right.filter (m l)).map (fun r => (l, r)))

/-- For every left row its matching pairs, or the row with `None`. -/
def leftSpec (none_ : A) (m : A → A → Bool) (left right : List A) : List (A × A) :=
  left.flatMap (fun l =>
    if right.any (m l) then (right.filter (m l)).map (fun r => (l, r)) else [(l, none_)])

/-- For every right row its matching pairs, or `None` with the row. -/
def rightSpec (none_ : A) (m : A → A → Bool) (left right : List A) : List (A × A) :=
  right.flatMap (fun r =>
    if left.any (fun l => m l r) then (left.filter (fun l => m l r)).map (fun l => (l, r))
    else [(none_, r)])

/-- The left join followed by the right rows that match no left row. -/
def outerSpec (none_ : A) (m : A → A → Bool) (left right : List A) : List (A × A) :=
  leftSpec none_ m left right ++
    (right.filter (fun r => !left.any (fun l => m l r))).map (fun r => (none_, r))

mutual

/-- The conjuncts of a condition. -/
def Cond.conjuncts : Cond A V E → List (Atom A V E)
  | .eq args => [.eq args]
  | .other t => [.other t]
  | .and cs => conjunctsAll cs

/-- The conjuncts of several conditions. -/
def conjunctsAll : List (Cond A V E) → List (Atom A V E)
  | [] => []
  | c :: cs => c.conjuncts ++ conjunctsAll cs

end

/-- The conjuncts of the `condition` argument. -/
def conjunctsOpt : Option (Cond A V E) → List (Atom A V E)
  | none => []
  | some c => c.conjuncts

/-- The conversions an atom is made of. -/
def Atom.terms : Atom A V E → List (Term A V E)
  | .eq args => args
  | .other t => [t]

/-- A conjunct `f(left) == g(right)`, or the other way round. -/
def Atom.isKey : Atom A V E → Bool
  | .eq [.left _, .right _] => true
  | .eq [.right _, .left _] => true
  | _ => false

/-- A conjunct `f(left) == f(right)`: the same computation on both sides. -/
def Atom.SameKey : Atom A V E → Prop
  | .eq [.left f, .right g] => f = g
  | .eq [.right f, .left g] => f = g
  | _ => True

/-- A conjunct of one condition (an `Eq` of two arguments, or another conversion) mentioning the
right row and not the left row. -/
def Atom.rightOnly : Atom A V E → Bool
  | .eq [a, b] => (a.usesRight || b.usesRight) && !(a.usesLeft || b.usesLeft)
  | .other t => t.usesRight && !t.usesLeft
  | _ => false

/-- A conjunct mentioning neither row. -/
def Atom.isConst : Atom A V E → Bool
  | .eq [a, b] => !(a.usesRight || b.usesRight) && !(a.usesLeft || b.usesLeft)
  | .other t => !t.usesRight && !t.usesLeft
  | _ => false

/-- A conversion raises on none of the rows. -/
def Term.Safe (left right : List A) : Term A V E → Prop
  | .neither v => ∃ w, v = .ok w
  | .left f => ∀ l ∈ left, ∃ w, f l = .ok w
  | .right f => ∀ r ∈ right, ∃ w, f r = .ok w
  | .both f => ∀ l ∈ left, ∀ r ∈ right, ∃ w, f l r = .ok w

/-- No conversion of a condition raises on the rows. -/
def Safe (left right : List A) (c : Option (Cond A V E)) : Prop :=
  ∀ a ∈ conjunctsOpt c, ∀ t ∈ a.terms, t.Safe left right

end Verif.Join
