import Verif.Reducers.Model
import Verif.Agg.Spec

/-!
# What the reducers should compute

Stated on the plain list of the values (or key-value pairs) of the rows that reach the reduce.
-/

set_option autoImplicit false

namespace Verif.Reducers

open Verif

variable {R V E : Type}

/-- The result of one reduce over rows: `Agg.alone` is what `group_by` and `aggregate` compute for it
(C33, C34), then default and post conversion apply. -/
def outcome (condSem : String → R → Except E Bool) (rd : Reducer V E) (default : Option (Slot V))
    (hash : String) (cond : Option String) (initial : Option V) (x y : R → Except E V)
    (rows : List R) : Except E (Option (Slot V)) :=
  match Agg.alone condSem (redOf rd hash cond initial x y) rows with
  | .ok slot => resultOf rd default slot
  | .error e => .error e

/-- The rows reaching a reduce are `kept`, and an expression has the values `vs` there. -/
def Reach (condSem : String → R → Except E Bool) (cond : Option String) (rows : List R)
    (x : R → Except E V) (vs : List V) : Prop :=
  ∃ kept, Agg.passing condSem cond rows = .ok kept ∧ kept.map x = vs.map .ok

/-- The same for a pair of expressions. -/
def Reach2 (condSem : String → R → Except E Bool) (cond : Option String) (rows : List R)
    (x y : R → Except E V) (ps : List (V × V)) : Prop :=
  ∃ kept, Agg.passing condSem cond rows = .ok kept ∧
    kept.map (fun r => (x r, y r)) = ps.map (fun p => (.ok p.1, .ok p.2))

/-- Python integers and `None` among the values. -/
structure Ints (ops : Ops V E) where
  ofInt : Int → V
  ofInt_inj : ∀ a b, ofInt a = ofInt b → a = b
  zero : ops.zero = ofInt 0
  notNone : ∀ n, ops.isNone (ofInt n) = false
  none : ops.isNone ops.none = true
  noneUnique : ∀ v, ops.isNone v = true → v = ops.none
  noneFalsy : ops.truthy ops.none = false
  truthy : ∀ n, ops.truthy (ofInt n) = decide (n ≠ 0)
  add : ∀ a b, ops.add (ofInt a) (ofInt b) = .ok (ofInt (a + b))

/-- What a reduce shows: its default if no row reached it, otherwise its result. -/
def shown {A : Type} (vs : List A) (default : Option (Slot V)) (own result : Slot V) : Slot V :=
  match vs with
  | [] => default.getD own
  | _ => result

/-- A value counts as `n` in a sum: it is the integer `n`, or it is falsy and `n` is 0. -/
def Counts {ops : Ops V E} (I : Ints ops) (v : V) (n : Int) : Prop :=
  v = I.ofInt n ∨ (ops.truthy v = false ∧ n = 0)

/-- `m` is the first best of a list: it beats everything before it and nothing after it beats it. -/
def FirstBest {A : Type} (better : A → A → Prop) (l : List A) (m : A) : Prop :=
  ∃ pre post, l = pre ++ m :: post ∧ (∀ a ∈ pre, better m a) ∧ ∀ a ∈ post, ¬ better a m

/-- On the values satisfying `P` a comparison decides a strict weak order (as on numbers or on
strings; `None` and other incomparable values are outside `P`). -/
structure Order (P : V → Prop) (cmp : V → V → Except E Bool) (better : V → V → Prop) : Prop where
  total : ∀ a b, P a → P b →
    (better a b ∧ cmp a b = .ok true) ∨ (¬ better a b ∧ cmp a b = .ok false)
  trans : ∀ a b c, P a → P b → P c → better a b → better b c → better a c
  weak : ∀ a b c, P a → P b → P c → better a b → better a c ∨ better c b

/-- The values with key `k`, in order. -/
def valuesAt [BEq V] (k : V) (ps : List (V × V)) : List V :=
  (ps.filter (fun p => p.1 == k)).map Prod.snd

/-- A dict with exactly the distinct keys of the pairs in order of first appearance. -/
def perKey {S : Type} [BEq V] (ps : List (V × V)) (f : List V → S) : List (V × S) :=
  (Agg.firstSeen (ps.map Prod.fst)).map (fun k => (k, f (valuesAt k ps)))

end Verif.Reducers
