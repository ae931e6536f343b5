import Mathlib.Data.Nat.Notation
/-!
# Model of the filter methods, and C55: filters keep exactly the items which pass

(src/convtools/base.py 731-733, 1393-1415, 1487-1501; src/convtools/aggregations.py 1021-1027)

Conversions of collections are modelled by what they make of their input: items are values of a type
`V`, the functions used as items and conditions have no effects (effects: `C23`, `C54`), a result is a
collection with its items in order.
-/
set_option autoImplicit false

namespace Verif.Lazy

variable {V : Type} [DecidableEq V]

/-- Results: the type of a collection and its items; a set is given by its elements in the order of
their insertion. -/
inductive Coll (V : Type) where
  | gen (xs : List V)
  | list (xs : List V)
  | tuple (xs : List V)
  | set (xs : List V)
  /-- what a callable `cast` made of a generator of these items -/
  | cast (name : String) (xs : List V)
  deriving DecidableEq

/-- The items one gets by iterating a collection. -/
def Coll.items : Coll V → List V
  | .gen xs => xs
  | .list xs => xs
  | .tuple xs => xs
  | .set xs => xs
  | .cast _ xs => xs

/-- The classes of comprehensions of single items (base.py 1556-1599). -/
inductive CompKind where
  | gen
  | list
  | tuple
  | set
  deriving DecidableEq

/-- The first occurrences of the elements: what insertion into a set leaves, in insertion order. -/
def firsts : List V → List V
  | [] => []
  | x :: xs => x :: (firsts xs).filter (· ≠ x)

/-- `gen_comprehension_pre_sort` (base.py 1559-1595). -/
def CompKind.build : CompKind → List V → Coll V
  | .gen, xs => .gen xs
  | .list, xs => .list xs
  | .tuple, xs => .tuple xs
  | .set, xs => .set (firsts xs)

/-- Conversions whose results are collections. -/
inductive Conv (V : Type) where
  /-- any conversion without a `filter` method of its own (its meaning is the function) -/
  | other (f : List V → Coll V)
  /-- `GroupBy` (aggregations.py 1021-1027): as `other`, but filtering gives a list by default -/
  | groupBy (f : List V → Coll V)
  /-- a comprehension (base.py 1469-1485) with its input (`_predefined_input`) if it has one -/
  | comp (k : CompKind) (item : V → V) (cond : Option (V → Bool)) (input : Option (Conv V))
  /-- `NaiveConversion(cast).call(gen)` (base.py 1412-1414) -/
  | call (name : String) (arg : Conv V)

/-- The `cast` argument of `filter` (base.py 1393-1415): `None`, the three types, another callable,
something else; `absent` is the default of `GroupBy.filter`. -/
inductive Cast where
  | absent
  | none
  | list
  | tuple
  | set
  | fn (name : String)
  | bad
  deriving DecidableEq

/-- What the methods raise. -/
inductive Err where
  /-- `cannot cast generator to cast=…` (base.py 1415) -/
  | assertion
  /-- `filter() got an unexpected keyword argument 'cast'` -/
  | typeError
  deriving DecidableEq

/-- `Filter` (base.py 1393-1415); `input` is the `_predefined_input` of its `kwargs`.  The
comprehension's own `filter` sets the condition (1497-1501). -/
def filterFn (cond : V → Bool) (cast : Cast) (input : Option (Conv V)) : Except Err (Conv V) :=
  match cast with
  | .absent => .ok (.comp .gen id (some cond) input)
  | .none => .ok (.comp .gen id (some cond) input)
  | .list => .ok (.comp .list id (some cond) input)
  | .tuple => .ok (.comp .tuple id (some cond) input)
  | .set => .ok (.comp .set id (some cond) input)
  | .fn name => .ok (.call name (.comp .gen id (some cond) input))
  | .bad => .error .assertion

/-- The method `filter`: of comprehensions (base.py 1487-1501, which takes no `cast` and replaces the
condition), of `GroupBy` (aggregations.py 1021-1027), and of all others (base.py 731-733). -/
def Conv.filter : Conv V → (V → Bool) → Cast → Except Err (Conv V)
  | .comp k item _ input, cond, .absent => .ok (.comp k item (some cond) input)
  | .comp _ _ _ _, _, _ => .error .typeError
  | .groupBy f, cond, .absent => filterFn cond .list (some (.groupBy f))
  | c, cond, cast => filterFn cond cast (some c)

/-- The result for an input collection with the items `xs` (base.py 1519-1535: the comprehension runs over
its predefined input if it has one). -/
def Conv.eval : Conv V → List V → Coll V
  | .other f, xs => f xs
  | .groupBy f, xs => f xs
  | .comp k item cond input, xs =>
    let src := match input with
      | some c => (c.eval xs).items
      | none => xs
    k.build ((src.filter fun x => match cond with | some p => p x | none => true).map item)
  | .call name arg, xs => .cast name (arg.eval xs).items

/-- A conversion that is no comprehension. -/
def Conv.Plain : Conv V → Prop
  | .comp _ _ _ _ => False
  | _ => True

/-- The type of the result asked for by `cast`. -/
def Cast.wants : Cast → List V → Coll V
  | .absent, xs => .gen xs
  | .none, xs => .gen xs
  | .list, xs => .list xs
  | .tuple, xs => .tuple xs
  | .set, xs => .set (firsts xs)
  | .fn name, xs => .cast name xs
  | .bad, xs => .gen xs

/-- C55: `c.filter(cond, cast)` is rejected iff `cast` is neither `None` nor callable; otherwise it gives
exactly the items of its input which pass, in order, in the wanted collection. -/
theorem C55_filter (cond : V → Bool) (cast : Cast) (xs : List V) :
    (cast = .bad → filterFn cond cast none = .error .assertion) ∧
    (cast ≠ .bad → ∃ d, filterFn cond cast none = .ok d ∧
      d.eval xs = cast.wants (xs.filter cond)) := by
  cases cast <;> simp [filterFn, Conv.eval, Cast.wants, CompKind.build, Coll.items]

/-- C55: filtering the result of a conversion which is no comprehension gives exactly the items of that
result which pass, in order; the result is a generator by default, a list for `group_by`. -/
theorem C55_method (c : Conv V) (hc : c.Plain) (cond : V → Bool) (cast : Cast) (hb : cast ≠ .bad)
    (xs : List V) : ∃ d, c.filter cond cast = .ok d ∧
      (d.eval xs).items = ((if cast = .set then firsts else id) ((c.eval xs).items.filter cond)) ∧
      (cast ≠ .absent → d.eval xs = cast.wants ((c.eval xs).items.filter cond)) ∧
      (cast = .absent → d.eval xs = (match c with
        | .groupBy _ => .list ((c.eval xs).items.filter cond)
        | _ => .gen ((c.eval xs).items.filter cond))) := by
  cases c with
  | comp k i p inp => exact hc.elim
  | other f =>
    cases cast <;> first
      | exact absurd rfl hb
      | simp [Conv.filter, filterFn, Conv.eval, Cast.wants, CompKind.build, Coll.items]
  | groupBy f =>
    cases cast <;> first
      | exact absurd rfl hb
      | simp [Conv.filter, filterFn, Conv.eval, Cast.wants, CompKind.build, Coll.items]
  | call n a =>
    cases cast <;> first
      | exact absurd rfl hb
      | simp [Conv.filter, filterFn, Conv.eval, Cast.wants, CompKind.build, Coll.items]

/-- C55: `filter` of a comprehension without a condition restricts the elements which the comprehension
runs over. -/
theorem C55_comprehension_partial (k : CompKind) (item : V → V) (input : Option (Conv V))
    (cond : V → Bool) (xs : List V) : ∃ d, (Conv.comp k item none input).filter cond .absent = .ok d ∧
      d.eval xs = k.build (((match input with
        | some c => (c.eval xs).items
        | none => xs).filter cond).map item) := by
  refine ⟨_, rfl, ?_⟩
  cases input <;> simp [Conv.eval]

theorem filter_all (xs : List V) : xs.filter (fun _ => true) = xs := List.filter_eq_self.2 fun _ _ => rfl

/-- C55: a comprehension which was never filtered runs over all elements; filtering it by `cond` is filtering them. -/
theorem C55_unfiltered (k : CompKind) (item : V → V) (c : Conv V) (cond : V → Bool) (xs : List V) :
    (Conv.comp k item none (some c)).eval xs = k.build ((c.eval xs).items.map item) ∧
    (Conv.comp k item none none).eval xs = k.build (xs.map item) ∧
    ∃ d, (Conv.comp .gen id none (some c)).filter cond .absent = .ok d ∧
      (d.eval xs).items = ((Conv.comp .gen id none (some c)).eval xs).items.filter cond := by
  refine ⟨by simp [Conv.eval, filter_all], by simp [Conv.eval, filter_all], _, rfl, ?_⟩
  simp [Conv.eval, CompKind.build, Coll.items, filter_all]

/-- What a set keeps: every element, once, in the order in which the elements come first. -/
theorem firsts_spec : ∀ xs : List V,
    (∀ x, x ∈ firsts xs ↔ x ∈ xs) ∧ (firsts xs).Nodup ∧ (firsts xs).Sublist xs ∧
      ∀ ys, firsts (xs ++ ys) = firsts xs ++ (firsts ys).filter (fun y => y ∉ xs)
  | [] => by simp [firsts, filter_all]
  | x :: xs => by
    obtain ⟨h1, h2, h3, h4⟩ := firsts_spec xs
    refine ⟨fun y => ?_, ?_, ?_, fun ys => ?_⟩
    · simp only [firsts, List.mem_cons, List.mem_filter, h1, decide_eq_true_eq]
      by_cases h : y = x <;> simp [h]
    · simp only [firsts, List.nodup_cons, List.mem_filter]
      exact ⟨by simp, h2.filter _⟩
    · exact (List.filter_sublist.trans h3).cons_cons x
    · simp only [List.cons_append, firsts, h4, List.filter_append, List.filter_filter]
      congr 2
      apply List.filter_congr
      intro y _
      simp [List.mem_cons, not_or, Bool.and_comm]

example : firsts [2, 1, 2, 3, 1] = [2, 1, 3] := by decide

/-- **C55 is violated** by filtering twice: `c.filter(p).filter(q)` forgets `p`, as the second call is
the method of the comprehension made by the first and replaces its condition. -/
theorem C55_refuted_twice : ∃ (p q : ℕ → Bool) (xs : List ℕ) (d e : Conv ℕ),
    filterFn p .none none = .ok d ∧ d.filter q .absent = .ok e ∧
    ¬ (∀ x ∈ (e.eval xs).items, p x) ∧
    (e.eval xs).items ≠ (d.eval xs).items.filter q := by
  refine ⟨(· > 1), (· < 5), [0, 3, 7], _, _, rfl, rfl, ?_, ?_⟩ <;> decide

/-- **C55 is violated** by the argument `cast` of `filter`: it is accepted for every conversion but
comprehensions, although filtering a conversion makes a comprehension: `c.this().filter(p).filter(q,
cast=list)` raises `TypeError`. -/
theorem C55_refuted_cast : ∃ (p q : ℕ → Bool) (d : Conv ℕ),
    (Conv.other .list).filter p .none = .ok d ∧ d.filter q .list = .error .typeError :=
  ⟨fun _ => true, fun _ => true, _, rfl, rfl⟩

/-- A filter over a plain conversion which gives a tuple. -/
example : ∃ d, (Conv.other (V := ℕ) fun xs => .list (xs.map (2 * ·))).filter (· > 3) .tuple = .ok d ∧
    d.eval [1, 2, 3] = .tuple [4, 6] := ⟨_, rfl, by decide⟩

/-- Filtering twice works if the first result was cast by a callable. -/
example : ∃ d e, (Conv.other (V := ℕ) .list).filter (· > 1) (.fn "list_") = .ok d ∧
    d.filter (· < 5) .list = .ok e ∧ e.eval [0, 3, 7] = .list [3] := ⟨_, _, rfl, rfl, by decide⟩

end Verif.Lazy
