import Verif.Join.Model
import Verif.Lazy.Model

/-!
# Joins as running generators

Source: `/repo/src/convtools/joins.py` 149-391 (`join`); for the pieces it is made of `base.py`
1527-1535 (`GeneratorComp`) and `aggregations.py` 381-390 (`DictArray`).

`Join/Model.lean` says which pairs a join gives when it is consumed to its end and nothing has
effects.  Here the same code is modelled as what it is, generators that are resumed by `next`: a
left row is pulled from its iterator in the middle of the work, conversions change an arbitrary state
`σ` and may raise at any time, and whoever consumes the pairs acts on the same state in between.

As in `Join/Model.lean` after the exchange of sides (167-171), "left" is the side of the outer loop.
`A` is the type of row objects with identity as equality, `K` the type of hash keys compared by `==`.

Simplifications:
* the filters of a collection (`GeneratorComp(GetItem()).filter(...)`) and the loop that consumes
  them are fused (justified by C54: one element at a time);
* `iter` has no effects, and a collection that is iterated again is not changed meanwhile;
* the conversion of a left row to its key runs once (the code of 272-279 repeats it if it is only a
  chain of lookups, see C18, C19);
* the labels `right_collection` and `hash_to_items` keep their values (see C26-C28);
* inputs may be endless: each side has a budget of pulls, and a run that uses it up ends with `out`,
  which says nothing.
-/

set_option autoImplicit false

namespace Verif.JoinGen

open Verif Verif.Lazy

variable {σ A K E : Type}

/-- The kind of the join after the exchange of sides (joins.py 167-173): for `how="right"` it is
`left true`. -/
inductive Kind
  | inner
  | left (swapped : Bool)
  | outer
  deriving DecidableEq

/-- The generated code of a join (joins.py 183-391), by what its pieces do. -/
structure Code (σ A K E : Type) where
  kind : Kind
  /-- `next` of the iterator of the left input -/
  pullL : σ → Pull A E × σ
  /-- `next` of the iterator of the right input -/
  pullR : σ → Pull A E × σ
  /-- the rows of the right input if it can be iterated again and again (a list), `none` for an
  iterator -/
  rows : Option (List A)
  /-- `pre_filter` (364-376) -/
  pre : Option (σ → Except E Bool × σ)
  /-- filters of the left collection (203-220) -/
  leftFilter : Option (A → σ → Except E Bool × σ)
  /-- filters of the right collection (179-197) -/
  rightFilter : Option (A → σ → Except E Bool × σ)
  /-- conversions of left and right rows to hash keys (249-260) -/
  keys : Option ((A → σ → Except E K × σ) × (A → σ → Except E K × σ))
  /-- `{condition}` of the inner loop (222-247), for the left and the right item of the loop -/
  cond : Option (A → A → σ → Except E Bool × σ)
  /-- `None` -/
  none_ : A

/-- An optional test (base.py 1530-1534: `if {condition}` is there or not). -/
def test (c : Option (A → σ → Except E Bool × σ)) (x : A) (w : σ) : Except E Bool × σ :=
  match c with
  | none => (.ok true, w)
  | some f => f x w

/-- The condition of the inner loop (joins.py 292, 336). -/
def Code.holds (c : Code σ A K E) (l r : A) (w : σ) : Except E Bool × σ :=
  match c.cond with
  | none => (.ok true, w)
  | some f => f l r w

/-- The state of a running join: budget of pulls on the right, whether the generator filtering the
right collection (179-197) is finished, and the state of everything else. -/
structure World (σ : Type) where
  right : ℕ
  closed : Bool
  st : σ

/-! ## The right side, before the first left row -/

/-- What a loop over the right collection ends with. -/
inductive Loop (T E : Type)
  | ok (t : T)
  | raise (e : E)
  | out

/-- A loop over the (filtered) right collection with an accumulator: `list(...)` of joins.py 199, or the
loop of `Aggregate` (262-271). -/
def foldRight {T : Type} (c : Code σ A K E) (step : T → A → σ → Except E T × σ) :
    ℕ → T → σ → Loop T E × ℕ × σ
  | 0, _, w => (.out, 0, w)
  | m + 1, t, w =>
    match c.pullR w with
    | (.stop, w1) => (.ok t, m, w1)
    | (.raise e, w1) => (.raise e, m, w1)
    | (.yield x, w1) =>
      match test c.rightFilter x w1 with
      | (.error e, w2) => (.raise e, m, w2)
      | (.ok false, w2) => foldRight c step m t w2
      | (.ok true, w2) =>
        match step t x w2 with
        | (.error e, w3) => (.raise e, m, w3)
        | (.ok t', w3) => foldRight c step m t' w3

/-- A loop over a list with an accumulator: the loop of `Aggregate` over the list of joins.py 199. -/
def foldRows {T : Type} (step : T → A → σ → Except E T × σ) : List A → T → σ → Except E T × σ
  | [], t, w => (.ok t, w)
  | x :: xs, t, w =>
    match step t x w with
    | (.error e, w1) => (.error e, w1)
    | (.ok t', w1) => foldRows step xs t' w1

/-- `list(...)`: appending (joins.py 199). -/
def appendStep (t : List A) (x : A) (w : σ) : Except E (List A) × σ := (.ok (t ++ [x]), w)

/-- `_d[key].append(row)` (aggregations.py 381-390, joins.py 262-271). -/
def hashStep [BEq K] (key : A → σ → Except E K × σ) (d : List (K × List A)) (x : A) (w : σ) :
    Except E (List (K × List A)) × σ :=
  match key x w with
  | (.error e, w1) => (.error e, w1)
  | (.ok k, w1) => (.ok (Dict.set d k ((Dict.get? d k).getD [] ++ [x])), w1)

/-- What `{right_items}` is taken from (joins.py 262-283), and the list of 353 for outer joins. -/
inductive Source (A K : Type)
  | hashed (d : List (K × List A))
  | items (rows : List A)
  | iter

/-- The source of an outer join (joins.py 198-199, 262-271): the right collection is a list first. -/
def startOuter [BEq K] (c : Code σ A K E) (m : ℕ) (w : σ) :
    Loop (Source A K × List A) E × ℕ × σ :=
  match foldRight c appendStep m [] w with
  | (.out, m1, w1) => (.out, m1, w1)
  | (.raise e, m1, w1) => (.raise e, m1, w1)
  | (.ok rows, m1, w1) =>
    match c.keys with
    | none => (.ok (.items rows, rows), m1, w1)
    | some (_, key) =>
      match foldRows (hashStep key) rows [] w1 with
      | (.error e, w2) => (.raise e, m1, w2)
      | (.ok d, w2) => (.ok (.hashed d, rows), m1, w2)

/-- The source of other joins (joins.py 179-201, 262-271). -/
def startOther [BEq K] (c : Code σ A K E) (m : ℕ) (w : σ) :
    Loop (Source A K × List A) E × ℕ × σ :=
  match c.keys with
  | some (_, key) =>
    match foldRight c (hashStep key) m [] w with
    | (.out, m1, w1) => (.out, m1, w1)
    | (.raise e, m1, w1) => (.raise e, m1, w1)
    | (.ok d, m1, w1) => (.ok (.hashed d, []), m1, w1)
  | none =>
    match c.rows, c.rightFilter with
    | some rows, none => (.ok (.items rows, []), m, w)
    | _, _ => (.ok (.iter, []), m, w)

/-- What runs before the generators (joins.py 179-283). -/
def start [BEq K] (c : Code σ A K E) (m : ℕ) (w : σ) : Loop (Source A K × List A) E × ℕ × σ :=
  if c.kind = .outer then startOuter c m w else startOther c m w

/-! ## The inner loop -/

/-- An iterator over `{right_items}`: of a list, or the one under the label `right_collection`. -/
inductive It (A : Type)
  | priv (rest : List A)
  | shared

/-- What a search for the next matching right item ends with. -/
inductive Found (A E : Type)
  | item (r : A) (rest : It A)
  | none
  | raise (e : E)
  | out

/-- `{right_items}` for a left row (joins.py 272-283). -/
def Code.itemsOf [BEq K] (c : Code σ A K E) (src : Source A K) (l : A) (w : σ) :
    Except E (It A) × σ :=
  match src with
  | .items rows => (.ok (.priv rows), w)
  | .iter => (.ok .shared, w)
  | .hashed d =>
    match c.keys with
    | none => (.ok (.priv []), w)
    | some (key, _) =>
      match key l w with
      | (.error e, w1) => (.error e, w1)
      | (.ok k, w1) => (.ok (.priv ((Dict.get? d k).getD [])), w1)

/-- The loop `for right_item in … if {condition}` up to the next match, in a list (joins.py 291-292). -/
def scanList (c : Code σ A K E) (l : A) : List A → σ → Found A E × σ
  | [], w => (.none, w)
  | r :: rs, w =>
    match c.holds l r w with
    | (.error e, w1) => (.raise e, w1)
    | (.ok false, w1) => scanList c l rs w1
    | (.ok true, w1) => (.item r (.priv rs), w1)

/-- The same loop, in the iterator all left rows share (joins.py 282-283, 291-292); the generator of
179-197 is closed when the input ends. -/
def scanShared (c : Code σ A K E) (l : A) : ℕ → σ → Found A E × World σ
  | 0, w => (.out, ⟨0, false, w⟩)
  | m + 1, w =>
    match c.pullR w with
    | (.stop, w1) => (.none, ⟨m, true, w1⟩)
    | (.raise e, w1) => (.raise e, ⟨m, true, w1⟩)
    | (.yield r, w1) =>
      match test c.rightFilter r w1 with
      | (.error e, w2) => (.raise e, ⟨m, true, w2⟩)
      | (.ok false, w2) => scanShared c l m w2
      | (.ok true, w2) =>
        match c.holds l r w2 with
        | (.error e, w3) => (.raise e, ⟨m, false, w3⟩)
        | (.ok false, w3) => scanShared c l m w3
        | (.ok true, w3) => (.item r .shared, ⟨m, false, w3⟩)

/-- The next match in an iterator over right items (joins.py 291-292); a closed generator gives
nothing, an iterator that is no generator of convtools is asked again. -/
def scan (c : Code σ A K E) (l : A) (it : It A) (W : World σ) : Found A E × World σ :=
  match it with
  | .priv rs =>
    match scanList c l rs W.st with
    | (f, w) => (f, ⟨W.right, W.closed, w⟩)
  | .shared =>
    if W.closed && c.rightFilter.isSome then (.none, W) else scanShared c l W.right W.st

/-! ## Inner joins -/

/-- What `next` of a generator gives; `out` if the budget is used up. -/
inductive Step (T E : Type)
  | yield (t : T)
  | stop
  | raise (e : E)
  | out

/-- Where the generator of an inner join (joins.py 288-298) is suspended. -/
inductive InnerState (A : Type)
  | top
  | row (l : A) (it : It A)
  | over

/-- The outer loop of the inner join, up to the next pair (joins.py 289-293); the first argument is the
budget of pulls on the left. -/
def innerTop [BEq K] (c : Code σ A K E) (src : Source A K) :
    ℕ → World σ → Step (A × A) E × InnerState A × ℕ × World σ
  | 0, W => (.out, .over, 0, W)
  | n + 1, W =>
    match c.pullL W.st with
    | (.stop, w1) => (.stop, .over, n, ⟨W.right, W.closed, w1⟩)
    | (.raise e, w1) => (.raise e, .over, n, ⟨W.right, W.closed, w1⟩)
    | (.yield l, w1) =>
      match test c.leftFilter l w1 with
      | (.error e, w2) => (.raise e, .over, n, ⟨W.right, W.closed, w2⟩)
      | (.ok false, w2) => innerTop c src n ⟨W.right, W.closed, w2⟩
      | (.ok true, w2) =>
        match c.itemsOf src l w2 with
        | (.error e, w3) => (.raise e, .over, n, ⟨W.right, W.closed, w3⟩)
        | (.ok it, w3) =>
          match scan c l it ⟨W.right, W.closed, w3⟩ with
          | (.item r rest, W4) => (.yield (l, r), .row l rest, n, W4)
          | (.none, W4) => innerTop c src n W4
          | (.raise e, W4) => (.raise e, .over, n, W4)
          | (.out, W4) => (.out, .over, n, W4)

/-- `next` of the generator of an inner join (joins.py 288-298). -/
def innerNext [BEq K] (c : Code σ A K E) (src : Source A K) (s : InnerState A) (n : ℕ) (W : World σ) :
    Step (A × A) E × InnerState A × ℕ × World σ :=
  match s with
  | .over => (.stop, .over, n, W)
  | .top => innerTop c src n W
  | .row l it =>
    match scan c l it W with
    | (.item r rest, W1) => (.yield (l, r), .row l rest, n, W1)
    | (.none, W1) => innerTop c src n W1
    | (.raise e, W1) => (.raise e, .over, n, W1)
    | (.out, W1) => (.out, .over, n, W1)

/-! ## Left joins -/

/-- The state of the generator of joins.py 333-341: the variable `left_item` of its frame, which the inner
generators it gives refer to, and whether it is finished. -/
structure Outer (A : Type) where
  leftItem : Option A
  finished : Bool

/-- The state of an inner generator `(right_item for right_item in … if …)` (joins.py 334-336): its
iterator, `none` when it is finished. -/
abbrev Inner (A : Type) := Option (It A)

/-- The loop of the generator of joins.py 333-341 up to the next pair of a left row and an inner
generator: `{right_items}` is evaluated when the inner generator is made. -/
def outerLoop [BEq K] (c : Code σ A K E) (src : Source A K) :
    ℕ → World σ → Step (A × Inner A) E × Outer A × ℕ × World σ
  | 0, W => (.out, ⟨none, true⟩, 0, W)
  | n + 1, W =>
    match c.pullL W.st with
    | (.stop, w1) => (.stop, ⟨none, true⟩, n, ⟨W.right, W.closed, w1⟩)
    | (.raise e, w1) => (.raise e, ⟨none, true⟩, n, ⟨W.right, W.closed, w1⟩)
    | (.yield l, w1) =>
      match test c.leftFilter l w1 with
      | (.error e, w2) => (.raise e, ⟨none, true⟩, n, ⟨W.right, W.closed, w2⟩)
      | (.ok false, w2) => outerLoop c src n ⟨W.right, W.closed, w2⟩
      | (.ok true, w2) =>
        match c.itemsOf src l w2 with
        | (.error e, w3) => (.raise e, ⟨none, true⟩, n, ⟨W.right, W.closed, w3⟩)
        | (.ok it, w3) => (.yield (l, some it), ⟨some l, false⟩, n, ⟨W.right, W.closed, w3⟩)

/-- `next` of the generator of joins.py 333-341. -/
def outerNext [BEq K] (c : Code σ A K E) (src : Source A K) (o : Outer A) (n : ℕ) (W : World σ) :
    Step (A × Inner A) E × Outer A × ℕ × World σ :=
  if o.finished then (.stop, o, n, W) else outerLoop c src n W

/-- `next` of an inner generator (joins.py 334-336): its condition reads the variable `left_item` of the
generator that made it, whatever this is by now. -/
def innerGen (c : Code σ A K E) (o : Outer A) (g : Inner A) (W : World σ) :
    Step A E × Inner A × World σ :=
  match g, o.leftItem with
  | none, _ => (.stop, none, W)
  | some _, none => (.stop, none, W)
  | some it, some l =>
    match scan c l it W with
    | (.item r rest, W1) => (.yield r, some rest, W1)
    | (.none, W1) => (.stop, none, W1)
    | (.raise e, W1) => (.raise e, none, W1)
    | (.out, W1) => (.out, none, W1)

/-- Where `_left_joiner` (joins.py 302-329) is suspended: before its next row, or in the loop over
`right_ones` with its local variables. -/
inductive JoinerAt (A : Type)
  | top
  | row (l : A) (ones : Inner A)
  | over

/-- The state of `_left_joiner` and of the generator it loops over (joins.py 302-343). -/
structure JoinerState (A : Type) where
  at_ : JoinerAt A
  gen : Outer A

/-- `yield left_item, right_item` of the two variants of `_left_joiner` (joins.py 302-329). -/
def pairOf (swapped : Bool) (l r : A) : A × A := if swapped then (r, l) else (l, r)

/-- `_left_joiner` from the head of its loop (joins.py 305-313, 319-327). -/
def joinerTop [BEq K] (c : Code σ A K E) (src : Source A K) (swapped : Bool) (o : Outer A) (n : ℕ)
    (W : World σ) : Step (A × A) E × JoinerState A × ℕ × World σ :=
  match outerNext c src o n W with
  | (.stop, o1, n1, W1) => (.stop, ⟨.over, o1⟩, n1, W1)
  | (.raise e, o1, n1, W1) => (.raise e, ⟨.over, o1⟩, n1, W1)
  | (.out, o1, n1, W1) => (.out, ⟨.over, o1⟩, n1, W1)
  | (.yield (l, ones), o1, n1, W1) =>
    match innerGen c o1 ones W1 with
    | (.yield r, ones', W2) => (.yield (pairOf swapped l r), ⟨.row l ones', o1⟩, n1, W2)
    | (.stop, _, W2) => (.yield (pairOf swapped l c.none_), ⟨.top, o1⟩, n1, W2)
    | (.raise e, _, W2) => (.raise e, ⟨.over, o1⟩, n1, W2)
    | (.out, _, W2) => (.out, ⟨.over, o1⟩, n1, W2)

/-- `next` of `_left_joiner` (joins.py 302-329). -/
def joinerNext [BEq K] (c : Code σ A K E) (src : Source A K) (swapped : Bool) (s : JoinerState A)
    (n : ℕ) (W : World σ) : Step (A × A) E × JoinerState A × ℕ × World σ :=
  match s.at_ with
  | .over => (.stop, s, n, W)
  | .top => joinerTop c src swapped s.gen n W
  | .row l ones =>
    match innerGen c s.gen ones W with
    | (.yield r, ones', W1) => (.yield (pairOf swapped l r), ⟨.row l ones', s.gen⟩, n, W1)
    | (.stop, _, W1) => joinerTop c src swapped s.gen n W1
    | (.raise e, _, W1) => (.raise e, ⟨.over, s.gen⟩, n, W1)
    | (.out, _, W1) => (.out, ⟨.over, s.gen⟩, n, W1)

/-! ## Outer joins -/

/-- Where `_add_right_part` (joins.py 347-357) is suspended: in its loop, with `yielded_right_ids`, or in
`yield from` with what is left of the right rows. -/
inductive AddState (A : Type)
  | first (s : JoinerState A) (seen : List A)
  | second (seen rest : List A)
  | over

/-- The generator of joins.py 353-357 up to its next pair. -/
def addRest [DecidableEq A] (none_ : A) (seen : List A) : List A → Step (A × A) E × AddState A
  | [] => (.stop, .over)
  | r :: rs =>
    if r ∈ seen then addRest none_ seen rs else (.yield (none_, r), .second seen rs)

/-- `next` of `_add_right_part` (joins.py 347-357). -/
def addNext [DecidableEq A] [BEq K] (c : Code σ A K E) (src : Source A K) (rows : List A)
    (s : AddState A) (n : ℕ) (W : World σ) : Step (A × A) E × AddState A × ℕ × World σ :=
  match s with
  | .over => (.stop, .over, n, W)
  | .second seen rest =>
    match addRest c.none_ seen rest with
    | (r, s') => (r, s', n, W)
  | .first s seen =>
    match joinerNext c src false s n W with
    | (.yield p, s', n1, W1) => (.yield p, .first s' (p.2 :: seen), n1, W1)
    | (.raise e, _, n1, W1) => (.raise e, .over, n1, W1)
    | (.out, _, n1, W1) => (.out, .over, n1, W1)
    | (.stop, _, n1, W1) =>
      match addRest c.none_ seen rows with
      | (r, s') => (r, s', n1, W1)

/-! ## The whole join, and a client -/

/-- The generator a join returns (joins.py 285-362). -/
inductive Gen (A : Type)
  | inner (s : InnerState A)
  | left (swapped : Bool) (s : JoinerState A)
  | outer (s : AddState A)

/-- The generator when it has been made: nothing of it has run (joins.py 285-362). -/
def Code.gen (c : Code σ A K E) : Gen A :=
  match c.kind with
  | .inner => .inner .top
  | .left swapped => .left swapped ⟨.top, ⟨none, false⟩⟩
  | .outer => .outer (.first ⟨.top, ⟨none, false⟩⟩ [])

/-- `next` of the generator a join returns (joins.py 285-362). -/
def next [DecidableEq A] [BEq K] (c : Code σ A K E) (src : Source A K) (rows : List A) (g : Gen A)
    (n : ℕ) (W : World σ) : Step (A × A) E × Gen A × ℕ × World σ :=
  match g with
  | .inner s => match innerNext c src s n W with
    | (r, s', n', W') => (r, .inner s', n', W')
  | .left swapped s => match joinerNext c src swapped s n W with
    | (r, s', n', W') => (r, .left swapped s', n', W')
  | .outer s => match addNext c src rows s n W with
    | (r, s', n', W') => (r, .outer s', n', W')

/-- What the body of a client's loop does with a pair: go on, leave the loop (`break`), raise. -/
inductive Flow (E : Type)
  | go
  | brk
  | raise (e : E)

/-- How a loop ends. -/
inductive End (E : Type)
  | done
  | brk
  | raise (e : E)
  | out
  deriving DecidableEq

/-- `for pair in generator: body(pair)`, at most `k` times `next` (the client of the generator of joins.py
285-362). -/
def consume [DecidableEq A] [BEq K] (c : Code σ A K E) (src : Source A K) (rows : List A)
    (body : A × A → σ → Flow E × σ) : ℕ → Gen A → ℕ → World σ → End E × σ
  | 0, _, _, W => (.out, W.st)
  | k + 1, g, n, W =>
    match next c src rows g n W with
    | (.stop, _, _, W1) => (.done, W1.st)
    | (.raise e, _, _, W1) => (.raise e, W1.st)
    | (.out, _, _, W1) => (.out, W1.st)
    | (.yield p, g', n1, W1) =>
      match body p W1.st with
      | (.brk, w2) => (.brk, w2)
      | (.raise e, w2) => (.raise e, w2)
      | (.go, w2) => consume c src rows body k g' n1 ⟨W1.right, W1.closed, w2⟩

/-- The condition of the `If` of joins.py 364-376, if there is one. -/
def Code.pretest (c : Code σ A K E) (w : σ) : Except E Bool × σ :=
  match c.pre with
  | none => (.ok true, w)
  | some f => f w

/-- `for pair in join(left, right): body(pair)` (joins.py 364-391): the pre-filter decides between the
join and an empty list. -/
def run [DecidableEq A] [BEq K] (c : Code σ A K E) (body : A × A → σ → Flow E × σ) (k n m : ℕ)
    (w : σ) : End E × σ :=
  match c.pretest w with
  | (.error e, w1) => (.raise e, w1)
  | (.ok false, w1) => (.done, w1)
  | (.ok true, w1) =>
    match start c m w1 with
    | (.out, _, w2) => (.out, w2)
    | (.raise e, _, w2) => (.raise e, w2)
    | (.ok (src, rows), m1, w2) => consume c src rows body k c.gen n ⟨m1, false, w2⟩

end Verif.JoinGen
