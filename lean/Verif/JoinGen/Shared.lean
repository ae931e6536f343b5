import Verif.JoinGen.Props

/-!
# Several uses of one join (C63)

Source: `/repo/src/convtools/joins.py` 200-283, 285-362, 378-391 and `base.py` 70-99.

A join is compiled once, to a converter of its own (378-384), and this converter has one dict of labels
(base.py 503-512).  Every call puts its right side under the labels `right_collection` and `hash_to_items` (200-201,
262-271); the generator it returns reads them whenever it comes to a left row (272-283), and `_add_right_part` at the
end of the left rows (353-355).  All labels are deleted when a generator of this converter ends or is closed
(base.py 95-99), and when a call returns something else or raises (82-87).

Simplification: an inner loop over an iterator (`Source.iter`) which is suspended while another call changes the label
goes on with its old iterator in the code, with the new one here; the theorems do not speak of this case.
-/

set_option autoImplicit false

namespace Verif.JoinGen

open Verif Verif.Lazy

variable {σ A K E : Type}

/-- The inputs of a call of the join's converter (joins.py 380-391). -/
structure Call (σ A E : Type) where
  pullL : σ → Pull A E × σ
  pullR : σ → Pull A E × σ
  rows : Option (List A)

/-- The code of the join on these inputs. -/
def Code.on (c : Code σ A K E) (x : Call σ A E) : Code σ A K E where
  kind := c.kind
  pullL := x.pullL
  pullR := x.pullR
  rows := x.rows
  pre := c.pre
  leftFilter := c.leftFilter
  rightFilter := c.rightFilter
  keys := c.keys
  cond := c.cond
  none_ := c.none_

/-- What is under the labels (joins.py 200-201, 262-271): the right side of the call which set them last. -/
structure Label (σ A K E : Type) where
  src : Source A K
  rows : List A
  call : Call σ A E
  right : ℕ
  closed : Bool

/-- A generator returned by a call, with its left input, and whether it has ended. -/
structure Use (σ A E : Type) where
  call : Call σ A E
  gen : Gen A
  left : ℕ
  over : Bool

/-- The converter of a join with all its generators, and the state of everything else. -/
structure Shared (σ A K E : Type) where
  label : Option (Label σ A K E)
  uses : List (Use σ A E)
  st : σ

/-- What a call gives: a generator, the empty list of joins.py 364-376, or an exception. -/
inductive Called (E : Type)
  | generator (i : ℕ)
  | empty
  | raise (e : E)
  | out

/-- A call of the join's converter (joins.py 364-391, base.py 70-87). -/
def callJoin [BEq K] (c : Code σ A K E) (x : Call σ A E) (n m : ℕ) (S : Shared σ A K E) :
    Called E × Shared σ A K E :=
  match (c.on x).pretest S.st with
  | (.error e, w1) => (.raise e, ⟨none, S.uses, w1⟩)
  | (.ok false, w1) => (.empty, ⟨none, S.uses, w1⟩)
  | (.ok true, w1) =>
    match start (c.on x) m w1 with
    | (.out, _, w2) => (.out, ⟨none, S.uses, w2⟩)
    | (.raise e, _, w2) => (.raise e, ⟨none, S.uses, w2⟩)
    | (.ok (src, rows), m1, w2) =>
      (.generator S.uses.length, ⟨some ⟨src, rows, x, m1, false⟩, S.uses ++ [⟨x, c.gen, n, false⟩], w2⟩)

/-- The code when the labels are gone: `{right_items}` raises `KeyError`, after the key of the left row has been computed
(joins.py 272-283). -/
def Code.missing (c : Code σ A K E) (keyError : E) : Code σ A K E :=
  { c with
    keys := some (fun l w =>
      match c.keys with
      | none => (.error keyError, w)
      | some (key, _) =>
        match key l w with
        | (.error e, w1) => (.error e, w1)
        | (.ok _, w1) => (.error keyError, w1), fun _ w => (.error keyError, w)) }

/-- Is it the loop of `_add_right_part` over the left join (joins.py 349-351)? -/
def Gen.beforeRest : Gen A → Bool
  | .outer (.first _ _) => true
  | _ => false

/-- The generator reads the labels: `next` without the wrapper of base.py 89-99. -/
def nextInner [DecidableEq A] [BEq K] (c : Code σ A K E) (keyError : E) (u : Use σ A E) (S : Shared σ A K E) :
    Step (A × A) E × Use σ A E × Option (Label σ A K E) × σ :=
  match S.label with
  | some lb =>
    match next (c.on ⟨u.call.pullL, lb.call.pullR, lb.call.rows⟩) lb.src lb.rows u.gen u.left
        ⟨lb.right, lb.closed, S.st⟩ with
    | (r, g, n, W) => (r, ⟨u.call, g, n, r.ended⟩, some { lb with right := W.right, closed := W.closed }, W.st)
  | none =>
    match next ((c.on u.call).missing keyError) (.hashed []) [] u.gen u.left ⟨0, true, S.st⟩ with
    | (.stop, g, n, W) =>
      (if u.gen.beforeRest then .raise keyError else .stop, ⟨u.call, g, n, true⟩, none, W.st)
    | (r, g, n, W) => (r, ⟨u.call, g, n, r.ended⟩, none, W.st)

/-- `next` of generator `i` (base.py 89-99): labels are deleted when it ends; a generator which has ended does
nothing. -/
def nextJoin [DecidableEq A] [BEq K] (c : Code σ A K E) (keyError : E) (i : ℕ) (S : Shared σ A K E) :
    Step (A × A) E × Shared σ A K E :=
  match S.uses[i]? with
  | none => (.stop, S)
  | some u =>
    if u.over then (.stop, S)
    else
      match nextInner c keyError u S with
      | (r, u', label, w) => (r, ⟨if r.ended then none else label, S.uses.set i u', w⟩)

theorem nextInner_over [DecidableEq A] [BEq K] (c : Code σ A K E) (keyError : E) (u : Use σ A E) (S : Shared σ A K E)
    (h : (nextInner c keyError u S).1.ended = true) : (nextInner c keyError u S).2.1.over = true := by
  revert h
  unfold nextInner
  split
  · exact id
  · split
    · exact fun _ => rfl
    · exact id

/-- A generator which has ended, whether it has raised `StopIteration` or something else, stays ended: `next` raises
`StopIteration` and changes nothing, neither the labels nor the other generators. -/
theorem C63_ended [DecidableEq A] [BEq K] (c : Code σ A K E) (keyError : E) (i : ℕ) (S : Shared σ A K E)
    (h : (nextJoin c keyError i S).1.ended = true) :
    nextJoin c keyError i (nextJoin c keyError i S).2 = (.stop, (nextJoin c keyError i S).2) := by
  cases hu : S.uses[i]? with
  | none => simp only [nextJoin, hu]
  | some u =>
    cases ho : u.over with
    | true => simp only [nextJoin, hu, ho, if_true]
    | false =>
      have hi := (List.getElem?_eq_some_iff.1 hu).1
      have e : nextJoin c keyError i S = ((nextInner c keyError u S).1,
          ⟨if (nextInner c keyError u S).1.ended then none else (nextInner c keyError u S).2.2.1,
            S.uses.set i (nextInner c keyError u S).2.1, (nextInner c keyError u S).2.2.2⟩) := by
        simp only [nextJoin, hu, ho, Bool.false_eq_true, if_false]
      rw [e] at h ⊢
      have hv := nextInner_over c keyError u S h
      have hg : (S.uses.set i (nextInner c keyError u S).2.1)[i]? = some (nextInner c keyError u S).2.1 := by
        simp [hi]
      simp only [nextJoin, hg, hv, if_true]

/-- Generator `i`, which has given something, is closed or dropped (base.py 95-99). -/
def closeJoin (i : ℕ) (S : Shared σ A K E) : Shared σ A K E :=
  match S.uses[i]? with
  | none => S
  | some u => if u.over then S else ⟨none, S.uses.set i { u with over := true }, S.st⟩

/-- `for pair in generator: body(pair)` with generator `i`; after the loop nobody has the generator. -/
def consumeJoin [DecidableEq A] [BEq K] (c : Code σ A K E) (keyError : E) (i : ℕ) (body : A × A → σ → Flow E × σ) :
    ℕ → Shared σ A K E → End E × Shared σ A K E
  | 0, S => (.out, S)
  | k + 1, S =>
    match nextJoin c keyError i S with
    | (.stop, S1) => (.done, S1)
    | (.raise e, S1) => (.raise e, S1)
    | (.out, S1) => (.out, S1)
    | (.yield p, S1) =>
      match body p S1.st with
      | (.brk, w2) => (.brk, closeJoin i { S1 with st := w2 })
      | (.raise e, w2) => (.raise e, closeJoin i { S1 with st := w2 })
      | (.go, w2) => consumeJoin c keyError i body k { S1 with st := w2 }

/-- `for pair in join(left, right): body(pair)`: a call whose result is consumed at once. -/
def useJoin [DecidableEq A] [BEq K] (c : Code σ A K E) (keyError : E) (x : Call σ A E)
    (body : A × A → σ → Flow E × σ) (k n m : ℕ) (S : Shared σ A K E) : End E × Shared σ A K E :=
  match callJoin c x n m S with
  | (.raise e, S1) => (.raise e, S1)
  | (.empty, S1) => (.done, S1)
  | (.out, S1) => (.out, S1)
  | (.generator i, S1) => consumeJoin c keyError i body k S1

/-! ## Consumed at once -/

theorem consumeJoin_eq [DecidableEq A] [BEq K] (c : Code σ A K E) (ke : E) (x : Call σ A E)
    (body : A × A → σ → Flow E × σ) : ∀ (k : ℕ) (us : List (Use σ A E)) (src : Source A K) (rows : List A) (m : ℕ)
    (cl : Bool) (w : σ) (g : Gen A) (n : ℕ),
    ∃ lb u, consumeJoin c ke us.length body k ⟨some ⟨src, rows, x, m, cl⟩, us ++ [⟨x, g, n, false⟩], w⟩ =
        ((consume (c.on x) src rows body k g n ⟨m, cl, w⟩).1,
          ⟨lb, us ++ [u], (consume (c.on x) src rows body k g n ⟨m, cl, w⟩).2⟩) ∧
      ((consume (c.on x) src rows body k g n ⟨m, cl, w⟩).1 ≠ .out → lb = none ∧ u.over = true) := by
  intro k
  induction k with
  | zero =>
    intro us src rows m cl w g n
    exact ⟨_, _, rfl, fun h => absurd rfl h⟩
  | succ k ih =>
    intro us src rows m cl w g n
    have hN : nextInner c ke ⟨x, g, n, false⟩ ⟨some ⟨src, rows, x, m, cl⟩, us ++ [⟨x, g, n, false⟩], w⟩ =
        ((next (c.on x) src rows g n ⟨m, cl, w⟩).1,
          ⟨x, (next (c.on x) src rows g n ⟨m, cl, w⟩).2.1, (next (c.on x) src rows g n ⟨m, cl, w⟩).2.2.1,
            (next (c.on x) src rows g n ⟨m, cl, w⟩).1.ended⟩,
          some ⟨src, rows, x, (next (c.on x) src rows g n ⟨m, cl, w⟩).2.2.2.right,
            (next (c.on x) src rows g n ⟨m, cl, w⟩).2.2.2.closed⟩,
          (next (c.on x) src rows g n ⟨m, cl, w⟩).2.2.2.st) := rfl
    simp only [consumeJoin, nextJoin, consume, List.getElem?_concat_length, Bool.false_eq_true, if_false, hN]
    clear hN
    rcases next (c.on x) src rows g n ⟨m, cl, w⟩ with ⟨p | _ | e | _, g', n1, W1⟩
    · simp only [Step.ended, Bool.false_eq_true, if_false]
      rcases body p W1.st with ⟨_ | _ | e, w2⟩
      · simp only [List.set_append_right _ _ (Nat.le_refl _), Nat.sub_self, List.set_cons_zero]
        exact ih us src rows W1.right W1.closed w2 g' n1
      · simp only [closeJoin, List.set_append_right _ _ (Nat.le_refl _), Nat.sub_self, List.set_cons_zero,
          List.getElem?_concat_length]
        exact ⟨none, _, rfl, fun _ => ⟨rfl, rfl⟩⟩
      · simp only [closeJoin, List.set_append_right _ _ (Nat.le_refl _), Nat.sub_self, List.set_cons_zero,
          List.getElem?_concat_length]
        exact ⟨none, _, rfl, fun _ => ⟨rfl, rfl⟩⟩
    · simp only [List.set_append_right _ _ (Nat.le_refl _), Nat.sub_self, List.set_cons_zero]
      exact ⟨_, _, rfl, fun _ => ⟨rfl, rfl⟩⟩
    · simp only [List.set_append_right _ _ (Nat.le_refl _), Nat.sub_self, List.set_cons_zero]
      exact ⟨_, _, rfl, fun _ => ⟨rfl, rfl⟩⟩
    · simp only [List.set_append_right _ _ (Nat.le_refl _), Nat.sub_self, List.set_cons_zero]
      exact ⟨_, _, rfl, fun h => absurd rfl h⟩

/-- **C63, partial** (missing: uses which are not consumed at once, see `C63_refuted_later`).  Whatever has been done
with the join before, whatever generators of it are pending and whatever is under its labels: a call whose result is
consumed at once does what the join does alone (`run`, which C59 describes), and leaves no label. -/
theorem C63_at_once_partial [DecidableEq A] [BEq K] (c : Code σ A K E) (ke : E) (x : Call σ A E)
    (body : A × A → σ → Flow E × σ) (k n m : ℕ) (S : Shared σ A K E) :
    (useJoin c ke x body k n m S).1 = (run (c.on x) body k n m S.st).1 ∧
      (useJoin c ke x body k n m S).2.st = (run (c.on x) body k n m S.st).2 ∧
      ((run (c.on x) body k n m S.st).1 ≠ .out → (useJoin c ke x body k n m S).2.label = none) ∧
      S.uses <+: (useJoin c ke x body k n m S).2.uses := by
  unfold useJoin callJoin run
  rcases (c.on x).pretest S.st with ⟨_ | b, w1⟩
  · exact ⟨rfl, rfl, fun _ => rfl, List.prefix_refl _⟩
  · cases b
    · exact ⟨rfl, rfl, fun _ => rfl, List.prefix_refl _⟩
    · dsimp only
      rcases start (c.on x) m w1 with ⟨⟨src, rows⟩ | _ | _, m1, w2⟩
      · dsimp only
        obtain ⟨lb, u, h, hl⟩ := consumeJoin_eq c ke x body k S.uses src rows m1 false w2 c.gen n
        have e : (c.on x).gen = c.gen := rfl
        rw [h, e]
        exact ⟨rfl, rfl, fun ho => (hl ho).1, ⟨_, rfl⟩⟩
      · exact ⟨rfl, rfl, fun _ => rfl, List.prefix_refl _⟩
      · exact ⟨rfl, rfl, fun h => absurd rfl h, List.prefix_refl _⟩

/-- A generator which has ended, or which was closed, does nothing more, whatever has been done with the join since. -/
theorem nextJoin_over [DecidableEq A] [BEq K] (c : Code σ A K E) (ke : E) (i : ℕ) (S : Shared σ A K E)
    (u : Use σ A E) (hu : S.uses[i]? = some u) (ho : u.over = true) :
    nextJoin c ke i S = (.stop, S) ∧ closeJoin i S = S := by
  simp only [nextJoin, closeJoin, hu, ho, if_true, and_self]

/-- After `next` has raised `StopIteration` or an exception the generator has ended, and no label is left; after a pair
it has not.  Other generators are not changed. -/
theorem nextJoin_ended [DecidableEq A] [BEq K] (c : Code σ A K E) (ke : E) (i : ℕ) (S : Shared σ A K E)
    (u : Use σ A E) (hu : S.uses[i]? = some u) (ho : u.over = false) :
    (∃ u', (nextJoin c ke i S).2.uses[i]? = some u' ∧ u'.over = (nextJoin c ke i S).1.ended) ∧
      ((nextJoin c ke i S).1.ended = true → (nextJoin c ke i S).2.label = none) ∧
      ∀ j, j ≠ i → (nextJoin c ke i S).2.uses[j]? = S.uses[j]? := by
  have hi : i < S.uses.length := (List.getElem?_eq_some_iff.1 hu).1
  have hover : (nextInner c ke u S).2.1.over = (nextInner c ke u S).1.ended := by
    unfold nextInner
    split
    · rfl
    · rcases next ((c.on u.call).missing ke) (.hashed []) [] u.gen u.left ⟨0, true, S.st⟩ with
        ⟨p | _ | e | _, g, n, W⟩
      · rfl
      · dsimp only; split <;> rfl
      · rfl
      · rfl
  have e : nextJoin c ke i S = ((nextInner c ke u S).1, ⟨if (nextInner c ke u S).1.ended then none
      else (nextInner c ke u S).2.2.1, S.uses.set i (nextInner c ke u S).2.1, (nextInner c ke u S).2.2.2⟩) := by
    simp only [nextJoin, hu, ho, Bool.false_eq_true, if_false]
  rw [e]
  refine ⟨⟨(nextInner c ke u S).2.1, by simp [hi], hover⟩, fun h => by simp [h], fun j hj => ?_⟩
  simp [List.getElem?_set_ne hj.symm]

/-- Uses one after the other, each consumed at once, each with its own inputs and body. -/
def useAll [DecidableEq A] [BEq K] (c : Code σ A K E) (ke : E) (k n m : ℕ) :
    List (Call σ A E × (A × A → σ → Flow E × σ)) → Shared σ A K E → List (End E) × Shared σ A K E
  | [], S => ([], S)
  | (x, body) :: rest, S =>
    match useJoin c ke x body k n m S with
    | (e, S1) =>
      match useAll c ke k n m rest S1 with
      | (es, S2) => (e :: es, S2)

/-- The same with a join of its own for each. -/
def runAll [DecidableEq A] [BEq K] (c : Code σ A K E) (k n m : ℕ) :
    List (Call σ A E × (A × A → σ → Flow E × σ)) → σ → List (End E) × σ
  | [], w => ([], w)
  | (x, body) :: rest, w =>
    match run (c.on x) body k n m w with
    | (e, w1) =>
      match runAll c k n m rest w1 with
      | (es, w2) => (e :: es, w2)

/-- **C63, partial**, for any number of uses one after the other. -/
theorem C63_sequence_partial [DecidableEq A] [BEq K] (c : Code σ A K E) (ke : E) (k n m : ℕ) :
    ∀ (xs : List (Call σ A E × (A × A → σ → Flow E × σ))) (S : Shared σ A K E),
    (useAll c ke k n m xs S).1 = (runAll c k n m xs S.st).1 ∧
      (useAll c ke k n m xs S).2.st = (runAll c k n m xs S.st).2 := by
  intro xs
  induction xs with
  | nil => intro S; exact ⟨rfl, rfl⟩
  | cons x xs ih =>
    intro S
    obtain ⟨x, body⟩ := x
    obtain ⟨h1, h2, _, _⟩ := C63_at_once_partial c ke x body k n m S
    obtain ⟨h3, h4⟩ := ih (useJoin c ke x body k n m S).2
    simp only [useAll, runAll]
    rw [h2] at h3 h4
    exact ⟨by rw [h1, h3], h4⟩

/-! ## Consumed later -/

/-- The two inputs of each of two calls are lists; the state holds what is left of the four. -/
structure Four where
  l1 : List ℕ
  r1 : List ℕ
  l2 : List ℕ
  r2 : List ℕ
  deriving DecidableEq

/-- `next` of a list iterator. -/
def pullOf (get : Four → List ℕ) (put : Four → List ℕ → Four) (w : Four) : Pull ℕ String × Four :=
  match get w with
  | [] => (.stop, w)
  | x :: xs => (.yield x, put w xs)

/-- The first call. -/
def firstCall : Call Four ℕ String where
  pullL := pullOf Four.l1 fun w l => { w with l1 := l }
  pullR := pullOf Four.r1 fun w l => { w with r1 := l }
  rows := none

/-- The second call. -/
def secondCall : Call Four ℕ String where
  pullL := pullOf Four.l2 fun w l => { w with l2 := l }
  pullR := pullOf Four.r2 fun w l => { w with r2 := l }
  rows := none

/-- `c.join(c.item(0), c.item(1), c.LEFT % 10 == c.RIGHT % 10, how=...)`. -/
def byDigit (kind : Kind) : Code Four ℕ ℕ String where
  kind := kind
  pullL := fun w => (.stop, w)
  pullR := fun w => (.stop, w)
  rows := none
  pre := none
  leftFilter := none
  rightFilter := none
  keys := some (fun l w => (.ok (l % 10), w), fun r w => (.ok (r % 10), w))
  cond := none
  none_ := 0

/-- The pair or the exception, if there is one. -/
def pairGiven : Step (ℕ × ℕ) String → Option ((ℕ × ℕ) ⊕ String)
  | .yield p => some (.inl p)
  | .raise e => some (.inr e)
  | _ => none

/-- `next` some times; what it gives. -/
def nexts (c : Code Four ℕ ℕ String) : List ℕ → Shared Four ℕ ℕ String → List (Option ((ℕ × ℕ) ⊕ String))
  | [], _ => []
  | i :: is, S =>
    match nextJoin c "KeyError" i S with
    | (r, S1) => pairGiven r :: nexts c is S1

/-- Both calls, then `next` of the generators with these numbers. -/
def bothCalls (kind : Kind) (w : Four) (is : List ℕ) : List (Option ((ℕ × ℕ) ⊕ String)) :=
  nexts (byDigit kind) is
    (callJoin (byDigit kind) secondCall 9 9 (callJoin (byDigit kind) firstCall 9 9 ⟨none, [], w⟩).2).2

/-- **C63 is violated** when generators of one join are made before they are consumed, as by
`c.list_comp(c.join(c.item(0), c.item(1), ...))`: the first generator pairs its left rows with the right rows of the
second call (`11` with `31` instead of `21`), and when it has ended the second one has lost its right rows
(`KeyError`). -/
theorem C63_refuted_later : ∃ w : Four,
    (run ((byDigit .inner).on firstCall) (fun p v => (.go, { v with l2 := p.1 :: p.2 :: v.l2 })) 9 9 9 w).2.l2
      = 11 :: 21 :: w.l2 ∧
    (run ((byDigit .inner).on secondCall) (fun p v => (.go, { v with l1 := p.1 :: p.2 :: v.l1 })) 9 9 9 w).2.l1
      = 12 :: 32 :: 11 :: 31 :: w.l1 ∧
    bothCalls .inner w [0, 0, 1] = [some (.inl (11, 31)), none, some (.inr "KeyError")] :=
  ⟨⟨[11], [21], [11, 12], [31, 32]⟩, by rfl, by rfl, by rfl⟩

/-- **C63 is violated** also for `zip(join_a, join_b)` and left joins: the first generator, whose only row has a
partner, gives it with a partner of the other call, or with `None`. -/
theorem C63_refuted_zip : bothCalls (.left false) ⟨[11, 13], [21, 23], [12], [32, 41]⟩ [0, 1, 0, 1] =
    [some (.inl (11, 41)), some (.inl (12, 32)), some (.inl (13, 0)), none] := by rfl

/-- **C63 is violated** for outer joins, even if the left side of the second use is empty: when the first generator has
ended, the second one looks for its right rows, which are gone (`KeyError` instead of `(None, 32)`); the second
generator of a left join just ends. -/
theorem C63_refuted_outer :
    bothCalls .outer ⟨[11], [21], [], [32]⟩ [0, 0, 0, 1, 1] =
      [some (.inl (11, 0)), some (.inl (0, 32)), none, some (.inr "KeyError"), none] ∧
    bothCalls (.left false) ⟨[11], [21], [], [32]⟩ [0, 0, 1] = [some (.inl (11, 0)), none, none] := by
  constructor <;> rfl

/-- A generator which has raised `KeyError` has ended. -/
example : bothCalls .outer ⟨[11], [21], [], [32]⟩ [0, 0, 0, 1, 1, 1, 0] =
    [some (.inl (11, 0)), some (.inl (0, 32)), none, some (.inr "KeyError"), none, none, none] := by rfl

/-- The second call alone. -/
example : nexts (byDigit .outer) [0, 0]
    (callJoin (byDigit .outer) secondCall 9 9 ⟨none, [], ⟨[11], [21], [], [32]⟩⟩).2 =
    [some (.inl (0, 32)), none] := by rfl

/-- The first call alone. -/
example : nexts (byDigit (.left false)) [0, 0, 0]
    (callJoin (byDigit (.left false)) firstCall 9 9 ⟨none, [], ⟨[11, 13], [21, 23], [12], [32, 41]⟩⟩).2 =
    [some (.inl (11, 21)), some (.inl (13, 23)), none] := by rfl

/-- Two uses one after the other, the second after a pending generator. -/
example : (useJoin (byDigit .inner) "KeyError" secondCall (fun p v => (.go, { v with r1 := v.r1 ++ [p.1, p.2] })) 9 9 9
    (callJoin (byDigit .inner) firstCall 9 9 ⟨none, [], ⟨[11], [21], [11, 12], [31, 32]⟩⟩).2).2.st =
    ⟨[11], [11, 31, 12, 32], [], []⟩ := by rfl

end Verif.JoinGen
