import Verif.JoinGen.Model

/-!
# What a client of a join must see: nested loops

`for pair in join(left, right): body(pair)` written without generators: `for` loops with `body` in
their middle.  Nothing here is suspended or resumed, there is no hash table and no search for the
next match; the order of the effects is the order of the loops.
-/

set_option autoImplicit false

namespace Verif.JoinGen

open Verif Verif.Lazy

variable {σ A K E : Type}

/-- The right side as a join uses it: rows with their keys, rows, or an iterator all left rows share. -/
inductive Right (A K : Type)
  | keyed (rows : List (K × A))
  | rows (rows : List A)
  | stream

/-- `[f(r) for r in right if filter(r)]` over the iterator of the right side. -/
def collect {T : Type} (c : Code σ A K E) (f : A → σ → Except E T × σ) :
    ℕ → σ → Loop (List T) E × ℕ × σ
  | 0, w => (.out, 0, w)
  | m + 1, w =>
    match c.pullR w with
    | (.stop, w1) => (.ok [], m, w1)
    | (.raise e, w1) => (.raise e, m, w1)
    | (.yield x, w1) =>
      match test c.rightFilter x w1 with
      | (.error e, w2) => (.raise e, m, w2)
      | (.ok false, w2) => collect c f m w2
      | (.ok true, w2) =>
        match f x w2 with
        | (.error e, w3) => (.raise e, m, w3)
        | (.ok t, w3) =>
          match collect c f m w3 with
          | (.ok ts, m', w4) => (.ok (t :: ts), m', w4)
          | other => other

/-- `[(key(r), r) for r in rows]`. -/
def withKeys (key : A → σ → Except E K × σ) : List A → σ → Except E (List (K × A)) × σ
  | [], w => (.ok [], w)
  | r :: rs, w =>
    match key r w with
    | (.error e, w1) => (.error e, w1)
    | (.ok k, w1) =>
      match withKeys key rs w1 with
      | (.error e, w2) => (.error e, w2)
      | (.ok ks, w2) => (.ok ((k, r) :: ks), w2)

/-- A row as it is. -/
def asIs (r : A) (w : σ) : Except E A × σ := (.ok r, w)

/-- A row with its key. -/
def keyed (key : A → σ → Except E K × σ) (r : A) (w : σ) : Except E (K × A) × σ :=
  match key r w with
  | (.error e, w1) => (.error e, w1)
  | (.ok k, w1) => (.ok (k, r), w1)

/-- What is read of the right side before the first left row: everything in outer joins and in joins
by keys, nothing otherwise.  The second list is what outer joins go through at the end. -/
def readRight (c : Code σ A K E) (m : ℕ) (w : σ) : Loop (Right A K × List A) E × ℕ × σ :=
  if c.kind = .outer then
    match collect c asIs m w with
    | (.out, m1, w1) => (.out, m1, w1)
    | (.raise e, m1, w1) => (.raise e, m1, w1)
    | (.ok rows, m1, w1) =>
      match c.keys with
      | none => (.ok (.rows rows, rows), m1, w1)
      | some (_, key) =>
        match withKeys key rows w1 with
        | (.error e, w2) => (.raise e, m1, w2)
        | (.ok ks, w2) => (.ok (.keyed ks, rows), m1, w2)
  else
    match c.keys with
    | some (_, key) =>
      match collect c (keyed key) m w with
      | (.out, m1, w1) => (.out, m1, w1)
      | (.raise e, m1, w1) => (.raise e, m1, w1)
      | (.ok ks, m1, w1) => (.ok (.keyed ks, []), m1, w1)
    | none =>
      match c.rows, c.rightFilter with
      | some rows, none => (.ok (.rows rows, []), m, w)
      | _, _ => (.ok (.stream, []), m, w)

/-- `for r in rows: if cond(l, r): act(r)`; gives the rows for which `act` ran. -/
def eachRow (c : Code σ A K E) (l : A) (act : A → σ → Flow E × σ) :
    List A → σ → End E × List A × σ
  | [], w => (.done, [], w)
  | r :: rs, w =>
    match c.holds l r w with
    | (.error e, w1) => (.raise e, [], w1)
    | (.ok false, w1) => eachRow c l act rs w1
    | (.ok true, w1) =>
      match act r w1 with
      | (.brk, w2) => (.brk, [r], w2)
      | (.raise e, w2) => (.raise e, [r], w2)
      | (.go, w2) =>
        match eachRow c l act rs w2 with
        | (e, ms, w3) => (e, r :: ms, w3)

/-- The same loop over the right iterator (and its filter). -/
def eachShared (c : Code σ A K E) (l : A) (act : A → σ → Flow E × σ) :
    ℕ → σ → End E × List A × World σ
  | 0, w => (.out, [], ⟨0, false, w⟩)
  | m + 1, w =>
    match c.pullR w with
    | (.stop, w1) => (.done, [], ⟨m, true, w1⟩)
    | (.raise e, w1) => (.raise e, [], ⟨m, true, w1⟩)
    | (.yield r, w1) =>
      match test c.rightFilter r w1 with
      | (.error e, w2) => (.raise e, [], ⟨m, true, w2⟩)
      | (.ok false, w2) => eachShared c l act m w2
      | (.ok true, w2) =>
        match c.holds l r w2 with
        | (.error e, w3) => (.raise e, [], ⟨m, false, w3⟩)
        | (.ok false, w3) => eachShared c l act m w3
        | (.ok true, w3) =>
          match act r w3 with
          | (.brk, w4) => (.brk, [r], ⟨m, false, w4⟩)
          | (.raise e, w4) => (.raise e, [r], ⟨m, false, w4⟩)
          | (.go, w4) =>
            match eachShared c l act m w4 with
            | (e, ms, W) => (e, r :: ms, W)

/-- The inner loop for a left row: over the rows with an equal key, over all rows, or over what is left
in the iterator (nothing, if this is a filter which has come to its end). -/
def eachMatch [BEq K] (c : Code σ A K E) (right : Right A K) (l : A) (act : A → σ → Flow E × σ)
    (W : World σ) : End E × List A × World σ :=
  match right with
  | .rows rows =>
    match eachRow c l act rows W.st with
    | (e, ms, w) => (e, ms, ⟨W.right, W.closed, w⟩)
  | .stream =>
    if W.closed && c.rightFilter.isSome then (.done, [], W) else eachShared c l act W.right W.st
  | .keyed ks =>
    match c.keys with
    | none => (.done, [], W)
    | some (key, _) =>
      match key l W.st with
      | (.error e, w1) => (.raise e, [], ⟨W.right, W.closed, w1⟩)
      | (.ok k, w1) =>
        match eachRow c l act ((ks.filter (fun p => p.1 == k)).map Prod.snd) w1 with
        | (e, ms, w) => (e, ms, ⟨W.right, W.closed, w⟩)

/-- Left and right of a pair as the user called them. -/
def Kind.pair (k : Kind) (l r : A) : A × A :=
  match k with
  | .left true => (r, l)
  | _ => (l, r)

/-- The row has no partner: nothing in an inner join, otherwise `body` gets it with `None`. -/
def lonely (c : Code σ A K E) (body : A × A → σ → Flow E × σ) (l : A) (w : σ) : Flow E × σ :=
  if c.kind = .inner then (.go, w) else body (c.kind.pair l c.none_) w

/-- The outer loop: `for l in left: if filter(l): …`.  Gives also what the second components of the pairs
have been. -/
def eachLeft [BEq K] (c : Code σ A K E) (right : Right A K) (body : A × A → σ → Flow E × σ) :
    ℕ → World σ → End E × List A × World σ
  | 0, W => (.out, [], W)
  | n + 1, W =>
    match c.pullL W.st with
    | (.stop, w1) => (.done, [], ⟨W.right, W.closed, w1⟩)
    | (.raise e, w1) => (.raise e, [], ⟨W.right, W.closed, w1⟩)
    | (.yield l, w1) =>
      match test c.leftFilter l w1 with
      | (.error e, w2) => (.raise e, [], ⟨W.right, W.closed, w2⟩)
      | (.ok false, w2) => eachLeft c right body n ⟨W.right, W.closed, w2⟩
      | (.ok true, w2) =>
        match eachMatch c right l (fun r w => body (c.kind.pair l r) w) ⟨W.right, W.closed, w2⟩ with
        | (.done, [], W3) =>
          match lonely c body l W3.st with
          | (.brk, w4) => (.brk, [c.none_], ⟨W3.right, W3.closed, w4⟩)
          | (.raise e, w4) => (.raise e, [c.none_], ⟨W3.right, W3.closed, w4⟩)
          | (.go, w4) =>
            match eachLeft c right body n ⟨W3.right, W3.closed, w4⟩ with
            | (e, ms, W5) => (e, c.none_ :: ms, W5)
        | (.done, m :: ms, W3) =>
          match eachLeft c right body n W3 with
          | (e, ms', W5) => (e, m :: ms ++ ms', W5)
        | other => other

/-- The end of an outer join: `for r in rows: if r was in no pair: body((None, r))`. -/
def eachUnmatched [DecidableEq A] (c : Code σ A K E) (body : A × A → σ → Flow E × σ) (given : List A) :
    List A → σ → End E × σ
  | [], w => (.done, w)
  | r :: rs, w =>
    if r ∈ given then eachUnmatched c body given rs w
    else
      match body (c.none_, r) w with
      | (.brk, w1) => (.brk, w1)
      | (.raise e, w1) => (.raise e, w1)
      | (.go, w1) => eachUnmatched c body given rs w1

/-- The whole join as loops. -/
def loops [DecidableEq A] [BEq K] (c : Code σ A K E) (body : A × A → σ → Flow E × σ) (n m : ℕ)
    (w : σ) : End E × σ :=
  match c.pretest w with
  | (.error e, w1) => (.raise e, w1)
  | (.ok false, w1) => (.done, w1)
  | (.ok true, w1) =>
    match readRight c m w1 with
    | (.out, _, w2) => (.out, w2)
    | (.raise e, _, w2) => (.raise e, w2)
    | (.ok (right, rows), m1, w2) =>
      match eachLeft c right body n ⟨m1, false, w2⟩ with
      | (.done, given, W3) => eachUnmatched c body given rows W3.st
      | (e, _, W3) => (e, W3.st)

end Verif.JoinGen
