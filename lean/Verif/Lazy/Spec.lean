import Verif.Lazy.Model
/-!
# Specification of chained generators: one input element at a time
-/
set_option autoImplicit false

namespace Verif.Lazy

variable {σ V E : Type}

/-- One element of the input going through all stages, the innermost (last) first: dropped at the
first condition which is false. -/
def through : List (Stage σ V E) → V → σ → Except E (Option V) × σ
  | [], v, w => (.ok (some v), w)
  | g :: gs, v, w =>
    match through gs v w with
    | (.error e, w1) => (.error e, w1)
    | (.ok none, w1) => (.ok none, w1)
    | (.ok (some u), w1) =>
      match g.test u w1 with
      | (.error e, w2) => (.error e, w2)
      | (.ok false, w2) => (.ok none, w2)
      | (.ok true, w2) =>
        match g.item u w2 with
        | (.error e, w3) => (.error e, w3)
        | (.ok x, w3) => (.ok (some x), w3)

/-- Elements of the input are taken until one goes through, or the input ends, or something raises. -/
def first (pull : σ → Pull V E × σ) (gs : List (Stage σ V E)) : ℕ → σ → Option (Pull V E × σ)
  | 0, _ => none
  | n + 1, w =>
    match pull w with
    | (.stop, w1) => some (.stop, w1)
    | (.raise e, w1) => some (.raise e, w1)
    | (.yield v, w1) =>
      match through gs v w1 with
      | (.error e, w2) => some (.raise e, w2)
      | (.ok none, w2) => first pull gs n w2
      | (.ok (some u), w2) => some (.yield u, w2)

/-- What `k` calls of `next` must give and do: after the end or an exception there is nothing more,
and nothing is done. -/
def serve (pull : σ → Pull V E × σ) (gs : List (Stage σ V E)) (n : ℕ) :
    ℕ → σ → Option (List (Pull V E) × σ)
  | 0, w => some ([], w)
  | k + 1, w =>
    match first pull gs n w with
    | none => none
    | some (.yield v, w1) =>
      match serve pull gs n k w1 with
      | none => none
      | some (rs, w2) => some (.yield v :: rs, w2)
    | some (r, w1) => some (r :: List.replicate k .stop, w1)

/-- The list comprehension `[item for i in xs if cond]`. -/
def listComp (g : Stage σ V E) : List V → σ → Except E (List V) × σ
  | [], w => (.ok [], w)
  | x :: xs, w =>
    match g.test x w with
    | (.error e, w1) => (.error e, w1)
    | (.ok false, w1) => listComp g xs w1
    | (.ok true, w1) =>
      match g.item x w1 with
      | (.error e, w2) => (.error e, w2)
      | (.ok u, w2) =>
        match listComp g xs w2 with
        | (.error e, w3) => (.error e, w3)
        | (.ok us, w3) => (.ok (u :: us), w3)

end Verif.Lazy
