import Verif.Expr.Model

/-!
# Expressions: what a conversion means

`den` evaluates a conversion directly on an input value: no code, no text, no names.  A conversion is
applied to a value; a pipe passes the value on; `if_` evaluates the condition on the value and then one
of the branches on the same value; a lookup with default evaluates the object and the default, then tries
the lookups; and so on.  It uses the same runtime operations as the generated code, in the order in which
Python would perform them.
-/

set_option autoImplicit false

namespace Verif.Expr

section
variable {Val U Err : Type}

/-- A label set by the user. -/
def setLabel (n : String) (x : Val) : M Val U Err Unit := runSet (.user n) x

mutual

/-- Value and effects of a conversion on the input `v`; `A` gives the input arguments. -/
def den (R : Runtime Val U Err) (fuel : Nat) (A : Env Val) : Conv Val → Val → M Val U Err Val
  | .this, v => pure v
  | .naive l, _ => pure (R.lit l)
  | .arg n, _ => runName R A n
  | .label n, _ => runGet R (.user n)
  | .lookup attr s idx, v => do
    let x ← den R fuel A s v
    denPath R fuel A attr x idx v
  | .lookupD attr s idx d, v => do
    let x ← den R fuel A s v
    let dv ← den R fuel A d v
    onError (denPath R fuel A attr x idx v) (fun e => if R.caught e then pure dv else fail e)
  | .call s as kw, v => do
    let f ← den R fuel A s v
    let xs ← denAll R fuel A as v
    runOp R (.call kw) (f :: xs)
  | .boolop isAnd as, v => denBool R fuel A isAnd as v
  | .eqs as, v => denEqs R fuel A as v
  | .not a, v => do
    let x ← den R fuel A a v
    let b ← runTruthy R x
    pure (R.bool (!b))
  | .bin .index a b, v => do
    let x ← den R fuel A a v
    let y ← den R fuel A b v
    runOp R .getitem [x, y]
  | .bin o a b, v => do
    let x ← den R fuel A a v
    let y ← den R fuel A b v
    runOp R (.bin o) [x, y]
  | .neg a, v => do
    let x ← den R fuel A a v
    runOp R .neg [x]
  | .ifc c t f _, v => do
    let x ← den R fuel A c v
    let b ← runTruthy R x
    if b then den R fuel A t v else den R fuel A f v
  | .comp k item value hasCond cond sort, v => do
    let it ← runOp R .iter [v]
    let run := loop R it (fun x => do
      let keep ← if hasCond then (do
          let c ← den R fuel A cond x
          runTruthy R c)
        else pure true
      if keep then addItem R k sort (den R fuel A item x) (den R fuel A value x) else pure []) fuel
    let xs ← if viaGen k sort then inGen R run else run
    finish R k sort xs
  | .coll k items, v =>
    if items.any Conv.isOpt then do
      let xs ← inGen R (denOpt R fuel A k items v)
      runOp R (.mk k) xs
    else do
      let xs ← denAll R fuel A items v
      runOp R (.mk k) xs
  | .dict kvs, v =>
    if kvs.any Conv.isOpt then do
      let xs ← inGen R (denOptDict R fuel A kvs v)
      runOp R (.mk .dict) xs
    else do
      let xs ← denAll R fuel A kvs v
      runOp R (.mk .dict) xs
  | .opt _ _, _ => fail R.bad
  | .caching c name labels convs, v => do
    let x ← den R fuel A c v
    setLabel name x
    denLabels R fuel A labels convs x
    pure x
  | .tap o ms, v => do
    let x ← den R fuel A o v
    let _ ← denAll R fuel A ms x
    pure x
  | .mutSetItem k e, v => do
    let z ← den R fuel A e v
    let y ← den R fuel A k v
    runOp R .setitem [v, y, z]
  | .mutSetAttr k e, v => do
    let y ← den R fuel A k v
    let z ← den R fuel A e v
    runOp R .setattr [v, y, z]
  | .mutDelItem k, v => do
    let f ← runOp R .getattr [v, R.str "pop"]
    let y ← den R fuel A k v
    runOp R (.call []) [f, y]
  | .mutDelAttr k, v => do
    let y ← den R fuel A k v
    runOp R .delattr [v, y]
  | .mutCustom c, v => den R fuel A c v
  | .pipe a b, v => do
    let x ← den R fuel A a v
    den R fuel A b x

/-- Conversions from left to right on the same input. -/
def denAll (R : Runtime Val U Err) (fuel : Nat) (A : Env Val) : List (Conv Val) → Val →
    M Val U Err (List Val)
  | [], _ => pure []
  | c :: cs, v => do
    let x ← den R fuel A c v
    let xs ← denAll R fuel A cs v
    pure (x :: xs)

/-- Lookups one after another, starting at `x`; the keys are computed from the input `v`. -/
def denPath (R : Runtime Val U Err) (fuel : Nat) (A : Env Val) (attr : Bool) (x : Val) :
    List (Conv Val) → Val → M Val U Err Val
  | [], _ => pure x
  | c :: cs, v => do
    let i ← den R fuel A c v
    let y ← runOp R (if attr then .getattr else .getitem) [x, i]
    denPath R fuel A attr y cs v

/-- Logical operators: the first falsy (truthy) value, or the last one. -/
def denBool (R : Runtime Val U Err) (fuel : Nat) (A : Env Val) (isAnd : Bool) : List (Conv Val) → Val →
    M Val U Err Val
  | [], _ => fail R.bad
  | c :: cs, v => do
    let x ← den R fuel A c v
    match cs with
    | [] => pure x
    | _ :: _ => do
      let b ← runTruthy R x
      if b = isAnd then denBool R fuel A isAnd cs v else pure x

/-- A chain of comparisons. -/
def denEqs (R : Runtime Val U Err) (fuel : Nat) (A : Env Val) : List (Conv Val) → Val → M Val U Err Val
  | [], _ => fail R.bad
  | c :: cs, v => do
    let x ← den R fuel A c v
    denEqs' R fuel A x cs v

/-- The comparisons after the first operand. -/
def denEqs' (R : Runtime Val U Err) (fuel : Nat) (A : Env Val) (x : Val) : List (Conv Val) → Val →
    M Val U Err Val
  | [], _ => pure x
  | c :: cs, v => do
    let y ← den R fuel A c v
    let r ← runOp R .eq [x, y]
    match cs with
    | [] => pure r
    | _ :: _ => do
      let b ← runTruthy R r
      if b then denEqs' R fuel A y cs v else pure r

/-- Items of a collection: an optional one is there iff its condition holds. -/
def denOpt (R : Runtime Val U Err) (fuel : Nat) (A : Env Val) (k : Kind) : List (Conv Val) → Val →
    M Val U Err (List Val)
  | [], _ => pure []
  | .opt c cond :: cs, v => do
    let x ← den R fuel A cond v
    let keep ← runTruthy R x
    let xs ← if keep then addItem R k none (den R fuel A c v) (pure R.none) else pure []
    let rest ← denOpt R fuel A k cs v
    pure (xs ++ rest)
  | c :: cs, v => do
    let xs ← addItem R k none (den R fuel A c v) (pure R.none)
    let rest ← denOpt R fuel A k cs v
    pure (xs ++ rest)

/-- Pairs of a dict: a pair is there iff the conditions of its optional parts hold. -/
def denOptDict (R : Runtime Val U Err) (fuel : Nat) (A : Env Val) : List (Conv Val) → Val →
    M Val U Err (List Val)
  | .opt k ck :: .opt e ce :: rest, v => do
    let x ← den R fuel A ck v
    let b ← runTruthy R x
    let y ← if b then den R fuel A ce v else pure x
    let keep ← runTruthy R y
    let xs ← if keep then addItem R .dict none (den R fuel A k v) (den R fuel A e v) else pure []
    let ys ← denOptDict R fuel A rest v
    pure (xs ++ ys)
  | .opt k ck :: e :: rest, v => do
    let x ← den R fuel A ck v
    let keep ← runTruthy R x
    let xs ← if keep then addItem R .dict none (den R fuel A k v) (den R fuel A e v) else pure []
    let ys ← denOptDict R fuel A rest v
    pure (xs ++ ys)
  | k :: .opt e ce :: rest, v => do
    let x ← den R fuel A ce v
    let keep ← runTruthy R x
    let xs ← if keep then addItem R .dict none (den R fuel A k v) (den R fuel A e v) else pure []
    let ys ← denOptDict R fuel A rest v
    pure (xs ++ ys)
  | k :: e :: rest, v => do
    let xs ← addItem R .dict none (den R fuel A k v) (den R fuel A e v)
    let ys ← denOptDict R fuel A rest v
    pure (xs ++ ys)
  | _, _ => pure []

/-- Labels of a labelled value. -/
def denLabels (R : Runtime Val U Err) (fuel : Nat) (A : Env Val) : List String → List (Conv Val) → Val →
    M Val U Err Unit
  | l :: ls, c :: cs, x => do
    let y ← den R fuel A c x
    setLabel l y
    denLabels R fuel A ls cs x
  | _, _, _ => pure ()

end

end

end Verif.Expr
