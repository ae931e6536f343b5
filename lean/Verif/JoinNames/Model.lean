import Verif.Join.Model
import Verif.Signature.Props

/-!
# Rows and arguments in the condition of a join (C64, C65)

Source: `/repo/src/convtools/base.py` 303-328 (`gen_code_and_update_ctx`), 404-447, 1041-1061 (`InputArg`), 1079-1130
(`ConversionWrapper`, `NamedConversion`), 1508-1545 (comprehensions) and `joins.py` 32-148 (`_JoinConditions`), 167-283,
378-391.

The code of a part of a condition is a tree over names; its text has been treated elsewhere (C48, C49, C51).
-/

set_option autoImplicit false

namespace Verif.JoinNames

open Verif

variable {V E : Type}

/-- A part of a condition.  `op1` and `op2` stand for all conversions which hand their input on to their one or two
parts and evaluate both (`GetItem` 785-820, `Eq`, `InlineExpr`, calls); `comp` is a list comprehension (base.py
1538-1545). -/
inductive Conv (V : Type)
  /-- `GetItem()` without indexes: `c.this()` -/
  | this
  /-- `c.LEFT` (joins.py 35): `NamedConversion("left_row", GetItem())` -/
  | left
  /-- `c.RIGHT` (joins.py 36) -/
  | right
  /-- `c.input_arg(n)` (base.py 1041-1061) -/
  | arg (n : String)
  /-- a constant -/
  | lit (v : V)
  | op1 (o : String) (a : Conv V)
  | op2 (o : String) (a b : Conv V)
  /-- `a.pipe(b)`: `b` with predefined input `a` (base.py 313-318) -/
  | pipe (a b : Conv V)
  | comp (a : Conv V)

/-- Generated code. -/
inductive Code (V : Type)
  | name (n : String)
  | lit (v : V)
  | op1 (o : String) (a : Code V)
  | op2 (o : String) (a b : Code V)
  /-- `(a and None or b)` (base.py 322-325) -/
  | after (a b : Code V)
  /-- `[a for x in s]` -/
  | comp (x : String) (a s : Code V)

/-- What the names of the wrapper (base.py 1079-1110) stand for, if there is a wrapper around. -/
abbrev Wrapper := Option (String × String)

/-- `gen_code_and_update_ctx` (base.py 303-328).  `nm` gives the name of the variable of a comprehension over some code
(`gen_name("i", ctx, code_input)` 364-388, 1519); `att` says if the code of the first stage of a pipe has to be attached
(317-318, 320-321).  The names of the enclosing wrapper reach all parts, since they are kept in `ctx` (1094-1110). -/
def gen (nm : Code V → String) (att : Code V → Code V → Bool) (W : Wrapper) : Conv V → Code V → Code V
  | .this, inp => inp
  | .left, inp => match W with
    | none => inp
    | some (l, _) => .name l
  | .right, inp => match W with
    | none => inp
    | some (_, r) => .name r
  | .arg n, _ => .name n
  | .lit v, _ => .lit v
  | .op1 o a, inp => .op1 o (gen nm att W a inp)
  | .op2 o a b, inp => .op2 o (gen nm att W a inp) (gen nm att W b inp)
  | .pipe a b, inp =>
    let first := gen nm att W a inp
    let code := gen nm att W b first
    if att first code then .after first code else code
  | .comp a, inp => .comp (nm inp) (gen nm att W a (.name (nm inp))) inp

/-- What operations do (Python's semantics of operators and of iteration). -/
structure Rt (V E : Type) where
  op1 : String → V → Except E V
  op2 : String → V → V → Except E V
  items : V → Except E (List V)
  list : List V → V

/-- The results of `f` on all elements, in order. -/
def forAll (f : V → Except E V) : List V → Except E (List V)
  | [] => .ok []
  | x :: xs =>
    match f x with
    | .error e => .error e
    | .ok y =>
      match forAll f xs with
      | .error e => .error e
      | .ok ys => .ok (y :: ys)

/-- Evaluation of code (Python's semantics of expressions and scopes of comprehensions). -/
def Code.eval (rt : Rt V E) : Code V → (String → V) → Except E V
  | .name n, env => .ok (env n)
  | .lit v, _ => .ok v
  | .op1 o a, env =>
    match a.eval rt env with
    | .error e => .error e
    | .ok x => rt.op1 o x
  | .op2 o a b, env =>
    match a.eval rt env with
    | .error e => .error e
    | .ok x =>
      match b.eval rt env with
      | .error e => .error e
      | .ok y => rt.op2 o x y
  | .after a b, env =>
    match a.eval rt env with
    | .error e => .error e
    | .ok _ => b.eval rt env
  | .comp x a s, env =>
    match s.eval rt env with
    | .error e => .error e
    | .ok v =>
      match rt.items v with
      | .error e => .error e
      | .ok xs =>
        match forAll (fun y => a.eval rt (fun n => if n = x then y else env n)) xs with
        | .error e => .error e
        | .ok ys => .ok (rt.list ys)

/-- `LEFT_NAME in _get_join_deps(conv)` (joins.py 86-92). -/
def Conv.usesLeft : Conv V → Bool
  | .left => true
  | .op1 _ a => a.usesLeft
  | .op2 _ a b => a.usesLeft || b.usesLeft
  | .pipe a b => a.usesLeft || b.usesLeft
  | .comp a => a.usesLeft
  | _ => false

/-- `RIGHT_NAME in _get_join_deps(conv)` (joins.py 86-92). -/
def Conv.usesRight : Conv V → Bool
  | .right => true
  | .op1 _ a => a.usesRight
  | .op2 _ a b => a.usesRight || b.usesRight
  | .pipe a b => a.usesRight || b.usesRight
  | .comp a => a.usesRight
  | _ => false

/-- The names of the arguments in it (`get_args`, base.py 404-413). -/
def Conv.args : Conv V → List String
  | .arg n => [n]
  | .op1 _ a => a.args
  | .op2 _ a b => a.args ++ b.args
  | .pipe a b => a.args ++ b.args
  | .comp a => a.args
  | _ => []

/-- `name_to_code_input` of the condition of the inner loop (joins.py 231-247). -/
def wrapperNames (swapped : Bool) : String × String :=
  if swapped then ("right_item", "left_item") else ("left_item", "right_item")

/-- The variables of the loops over the two collections (joins.py 289-303, 331-343); when swapped the outer loop goes
over the right collection of the user (168-171). -/
def loopEnv (swapped : Bool) (l r : V) (env : String → V) (n : String) : V :=
  if n = "left_item" then (if swapped then r else l)
  else if n = "right_item" then (if swapped then l else r)
  else env n

/-- Code of a conjunct which is no equality of keys (joins.py 59-69, 121-132 and its use 178-230): with the wrapper if
it goes to the inner loop, where the input is `inp` (289-303), else as a filter of a collection whose rows are `row`.
`how` is what remains after right joins have been swapped (167-171). -/
def filterCode (nm : Code V → String) (att : Code V → Code V → Bool) (how : Join.How) (swapped : Bool) (row : String)
    (inp : Code V) (c : Conv V) : Code V :=
  if c.usesLeft && c.usesRight then gen nm att (some (wrapperNames swapped)) c inp
  else if c.usesLeft then
    (if how.leftJoin then gen nm att (some (wrapperNames swapped)) c inp else gen nm att none c (.name row))
  else if c.usesRight then
    (if how.rightJoin then gen nm att (some (wrapperNames swapped)) c inp else gen nm att none c (.name row))
  else gen nm att none c inp

/-- Code of a side of an equality of keys (joins.py 105-111, 249-283): its input is `left_item` on the left, `row_` of
the `DictArray` on the right; there is no wrapper. -/
def keyCode (nm : Code V → String) (att : Code V → Code V → Bool) (row : String) (c : Conv V) : Code V :=
  gen nm att none c (.name row)

/-! ## Arguments -/

open Signature in
/-- The signature of the converter of a join (joins.py 380-383). -/
def joinSignature (deps : List Dep) : Str := "left, right".toList ++ getArgsDefCode deps false false true

open Signature in
/-- The arguments with which it is called after the two collections: names evaluated by the caller (joins.py 385-390,
base.py 437-447). -/
def joinCallNames (deps : List Dep) : List Str := (getArgs deps true).map (·.argName)

end Verif.JoinNames
