import Verif.Expr.Model
/-!
# Construction of `Reduce` objects (aggregations.py 48-92, 272-282, 788-862)

Conversions are those of `Expr` (what `ensure_conversion` makes of the arguments, C50).  Not modelled:
conversions that contain a reduce, which `Reduce.depends_on` (946-951) refuses, and `Reduce.filter` (864-874),
which sets the condition without looking at anything else.
-/
set_option autoImplicit false

namespace Verif.Construct

open Verif.Expr

/-- An object given as `initial` or `default`: a callable, or anything else with its conversion. -/
inductive Given (Val : Type)
  | callable (f : Conv Val)
  | value (c : Conv Val)

/-- aggregations.py 51-69: a `_BaseReducer`; `dict`: it is a `_DictReducerStatements` (272). -/
structure Reducer (Val : Type) where
  dict : Bool
  expr : Option (Conv Val)
  initial : Option (Given Val)
  default : Option (Given Val)
  args : List (Conv Val)
  post : Option (Conv Val)
  uncond : Bool

/-- aggregations.py 793-802: the arguments of `Reduce`; `none` is `_none`. -/
structure Params (Val : Type) where
  expr : Option (Conv Val)
  initial : Option (Given Val)
  default : Option (Given Val)
  args : List (Conv Val)
  uncond : Bool

/-- The attributes of a `Reduce` after its construction (825-862). -/
structure Reduce (Val : Type) where
  expr : Conv Val
  initial : Option (Conv Val)
  default : Option (Given Val)
  args : List (Conv Val)
  post : Option (Conv Val)
  uncond : Bool

/-- The exceptions of the construction. -/
inductive Refusal
  | additionalArgs   -- 276
  | notPair          -- 278
  | notTwo           -- 279: `ValueError` of the unpacking
  | noExpr           -- 848
  | noInitial        -- 850
  deriving DecidableEq

/-- The attributes while `__init__` runs. -/
structure Draft (Val : Type) where
  expr : Option (Conv Val)
  initial : Option (Given Val)
  default : Option (Given Val)
  args : List (Conv Val)
  post : Option (Conv Val)
  uncond : Bool

variable {Val : Type}

/-- aggregations.py 71-92: `_BaseReducer.configure_parent_reduce_obj`. -/
def configure (r : Reducer Val) (d : Draft Val) : Draft Val where
  expr := if r.expr.isSome && d.expr.isNone then r.expr else d.expr
  initial := if r.initial.isSome && d.initial.isNone then r.initial else d.initial
  default := if r.default.isSome && d.default.isNone then r.default else d.default
  args := if !r.args.isEmpty && d.args.isEmpty then r.args else d.args
  post := if r.post.isSome && d.post.isNone then r.post else d.post
  uncond := d.uncond || r.uncond

/-- The object of a conversion: that of a pipe is the object of its last stage, which has the other
stages as `_predefined_input` (base.py 735-750). -/
def object : Conv Val → Conv Val
  | .pipe _ b => object b
  | c => c

/-- aggregations.py 277-279: `isinstance(reduce_obj.expr, (Tuple, List))`, `k, v = reduce_obj.expr.items`. -/
def unpack (e : Option (Conv Val)) : Except Refusal (Conv Val × Conv Val) :=
  match e.map object with
  | some (.coll .tuple [k, v]) => .ok (k, v)
  | some (.coll .list [k, v]) => .ok (k, v)
  | some (.coll .tuple _) => .error .notTwo
  | some (.coll .list _) => .error .notTwo
  | _ => .error .notPair

/-- aggregations.py 273-281: `_DictReducerStatements.configure_parent_reduce_obj` after the call of `super()`. -/
def configureDict (d : Draft Val) : Except Refusal (Draft Val) :=
  if d.args.isEmpty then
    match unpack d.expr with
    | .ok (k, v) => .ok { d with
        expr := some k
        args := d.args ++ [v] }
    | .error e => .error e
  else .error .additionalArgs

/-- aggregations.py 853-859: `initial` is called if it is callable. -/
def initialConv : Given Val → Conv Val
  | .callable f => .call f [] []
  | .value c => c

/-- aggregations.py 846-862: what follows the configuration. -/
def finish (d : Draft Val) : Except Refusal (Reduce Val) :=
  match d.expr with
  | none => .error .noExpr
  | some e =>
    if d.initial.isNone && d.default.isNone then .error .noInitial
    else .ok ⟨e, d.initial.map initialConv, d.default, d.args, d.post, d.uncond⟩

/-- aggregations.py 793-862: `Reduce(reducer, expr, initial, default, additional_args, unconditional_init)`. -/
def construct (r : Reducer Val) (p : Params Val) : Except Refusal (Reduce Val) :=
  let d := configure r ⟨p.expr, p.initial, p.default, p.args, none, p.uncond⟩
  if r.dict then
    match configureDict d with
    | .ok d => finish d
    | .error e => .error e
  else finish d

/-- aggregations.py 938-944: the conversion of the value used if nothing was reduced: a callable is called.
The same for `initial` since 853-859. -/
def Reduce.defaultConv (r : Reduce Val) : Option (Conv Val) :=
  r.default.map fun g => match g with
    | .callable f => .call f [] []
    | .value c => c

end Verif.Construct
