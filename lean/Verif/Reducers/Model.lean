import Verif.Agg.Model

/-!
# The reducers

Source: `/repo/src/convtools/aggregations.py` lines 48-483 and 788-951.

Every built-in reducer is a table of Python statements (285-483) into which `_format_statements`
(182-209) substitutes texts: `%(result)s` becomes the accumulator variable and `{i}` the code of
argument `i`.  Each reducer below is the meaning of its statements, branch by branch.

* `r` is the value of `%(result)s`: `none` is the `_none` sentinel;
* in the combining statements `{0}` is the accumulator itself, or the code of `initial` when they
  are used as starting code (`gen_reduce_initial` 235-247), so it is a separate argument `a0`;
* `x` and `y` are `{1}` and `{2}` of the combining statements, `{0}` and `{1}` of the starting
  statements: the user's expression, and the additional argument (the row for `MaxRow`/`MinRow`, the
  dict value for `Dict...`).  They are substituted as code, so they are computations that may raise
  and run only where the statements mention them.

Simplifications: expressions have no side effects, so a second evaluation of the same text gives the
same value; dict and set keys are hashable; a value never changes after it has been accumulated
(an accumulated list aliased elsewhere is outside the model); `+=` on numbers makes a new value.
-/

set_option autoImplicit false

namespace Verif.Reducers

open Verif

/-- Operations of the Python values of the rows. -/
structure Ops (V E : Type) where
  /-- `v is None` -/
  isNone : V → Bool
  /-- `None` -/
  none : V
  /-- `bool(v)` -/
  truthy : V → Bool
  /-- `0` -/
  zero : V
  /-- `a + b` -/
  add : V → V → Except E V
  /-- `a > b` -/
  gt : V → V → Except E Bool
  /-- `a < b` -/
  lt : V → V → Except E Bool
  /-- what an operation on an object of a wrong kind raises -/
  typeError : E

/-- What accumulators and results hold.  `set` is a set,
`dictKeys` a dict of sets or of dicts with `None` values. -/
inductive Slot (V : Type)
  | val (v : V)
  | row (m r : V)
  | num (n : Nat)
  | list (l : List V)
  | set (l : List V)
  | dict (d : List (V × V))
  | dictNum (d : List (V × Nat))
  | dictList (d : List (V × List V))
  | dictKeys (d : List (V × List V))
  deriving DecidableEq, Repr

/-- A reducer: `_ReducerStatements` / `_ReducerExpression` (116-270) with its attributes
(`_BaseReducer.__init__` 51-69). -/
structure Reducer (V E : Type) where
  reduce : (r a0 : Option (Slot V)) → (x y : Except E V) → Except E (Option (Slot V))
  first : (r : Option (Slot V)) → (x y : Except E V) → Except E (Option (Slot V))
  default : Option (Slot V)
  uncond : Bool
  post : Slot V → Except E (Slot V)

variable {R V E : Type}

/-- No `post_conversion` (`Reduce._gen_code_and_update_ctx` 919). -/
def noPost (s : Slot V) : Except E (Slot V) := .ok s

/-- `{v} or 0` (286). -/
def Ops.orZero (ops : Ops V E) (v : V) : V := if ops.truthy v then v else ops.zero

/-- `_Sum` (285-290). -/
def sum (ops : Ops V E) : Reducer V E where
  reduce := fun r _ x _ =>
    match r, x with
    | _, .error e => .error e
    | some (.val s), .ok v =>
      match ops.add s (ops.orZero v) with
      | .ok w => .ok (some (.val w))
      | .error e => .error e
    | _, .ok _ => .error ops.typeError
  first := fun _ x _ =>
    match x with
    | .ok v => .ok (some (.val (ops.orZero v)))
    | .error e => .error e
  default := some (.val ops.zero)
  uncond := true
  post := noPost

/-- `{0} is not None` of `_SumOrNone` and its branch `{0} + {1}`: `a0` is a value or the sentinel
(which is not `None`). -/
def addSlot (ops : Ops V E) (r a0 : Option (Slot V)) (v : V) : Except E (Option (Slot V)) :=
  match a0 with
  | some (.val s) =>
    if ops.isNone s then .ok r
    else match ops.add s v with
      | .ok w => .ok (some (.val w))
      | .error e => .error e
  | _ => .error ops.typeError

/-- `_SumOrNone` (291-301). -/
def sumOrNone (ops : Ops V E) : Reducer V E where
  reduce := fun r a0 x _ =>
    match x with
    | .error e => .error e
    | .ok v => if ops.isNone v then .ok (some (.val ops.none)) else addSlot ops r a0 v
  first := fun _ x _ =>
    match x with
    | .ok v => .ok (some (.val v))
    | .error e => .error e
  default := some (.val ops.none)
  uncond := true
  post := noPost

/-- A comparison `{1} <cmp> {0}` with an accumulator. -/
def cmpSlot (ops : Ops V E) (cmp : V → V → Except E Bool) (v : V) : Option (Slot V) → Except E Bool
  | some (.val s) => cmp v s
  | _ => .error ops.typeError

/-- `_Max` (302-306) with `cmp` = `>` and `_Min` (307-311) with `cmp` = `<`. -/
def extreme (ops : Ops V E) (cmp : V → V → Except E Bool) : Reducer V E where
  reduce := fun r a0 x _ =>
    match x with
    | .error e => .error e
    | .ok v =>
      if ops.isNone v then .ok r
      else match cmpSlot ops cmp v a0 with
        | .error e => .error e
        | .ok true => .ok (some (.val v))
        | .ok false => .ok r
  first := fun r x _ =>
    match x with
    | .error e => .error e
    | .ok v => if ops.isNone v then .ok r else .ok (some (.val v))
  default := some (.val ops.none)
  uncond := false
  post := noPost

/-- `_Max` (302-306). -/
def max (ops : Ops V E) : Reducer V E := extreme ops ops.gt

/-- `_Min` (307-311). -/
def min (ops : Ops V E) : Reducer V E := extreme ops ops.lt

/-- `_Count` (312-318); the expression is never evaluated. -/
def count (ops : Ops V E) : Reducer V E where
  reduce := fun r _ _ _ =>
    match r with
    | some (.num n) => .ok (some (.num (n + 1)))
    | _ => .error ops.typeError
  first := fun _ _ _ => .ok (some (.num 1))
  default := some (.num 0)
  uncond := true
  post := noPost

/-- Adding to a set, or assigning a key of a dict with `None` values: nothing changes if an equal
element is present, otherwise it comes last. -/
def insertKey [BEq V] (l : List V) (v : V) : List V := if l.any (· == v) then l else l ++ [v]

/-- `_CountDistinct` (319-327). -/
def countDistinct [BEq V] (ops : Ops V E) : Reducer V E where
  reduce := fun r _ x _ =>
    match r, x with
    | some (.set l), .ok v => .ok (some (.set (insertKey l v)))
    | some (.set _), .error e => .error e
    | _, _ => .error ops.typeError
  first := fun _ x _ =>
    match x with
    | .ok v => .ok (some (.set [v]))
    | .error e => .error e
  default := some (.num 0)
  uncond := true
  post := fun s =>
    match s with
    | .set l => .ok (.num l.length)
    | _ => .error ops.typeError

/-- `_First` (328-333): no combining statements, `pass` is generated (195-196). -/
def firstR (ops : Ops V E) : Reducer V E where
  reduce := fun r _ _ _ => .ok r
  first := fun _ x _ =>
    match x with
    | .ok v => .ok (some (.val v))
    | .error e => .error e
  default := some (.val ops.none)
  uncond := true
  post := noPost

/-- `_Last` (334-339). -/
def lastR (ops : Ops V E) : Reducer V E where
  reduce := fun _ _ x _ =>
    match x with
    | .ok v => .ok (some (.val v))
    | .error e => .error e
  first := fun _ x _ =>
    match x with
    | .ok v => .ok (some (.val v))
    | .error e => .error e
  default := some (.val ops.none)
  uncond := true
  post := noPost

/-- `_MaxRow` (340-349) with `cmp m v` = `m < v` and `_MinRow` (350-359) with `m > v`; the
comparison is `{0}[0] <cmp> {1}`. -/
def extremeRow (ops : Ops V E) (cmp : V → V → Except E Bool) : Reducer V E where
  reduce := fun r a0 x y =>
    match x with
    | .error e => .error e
    | .ok v =>
      if ops.isNone v then .ok r
      else match a0 with
        | some (.row m _) =>
          match cmp m v with
          | .error e => .error e
          | .ok false => .ok r
          | .ok true =>
            match y with
            | .ok w => .ok (some (.row v w))
            | .error e => .error e
        | _ => .error ops.typeError
  first := fun r x y =>
    match x with
    | .error e => .error e
    | .ok v =>
      if ops.isNone v then .ok r
      else match y with
        | .ok w => .ok (some (.row v w))
        | .error e => .error e
  default := some (.val ops.none)
  uncond := false
  post := fun s =>
    match s with
    | .row _ w => .ok (.val w)
    | _ => .error ops.typeError

/-- `_MaxRow` (340-349). -/
def maxRow (ops : Ops V E) : Reducer V E := extremeRow ops ops.lt

/-- `_MinRow` (350-359). -/
def minRow (ops : Ops V E) : Reducer V E := extremeRow ops ops.gt

/-- `_Array` (360-365). -/
def array (ops : Ops V E) : Reducer V E where
  reduce := fun r _ x _ =>
    match r, x with
    | some (.list l), .ok v => .ok (some (.list (l ++ [v])))
    | some (.list _), .error e => .error e
    | _, _ => .error ops.typeError
  first := fun _ x _ =>
    match x with
    | .ok v => .ok (some (.list [v]))
    | .error e => .error e
  default := some (.val ops.none)
  uncond := true
  post := noPost

/-- `_ArrayDistinct` (366-372): the variable holds a dict with `None` values. -/
def arrayDistinct [BEq V] (ops : Ops V E) : Reducer V E where
  reduce := fun r _ x _ =>
    match r, x with
    | some (.dict d), .ok v => .ok (some (.dict (Dict.set d v ops.none)))
    | _, .error e => .error e
    | _, _ => .error ops.typeError
  first := fun _ x _ =>
    match x with
    | .ok v => .ok (some (.dict [(v, ops.none)]))
    | .error e => .error e
  default := some (.val ops.none)
  uncond := true
  post := fun s =>
    match s with
    | .dict d => .ok (.list (d.map (·.1)))
    | _ => .error ops.typeError

/-- `r[key]` where `r` is not a dict: the key is evaluated first. -/
def noDict (ops : Ops V E) (x : Except E V) : Except E (Option (Slot V)) :=
  match x with
  | .error e => .error e
  | .ok _ => .error ops.typeError

/-- Evaluation of the key, then the value of a dict reducer. -/
def both (x y : Except E V) : Except E (V × V) :=
  match x, y with
  | .ok k, .ok v => .ok (k, v)
  | .error e, _ => .error e
  | _, .error e => .error e

/-- Evaluation of the value, then the key: an assignment `d[key] = value`, and the tests of
`_DictSumOrNone`. -/
def bothRev (x y : Except E V) : Except E (V × V) :=
  match y, x with
  | .ok v, .ok k => .ok (k, v)
  | .error e, _ => .error e
  | _, .error e => .error e

/-- `_Dict` (375-380) and `_DictLast` (478-483). -/
def dictLast [BEq V] (ops : Ops V E) : Reducer V E where
  reduce := fun r _ x y =>
    match bothRev x y, r with
    | .ok (k, v), some (.dict d) => .ok (some (.dict (Dict.set d k v)))
    | .error e, _ => .error e
    | _, _ => .error ops.typeError
  first := fun _ x y =>
    match both x y with
    | .ok (k, v) => .ok (some (.dict [(k, v)]))
    | .error e => .error e
  default := some (.val ops.none)
  uncond := true
  post := noPost

/-- `_DictArray` (381-390): `defaultdict(list)`. -/
def dictArray [BEq V] (ops : Ops V E) : Reducer V E where
  reduce := fun r _ x y =>
    match r with
    | some (.dictList d) =>
      match both x y with
      | .ok (k, v) =>
        .ok (some (.dictList (Dict.set d k (((Dict.get? d k).getD []) ++ [v]))))
      | .error e => .error e
    | _ => noDict ops x
  first := fun _ x y =>
    match both x y with
    | .ok (k, v) => .ok (some (.dictList [(k, [v])]))
    | .error e => .error e
  default := some (.val ops.none)
  uncond := true
  post := noPost

/-- `_DictArrayDistinct` (391-402): `defaultdict(dict)`. -/
def dictArrayDistinct [BEq V] (ops : Ops V E) : Reducer V E where
  reduce := fun r _ x y =>
    match r with
    | some (.dictKeys d) =>
      match both x y with
      | .ok (k, v) =>
        .ok (some (.dictKeys (Dict.set d k (insertKey ((Dict.get? d k).getD []) v))))
      | .error e => .error e
    | _ => noDict ops x
  first := fun _ x y =>
    match both x y with
    | .ok (k, v) => .ok (some (.dictKeys [(k, [v])]))
    | .error e => .error e
  default := some (.val ops.none)
  uncond := true
  post := fun s =>
    match s with
    | .dictKeys d => .ok (.dictList d)
    | _ => .error ops.typeError

/-- `_d[k] += v or 0` on a `defaultdict(int)` (405, 408). -/
def addAt [BEq V] (ops : Ops V E) (d : List (V × V)) (k w : V) : Except E (Option (Slot V)) :=
  match ops.add ((Dict.get? d k).getD ops.zero) w with
  | .ok s => .ok (some (.dict (Dict.set d k s)))
  | .error e => .error e

/-- `_DictSum` (403-412). -/
def dictSum [BEq V] (ops : Ops V E) : Reducer V E where
  reduce := fun r _ x y =>
    match r with
    | some (.dict d) =>
      match both x y with
      | .ok (k, v) => addAt ops d k (ops.orZero v)
      | .error e => .error e
    | _ => noDict ops x
  first := fun _ x y =>
    match both x y with
    | .ok (k, v) => addAt ops [] k (ops.orZero v)
    | .error e => .error e
  default := some (.val ops.none)
  uncond := true
  post := noPost

/-- `_DictSumOrNone` (413-424); `{0}[{1}]` reads a `defaultdict(int)`. -/
def dictSumOrNone [BEq V] (ops : Ops V E) : Reducer V E where
  reduce := fun r _ x y =>
    match bothRev x y, r with
    | .ok (k, v), some (.dict d) =>
      if ops.isNone v then .ok (some (.dict (Dict.set d k ops.none)))
      else if ops.isNone ((Dict.get? d k).getD ops.zero) then .ok r
      else addAt ops d k v
    | .error e, _ => .error e
    | _, _ => .error ops.typeError
  first := fun _ x y =>
    match bothRev x y with
    | .ok (k, v) => .ok (some (.dict [(k, v)]))
    | .error e => .error e
  default := some (.val ops.none)
  uncond := true
  post := noPost

/-- `_DictMax` (425-435) with `cmp` = `>` and `_DictMin` (436-446) with `<`. -/
def dictExtreme [BEq V] (ops : Ops V E) (cmp : V → V → Except E Bool) : Reducer V E where
  reduce := fun r _ x y =>
    match y with
    | .error e => .error e
    | .ok v =>
      if ops.isNone v then .ok r
      else match x, r with
        | .error e, _ => .error e
        | .ok k, some (.dict d) =>
          match Dict.get? d k with
          | none => .ok (some (.dict (Dict.set d k v)))
          | some s =>
            match cmp v s with
            | .error e => .error e
            | .ok true => .ok (some (.dict (Dict.set d k v)))
            | .ok false => .ok r
        | _, _ => .error ops.typeError
  first := fun r x y =>
    match y with
    | .error e => .error e
    | .ok v =>
      if ops.isNone v then .ok r
      else match x with
        | .ok k => .ok (some (.dict [(k, v)]))
        | .error e => .error e
  default := some (.val ops.none)
  uncond := false
  post := noPost

/-- `_DictMax` (425-435). -/
def dictMax [BEq V] (ops : Ops V E) : Reducer V E := dictExtreme ops ops.gt

/-- `_DictMin` (436-446). -/
def dictMin [BEq V] (ops : Ops V E) : Reducer V E := dictExtreme ops ops.lt

/-- `_DictCount` (447-457); the value expression is never evaluated. -/
def dictCount [BEq V] (ops : Ops V E) : Reducer V E where
  reduce := fun r _ x _ =>
    match x, r with
    | .ok k, some (.dictNum d) =>
      match Dict.get? d k with
      | none => .ok (some (.dictNum (Dict.set d k 1)))
      | some n => .ok (some (.dictNum (Dict.set d k (n + 1))))
    | .error e, _ => .error e
    | _, _ => .error ops.typeError
  first := fun _ x _ =>
    match x with
    | .ok k => .ok (some (.dictNum [(k, 1)]))
    | .error e => .error e
  default := some (.val ops.none)
  uncond := true
  post := noPost

/-- `_DictCountDistinct` (458-471). -/
def dictCountDistinct [BEq V] (ops : Ops V E) : Reducer V E where
  reduce := fun r _ x y =>
    match r with
    | some (.dictKeys d) =>
      match both x y with
      | .ok (k, v) =>
        match Dict.get? d k with
        | none => .ok (some (.dictKeys (Dict.set d k [v])))
        | some l => .ok (some (.dictKeys (Dict.set d k (insertKey l v))))
      | .error e => .error e
    | _ => noDict ops x
  first := fun _ x y =>
    match both x y with
    | .ok (k, v) => .ok (some (.dictKeys [(k, [v])]))
    | .error e => .error e
  default := some (.val ops.none)
  uncond := true
  post := fun s =>
    match s with
    | .dictKeys d => .ok (.dictNum (d.map (fun p => (p.1, p.2.length))))
    | _ => .error ops.typeError

/-- `_DictFirst` (472-477): the value is evaluated for new keys only. -/
def dictFirst [BEq V] (ops : Ops V E) : Reducer V E where
  reduce := fun r _ x y =>
    match x, r with
    | .error e, _ => .error e
    | .ok k, some (.dict d) =>
      match Dict.get? d k with
      | some _ => .ok r
      | none =>
        match y with
        | .ok v => .ok (some (.dict (Dict.set d k v)))
        | .error e => .error e
    | _, _ => .error ops.typeError
  first := fun _ x y =>
    match both x y with
    | .ok (k, v) => .ok (some (.dict [(k, v)]))
    | .error e => .error e
  default := some (.val ops.none)
  uncond := true
  post := noPost

/-- `_ReducerExpression` (116-176) without `initial_from_first` and additional arguments: a custom
function of two arguments. -/
def custom (ops : Ops V E) (f : V → V → Except E V) (default : Option (Slot V)) : Reducer V E where
  reduce := fun _ a0 x _ =>
    match a0, x with
    | some (.val s), .ok v =>
      match f s v with
      | .ok w => .ok (some (.val w))
      | .error e => .error e
    | _, .error e => .error e
    | _, .ok _ => .error ops.typeError
  first := fun _ x _ =>
    match x with
    | .ok v => .ok (some (.val v))
    | .error e => .error e
  default := default
  uncond := false
  post := noPost

/-- `Reduce.gen_reduce_code_block` (876-914) with `gen_reduce_initial` (123-154, 211-247) and
`gen_reduce_two` (156-176, 249-270): the behaviour of one `c.reduce(...)`. -/
def redOf (rd : Reducer V E) (hash : String) (cond : Option String) (initial : Option V)
    (x y : R → Except E V) : Agg.Red R (Slot V) E where
  hash := hash
  cond := cond
  uncond := rd.uncond
  init := fun row r =>
    match initial with
    | none => rd.first r (x row) (y row)
    | some i => rd.reduce r (some (.val i)) (x row) (y row)
  two := fun row r => rd.reduce r r (x row) (y row)

/-- `Reduce._gen_code_and_update_ctx` (916-945): what the result expression sees; `default` is the
user's default, the reducer's own is used if there is none (`configure_parent_reduce_obj` 79-83).
`none` in the output is the `_none` sentinel itself.  Simplification: a `post_conversion` applied to
the sentinel (no default at all) gives the sentinel; no built-in reducer is in that case. -/
def resultOf (rd : Reducer V E) (default slot : Option (Slot V)) : Except E (Option (Slot V)) :=
  match slot with
  | some s =>
    match rd.post s with
    | .ok o => .ok (some o)
    | .error e => .error e
  | none =>
    match default with
    | some d => .ok (some d)
    | none => .ok rd.default

end Verif.Reducers
