import Verif.Expr.Model

/-!
# Expressions: from arguments to conversions

`c.optional` (base.py 1729-1777), `ensure_conversion` (base.py 181-223) and `CachingConversion.add_label`
(base.py 983-1012).
-/

set_option autoImplicit false

namespace Verif.Expr

section
variable {Val : Type}

/-- `OptionalCollectionItem.__init__` (base.py 1735-1772): the condition of an optional item.  `none` stands for
an argument which is not given (`_none` for `skipIf` and `keepIf`, `None` for `skipValue`).  The arguments are
already conversions. -/
def optionalItem (c : Conv Val) (skipValue skipIf keepIf : Option (Conv Val)) : Except String (Conv Val) :=
  if (skipIf.isSome || keepIf.isSome) && skipValue.isSome then
    .error "both condition and skip_value are passed"
  else
    match keepIf, skipIf, skipValue with
    | some k, _, _ => .ok (.opt c k)
    | none, some s, _ => .ok (.opt c (.not s))
    | none, none, none => .ok (.opt c (.bin .isNot c (.naive .none)))
    | none, none, some v => .ok (.opt c (.bin .ne c v))

/-- `isinstance(conversion, GetItem) and not conversion.indexes` (base.py 1005-1008); the test ignores
`_predefined_self`, `_predefined_input` and `default`. -/
def Conv.looksThis : Conv Val → Bool
  | .this => true
  | .lookup _ _ idx => idx.isEmpty
  | .lookupD _ _ idx _ => idx.isEmpty
  | .pipe _ b => b.looksThis
  | _ => false

/-- `CachingConversion.add_label` (base.py 983-1012) on the name and the labels. -/
def addLabel (name : Option String) (labels : List (String × Conv Val)) (l : String) (c : Conv Val) :
    Except String (Option String × List (String × Conv Val)) :=
  if labels.any (fun p => p.1 == l) || name == some l then .error "label_name is already used"
  else if name.isNone && c.looksThis then .ok (some l, labels)
  else .ok (name, labels ++ [(l, c)])

/-- Several labels, added one after another (base.py 826-829, 846-849). -/
def addLabels (name : Option String) (labels : List (String × Conv Val)) :
    List (String × Conv Val) → Except String (Option String × List (String × Conv Val))
  | [] => .ok (name, labels)
  | (l, c) :: rest =>
    match addLabel name labels l c with
    | .error e => .error e
    | .ok (name, labels) => addLabels name labels rest

/-- A labelled conversion (base.py 824-829, 844-849); `auto` is `cached_val_<n>` (977-981), the name if no label
gives one. -/
def labelConv (auto : String) (c : Conv Val) (adds : List (String × Conv Val)) : Except String (Conv Val) :=
  match addLabels none [] adds with
  | .error e => .error e
  | .ok (name, labels) => .ok (.caching c (name.getD auto) (labels.map (·.1)) (labels.map (·.2)))

/-- Is it a mutation (`BaseMutation`, base.py 859-860; mutations.py)? -/
def Conv.isMut : Conv Val → Bool
  | .mutSetItem _ _ => true
  | .mutSetAttr _ _ => true
  | .mutDelItem _ => true
  | .mutDelAttr _ => true
  | .mutCustom _ => true
  | _ => false

/-- Python objects given where a conversion is expected. -/
inductive Obj (Val : Type)
  /-- a conversion -/
  | conv (c : Conv Val)
  /-- a dict: keys and values in turn -/
  | dict (kvs : List (Obj Val))
  | list (xs : List (Obj Val))
  | tuple (xs : List (Obj Val))
  | set (xs : List (Obj Val))
  /-- `slice(start, stop, step)`, where `slice` names the object `f` -/
  | slice (f : Lit Val) (start stop step : Obj Val)
  /-- anything else -/
  | other (l : Lit Val)

mutual

/-- `ensure_conversion` (base.py 181-223); `acceptMutations` is `accept_mutations`.  The inline expression
`(slice({}, {}, {}))` (217-220, 1437-1466) is the call of the builtin, without the outer parentheses in its text. -/
def ensure (acceptMutations : Bool) : Obj Val → Except String (Conv Val)
  | .conv c =>
    if c.isMut && !acceptMutations then .error "BaseMutation instances are not allowed" else .ok c
  | .dict kvs => (ensureAll kvs).map .dict
  | .list xs => (ensureAll xs).map (.coll .list)
  | .tuple xs => (ensureAll xs).map (.coll .tuple)
  | .set xs => (ensureAll xs).map (.coll .set)
  | .slice f a b c =>
    match ensure false a with
    | .error e => .error e
    | .ok x =>
      match ensure false b with
      | .error e => .error e
      | .ok y => (ensure false c).map fun z => .call (.naive f) [x, y, z] []
  | .other l => .ok (.naive l)

/-- The items of a collection (base.py 1644, 1822-1827), without `accept_mutations`. -/
def ensureAll : List (Obj Val) → Except String (List (Conv Val))
  | [] => .ok []
  | o :: os =>
    match ensure false o with
    | .error e => .error e
    | .ok c =>
      match ensureAll os with
      | .error e => .error e
      | .ok cs => .ok (c :: cs)

end

end

end Verif.Expr
