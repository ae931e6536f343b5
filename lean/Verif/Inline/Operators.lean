import Verif.Inline.Model
import Verif.Expr.Model

/-!
# Inline: operators of conversions

Model of the operator methods of `BaseConversion` (`/repo/src/convtools/base.py` 601-729): from the codes of the
operands to the code of the result.  `attr`, `item`, `call`, `call_method`, `as_type` and `execute` (594-621) make other
conversions (`Verif/Expr`).

Simplification: `or_`, `and_` and `eq` take two operands here; any number is in `Verif/Expr`.
-/

set_option autoImplicit false

namespace Verif.Inline

/-- The methods (`/repo/src/convtools/base.py` 601-729). -/
inductive Method
  | getitem | or_ | and_ | not_ | is_ | is_not | in_ | not_in | eq | not_eq | gt | gte | lt | lte | neg | add | mul | sub
  | div | mod | floor_div
  deriving DecidableEq

/-- What a method makes: an inline expression (`InlineExpr(template).pass_args(self, …)`), or `Or`, `And`, `Eq`
with its `op` (`/repo/src/convtools/base.py` 1133-1171). -/
inductive Made
  | inline (template : String)
  | joined (op : String)
  deriving DecidableEq

/-- The methods: `__getitem__` (601-602), `or_` (623), `and_` (629), `not_` (635), `is_` (641), `is_not` (644),
`in_` (647), `not_in` (650), `eq` (653), `not_eq` (659), `gt` (665), `gte` (671), `lt` (677), `lte` (683), `neg` (689),
`add` (695), `mul` (701), `sub` (707), `div` (713), `mod` (719), `floor_div` (725) of `/repo/src/convtools/base.py`. -/
def Method.made : Method → Made
  | .getitem => .inline "{}[{}]"
  | .or_ => .joined " or "
  | .and_ => .joined " and "
  | .not_ => .inline "not {0}"
  | .is_ => .inline "{0} is {1}"
  | .is_not => .inline "{0} is not {1}"
  | .in_ => .inline "{0} in {1}"
  | .not_in => .inline "{0} not in {1}"
  | .eq => .joined " == "
  | .not_eq => .inline "{0} != {1}"
  | .gt => .inline "{0} > {1}"
  | .gte => .inline "{0} >= {1}"
  | .lt => .inline "{0} < {1}"
  | .lte => .inline "{0} <= {1}"
  | .neg => .inline "-{0}"
  | .add => .inline "{0} + {1}"
  | .mul => .inline "{0} * {1}"
  | .sub => .inline "{0} - {1}"
  | .div => .inline "{0} / {1}"
  | .mod => .inline "{0} % {1}"
  | .floor_div => .inline "{0} // {1}"

/-- The code of the result (`/repo/src/convtools/base.py` 1147-1155, 1454-1464), from the codes of `self` and the
argument. -/
def Made.text : Made → List String → Option String
  | .inline template, codes => inlineText template ⟨codes, []⟩
  | .joined op, codes => some ("(" ++ Expr.join op codes ++ ")")

/-- Python's operators with two operands for which `BaseConversion` has methods
(`/repo/src/convtools/base.py` 601-729). -/
inductive PyOp
  | getitem | or | and | eq | ne | gt | ge | lt | le | add | mul | sub | truediv | mod | floordiv
  deriving DecidableEq

/-- `__getitem__` (601), `__or__` (626), `__and__` (632), `__eq__` (656), `__ne__` (662), `__gt__` (668), `__ge__` (674),
`__lt__` (680), `__le__` (686), `__add__` (698), `__mul__` (704), `__sub__` (710), `__truediv__` (716), `__mod__` (722),
`__floordiv__` (728) of `/repo/src/convtools/base.py`. -/
def PyOp.method : PyOp → Method
  | .getitem => .getitem
  | .or => .or_
  | .and => .and_
  | .eq => .eq
  | .ne => .not_eq
  | .gt => .gt
  | .ge => .gte
  | .lt => .lt
  | .le => .lte
  | .add => .add
  | .mul => .mul
  | .sub => .sub
  | .truediv => .div
  | .mod => .mod
  | .floordiv => .floor_div

/-- Python's operators with one operand: `__invert__` (638) and `__neg__` (692) of `/repo/src/convtools/base.py`. -/
inductive PyOp1
  | invert | neg
  deriving DecidableEq

/-- `__invert__` (638) and `__neg__` (692) of `/repo/src/convtools/base.py`. -/
def PyOp1.method : PyOp1 → Method
  | .invert => .not_
  | .neg => .neg

example : (PyOp.ge.method.made).text ["a", "(b + 1)"] = some "(a >= (b + 1))" := by decide +kernel

end Verif.Inline
