/-!
# Inline expressions

Model of `InlineExpr` (`/repo/src/convtools/base.py` 1418-1464): the code of an inline expression from the codes of its
arguments.  The codes of the arguments are given; how conversions make them is modelled in `Verif/Expr`.

Simplifications: replacement fields of `str.format` are empty, or ASCII letters, digits and underscores; attribute and
index lookups, conversions (`!r`) and format specifications (`:…`) in fields give `none` here.  Exceptions of
`str.format` are `none`.
-/

set_option autoImplicit false

namespace Verif.Inline

/-- State of `str.format` between two characters of the format string (Python's `str.format`, called at
`/repo/src/convtools/base.py` 1454-1463). -/
inductive FState
  | lit
  /-- after `{` -/
  | opened
  | field (acc : List Char)
  /-- after `}` -/
  | closed
  deriving DecidableEq

/-- What the format string says: a character, or a field (`/repo/src/convtools/base.py` 1454-1463). -/
inductive FOut
  | ch (c : Char)
  | field (name : List Char)
  deriving DecidableEq

/-- Characters of the fields which are modelled (`/repo/src/convtools/base.py` 1454-1463). -/
def fieldChar (c : Char) : Bool := c.isAlphanum || c == '_'

/-- One character of the format string (Python's `str.format`, called at `/repo/src/convtools/base.py` 1454-1463). -/
def fstep : FState → Char → Option (List FOut × FState)
  | .lit, c =>
    if c = '{' then some ([], .opened)
    else if c = '}' then some ([], .closed)
    else some ([.ch c], .lit)
  | .opened, c =>
    if c = '{' then some ([.ch '{'], .lit)
    else if c = '}' then some ([.field []], .lit)
    else if fieldChar c then some ([], .field [c])
    else none
  | .field acc, c =>
    if c = '}' then some ([.field acc], .lit)
    else if fieldChar c then some ([], .field (acc ++ [c]))
    else none
  | .closed, c => if c = '}' then some ([.ch '}'], .lit) else none

/-- The rest of the format string (Python's `str.format`, called at `/repo/src/convtools/base.py` 1454-1463). -/
def fields : FState → List Char → Option (List FOut)
  | .lit, [] => some []
  | _, [] => none
  | st, c :: s => (fstep st c).bind fun (o, st') => (fields st' s).map (o ++ ·)

/-- How fields have been numbered so far: not at all, automatically, or by hand (Python's `str.format`, called at
`/repo/src/convtools/base.py` 1454-1463). -/
inductive Numbering
  | undecided
  | auto (next : Nat)
  | manual
  deriving DecidableEq

/-- A part of the text: a character, or the code of an argument (`/repo/src/convtools/base.py` 1454-1463).  Positional
arguments are named by their numbers in decimal, which no keyword is. -/
inductive TPart
  | ch (c : Char)
  | code (key : List Char)
  deriving DecidableEq

/-- A field with digits only is a number (Python's `str.format`, called at `/repo/src/convtools/base.py` 1454-1463). -/
def isNumber (s : List Char) : Bool := s.all Char.isDigit

/-- Fields get numbers; switching between automatic and manual numbers raises `ValueError` (Python's `str.format`,
called at `/repo/src/convtools/base.py` 1454-1463). -/
def number : Numbering → List FOut → Option (List TPart)
  | _, [] => some []
  | st, .ch c :: l => (number st l).map (.ch c :: ·)
  | st, .field [] :: l =>
    match st with
    | .undecided => (number (.auto 1) l).map (.code ['0'] :: ·)
    | .auto n => (number (.auto (n + 1)) l).map (.code (Nat.toDigits 10 n) :: ·)
    | .manual => none
  | st, .field (c :: s) :: l =>
    if isNumber (c :: s) then
      match st with
      | .auto _ => none
      | _ => (number .manual l).map (.code (c :: s) :: ·)
    else (number st l).map (.code (c :: s) :: ·)

/-- The parts of the format string (Python's `str.format`, called at `/repo/src/convtools/base.py` 1454-1463). -/
def parts (code : String) : Option (List TPart) := (fields .lit code.toList).bind (number .undecided)

/-- The number which digits write (Python's `int`, within `str.format` called at `/repo/src/convtools/base.py`
1454-1463). -/
def digits (s : List Char) : Nat := s.foldl (fun n c => 10 * n + (c.toNat - '0'.toNat)) 0

/-- The arguments of `pass_args` (`/repo/src/convtools/base.py` 1437-1452): `args` and `kwargs`. -/
structure Args (α : Type) where
  args : List α
  kwargs : List (String × α)

/-- The argument of a field; `IndexError` and `KeyError` are `none` (Python's `str.format`, called at
`/repo/src/convtools/base.py` 1454-1463). -/
def Args.get {α : Type} (as : Args α) (key : List Char) : Option α :=
  if isNumber key then as.args[digits key]?
  else (as.kwargs.find? (fun p => p.1.toList == key)).map (·.2)

/-- Codes are put in their places (Python's `str.format`, called at `/repo/src/convtools/base.py` 1454-1463). -/
def put (as : Args String) : List TPart → Option (List Char)
  | [] => some []
  | .ch c :: l => (put as l).map (c :: ·)
  | .code k :: l => (as.get k).bind fun a => (put as l).map (a.toList ++ ·)

/-- `InlineExpr._gen_code_and_update_ctx` (`/repo/src/convtools/base.py` 1454-1464), from the codes of the arguments. -/
def inlineText (code : String) (as : Args String) : Option String :=
  ((parts code).bind (put as)).map fun s => "(" ++ String.ofList s ++ ")"

/-- The format string of a left join (`/repo/src/convtools/joins.py` 332-337), with or without a condition. -/
def leftTemplate (condition : Bool) : String :=
  "(left_item, (right_item for right_item in {right_items}" ++ (if condition then " if {condition}" else "") ++ "))"
    ++ " for left_item in {left_items}"

/-- The arguments of it (`/repo/src/convtools/joins.py` 338-342); without a condition `condition` is `None`, whose code
is not used. -/
def leftArgs {α : Type} (leftItems rightItems condition : α) : Args α :=
  ⟨[], [("left_items", leftItems), ("right_items", rightItems), ("condition", condition)]⟩

example : inlineText "{} + {x} * {{1: {}}}[1]" ⟨["a", "b"], [("x", "c")]⟩ = some "(a + c * {1: b}[1])" := by decide +kernel

example : inlineText "{0} + {}" ⟨["a", "b"], []⟩ = none := by decide +kernel

end Verif.Inline
