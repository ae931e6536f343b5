import Verif.Agg.Hash
import Verif.Reducers.Model

/-!
# Stmt: templates of the reducers

Source: `/repo/src/convtools/aggregations.py` lines 116-483, 876-914.
-/

set_option autoImplicit false

namespace Verif.Stmt

open Verif.Agg

/-! ## Formatting -/

/-- `statement % dict(result=var)` (199): the characters of the statement, `none` where the variable is put.  The first
argument is what is left of `(result)s` after a `%`.  Other uses of `%` give `none`; the templates have none. -/
def percentGo : List Char → List Char → Option (List (Option Char))
  | [], [] => some []
  | [], c :: s => if c = '%' then percentGo "(result)s".toList s else (percentGo [] s).map (some c :: ·)
  | _ :: _, [] => none
  | r :: rem, c :: s =>
    if c = r then
      match rem with
      | [] => (percentGo [] s).map (none :: ·)
      | _ => percentGo rem s
    else none

/-- The variable in its places. -/
def putVar (var : List Char) (l : List (Option Char)) : List Char :=
  l.flatMap fun o =>
    match o with
    | some c => [c]
    | none => var

/-- `statement % dict(result=var)` (199). -/
def percent (var : List Char) (s : String) : Option (List Char) := (percentGo [] s.toList).map (putVar var)

/-- All statements (197-202). -/
def percentAll (var : List Char) : List String → Option (List (List Char))
  | [] => some []
  | s :: ss => (percent var s).bind fun a => (percentAll var ss).map (a :: ·)

/-- State of `str.format` between two characters. -/
inductive FState
  | lit
  /-- after `{` -/
  | opened
  | index (n : Nat)
  /-- after `}` -/
  | closed

/-- What `str.format` writes: a character, or an argument. -/
inductive FOut
  | ch (c : Char)
  | arg (n : Nat)

/-- One character of a format string.  Only numbered fields without conversions and format specifications; other ones
give `none`.  The templates have none. -/
def fstep : FState → Char → Option (List FOut × FState)
  | .lit, c =>
    if c = '{' then some ([], .opened)
    else if c = '}' then some ([], .closed)
    else some ([.ch c], .lit)
  | .opened, c =>
    if c = '{' then some ([.ch '{'], .lit)
    else if c.isDigit then some ([], .index (c.toNat - '0'.toNat))
    else none
  | .index n, c =>
    if c = '}' then some ([.arg n], .lit)
    else if c.isDigit then some ([], .index (10 * n + (c.toNat - '0'.toNat)))
    else none
  | .closed, c => if c = '}' then some ([.ch '}'], .lit) else none

/-- The rest of a format string. -/
def fgo : FState → List Char → Option (List FOut)
  | .lit, [] => some []
  | _, [] => none
  | st, c :: s => (fstep st c).bind fun (o, st') => (fgo st' s).map (o ++ ·)

/-- The arguments in their places; a missing argument raises `IndexError`. -/
def putArgs (args : List (List Char)) : List FOut → Option (List Char)
  | [] => some []
  | .ch c :: os => (putArgs args os).map (c :: ·)
  | .arg n :: os =>
    match args[n]? with
    | some a => (putArgs args os).map (a ++ ·)
    | none => none

/-- `code.format(*args)` (203-205). -/
def format (args : List (List Char)) (s : List Char) : Option (List Char) := (fgo .lit s).bind (putArgs args)

/-- `_ReducerStatements._format_statements` (182-205), from the codes of the arguments. -/
def formatStatements (var : List Char) (stmts : List String) (args : List (List Char)) : Option (List Char) :=
  (percentAll var (if stmts.isEmpty then ["pass"] else stmts)).bind fun ls => format args (joinLines ls)

/-! ## The reducers -/

/-- `_ReducerStatements` (182-270) as far as code generation uses it: `reduce` and `initial_from_first`.
Simplification: `initial_from_first` is not empty, as in the table. -/
structure Template where
  reduce : List String
  first : List String

/-- The reducers of `ReduceFuncs` (486-548). -/
inductive Fn
  | sum
  | sumOrNone
  | max
  | min
  | count
  | countDistinct
  | first
  | last
  | maxRow
  | minRow
  | array
  | arrayDistinct
  | dict
  | dictArray
  | dictArrayDistinct
  | dictSum
  | dictSumOrNone
  | dictMax
  | dictMin
  | dictCount
  | dictCountDistinct
  | dictFirst
  | dictLast
  deriving DecidableEq

/-- The table of statements (285-483). -/
def Fn.template : Fn → Template
  -- 285-290
  | .sum => ⟨["%(result)s += ({1} or 0)"], ["%(result)s = ({0} or 0)"]⟩
  -- 291-301
  | .sumOrNone =>
    ⟨["if {1} is None:", "    %(result)s = None", "elif {0} is not None:", "    %(result)s = {0} + {1}"],
      ["%(result)s = {0}"]⟩
  -- 302-306
  | .max =>
    ⟨["if {1} is not None and {1} > {0}:", "    %(result)s = {1}"], ["if {0} is not None:", "    %(result)s = {0}"]⟩
  -- 307-311
  | .min =>
    ⟨["if {1} is not None and {1} < {0}:", "    %(result)s = {1}"], ["if {0} is not None:", "    %(result)s = {0}"]⟩
  -- 312-318
  | .count => ⟨["%(result)s += 1"], ["%(result)s = 1"]⟩
  -- 319-327
  | .countDistinct => ⟨["%(result)s.add({1})"], ["%(result)s = {{ {0} }}"]⟩
  -- 328-333
  | .first => ⟨[], ["%(result)s = {0}"]⟩
  -- 334-339
  | .last => ⟨["%(result)s = {1}"], ["%(result)s = {0}"]⟩
  -- 340-349
  | .maxRow =>
    ⟨["if {1} is not None and {0}[0] < {1}:", "    %(result)s = ({1}, {2})"],
      ["if {0} is not None:", "    %(result)s = ({0}, {1})"]⟩
  -- 350-359
  | .minRow =>
    ⟨["if {1} is not None and {0}[0] > {1}:", "    %(result)s = ({1}, {2})"],
      ["if {0} is not None:", "    %(result)s = ({0}, {1})"]⟩
  -- 360-365
  | .array => ⟨["%(result)s.append({1})"], ["%(result)s = [{0}]"]⟩
  -- 366-372
  | .arrayDistinct => ⟨["%(result)s[{1}] = None"], ["%(result)s = {{ {0}: None }}"]⟩
  -- 375-380
  | .dict => ⟨["%(result)s[{1}] = {2}"], ["%(result)s = {{ {0}: {1} }}"]⟩
  -- 381-390
  | .dictArray =>
    ⟨["%(result)s[{1}].append({2})"], ["%(result)s = _d = defaultdict(list)", "_d[{0}].append({1})"]⟩
  -- 391-402
  | .dictArrayDistinct =>
    ⟨["%(result)s[{1}][{2}] = None"], ["%(result)s = _d = defaultdict(dict)", "_d[{0}][{1}] = None"]⟩
  -- 403-412
  | .dictSum =>
    ⟨["%(result)s[{1}] += {2} or 0"], ["%(result)s = _d = defaultdict(int)", "_d[{0}] += {1} or 0"]⟩
  -- 413-424
  | .dictSumOrNone =>
    ⟨["if {2} is None:", "    %(result)s[{1}] = None", "elif {0}[{1}] is not None:", "    %(result)s[{1}] += {2}"],
      ["%(result)s = _d = defaultdict(int)", "_d[{0}] = {1}"]⟩
  -- 425-435
  | .dictMax =>
    ⟨["if {2} is not None and ({1} not in {0} or {2} > {0}[{1}]):", "    %(result)s[{1}] = {2}"],
      ["if {1} is not None:", "    %(result)s = {{ {0}: {1} }}"]⟩
  -- 436-446
  | .dictMin =>
    ⟨["if {2} is not None and ({1} not in {0} or {2} < {0}[{1}]):", "    %(result)s[{1}] = {2}"],
      ["if {1} is not None:", "    %(result)s = {{ {0}: {1} }}"]⟩
  -- 447-457
  | .dictCount =>
    ⟨["if {1} not in {0}:", "    %(result)s[{1}] = 1", "else:", "    %(result)s[{1}] += 1"],
      ["%(result)s = {{ {0}: 1 }}"]⟩
  -- 458-471
  | .dictCountDistinct =>
    ⟨["if {1} not in {0}:", "    %(result)s[{1}] = {{ {2} }}", "else:", "    %(result)s[{1}].add({2})"],
      ["%(result)s = {{ {0}: {{ {1} }} }}"]⟩
  -- 472-477
  | .dictFirst => ⟨["if {1} not in {0}:", "    %(result)s[{1}] = {2}"], ["%(result)s = {{ {0}: {1} }}"]⟩
  -- 478-483
  | .dictLast => ⟨["%(result)s[{1}] = {2}"], ["%(result)s = {{ {0}: {1} }}"]⟩

/-- `gen_reduce_initial` (207-249), from the codes of `initial`, and of the expression and the additional
arguments. -/
def Template.genInitial (t : Template) (var : List Char) (initial : Option (List Char)) (args : List (List Char)) :
    Option (List Char) :=
  match initial with
  | none => formatStatements var t.first args
  | some i => formatStatements var t.reduce (i :: args)

/-- `gen_reduce_two` (251-270); the code of `EscapedString(var)` is the variable. -/
def Template.genTwo (t : Template) (var : List Char) (args : List (List Char)) : Option (List Char) :=
  formatStatements var t.reduce (var :: args)

/-- The codes of a `Reduce` (788-865): `initial`, the expression and the additional arguments, and the condition. -/
structure Codes where
  initial : Option String
  args : List String
  cond : Option String

/-- `Reduce.gen_reduce_code_block` (876-914) of a built-in reducer: variable and checksum flag to a block; `none` for
what raises.  Simplification: the texts of the arguments do not depend on the place where they are generated. -/
def genBlock (t : Template) (c : Codes) (var : String) (flag : Nat) : Option BlockText :=
  (t.genInitial var.toList (c.initial.map String.toList) (c.args.map String.toList)).bind fun init =>
    (t.genTwo var.toList (c.args.map String.toList)).map fun two =>
      { var := var.toList
        init := init
        two := two
        cond := c.cond.map String.toList
        flag := flag }

example : (genBlock Fn.sum.template ⟨none, ["row_[0]"], none⟩ "agg_data_v0_" 1).map (fun b => (b.init, b.two)) =
    some ("agg_data_v0_ = (row_[0] or 0)".toList, "agg_data_v0_ += (row_[0] or 0)".toList) := by
  decide +kernel

example : (genBlock Fn.dictCountDistinct.template ⟨none, ["row_[0]", "row_[1]"], none⟩ "v" 1).map (fun b => (b.init, b.two)) =
    some ("v = { row_[0]: { row_[1] } }".toList,
      "if row_[0] not in v:\n    v[row_[0]] = { row_[1] }\nelse:\n    v[row_[0]].add(row_[1])".toList) := by
  decide +kernel

end Verif.Stmt
