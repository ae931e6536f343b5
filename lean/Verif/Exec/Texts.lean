import Verif.Stmt.AggText
import Verif.Exec.Model

/-!
# Exec: the texts of generated functions

Source: `/repo/src/convtools/base.py` 164-179, 415-437, 533-590, 1308-1327, 1648-1671, 1893-1916.

The texts which are compiled and executed (`_code_to_converter`, 448-470), from the texts of the expressions in them.
-/

set_option autoImplicit false

namespace Verif.Exec

open Verif.Expr Verif.Text

/-- `GET_OR_DEFAULT_TEMPLATE.format(...)` (171-179, 1315-1323). -/
def getOrDefaultText (name : String) (selfGiven : Bool) (body : String) : List Char :=
  Agg.joinLines
    [ [],
      "def ".toList ++ name.toList ++ "(".toList ++
        (if selfGiven then "self_, obj_, default_".toList else "obj_, default_".toList) ++ "):".toList,
      "    global add_label_, get_by_label_".toList,
      "    try:".toList,
      "        return ".toList ++ body.toList,
      "    except (TypeError, KeyError, IndexError, AttributeError):".toList,
      "        return default_".toList,
      [] ]

/-- The lines of one item of `optional_items_generator` (1655-1663): condition, if there is one, and value. -/
def itemText : Option String × String → List (List Char)
  | (some c, e) => ["    if ".toList ++ c.toList ++ ":".toList, "        yield ".toList ++ e.toList]
  | (none, e) => ["    yield ".toList ++ e.toList]

/-- `optional_items_generator` (1648-1671). -/
def itemsText (name : String) (args : List String) (lines : List (Option String × String)) : List Char :=
  Agg.joinLines
    [ [],
      "def ".toList ++ name.toList ++ "(data_".toList ++ Stmt.codeArgs args ++ "):".toList,
      Agg.joinLines (lines.flatMap itemText),
      "        ".toList ]

/-- `tap` (1893-1916). -/
def tapText (name : String) (args : List String) (stmts : List String) : List Char :=
  Agg.joinLines
    [ [],
      "def ".toList ++ name.toList ++ "(data_".toList ++ Stmt.codeArgs args ++ "):".toList,
      Agg.joinLines (stmts.map (fun s => Agg.indent 1 s.toList)),
      "    return data_".toList,
      [] ]

/-- The keyword arguments of a converter (427-429): the names of its input arguments, without `self` and `cls`. -/
def kwNames {Val : Type} (c : Conv Val) : List String :=
  (sortedArgs c.args).filter (fun a => !(a == "self" || a == "cls"))

/-- `signature` (533-548): first `self` or `cls` of methods, then `data_`, then the input arguments, given by keyword.
`kws` are the names of the input arguments without `self` and `cls` (427-437).  With both flags `gen_converter` raises
(535-538), see `Verif/Signature/Model.lean`. -/
def signatureText (method classMethod : Bool) (kws : List String) : List Char :=
  (if method then "self, ".toList else []) ++ (if classMethod then "cls, ".toList else []) ++ "data_".toList ++
    (if kws.isEmpty then [] else ", *".toList ++ Stmt.codeArgs kws)

/-- The lines of a converter (564-579): every stage but the last is assigned to a variable, the last one is
returned. -/
def stageTexts : List (String × String) → List (List Char)
  | [] => []
  | [(_, e)] => ["    return ".toList ++ e.toList]
  | (x, e) :: st :: rest => ("    ".toList ++ x.toList ++ " = ".toList ++ e.toList) :: stageTexts (st :: rest)

/-- `CONVERTER_TEMPLATE.format(...)` (164-169, 581-585). -/
def converterText (name : String) (signature : List Char) (stages : List (String × String)) : List Char :=
  Agg.joinLines
    [ [],
      "def ".toList ++ name.toList ++ "(".toList ++ signature ++ "):".toList,
      "    global add_label_, get_by_label_".toList,
      Agg.joinLines (stageTexts stages),
      [] ]

end Verif.Exec
