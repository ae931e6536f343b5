import Verif.Stmt.Demo2

/-!
# Stmt: texts which do not do what the reduces say

Source: `/repo/src/convtools/aggregations.py` lines 586-591 (`update_var_agg_data_value`), 643-648 (`code_hash`), 1166-1206.
-/

set_option autoImplicit false

namespace Verif.Stmt.Demo

open Verif.Text Verif.Agg Verif.Reducers

/-- `c.reduce(c.ReduceFuncs.Array, ...)` with this code of the expression (360-367). -/
def arrayOf (code : String) : TRed where
  gen := fun var flag => (genBlock Fn.array.template ⟨none, [code], none⟩ var flag).getD ⟨[], [], [], none, 0⟩
  uncond := true

/-- `c.reduce(c.ReduceFuncs.Count).filter(...)` with this code of the condition (312-318). -/
def countIf (cond : String) : TRed where
  gen := fun var flag => (genBlock Fn.count.template ⟨none, ["row_"], some cond⟩ var flag).getD ⟨[], [], [], none, 0⟩
  uncond := true

/-- The text of the function generated for `group_by(c.item(0))` of two reduces. -/
def groupOf (result : String) (ts : List TRed) : List Char :=
  groupCode { fn with result := groupResult result } "AggData_2" "row_[0]" ts

/-- **C35 is violated for user constants**: `c.reduce(Array, "agg_data_.v0")` and `c.reduce(Array, "")` in a `group_by`.
`code_hash` removes the name of the variable from the constant as well; both reduces share a variable, which collects the
first constant only. -/
theorem C35_refuted_constant :
    (textCompile false [arrayOf "'agg_data_.v0'", arrayOf "''"]).slotOf = [0, 0] ∧
    groupOf "agg_data_.v0" [arrayOf "'agg_data_.v0'", arrayOf "''"] = lines [
      "",
      "def aggregate_1(data_):",
      "    global add_label_, get_by_label_",
      "    _none = none_1",
      "    signature_to_agg_data_ = defaultdict(AggData_2)",
      "    for row_ in data_:",
      "        agg_data_ = signature_to_agg_data_[row_[0]]",
      "",
      "        if agg_data_.v0 is _none:",
      "            agg_data_.v0 = ['agg_data_.v0']",
      "",
      "        else:",
      "            agg_data_.v0.append('agg_data_.v0')",
      "",
      "",
      "    result_ = [agg_data_.v0 for signature_, agg_data_ in signature_to_agg_data_.items()]",
      "    ",
      "    return result_",
      ""] := by
  decide +kernel

/-- **C35 is violated for filters** with constants containing the name of the variable. -/
theorem C35_refuted_filter :
    (textCompile false [countIf "(row_ == 'agg_data_.v0')", countIf "(row_ == '')"]).slotOf = [0, 0] := by
  decide +kernel

/-- **C56 is violated for user constants** which look like the variable of the reduce: after the second reduce has been
found to be the first one, the third one is renamed from `v2` to `v1`, and the constant in it as well. -/
theorem C56_refuted_constant :
    groupOf "agg_data_.v1" [arrayOf "row_[1]", arrayOf "row_[1]", arrayOf "'agg_data_.v2'"] = lines [
      "",
      "def aggregate_1(data_):",
      "    global add_label_, get_by_label_",
      "    _none = none_1",
      "    signature_to_agg_data_ = defaultdict(AggData_2)",
      "    for row_ in data_:",
      "        agg_data_ = signature_to_agg_data_[row_[0]]",
      "",
      "        if agg_data_.v0 is _none:",
      "            agg_data_.v0 = [row_[1]]",
      "            agg_data_.v1 = ['agg_data_.v1']",
      "",
      "        else:",
      "            agg_data_.v0.append(row_[1])",
      "            agg_data_.v1.append('agg_data_.v1')",
      "",
      "",
      "    result_ = [agg_data_.v1 for signature_, agg_data_ in signature_to_agg_data_.items()]",
      "    ",
      "    return result_",
      ""] := by
  decide +kernel

/-- `c.reduce(c.ReduceFuncs.Sum, c.item(n))`. -/
def sumOf (code : String) : TRed where
  gen := fun var flag => (genBlock Fn.sum.template ⟨none, [code], none⟩ var flag).getD ⟨[], [], [], none, 0⟩
  uncond := true

/-- The text of the function generated for `c.aggregate` with the result of reduce number `n`. -/
def aggOf (ts : List TRed) (n : Nat) : List Char :=
  aggCode { fn with result := out.text (varAgg ((textCompile true ts).slotOf[n]?.getD 0)) } ts

/-- **C56 is violated in `c.aggregate`**: the sum of the items 2 of the rows is the sum of the items 1, if that is the
first reduce and the items 2 the second one (C35). -/
theorem C56_refuted_aggregate :
    call (aggOf [sumOf "row_[2]"] 0) [[0, 5, 7], [1, 6, 8]] = some (.int 15) ∧
    call (aggOf [sumOf "row_[1]", sumOf "row_[2]"] 1) [[0, 5, 7], [1, 6, 8]] = some (.int 11) := by
  decide +kernel

/-- A call of a function with one more argument. -/
def callWith (text : List Char) (rows : List (List Int)) (arg : Int) : Option D :=
  ((parseLines text).bind (readAll 60)).bind fun b =>
    match callDef py "aggregate_1" [.data (rows.map .row), .user (.int arg)] b with
    | .ok (some (.val (.user v))) => some v
    | _ => none

/-- The text of the function generated for `c.aggregate(c.reduce(c.ReduceFuncs.Sum, c.input_arg(name)))`. -/
def sumArg (name : String) : List Char :=
  aggCode { fn with args := [name], result := out.text (varAgg 0) } [sumOf name]

/-- **C56 is violated for input arguments named like the variables of the template**: the sum of `c.input_arg("x")` over
two rows is twice the argument, the sum of `c.input_arg("checksum_")` is 1. -/
theorem C56_refuted_arg :
    callWith (sumArg "x") [[0], [1]] 100 = some (.int 200) ∧
    callWith (sumArg "checksum_") [[0], [1]] 100 = some (.int 1) := by
  decide +kernel

end Verif.Stmt.Demo
