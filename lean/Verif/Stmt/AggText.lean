import Verif.Stmt.Read
import Verif.Agg.Result

/-!
# Stmt: the texts of the generated aggregation functions

Source: `/repo/src/convtools/aggregations.py` 549-785, 1126-1141, 1207-1210, 1238-1273.

The texts are built line by line from the texts of the parts, as the templates do.
-/

set_option autoImplicit false

namespace Verif.Stmt

open Verif.Text Verif.Agg

/-- `", {}".format(", ".join(...))` or nothing (`get_args_def_code`, base.py 414-437). -/
def codeArgs : List String → List Char
  | [] => []
  | a :: as => ", ".toList ++ a.toList ++ codeArgs as

/-- What is filled into both templates (1238-1249). -/
structure FnText where
  /-- `converter_name` -/
  name : String
  /-- `code_args`: the names of the input arguments -/
  args : List String
  /-- `var_none` -/
  none_ : String
  /-- `code_result` -/
  result : String
  /-- `code_sorting`, which may be empty -/
  sorting : String

/-- `" = ".join(var_agg_data_values)` (1208-1209). -/
def joinVars : List String → List Char
  | [] => []
  | v :: vs => v.toList ++ vs.flatMap (fun w => " = ".toList ++ w.toList)

/-- `" = ".join(var_agg_data_values) + " = _none"` (1208-1210). -/
def initVars (vs : List String) : List Char := joinVars vs ++ " = _none".toList

/-- `AGGREGATE_TEMPLATE.format(...)` (768-785, 1251-1261). -/
def aggregateText (f : FnText) (vars : List String) (expected : Nat) (blocks : List BlockText) : List Char :=
  joinLines
    [ [],
      "def ".toList ++ f.name.toList ++ "(data_".toList ++ codeArgs f.args ++ "):".toList,
      "    global add_label_, get_by_label_".toList,
      "    _none = ".toList ++ f.none_.toList,
      "    ".toList ++ initVars vars,
      "    expected_checksum_ = ".toList ++ (toString expected).toList,
      "    checksum_ = 0".toList,
      "    it_ = iter(data_)".toList,
      "    for row_ in it_:".toList,
      joinBlocks (blocks.map toCode),
      [],
      "    for row_ in it_:".toList,
      joinBlocks (blocks.map noInitCode),
      [],
      "    result_ = ".toList ++ f.result.toList,
      "    ".toList ++ f.sorting.toList,
      "    return result_".toList,
      [] ]

/-- `GROUPER_TEMPLATE.format(...)` (753-767, 1262-1271). -/
def grouperText (f : FnText) (cls signature : String) (blocks : List BlockText) : List Char :=
  joinLines
    [ [],
      "def ".toList ++ f.name.toList ++ "(data_".toList ++ codeArgs f.args ++ "):".toList,
      "    global add_label_, get_by_label_".toList,
      "    _none = ".toList ++ f.none_.toList,
      "    signature_to_agg_data_ = defaultdict(".toList ++ cls.toList ++ ")".toList,
      "    for row_ in data_:".toList,
      "        agg_data_ = signature_to_agg_data_[".toList ++ signature.toList ++ "]".toList,
      joinBlocks (blocks.map toCode),
      [],
      "    result_ = ".toList ++ f.result.toList,
      "    ".toList ++ f.sorting.toList,
      "    return result_".toList,
      [] ]

/-- `", ".join(attrs)` (1130-1131, 1137). -/
def slotNames (n : Nat) : String := Expr.join ", " ((List.range n).map (fun i => "'v" ++ toString i ++ "'"))

/-- `agg_data_container_code` (1126-1137). -/
def classText (n : Nat) : List Char :=
  joinLines
    [ "class AggData:".toList,
      "    __slots__ = [".toList ++ (slotNames n).toList ++ "]".toList,
      "    def __init__(self):".toList,
      joinLines ((initLines n).map String.toList) ]

/-- `gen_agg_data_value` of `c.aggregate` (1166-1170). -/
def varAgg (j : Nat) : String := "agg_data_v" ++ toString j ++ "_"

/-- `gen_agg_data_value` of `group_by` (1171-1176). -/
def varGroup (j : Nat) : String := "agg_data_.v" ++ toString j

/-! ## Their lines -/

/-- A line which begins with fixed text. -/
theorem Has.lineOf {spaced pre : String} (k : Nat) {s : List Char} {tp ts : List Tok}
    (hs : spaced.toList = List.replicate k ' ' ++ pre.toList) (hp : Piece pre tp)
    (hc : pre.toList.head? ≠ some ' ') (hne : pre ≠ "") (h : lexFrom .start s = some ts) :
    Has (spaced.toList ++ s) [(k, tp ++ ts)] := by
  have h1 : lexFrom .start (pre.toList ++ s) = some (tp ++ ts) := by rw [hp.lex, h]; rfl
  rw [hs, List.append_assoc]
  cases hl : pre.toList with
  | nil => exact absurd (String.toList_inj.1 (by rw [hl]; rfl)) hne
  | cons c l =>
    rw [hl] at h1 hc
    exact Has.line k (by simpa using hc) h1

/-- A fixed line. -/
theorem Has.fixed {spaced pre : String} (k : Nat) {ts : List Tok}
    (hs : spaced.toList = List.replicate k ' ' ++ pre.toList) (hp : lexFrom .start pre.toList = some ts)
    (hc : pre.toList.head? ≠ some ' ') (hne : pre ≠ "") : Has spaced.toList [(k, ts)] := by
  rw [hs]
  cases hl : pre.toList with
  | nil => exact absurd (String.toList_inj.1 (by rw [hl]; rfl)) hne
  | cons c l =>
    rw [hl] at hp hc
    exact Has.line k (by simpa using hc) hp

theorem Has.nil : Has [] [] := rfl

/-- Texts joined by line breaks. -/
inductive HasAll : List (List Char) → List Line → Prop
  | one {s : List Char} {ls : List Line} : Has s ls → HasAll [s] ls
  | cons {s : List Char} {ls : List Line} {ss : List (List Char)} {ms : List Line} : Has s ls → HasAll ss ms →
      HasAll (s :: ss) (ls ++ ms)

theorem HasAll.append {ss ts : List (List Char)} {ls ms : List Line} (h : HasAll ss ls) (h' : HasAll ts ms) :
    HasAll (ss ++ ts) (ls ++ ms) := by
  induction h with
  | one h => exact .cons h h'
  | cons h1 _ ih =>
    rw [List.append_assoc, List.cons_append]
    exact .cons h1 ih

theorem HasAll.join {ss : List (List Char)} {ls : List Line} (h : HasAll ss ls) : Has (joinLines ss) ls := by
  induction h with
  | one h => exact h
  | cons h1 h2 ih =>
    rename_i s ls ss ms
    cases ss with
    | nil => cases h2
    | cons t ss => simpa [joinLines] using h1.append ih

end Verif.Stmt
