import Verif.Text.Spec

/-!
# Group keys in the result of `group_by` (`src/convtools/aggregations.py`)

The code of a result item is made for the variable `row_`; then the texts of the key codes in it are replaced by
the text of the group's key, and what still has `row_` in it is rejected.
-/

set_option autoImplicit false

namespace Verif.GroupKeys

open Verif.Expr

/-- `str.replace` (1058-1061) with a pattern which is not empty: occurrences from left to right, without overlaps.
The number says how many characters belong to the occurrence just replaced. -/
def replaceFrom (pat rep : List Char) : Nat → List Char → List Char
  | _, [] => []
  | n + 1, _ :: cs => replaceFrom pat rep n cs
  | 0, c :: cs =>
    if pat.isPrefixOf (c :: cs) then rep ++ replaceFrom pat rep (pat.length - 1) cs
    else c :: replaceFrom pat rep 0 cs

/-- `s.replace(pat, rep)`.  An empty pattern would be put between all characters; codes are not empty, so this is
left out. -/
def replace (s pat rep : String) : String :=
  String.ofList (replaceFrom pat.toList rep.toList 0 s.toList)

/-- `var_row` (1133). -/
def varRow : String := "row_"

/-- `var_signature` (1134). -/
def varSignature : String := "signature_"

/-- `EscapedString(var_signature).item(code_index)`, or `EscapedString(var_signature)` if there is one key
(1052-1056): its text. -/
def getter (many : Bool) (index : Nat) : String :=
  if many then varSignature ++ "[" ++ toString index ++ "]" else varSignature

/-- The loop over the keys (1050-1061). -/
def replaceKeys (many : Bool) : Nat → List String → String → String
  | _, [], code => code
  | j, key :: keys, code =>
    replaceKeys many (j + 1) keys (if isIn key code then replace code key (getter many j) else code)

/-- `GroupBy._gen_reducer_result_item` (1037-1066) on texts: `none` is `ConversionException`. -/
def resultItem (keys : List String) (code : String) : Option String :=
  let code := replaceKeys (decide (keys.length > 1)) 0 keys code
  if isIn varRow code then none else some code

/-- `_gen_reducer_result_item` for each item, the first failure is raised. -/
def resultItems (keys : List String) : List String → Option (List String)
  | [] => some []
  | code :: codes => do
    let t ← resultItem keys code
    let ts ← resultItems keys codes
    some (t :: ts)

/-- The reducer of `aggregate` (993-1018): a collection, whose items are looked at one by one, or something else. -/
inductive Shape
  | coll (k : Kind)
  | single

/-- `code_reducer_result` of `_rebuild_reducer_result` (1068-1117): for a collection, a collection of the items found
(`Dict` and `BaseCollectionConversion` code, base.py 1669-1879, without optional items). For a `dict` the codes are
keys and values in turn. -/
def rebuild (keys : List String) (sh : Shape) (codes : List String) : Option String :=
  match sh with
  | .coll .list => (resultItems keys codes).map (fun ts => "[" ++ join "," ts ++ "]")
  | .coll .tuple => (resultItems keys codes).map (fun ts => "(" ++ join "," ts ++ ",)")
  | .coll .set => (resultItems keys codes).map (fun ts => "{" ++ join "," ts ++ "}")
  | .coll .dict => (resultItems keys codes).map (fun ts => "{" ++ join "," (pairTexts ts) ++ "}")
  | .single => (resultItems keys codes).map (join "")

end Verif.GroupKeys
