/-!
# The text by which identical reduces are found

Source: `/repo/src/convtools/aggregations.py` 594-693 (`get_template_kwargs`, `get_template`,
`to_code`, `code_hash`), `/repo/src/convtools/base.py` 391-402 (`indent_statements`).

Texts are lists of characters.  Simplification: `str.splitlines` splits at `\n` only.
-/

set_option autoImplicit false

namespace Verif.Agg

/-- `old` is a prefix of `s`: what follows it. -/
def dropPrefix? : List Char → List Char → Option (List Char)
  | [], s => some s
  | _ :: _, [] => none
  | a :: old, b :: s => if a = b then dropPrefix? old s else none

/-- `s.replace(old, new)` for non-empty `old`; the first argument bounds the number of steps, the
length of `s` is enough. -/
def replaceFuel : Nat → List Char → List Char → List Char → List Char
  | 0, _, _, s => s
  | _ + 1, _, _, [] => []
  | n + 1, old, new, c :: s =>
    match dropPrefix? old (c :: s) with
    | some rest => new ++ replaceFuel n old new rest
    | none => c :: replaceFuel n old new s

/-- `s.replace(old, new)` for non-empty `old` (used at aggregations.py 586-591 and 645-647). -/
def replaceAll (old new s : List Char) : List Char := replaceFuel s.length old new s

/-- `s.splitlines()`. -/
def splitLines : List Char → List (List Char)
  | [] => []
  | c :: s =>
    if c = '\n' then [] :: splitLines s
    else match splitLines s with
      | [] => [[c]]
      | l :: ls => (c :: l) :: ls

/-- `"\n".join(lines)`. -/
def joinLines : List (List Char) → List Char
  | [] => []
  | [l] => l
  | l :: ls => l ++ '\n' :: joinLines ls

/-- `indent_statements` (base.py 391-402). -/
def indent (level : Nat) (s : List Char) : List Char :=
  joinLines ((splitLines s).map (fun l => List.replicate (4 * level) ' ' ++ l))

/-- The inputs of `ReduceBlock.__init__` / `ReduceConditionalBlock.__init__` (564-576, 658-660). -/
structure BlockText where
  var : List Char
  init : List Char
  two : List Char
  cond : Option (List Char)
  flag : Nat

/-- `optional_checksum_code` (619-624, 676-681), line by line. -/
def checksumCode (pad : String) (b : BlockText) : List Char :=
  if b.flag = 0 then []
  else
    joinLines
      [ [],
        pad.toList ++ "if ".toList ++ b.var ++ " is not _none:".toList,
        pad.toList ++ "    checksum_ |= ".toList ++ (toString b.flag).toList,
        pad.toList ++ "    if checksum_ == expected_checksum_:".toList,
        pad.toList ++ "        break".toList,
        [] ]

/-- `to_code` (608-636, 662-688), line by line. -/
def toCode (b : BlockText) : List Char :=
  match b.cond with
  | none =>
    joinLines
      [ [],
        "        if ".toList ++ b.var ++ " is _none:".toList,
        indent 3 b.init,
        checksumCode "            " b,
        "        else:".toList,
        indent 3 b.two,
        [] ]
  | some c =>
    joinLines
      [ [],
        "        if ".toList ++ c ++ ":".toList,
        "            if ".toList ++ b.var ++ " is _none:".toList,
        indent 4 b.init,
        checksumCode "                " b,
        "            else:".toList,
        indent 4 b.two,
        [] ]

/-- `to_no_init_code` (616-618, 638-641, 671-675), line by line. -/
def noInitCode (b : BlockText) : List Char :=
  match b.cond with
  | none => joinLines [[], indent 2 b.two, []]
  | some c => joinLines [[], "        if ".toList ++ c ++ ":".toList, indent 3 b.two, [], []]

/-- `union` (578-584). -/
def BlockText.union (b c : BlockText) : BlockText :=
  { b with
    init := b.init ++ '\n' :: c.init
    two := b.two ++ '\n' :: c.two
    flag := b.flag ||| c.flag }

/-- `"\n\n".join(...)` of `ReduceBlocks.to_code` and `to_no_init_code` (746-752). -/
def joinBlocks : List (List Char) → List Char
  | [] => []
  | [b] => b
  | b :: bs => b ++ '\n' :: '\n' :: joinBlocks bs

/-- `code_hash` (643-648). -/
def codeHash (b : BlockText) : List Char :=
  let h := replaceAll b.var [] (toCode b)
  if b.flag = 0 then h else replaceAll (toString b.flag).toList [] h

/-- The block of `c.reduce(c.ReduceFuncs.Sum, <expr>)` as number `i` (`_Sum` 285-290, variable
1166-1176, flag 1180). -/
def sumText (aggMode : Bool) (i : Nat) (expr : String) : BlockText :=
  let var := if aggMode then "agg_data_v" ++ toString i ++ "_" else "agg_data_.v" ++ toString i
  { var := var.toList
    init := (var ++ " = (" ++ expr ++ " or 0)").toList
    two := (var ++ " += (" ++ expr ++ " or 0)").toList
    cond := none
    flag := if aggMode then 1 <<< i else 0 }

/-- The block of `c.reduce(c.inline_expr(<reduce>), <expr>, default=...)` as number `i`
(`_ReducerExpression` 116-176, `InlineExpr` base.py 1418-1464); `reduce` gives the text of the
inline expression from the codes of its two arguments. -/
def inlineText (aggMode : Bool) (i : Nat) (reduce : String → String → String) (expr : String) :
    BlockText :=
  let var := if aggMode then "agg_data_v" ++ toString i ++ "_" else "agg_data_.v" ++ toString i
  { var := var.toList
    init := (var ++ " = " ++ expr).toList
    two := (var ++ " = (" ++ reduce var expr ++ ")").toList
    cond := none
    flag := if aggMode then 1 <<< i else 0 }

end Verif.Agg
