/-!
# Text: Python's lexer, for the tokens which occur in generated expressions

This is the reference against which generated code is checked (Python Language Reference, chapter 2), not code
of the repository; `reprStr` and `reprInt` are Python's `repr`, which the repository calls at
`/repo/src/convtools/base.py` 949-950.

Simplifications: identifiers and numbers are ASCII; numbers are decimal integers; a word followed directly by a
quote (a string prefix), a number followed directly by a letter or a dot, and a backslash followed by anything
`repr` does not write are errors here; NUL characters are not treated as errors.
-/

set_option autoImplicit false

namespace Verif.Text

/-- Tokens. -/
inductive Tok
  | name (s : String)
  | num (n : Nat)
  | str (s : List Char)
  | lpar | rpar | lbr | rbr | lcu | rcu
  | comma | colon | dot | assign
  | plus | minus | star | slash | slash2 | percent | bar
  | eqeq | ne | lt | le | gt | ge
  | and_ | or_ | not_ | is_ | in_ | if_ | else_ | for_
  /-- other keywords -/
  | kw (s : String)
  deriving DecidableEq

/-- First characters of identifiers. -/
def idStart (c : Char) : Bool := c.isAlpha || c == '_'

/-- Characters of identifiers. -/
def idChar (c : Char) : Bool := c.isAlphanum || c == '_'

/-- Keywords without tokens of their own; `None`, `True` and `False` are treated as names. -/
def otherKeywords : List String :=
  ["as", "assert", "async", "await", "break", "class", "continue", "def", "del", "elif", "except", "finally", "from",
    "global", "import", "lambda", "nonlocal", "pass", "raise", "return", "try", "while", "with", "yield"]

/-- The token of a word. -/
def wordTok (s : String) : Tok :=
  if s = "and" then .and_
  else if s = "or" then .or_
  else if s = "not" then .not_
  else if s = "is" then .is_
  else if s = "in" then .in_
  else if s = "if" then .if_
  else if s = "else" then .else_
  else if s = "for" then .for_
  else if s ∈ otherKeywords then .kw s
  else .name s

/-- State of the lexer between two characters. -/
inductive LexState
  | start
  | word (acc : List Char)
  | num (n : Nat)
  /-- after `/`, `=`, `!`, `<` or `>` -/
  | op (c : Char)
  | str (q : Char) (acc : List Char)
  /-- after a backslash -/
  | esc (q : Char) (acc : List Char)
  /-- `left` digits of a character's code are still to come -/
  | hex (q : Char) (acc : List Char) (left : Nat) (v : Nat)
  deriving DecidableEq

/-- Tokens of one character. -/
def single : Char → Option Tok
  | '(' => some .lpar
  | ')' => some .rpar
  | '[' => some .lbr
  | ']' => some .rbr
  | '{' => some .lcu
  | '}' => some .rcu
  | ',' => some .comma
  | ':' => some .colon
  | '.' => some .dot
  | '+' => some .plus
  | '-' => some .minus
  | '*' => some .star
  | '%' => some .percent
  | '|' => some .bar
  | _ => none

/-- Tokens of two characters. -/
def double : Char → Char → Option Tok
  | '/', '/' => some .slash2
  | '=', '=' => some .eqeq
  | '!', '=' => some .ne
  | '<', '=' => some .le
  | '>', '=' => some .ge
  | _, _ => none

/-- Characters which may begin a token of two characters, as a token of their own. -/
def half : Char → Option Tok
  | '/' => some .slash
  | '=' => some .assign
  | '<' => some .lt
  | '>' => some .gt
  | _ => none

/-- The value of a hexadecimal digit. -/
def hexVal (c : Char) : Option Nat :=
  if '0' ≤ c ∧ c ≤ '9' then some (c.toNat - '0'.toNat)
  else if 'a' ≤ c ∧ c ≤ 'f' then some (c.toNat - 'a'.toNat + 10)
  else none

/-- A character at the beginning of a token. -/
def begin_ (c : Char) : Option (List Tok × LexState) :=
  if c = ' ' then some ([], .start)
  else if idStart c then some ([], .word [c])
  else if c.isDigit then some ([], .num (c.toNat - '0'.toNat))
  else if c = '\'' ∨ c = '"' then some ([], .str c [])
  else
    match single c with
    | some t => some ([t], .start)
    | none => if c = '/' ∨ c = '=' ∨ c = '!' ∨ c = '<' ∨ c = '>' then some ([], .op c) else none

/-- One character: the tokens which end before or with it, and the new state. -/
def step : LexState → Char → Option (List Tok × LexState)
  | .start, c => begin_ c
  | .word acc, c =>
    if idChar c then some ([], .word (acc ++ [c]))
    else if c = '\'' ∨ c = '"' then none
    else (begin_ c).map (fun (ts, st) => (wordTok (String.ofList acc) :: ts, st))
  | .num n, c =>
    if c.isDigit then some ([], .num (10 * n + (c.toNat - '0'.toNat)))
    else if idStart c ∨ c = '.' then none
    else (begin_ c).map (fun (ts, st) => (.num n :: ts, st))
  | .op a, c =>
    match double a c with
    | some t => some ([t], .start)
    | none =>
      match half a with
      | some t => (begin_ c).map (fun (ts, st) => (t :: ts, st))
      | none => none
  | .str q acc, c =>
    if c = q then some ([.str acc], .start)
    else if c = '\\' then some ([], .esc q acc)
    else if c = '\n' ∨ c = '\r' then none
    else some ([], .str q (acc ++ [c]))
  | .esc q acc, c =>
    if c = '\\' ∨ c = '\'' ∨ c = '"' then some ([], .str q (acc ++ [c]))
    else if c = 'n' then some ([], .str q (acc ++ ['\n']))
    else if c = 'r' then some ([], .str q (acc ++ ['\r']))
    else if c = 't' then some ([], .str q (acc ++ ['\t']))
    else if c = 'x' then some ([], .hex q acc 2 0)
    else if c = 'u' then some ([], .hex q acc 4 0)
    else if c = 'U' then some ([], .hex q acc 8 0)
    else none
  | .hex q acc left v, c =>
    match hexVal c with
    | none => none
    | some d =>
      if left = 1 then some ([], .str q (acc ++ [Char.ofNat (16 * v + d)]))
      else some ([], .hex q acc (left - 1) (16 * v + d))

/-- The end of the text. -/
def final : LexState → Option (List Tok)
  | .start => some []
  | .word acc => some [wordTok (String.ofList acc)]
  | .num n => some [.num n]
  | .op a => (half a).map (fun t => [t])
  | _ => none

/-- All tokens of a text, from a state on. -/
def lexFrom : LexState → List Char → Option (List Tok)
  | st, [] => final st
  | st, c :: cs =>
    match step st c with
    | none => none
    | some (ts, st') => (lexFrom st' cs).map (ts ++ ·)

/-- The tokens of a text. -/
def lex (s : String) : Option (List Tok) := lexFrom .start s.toList

/-! ## `repr` -/

/-- Digits of a number in base `b`, `n` of them. -/
def hexDigits : Nat → Nat → List Char
  | 0, _ => []
  | n + 1, v => hexDigits n (v / 16) ++ [Nat.digitChar (v % 16)]

/-- A character inside of `repr` of a string with the quotes `q` (CPython `unicode_repr`). -/
def reprChar (printable : Char → Bool) (q c : Char) : List Char :=
  if c = '\\' then ['\\', '\\']
  else if c = q then ['\\', q]
  else if c = '\n' then ['\\', 'n']
  else if c = '\r' then ['\\', 'r']
  else if c = '\t' then ['\\', 't']
  else if printable c then [c]
  else if c.toNat < 256 then '\\' :: 'x' :: hexDigits 2 c.toNat
  else if c.toNat < 65536 then '\\' :: 'u' :: hexDigits 4 c.toNat
  else '\\' :: 'U' :: hexDigits 8 c.toNat

/-- The quotes chosen by `repr`. -/
def quoteFor (s : List Char) : Char :=
  if s.contains '\'' && !s.contains '"' then '"' else '\''

/-- `repr` of a string. -/
def reprStr (printable : Char → Bool) (s : List Char) : List Char :=
  let q := quoteFor s
  q :: (s.flatMap (reprChar printable q) ++ [q])

/-- `repr` of an integer. -/
def reprInt : Int → List Char
  | .ofNat n => Nat.toDigits 10 n
  | .negSucc n => '-' :: Nat.toDigits 10 (n + 1)

example : lex "(a.b[0] + -12 // x1 == 'it\\'s \\x0a')" = some [.lpar, .name "a", .dot, .name "b", .lbr, .num 0, .rbr,
    .plus, .minus, .num 12, .slash2, .name "x1", .eqeq, .str "it's \n".toList, .rpar] := by rfl

example : lex "5.real" = none := by rfl

end Verif.Text
