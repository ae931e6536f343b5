import Verif.Py.Dict
/-!
# Model of name generation and of `NaiveConversion` (src/convtools/base.py)

Covers `BaseConversion.gen_name` (362-388), `var_name_from_string` (889-899) and
`NaiveConversion` (902-954).

Simplifications: `random.choice` is an arbitrary stream of characters (any stream, so the theorems
hold for whatever the random generator yields); `_hash_item` (330-339) is a property of the object:
an arbitrary integer attached to it.  Evaluation of a generated name follows Python's scoping:
arguments of the converter, then the `ctx` dict the code is executed in (its globals), then
builtins.
-/
set_option autoImplicit false

namespace Verif.Names

/-! ## gen_name -/

/-- The parts of `ctx` used by `gen_name` (base.py 367-371) and the position in the random
stream. -/
structure GenState where
  prefixedHashToName : List (String × String)
  generated : List String
  rndPos : Nat

/-- base.py 368-369 -/
def GenState.init : GenState := ⟨[], [], 0⟩

/-- base.py 372-374: `"{}_{}".format(prefix, str(hash))` -/
def prefixedHash (pre : String) (hash : Int) : String := pre ++ "_" ++ hash.repr

/-- base.py 379-388: the loop; first argument: remaining iterations.  `none` is the
`AssertionError` of line 388. -/
def genLoop (rnd : Nat → Char × Char) (ph : String) : Nat → String → GenState →
    GenState × Option String
  | 0, _, st => (st, none)
  | n + 1, name, st =>
    let (a, b) := rnd st.rndPos
    let name := name ++ String.ofList ['_', a, b]
    let st := { st with rndPos := st.rndPos + 1 }
    if st.generated.contains name then genLoop rnd ph n name st
    else
      ({ st with
          prefixedHashToName := Dict.set st.prefixedHashToName ph name
          generated := name :: st.generated }, some name)

/-- base.py 364-388: `gen_name(prefix, ctx, item)` where `hash` is `_hash_item(item)`. -/
def genName (rnd : Nat → Char × Char) (st : GenState) (pre : String) (hash : Int) :
    GenState × Option String :=
  let ph := prefixedHash pre hash
  match Dict.get? st.prefixedHashToName ph with
  | some name => (st, some name)
  | none => genLoop rnd ph 10 pre st

/-- A sequence of requests within one compilation (one `ctx`). -/
def genNames (rnd : Nat → Char × Char) (st : GenState) : List (String × Int) →
    GenState × List (Option String)
  | [] => (st, [])
  | (p, h) :: rs =>
    let (st', r) := genName rnd st p h
    let (st'', out) := genNames rnd st' rs
    (st'', r :: out)

/-! ## var_name_from_string -/

/-- base.py 889: a character not matched by `[^0-9a-zA-Z_]`. -/
def legalChar (c : Char) : Bool :=
  ('0' ≤ c && c ≤ '9') || ('a' ≤ c && c ≤ 'z') || ('A' ≤ c && c ≤ 'Z') || c == '_'

/-- base.py 890: a character not matched by `[^a-zA-Z_]`. -/
def legalLeading (c : Char) : Bool :=
  ('a' ≤ c && c ≤ 'z') || ('A' ≤ c && c ≤ 'Z') || c == '_'

/-- base.py 894-899 -/
def varNameFromString (s : String) : String :=
  String.ofList ((s.toList.filter legalChar).dropWhile (fun c => !legalLeading c))

/-! ## NaiveConversion -/

/-- Values as far as identity matters here: immutable constants by value, everything else by
object identity. -/
inductive Value where
  | none
  | bool (b : Bool)
  | int (n : Int)
  | str (s : String)
  | obj (id : Nat)
  deriving DecidableEq

/-- The objects `NaiveConversion` distinguishes (base.py 922-953).
* `intLike id text`: an instance of a *subclass* of int or str (e.g. an `IntEnum` member), with its
  `repr`;
* `builtin id name`: a builtin function/class (base.py 923-927);
* `named id name`: a callable with a `conv_name` (base.py 930-933);
* `other id pre hash`: any other object; `pre` is `name_prefix` (base.py 910, 935-937), `hash` the
  result of `_hash_item`. -/
inductive Obj where
  | none
  | bool (b : Bool)
  | int (n : Int)
  | str (s : String)
  | intLike (id : Nat) (text : String)
  | builtin (id : Nat) (name : String)
  | named (id : Nat) (name : String)
  | other (id : Nat) (pre : String) (hash : Int)
  deriving DecidableEq

/-- The value an object *is*. -/
def Obj.value : Obj → Value
  | .none => .none
  | .bool b => .bool b
  | .int n => .int n
  | .str s => .str s
  | .intLike id _ => .obj id
  | .builtin id _ => .obj id
  | .named id _ => .obj id
  | .other id _ _ => .obj id

/-- The generated code (base.py 941-954): a literal, a raw `repr` text, or a name. -/
inductive Code where
  | lit (v : Value)
  | text (t : String)
  | name (n : String)
  deriving DecidableEq

/-- Compile-time state: `gen_name` tables and the rest of `ctx`. -/
structure Ctx where
  names : GenState
  globals : List (String × Value)

/-- base.py 939-954: code for one wrapped object; `none` = AssertionError of `gen_name`. -/
def genNaive (rnd : Nat → Char × Char) (ctx : Ctx) : Obj → Ctx × Option Code
  | .builtin _ name => (ctx, some (.name name))
  | .none => (ctx, some (.lit .none))
  | .bool b => (ctx, some (.lit (.bool b)))
  | .int n => (ctx, some (.lit (.int n)))
  | .str s => (ctx, some (.lit (.str s)))
  | .intLike _ text => (ctx, some (.text text))
  | .named id name =>
    ({ ctx with globals := Dict.set ctx.globals name (.obj id) }, some (.name name))
  | .other id pre hash =>
    match genName rnd ctx.names pre hash with
    | (st, some name) =>
      ({ names := st, globals := Dict.set ctx.globals name (.obj id) }, some (.name name))
    | (st, none) => ({ ctx with names := st }, none)

/-- All wrapped objects of one conversion, in the order the compiler visits them. -/
def genAll (rnd : Nat → Char × Char) (ctx : Ctx) : List Obj → Ctx × List (Option Code)
  | [] => (ctx, [])
  | o :: os =>
    let (ctx', c) := genNaive rnd ctx o
    let (ctx'', cs) := genAll rnd ctx' os
    (ctx'', c :: cs)

/-- What is in scope when the generated code runs. `reprEval` is the meaning of a `repr` text used
as an expression, `none` if it is not valid. -/
structure Scope where
  args : List (String × Value)
  globals : List (String × Value)
  builtins : List (String × Value)
  reprEval : String → Option Value

/-- Python evaluation of the generated code; `none` = NameError / SyntaxError. -/
def Code.eval (sc : Scope) : Code → Option Value
  | .lit v => some v
  | .text t => sc.reprEval t
  | .name n =>
    match Dict.get? sc.args n with
    | some v => some v
    | none =>
      match Dict.get? sc.globals n with
      | some v => some v
      | none => Dict.get? sc.builtins n

end Verif.Names
