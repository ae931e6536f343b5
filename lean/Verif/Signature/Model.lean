import Verif.Py.Dict
import Verif.Py.Sort
/-!
# Model of converter signatures (src/convtools/base.py 404-435, 500-548) and of converters used as
methods (base.py 67-68, 115-123)

Strings are lists of characters.  Input: the `InputArg` dependencies of the conversion in
dependency order (`get_dependencies(types=InputArg)`, base.py 283-293), each with a flag telling
whether it is a `LabelConversion` (a subclass of `InputArg`, base.py 1063).  `isW` is the character
class `\w` of the `re` module (base.py 891), of which only what is stated in the theorems is
assumed.
-/
set_option autoImplicit false

namespace Verif.Signature

abbrev Str := List Char

/-- An `InputArg` dependency (base.py 1041-1061) or `LabelConversion` (1063-1076). -/
structure Dep where
  argName : Str
  isLabel : Bool

/-- base.py 404-413: `get_args`: dict by name (a later dependency of the same name replaces the
value), values sorted by name (Python compares strings by code points). -/
def getArgs (deps : List Dep) (excludeLabels : Bool) : List Dep :=
  let deps := if excludeLabels then deps.filter (fun d => !d.isLabel) else deps
  let dict := deps.foldl (fun m d => Dict.set m d.argName d) ([] : List (Str × Dep))
  PySort.sorted (fun a b => decide (a.argName < b.argName)) (dict.map Prod.snd)

/-- `", ".join(...)` -/
def joinComma : List Str → Str
  | [] => []
  | [a] => a
  | a :: b :: as => a ++ [',', ' '] ++ joinComma (b :: as)

/-- base.py 415-435 -/
def getArgsDefCode (deps : List Dep) (asKwargs excludeClsSelf excludeLabels : Bool) : Str :=
  let args := getArgs deps excludeLabels
  let args := if excludeClsSelf then
      args.filter (fun a => !(a.argName == "self".toList || a.argName == "cls".toList))
    else args
  if args.isEmpty then []
  else
    let code := joinComma (args.map (·.argName))
    if asKwargs then ", *, ".toList ++ code else ", ".toList ++ code

/-- base.py 891: `re.compile(r"(\w+)").findall` — maximal runs of word characters.  `fuel` is the
length of the text (each step consumes at least one character). -/
def wordsAux (isW : Char → Bool) : Nat → Str → List Str
  | 0, _ => []
  | _ + 1, [] => []
  | fuel + 1, c :: cs =>
    if isW c then (c :: cs.takeWhile isW) :: wordsAux isW fuel (cs.dropWhile isW)
    else wordsAux isW fuel cs

def words (isW : Char → Bool) (s : Str) : List Str := wordsAux isW s.length s

/-- Exceptions of this phase of `gen_converter`. -/
inductive Exc where
  | missingArgs (names : List Str)   -- base.py 529-531
  | methodAndClassMethod             -- base.py 534-536
  deriving DecidableEq

/-- base.py 521-548: the signature text used for the converter. An empty explicit signature is
falsy, hence ignored. -/
def chooseSignature (isW : Char → Bool) (deps : List Dep) (signature : Option Str)
    (method classMethod : Bool) : Except Exc Str :=
  let default : Except Exc Str :=
    if method && classMethod then .error .methodAndClassMethod
    else .ok ((if method then "self, ".toList else []) ++ (if classMethod then "cls, ".toList else [])
      ++ "data_".toList ++ getArgsDefCode deps true true true)
  match signature with
  | none => default
  | some [] => default
  | some sig =>
    let sigWords := words isW sig
    let missing := (words isW (getArgsDefCode deps false false true)).filter
      (fun w => !sigWords.contains w)
    if missing.isEmpty then .ok sig else .error (.missingArgs missing)

/-! ## Converters as methods -/

/-- base.py 118-120: `_ConverterCallableMethod.__init__`: what the attribute access
`__get__(instance, cls)` (67-68) stores; `truthy` is `bool(x)`. `instance` is `None` when the
converter is accessed on the class. -/
def instanceOrCls {Obj : Type} (truthy : Obj → Bool) (none_ : Obj) (instance_ : Option Obj)
    (cls : Obj) : Obj :=
  let inst := instance_.getD none_
  if truthy inst then inst else cls

/-- base.py 122-123: the positional arguments the underlying converter is called with. -/
def methodCallArgs {Obj : Type} (truthy : Obj → Bool) (none_ : Obj) (instance_ : Option Obj)
    (cls : Obj) (args : List Obj) : List Obj :=
  instanceOrCls truthy none_ instance_ cls :: args

end Verif.Signature
