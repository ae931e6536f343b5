import Verif.Exec.Texts
import Verif.Text.Spec

/-!
# Exec: which module belongs to generated code

`helpers` lists the calls of functions which are defined while an expression is generated; `helperText` and
`helperDef` are the texts and the syntax trees of these functions.
`Own` says that names do not get in each other's way: a variable is not called like something in the module, and a
label of the user is not called like a label made by `If`.
-/

set_option autoImplicit false

namespace Verif.Exec

open Verif.Expr Verif.Text

section
variable {Val U Err : Type}

/-- An item of `optional_items_generator` (base.py 1655-1663). -/
def itemStmt (flag : Bool) (c e : Ast) : Stmt.Stmt := if flag then .ite c [.yield_ e] [] else .yield_ e

/-- The statements of `optional_items_generator` (base.py 1653-1663). -/
def itemStmts : List Bool → List Ast → List Stmt.Stmt
  | flag :: flags, c :: e :: es => itemStmt flag c e :: itemStmts flags es
  | _, _ => []

/-- The same for `Dict`, which yields pairs (base.py 1844-1866). -/
def pairStmts : List Bool → List Ast → List Stmt.Stmt
  | flag :: flags, c :: k :: e :: es => itemStmt flag c (.display .tuple [k, e]) :: pairStmts flags es
  | _, _ => []

/-- The syntax of a statement of `tap`. -/
def stmtTree (N : Names Val) : PyExpr Val → Stmt.Stmt
  | .setitem o k v => .assign [.sub (tree N o) (tree N k)] (tree N v)
  | e => .expr (tree N e)

/-- `global add_label_, get_by_label_` (base.py 166, 173). -/
def globalStmt : Stmt.Stmt := .global ["add_label_", "get_by_label_"]

/-- `try: return body`, `except …: return default_` (base.py 174-178). -/
def defaultStmt (body : Ast) : Stmt.Stmt :=
  .try_ [.ret body] (.display .tuple [.name "TypeError", .name "KeyError", .name "IndexError", .name "AttributeError"])
    [.ret (.name "default_")]

mutual

/-- The calls of generated functions in an expression, and in these functions. -/
def helpers : PyExpr Val → List (PyExpr Val)
  | .addLabel _ e => helpers e
  | .attach a b => helpers a ++ helpers b
  | .sub e i => helpers e ++ helpers i
  | .dot e _ => helpers e
  | .getattr e i => helpers e ++ helpers i
  | .call f args _ => helpers f ++ helpersAll args
  | .boolop _ es => helpersAll es
  | .eqs es => helpersAll es
  | .not e => helpers e
  | .bin _ a b => helpers a ++ helpers b
  | .neg e => helpers e
  | .ifexp t c f => helpers t ++ (helpers c ++ helpers f)
  | .comp _ item value _ iter _ cond _ => helpers item ++ (helpers value ++ (helpers iter ++ helpers cond))
  | .display _ items => helpersAll items
  | .getOrDefault fname body selfGiven self obj dflt =>
    .getOrDefault fname body selfGiven self obj dflt ::
      (helpers body ++ (helpers self ++ (helpers obj ++ helpers dflt)))
  | .optItems k fname flags body obj args =>
    .optItems k fname flags body obj args :: (helpersAll body ++ helpers obj)
  | .optDict fname flags body obj args => .optDict fname flags body obj args :: (helpersAll body ++ helpers obj)
  | .tap fname obj stmts args => .tap fname obj stmts args :: (helpersAll stmts ++ helpers obj)
  | .setitem o k v => helpers o ++ (helpers k ++ helpers v)
  | .setattr o k v => helpers o ++ (helpers k ++ helpers v)
  | .pop o k => helpers o ++ helpers k
  | .delattr o k => helpers o ++ helpers k
  | .name _ | .const _ | .getLabel _ | .bad _ | .given _ _ => []

/-- The same for several expressions. -/
def helpersAll : List (PyExpr Val) → List (PyExpr Val)
  | [] => []
  | e :: es => helpers e ++ helpersAll es

end

/-- The name of the function which is called. -/
def helperName : PyExpr Val → String
  | .getOrDefault fname _ _ _ _ _ => fname
  | .optItems _ fname _ _ _ _ => fname
  | .optDict fname _ _ _ _ => fname
  | .tap fname _ _ _ => fname
  | _ => ""

/-- The function which is called. -/
def helperDef (N : Names Val) : PyExpr Val → Def
  | .getOrDefault _ body selfGiven _ _ _ =>
    ⟨(if selfGiven then ["self_"] else []) ++ ["obj_", "default_"], [], [globalStmt, defaultStmt (tree N body)]⟩
  | .optItems _ _ flags body _ args => ⟨"data_" :: args, [], itemStmts flags (treeAll N body)⟩
  | .optDict _ flags body _ args => ⟨"data_" :: args, [], pairStmts flags (treeAll N body)⟩
  | .tap _ _ stmts args => ⟨"data_" :: args, [], stmts.map (stmtTree N) ++ [.ret (.name "data_")]⟩
  | _ => ⟨[], [], []⟩

mutual

/-- How deep calls of functions are nested. -/
def depth : PyExpr Val → Nat
  | .addLabel _ e => depth e
  | .attach a b => max (depth a) (depth b)
  | .sub e i => max (depth e) (depth i)
  | .dot e _ => depth e
  | .getattr e i => max (depth e) (depth i)
  | .call f args _ => max (depth f) (depthAll args)
  | .boolop _ es => depthAll es
  | .eqs es => depthAll es
  | .not e => depth e
  | .bin _ a b => max (depth a) (depth b)
  | .neg e => depth e
  | .ifexp t c f => max (depth t) (max (depth c) (depth f))
  | .comp _ item value _ iter _ cond _ => max (depth item) (max (depth value) (max (depth iter) (depth cond)))
  | .display _ items => depthAll items
  | .getOrDefault _ body _ self obj dflt => max (depth body + 1) (max (depth self) (max (depth obj) (depth dflt)))
  | .optItems _ _ _ body obj _ => max (depthAll body + 1) (depth obj)
  | .optDict _ _ body obj _ => max (depthAll body + 1) (depth obj)
  | .tap _ obj stmts _ => max (depthAll stmts + 1) (depth obj)
  | .setitem o k v => max (depth o) (max (depth k) (depth v))
  | .setattr o k v => max (depth o) (max (depth k) (depth v))
  | .pop o k => max (depth o) (depth k)
  | .delattr o k => max (depth o) (depth k)
  | .name _ | .const _ | .getLabel _ | .bad _ | .given _ _ => 0

/-- The same for several expressions. -/
def depthAll : List (PyExpr Val) → Nat
  | [] => 0
  | e :: es => max (depth e) (depthAll es)

end

/-- The `if` and `yield` lines of `optional_items_generator` (base.py 1653-1663), as texts. -/
def itemTexts (N : Names Val) : List Bool → List (PyExpr Val) → List (Option String × String)
  | flag :: flags, c :: e :: es =>
    (if flag then some (render N c) else none, render N e) :: itemTexts N flags es
  | _, _ => []

/-- The same for `Dict`, which yields pairs (base.py 1844-1866, 1779-1812). -/
def pairTexts (N : Names Val) : List Bool → List (PyExpr Val) → List (Option String × String)
  | flag :: flags, c :: k :: e :: es =>
    (if flag then some (render N c) else none, render N (.display .tuple [k, e])) :: pairTexts N flags es
  | _, _ => []

/-- The text of the function which is called. -/
def helperText (N : Names Val) : PyExpr Val → List Char
  | .getOrDefault fname body selfGiven _ _ _ => getOrDefaultText fname selfGiven (render N body)
  | .optItems _ fname flags body _ args => itemsText fname args (itemTexts N flags body)
  | .optDict fname flags body _ args => itemsText fname args (pairTexts N flags body)
  | .tap fname _ stmts args => tapText fname args (stmts.map (render N))
  | _ => []

/-- The text defines the function `name`, as Python reads it. -/
def Defines (s : List Char) (name : String) (d : Def) : Prop :=
  Stmt.Source s [.def_ name d.params d.kwOnly d.body]

/-- The module has the functions which are called, as Python reads their texts. -/
def Loaded (N : Names Val) (G : Globals Val) (hs : List (PyExpr Val)) : Prop :=
  ∀ h ∈ hs, ∃ d, Defines (helperText N h) (helperName h) d ∧ G (helperName h) = some (.def_ d)

/-- A name which can be a variable: no keyword constant, and not the name of something in the module. -/
def varName (G : Globals Val) (n : String) : Prop := G n = none ∧ isConstName n = false

/-- A label of the user is not called like a label made by `If`. -/
def labelOk (N : Names Val) : Lbl → Prop
  | .user n => ∀ p, N.cached p ≠ n
  | .cached _ => True

/-- An object of the conversion is in the module, under its name (base.py 938-954). -/
def litOk (N : Names Val) (G : Globals Val) : Lit Val → Prop
  | .obj v => G (N.const (.obj v)) = some (.val v) ∧ isConstName (N.const (.obj v)) = false
  | _ => True

/-- Arguments passed on to a function. -/
def argsOk (G : Globals Val) (args : List String) : Prop := ∀ a ∈ args, varName G a ∧ a ≠ "data_"

/-- A generator function has statements, and its parameters are different. -/
def itemsOk (size : Nat) (flags : List Bool) (body : List (PyExpr Val)) (args : List String) : Prop :=
  flags ≠ [] ∧ size ≤ body.length ∧ args.Nodup

/-- A statement whose text is read back (`wf`). -/
def wfStmt (N : Names Val) : PyExpr Val → Bool
  | .setitem o k v => wf N (.sub o k) && wf N v
  | e => wf N e

mutual

/-- The names in an expression, and in the functions it calls, do not get in each other's way; the expression is one
which the grammar has. -/
def Own (N : Names Val) (G : Globals Val) : PyExpr Val → Prop
  | .name n => varName G n
  | .const l => litOk N G l
  | .getLabel l => labelOk N l
  | .addLabel l e => labelOk N l ∧ Own N G e
  | .attach a b => Own N G a ∧ Own N G b
  | .sub e i => Own N G e ∧ Own N G i
  | .dot e _ => Own N G e
  | .getattr e i => Own N G e ∧ Own N G i
  | .call f args _ => Own N G f ∧ OwnAll N G args
  | .boolop _ es => OwnAll N G es
  | .eqs es => es ≠ [] ∧ OwnAll N G es
  | .not e => Own N G e
  | .bin _ a b => Own N G a ∧ Own N G b
  | .neg e => Own N G e
  | .ifexp t c f => Own N G t ∧ Own N G c ∧ Own N G f
  | .comp k item value var iter _ cond sort =>
    (¬ (k = .set ∧ sort.isSome) ∧ ∀ kr, sort = some kr → litOk N G kr.1) ∧ varName G var ∧ Own N G item ∧ Own N G value ∧ Own N G iter ∧ Own N G cond
  | .display _ items => OwnAll N G items
  | .getOrDefault _ body _ self obj dflt => Own N G body ∧ Own N G self ∧ Own N G obj ∧ Own N G dflt
  | .optItems k _ flags body obj args =>
    OwnAll N G body ∧ Own N G obj ∧ argsOk G args ∧ k ≠ .dict ∧ itemsOk 2 flags body args
  | .optDict _ flags body obj args => OwnAll N G body ∧ Own N G obj ∧ argsOk G args ∧ itemsOk 3 flags body args
  | .tap _ obj stmts args =>
    OwnStmts N G stmts ∧ Own N G obj ∧ argsOk G args ∧ args.Nodup ∧ ∀ st ∈ stmts, wfStmt N st = true
  | .setattr o k v => Own N G o ∧ Own N G k ∧ Own N G v
  | .pop o k => Own N G o ∧ Own N G k
  | .delattr o k => Own N G o ∧ Own N G k
  | .setitem _ _ _ | .bad _ | .given _ _ => False

/-- The same for several expressions. -/
def OwnAll (N : Names Val) (G : Globals Val) : List (PyExpr Val) → Prop
  | [] => True
  | e :: es => Own N G e ∧ OwnAll N G es

/-- The same for statements. -/
def OwnStmts (N : Names Val) (G : Globals Val) : List (PyExpr Val) → Prop
  | [] => True
  | .setitem o k v :: es => (Own N G o ∧ Own N G k ∧ Own N G v) ∧ OwnStmts N G es
  | e :: es => Own N G e ∧ OwnStmts N G es

end

/-- The module of a converter: the builtins (not replaced by anything of the same name) and the
label dictionary (base.py 504-511, 1629).  The names of parameters of generated functions are
free. -/
structure Module (G : Globals Val) : Prop where
  list : G "list" = some (.builtin (.kind .list))
  tuple : G "tuple" = some (.builtin (.kind .tuple))
  set : G "set" = some (.builtin (.kind .set))
  dict : G "dict" = some (.builtin (.kind .dict))
  sorted : G "sorted" = some (.builtin .sorted)
  orderedDict : G "OrderedDict" = some (.builtin .orderedDict)
  getattr : G "getattr" = some (.builtin .getattr)
  setattr : G "setattr" = some (.builtin .setattr)
  delattr : G "delattr" = some (.builtin .delattr)
  getLabel : G "get_by_label_" = some (.builtin .getLabel)
  addLabel : G "add_label_" = some (.builtin .addLabel)
  typeError : G "TypeError" = some (.builtin (.exc "TypeError"))
  keyError : G "KeyError" = some (.builtin (.exc "KeyError"))
  indexError : G "IndexError" = some (.builtin (.exc "IndexError"))
  attributeError : G "AttributeError" = some (.builtin (.exc "AttributeError"))
  data : G "data_" = none
  self : G "self_" = none
  input : G "obj_" = none
  dflt : G "default_" = none

/-- No variable has the name of something in the module. -/
def Clear (G : Globals Val) (ρ : Env Val) : Prop := ∀ n, (G n).isSome = true → ρ n = none

/-- The functions which are called are in the module. -/
def Defined (N : Names Val) (G : Globals Val) (hs : List (PyExpr Val)) : Prop :=
  ∀ h ∈ hs, G (helperName h) = some (.def_ (helperDef N h)) ∧ isConstName (helperName h) = false

/-- Python's constants: `None` is false, `-n` negates a number, and a label made by `If` which is missing (there is
none) is a `KeyError` like any other.  In `(a and None or b)` an `a` which is false is tested by `and` and by `or`
(CPython leaves the second test out): what was false a moment ago still is, with no further effect. -/
structure PyConsts (R : Runtime Val U Err) (N : Names Val) : Prop where
  none : ∀ u, R.truthy R.none u = (.ok false, u)
  again : ∀ v u u', R.truthy v u = (.ok false, u') → R.truthy v u' = (.ok false, u')
  neg : ∀ (n : Nat) u, R.op .neg [R.int n] u = (.ok (R.int (-n)), u)
  missing : ∀ p, R.labelError (N.cached p) = R.labelError ""

mutual

/-- Names of the labels in a conversion. -/
def labelsOf : Conv Val → List String
  | .this | .naive _ | .arg _ => []
  | .label n => [n]
  | .lookup _ s idx => labelsOf s ++ labelsAll idx
  | .lookupD _ s idx d => labelsOf s ++ (labelsAll idx ++ labelsOf d)
  | .call s as _ => labelsOf s ++ labelsAll as
  | .boolop _ as => labelsAll as
  | .eqs as => labelsAll as
  | .not a => labelsOf a
  | .bin _ a b => labelsOf a ++ labelsOf b
  | .neg a => labelsOf a
  | .ifc c t f _ => labelsOf c ++ (labelsOf t ++ labelsOf f)
  | .comp _ i v _ c _ => labelsOf i ++ (labelsOf v ++ labelsOf c)
  | .coll _ items => labelsAll items
  | .dict kvs => labelsAll kvs
  | .opt c cond => labelsOf c ++ labelsOf cond
  | .caching c n ls convs => n :: (ls ++ (labelsOf c ++ labelsAll convs))
  | .tap o ms => labelsOf o ++ labelsAll ms
  | .mutSetItem k v => labelsOf k ++ labelsOf v
  | .mutSetAttr k v => labelsOf k ++ labelsOf v
  | .mutDelItem k => labelsOf k
  | .mutDelAttr k => labelsOf k
  | .mutCustom c => labelsOf c
  | .pipe a b => labelsOf a ++ labelsOf b

/-- The same for several conversions. -/
def labelsAll : List (Conv Val) → List String
  | [] => []
  | c :: cs => labelsOf c ++ labelsAll cs

end

/-- A constant which is an object. -/
def objOf : Lit Val → List Val
  | .obj v => [v]
  | _ => []

mutual

/-- The objects in a conversion. -/
def objsOf : Conv Val → List Val
  | .this | .arg _ | .label _ => []
  | .naive l => objOf l
  | .lookup _ s idx => objsOf s ++ objsAll idx
  | .lookupD _ s idx d => objsOf s ++ (objsAll idx ++ objsOf d)
  | .call s as _ => objsOf s ++ objsAll as
  | .boolop _ as => objsAll as
  | .eqs as => objsAll as
  | .not a => objsOf a
  | .bin _ a b => objsOf a ++ objsOf b
  | .neg a => objsOf a
  | .ifc c t f _ => objsOf c ++ (objsOf t ++ objsOf f)
  | .comp _ i v _ c sort =>
    (match sort with
    | some (key, _) => objOf key
    | none => []) ++ (objsOf i ++ (objsOf v ++ objsOf c))
  | .coll _ items => objsAll items
  | .dict kvs => objsAll kvs
  | .opt c cond => objsOf c ++ objsOf cond
  | .caching c _ _ convs => objsOf c ++ objsAll convs
  | .tap o ms => objsOf o ++ objsAll ms
  | .mutSetItem k v => objsOf k ++ objsOf v
  | .mutSetAttr k v => objsOf k ++ objsOf v
  | .mutDelItem k => objsOf k
  | .mutDelAttr k => objsOf k
  | .mutCustom c => objsOf c
  | .pipe a b => objsOf a ++ objsOf b

/-- The same for several conversions. -/
def objsAll : List (Conv Val) → List Val
  | [] => []
  | c :: cs => objsOf c ++ objsAll cs

end

mutual

/-- Statements of `tap` can be read as meant (`readable`), wherever there are any; `Dict` is the collection of
pairs, and its keys and values are pairs. -/
def runnable : Conv Val → Bool
  | .this | .naive _ | .arg _ | .label _ => true
  | .lookup _ s idx => runnable s && runnableAll idx
  | .lookupD _ s idx d => runnable s && runnableAll idx && runnable d
  | .call s as _ => runnable s && runnableAll as
  | .boolop _ as => runnableAll as
  | .eqs as => runnableAll as
  | .not a => runnable a
  | .bin _ a b => runnable a && runnable b
  | .neg a => runnable a
  | .ifc c t f _ => runnable c && runnable t && runnable f
  | .comp _ i v _ c _ => runnable i && runnable v && runnable c
  | .coll k items => k != .dict && runnableAll items
  | .dict kvs => kvs.length % 2 == 0 && runnableAll kvs
  | .opt c cond => runnable c && runnable cond
  | .caching c _ _ convs => runnable c && runnableAll convs
  | .tap o ms => runnable o && runnableStmts ms
  | .mutSetItem k v => runnable k && runnable v
  | .mutSetAttr k v => runnable k && runnable v
  | .mutDelItem k => runnable k
  | .mutDelAttr k => runnable k
  | .mutCustom c => runnable c
  | .pipe a b => runnable a && runnable b

/-- The same for several conversions. -/
def runnableAll : List (Conv Val) → Bool
  | [] => true
  | c :: cs => runnable c && runnableAll cs

/-- The same for the statements of `tap`. -/
def runnableStmts : List (Conv Val) → Bool
  | [] => true
  | c :: cs =>
    (match c with
    | .mutSetItem k v => readable k none && readable v none
    | c => readable c none) && runnable c && runnableStmts cs

end

/-- Names of arguments and labels of a conversion do not get in the way of names of the module, which has its objects
(base.py 938-954). -/
structure Fit (N : Names Val) (G : Globals Val) (args labels : List String) (objs : List Val) : Prop where
  args : argsOk G args
  labels : ∀ l ∈ labels, ∀ p, N.cached p ≠ l
  objs : ∀ v ∈ objs, G (N.const (.obj v)) = some (.val v)

/-- One label dictionary instead of two: the labels of the user and those made by `If`, by their names. -/
structure Joined (N : Names Val) (s t : St Val U) : Prop where
  u : s.u = t.u
  user : ∀ n, (∀ p, N.cached p ≠ n) → s.labels n = t.labels n
  cached : ∀ p, s.cached p = t.labels (N.cached p)

/-- Two computations do the same, one with two label dictionaries and one with one. -/
def Same {α : Type} (N : Names Val) (m m' : M Val U Err α) : Prop :=
  ∀ s t : St Val U, Joined N s t → (m s).1 = (m' t).1 ∧ Joined N (m s).2 (m' t).2

end

end Verif.Exec
