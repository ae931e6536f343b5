/-!
# Expressions: conversions, the code generated for them, and what the code does

Source: `/repo/src/convtools/base.py` 302-324 (`gen_code_and_update_ctx`), 474-592 (`gen_converter`),
and the `_gen_code_and_update_ctx` methods of the conversions in lines 859-1918; `mutations.py`.

A conversion object is a tree `Conv`.  The generated code is a Python expression `PyExpr` together
with its text (`render`); the code generator looks at texts in three places (302-324, 1217-1225,
1308), and so does the model.  `eval` is Python's evaluation of such expressions on an arbitrary
runtime: lookups, calls, operators, truth tests, iteration and collection building are parameters,
which may raise and have any effect on a state `U`.

Simplifications:
* names chosen by `gen_name` and value names are given by a parameter `Names` (C09, C10 are about
  how they are chosen); an object stands for the name bound to it, a helper function for its name;
* the labels `cached_val_<n>` of `If` are kept apart from the labels given by the user, and numbered
  by the place in the tree where they are generated;
* lazy values are not covered (`GeneratorComp`); other comprehensions are consumed when evaluated;
* loops have a bound on the number of steps, the same for all loops, which is a parameter;
* a `__hash__` raising `StopIteration` while a set or dict is filled from a generator counts as raised
  in the generator;
* `__bool__` of a value tested by `if` in a logical expression may be called twice where CPython
  calls it once;
* `InlineExpr` is covered for the operators of `BaseConversion` (601-731), not for arbitrary text.
-/

set_option autoImplicit false

namespace Verif.Expr

/-- Constants (`NaiveConversion` 902-954). -/
inductive Lit (Val : Type)
  | none
  | bool (b : Bool)
  | int (i : Int)
  | str (s : String)
  | obj (v : Val)

/-- The operators given by `InlineExpr` with two arguments (601-731), `index` is `{}[{}]` (602). -/
inductive BinOp
  | is
  | isNot
  | in_
  | notIn
  | ne
  | gt
  | ge
  | lt
  | le
  | add
  | mul
  | sub
  | div
  | mod
  | floorDiv
  | index
  deriving DecidableEq

/-- Collections. -/
inductive Kind
  | list
  | tuple
  | set
  | dict
  deriving DecidableEq

/-- A label: given by the user, or made by `If` (1231-1236) at a place of the tree. -/
inductive Lbl
  | user (name : String)
  | cached (place : List Nat)
  deriving DecidableEq

/-- Conversions.  A method conversion without `_predefined_self` (879-886) has `this` as its self. -/
inductive Conv (Val : Type)
  /-- `GetItem()` without indexes (1267-1306) -/
  | this
  /-- `NaiveConversion` (902) -/
  | naive (l : Lit Val)
  /-- `InputArg` (1041) -/
  | arg (name : String)
  /-- `LabelConversion` (1063) -/
  | label (name : String)
  /-- `GetItem` / `GetAttr` without default (1267-1306, 1342-1354) -/
  | lookup (attr : Bool) (self : Conv Val) (idx : List (Conv Val))
  /-- `GetItem` / `GetAttr` with default (1308-1339) -/
  | lookupD (attr : Bool) (self : Conv Val) (idx : List (Conv Val)) (dflt : Conv Val)
  /-- `Call` (1357); the last `kw.length` arguments are keyword arguments -/
  | call (self : Conv Val) (args : List (Conv Val)) (kw : List String)
  /-- `And`, `Or` (1133-1163) -/
  | boolop (isAnd : Bool) (args : List (Conv Val))
  /-- `Eq` (1166) -/
  | eqs (args : List (Conv Val))
  /-- `Not` (1256) and `not_` (635) -/
  | not (a : Conv Val)
  /-- operators (601-731) -/
  | bin (o : BinOp) (a b : Conv Val)
  /-- `neg` (689) -/
  | neg (a : Conv Val)
  /-- `If` (1174); an absent condition or branch is `this` -/
  | ifc (cond t f : Conv Val) (noCache : Bool)
  /-- `ListComp`, `TupleComp`, `SetComp`, `DictComp` (1469-1633); `value` is for `DictComp`, `sort` is
  (key, reverse) -/
  | comp (k : Kind) (item value : Conv Val) (hasCond : Bool) (cond : Conv Val)
      (sort : Option (Lit Val × Bool))
  /-- `List`, `Tuple`, `Set` (1636-1812) -/
  | coll (k : Kind) (items : List (Conv Val))
  /-- `Dict` (1815): keys and values in turn -/
  | dict (kvs : List (Conv Val))
  /-- `OptionalCollectionItem` (1729) with its `condition` -/
  | opt (c cond : Conv Val)
  /-- `CachingConversion` (957) with a name -/
  | caching (c : Conv Val) (name : String) (labels : List String) (convs : List (Conv Val))
  /-- `TapConversion` (1881) -/
  | tap (obj : Conv Val) (muts : List (Conv Val))
  /-- `SetItem` (mutations.py 27) -/
  | mutSetItem (k v : Conv Val)
  /-- `SetAttr` (mutations.py 34) -/
  | mutSetAttr (k v : Conv Val)
  /-- `DelItem` (mutations.py 41) -/
  | mutDelItem (k : Conv Val)
  /-- `DelAttr` (mutations.py 47) -/
  | mutDelAttr (k : Conv Val)
  /-- `Custom` (mutations.py 53) -/
  | mutCustom (c : Conv Val)
  /-- `b` with `_predefined_input = a` (735-750) -/
  | pipe (a b : Conv Val)

/-- Generated Python expressions and (the `set…`/`del…` nodes) statements.  Calls of helper functions
carry the body of the function. -/
inductive PyExpr (Val : Type)
  | name (n : String)
  | const (l : Lit Val)
  | getLabel (l : Lbl)
  | addLabel (l : Lbl) (e : PyExpr Val)
  /-- `({} and None or {})` (320-323) -/
  | attach (a b : PyExpr Val)
  | sub (e i : PyExpr Val)
  | dot (e : PyExpr Val) (attr : String)
  | getattr (e i : PyExpr Val)
  | call (f : PyExpr Val) (args : List (PyExpr Val)) (kw : List String)
  | boolop (isAnd : Bool) (es : List (PyExpr Val))
  | eqs (es : List (PyExpr Val))
  | not (e : PyExpr Val)
  | bin (o : BinOp) (a b : PyExpr Val)
  | neg (e : PyExpr Val)
  | ifexp (t c f : PyExpr Val)
  | comp (k : Kind) (item value : PyExpr Val) (var : String) (iter : PyExpr Val) (hasCond : Bool)
      (cond : PyExpr Val) (sort : Option (Lit Val × Bool))
  | display (k : Kind) (items : List (PyExpr Val))
  /-- `get_or_default(self_, obj_, default_)` (171-179); `selfGiven` if there is a `self_` -/
  | getOrDefault (fname : String) (body : PyExpr Val) (selfGiven : Bool) (self obj dflt : PyExpr Val)
  /-- `list(optional_items_generator(data_, args...))` (1648-1677): body is condition, value in turn,
  with flags telling which have a condition -/
  | optItems (k : Kind) (fname : String) (flags : List Bool) (body : List (PyExpr Val))
      (obj : PyExpr Val) (args : List String)
  /-- the same for `Dict`: condition, key, value in turn -/
  | optDict (fname : String) (flags : List Bool) (body : List (PyExpr Val)) (obj : PyExpr Val)
      (args : List String)
  /-- `tap(obj, args...)` (1893-1918) -/
  | tap (fname : String) (obj : PyExpr Val) (stmts : List (PyExpr Val)) (args : List String)
  | setitem (o k v : PyExpr Val)
  | setattr (o k v : PyExpr Val)
  | pop (o k : PyExpr Val)
  | delattr (o k : PyExpr Val)
  /-- code generation or compilation fails -/
  | bad (msg : String)
  /-- a text standing for a value (`EscapedString` 893-899); not generated, for use in proofs -/
  | given (text : String) (v : Val)

/-- Names chosen during code generation. -/
structure Names (Val : Type) where
  /-- text of a constant: `repr` of an int or a str, a name bound to the object otherwise (938-954) -/
  const : Lit Val → String
  /-- variable of a comprehension, by the text of its input (1520) -/
  param : String → String
  /-- helper functions, by prefix and place (1314, 1664, 1900) -/
  helper : String → List Nat → String
  /-- `cached_val_<n>` (977-981) -/
  cached : List Nat → String

/-! ## Text -/

/-- Text of an operator (601-731). -/
def BinOp.text : BinOp → String
  | .is => " is "
  | .isNot => " is not "
  | .in_ => " in "
  | .notIn => " not in "
  | .ne => " != "
  | .gt => " > "
  | .ge => " >= "
  | .lt => " < "
  | .le => " <= "
  | .add => " + "
  | .mul => " * "
  | .sub => " - "
  | .div => " / "
  | .mod => " % "
  | .floorDiv => " // "
  | .index => ""

/-- Text of a label name between quotes (1018-1026, 1076). -/
def Lbl.text {Val : Type} (N : Names Val) : Lbl → String
  | .user n => n
  | .cached p => N.cached p

/-- `sep.join(xs)`. -/
def join (sep : String) : List String → String
  | [] => ""
  | [x] => x
  | x :: y :: rest => x ++ sep ++ join sep (y :: rest)

/-- `k=v` for the last `kw.length` texts (1375-1383). -/
def withKw (kw : List String) (texts : List String) : List String :=
  let n := texts.length - kw.length
  texts.take n ++ List.zipWith (fun k t => k ++ "=" ++ t) kw (texts.drop n)

/-- `k:v` (1831-1839), texts in turn. -/
def pairTexts : List String → List String
  | k :: v :: rest => (k ++ ":" ++ v) :: pairTexts rest
  | _ => []

/-- `gen_sort_code` (1569-1633): wraps the comprehension. -/
def sortText {Val : Type} (N : Names Val) (k : Kind) (inner : String) (sort : Option (Lit Val × Bool)) :
    String :=
  match sort with
  | none => inner
  | some (key, rev) =>
    let s := "sorted(" ++ inner ++ ", key=" ++ N.const key ++ ",reverse=" ++ N.const (.bool rev) ++ ")"
    match k with
    | .tuple => "tuple(" ++ s ++ ")"
    | .dict => "OrderedDict(" ++ s ++ ")"
    | _ => s

mutual

/-- The generated text. -/
def render {Val : Type} (N : Names Val) : PyExpr Val → String
  | .name n => n
  | .const l => N.const l
  | .getLabel l => "get_by_label_('" ++ l.text N ++ "')"
  | .addLabel l e => "add_label_('" ++ l.text N ++ "', " ++ render N e ++ ")"
  | .attach a b => "(" ++ render N a ++ " and None or " ++ render N b ++ ")"
  | .sub e i => render N e ++ "[" ++ render N i ++ "]"
  | .dot e a => render N e ++ "." ++ a
  | .getattr e i => "getattr(" ++ render N e ++ ", " ++ render N i ++ ")"
  | .call f args kw => render N f ++ "(" ++ join "," (withKw kw (renderAll N args)) ++ ")"
  | .boolop isAnd es => "(" ++ join (if isAnd then " and " else " or ") (renderAll N es) ++ ")"
  | .eqs es => "(" ++ join " == " (renderAll N es) ++ ")"
  | .not e => "(not " ++ render N e ++ ")"
  | .bin .index a b => "(" ++ render N a ++ "[" ++ render N b ++ "])"
  | .bin o a b => "(" ++ render N a ++ o.text ++ render N b ++ ")"
  | .neg e => "(-" ++ render N e ++ ")"
  | .ifexp t c f => "(" ++ render N t ++ " if " ++ render N c ++ " else " ++ render N f ++ ")"
  | .comp k item value var iter hasCond cond sort =>
    let it := match k with
      | .dict =>
        if sort.isSome then "(" ++ render N item ++ ", " ++ render N value ++ ")"
        else render N item ++ ": " ++ render N value
      | _ => render N item
    let gen := it ++ " for " ++ var ++ " in " ++ render N iter ++
      (if hasCond then " if " ++ render N cond else "")
    let inner := match k with
      | .list => "[" ++ gen ++ "]"
      | .tuple => if sort.isSome then "(" ++ gen ++ ")" else "tuple(" ++ gen ++ ")"
      | .set => "{" ++ gen ++ "}"
      | .dict => if sort.isSome then "(" ++ gen ++ ")" else "{" ++ gen ++ "}"
    sortText N k inner sort
  | .display .list items => "[" ++ join "," (renderAll N items) ++ "]"
  | .display .tuple items => "(" ++ join "," (renderAll N items) ++ ",)"
  | .display .set items => "{" ++ join "," (renderAll N items) ++ "}"
  | .display .dict items => "{" ++ join "," (pairTexts (renderAll N items)) ++ "}"
  | .getOrDefault fname _ selfGiven self obj dflt =>
    fname ++ "(" ++ (if selfGiven then render N self ++ "," else "") ++ render N obj ++ "," ++
      render N dflt ++ ")"
  | .optItems k fname _ _ obj args =>
    (match k with | .list => "list(" | .tuple => "tuple(" | .set => "set(" | .dict => "dict(") ++
      fname ++ "(" ++ join "," (render N obj :: args) ++ "))"
  | .optDict fname _ _ obj args => "dict(" ++ fname ++ "(" ++ join "," (render N obj :: args) ++ "))"
  | .tap fname obj _ args => fname ++ "(" ++ join "," (render N obj :: args) ++ ")"
  | .setitem o k v => render N o ++ "[" ++ render N k ++ "] = " ++ render N v
  | .setattr o k v => "setattr(" ++ render N o ++ ", " ++ render N k ++ ", " ++ render N v ++ ")"
  | .pop o k => render N o ++ ".pop(" ++ render N k ++ ")"
  | .delattr o k => "delattr(" ++ render N o ++ ", " ++ render N k ++ ")"
  | .bad msg => msg
  | .given t _ => t

/-- Texts of several expressions. -/
def renderAll {Val : Type} (N : Names Val) : List (PyExpr Val) → List String
  | [] => []
  | e :: es => render N e :: renderAll N es

end

/-- `\w` of Python's `re`, for ASCII characters; other characters are taken as word characters. -/
def isWord (c : Char) : Bool :=
  c.isAlphanum || c == '_' || c.toNat ≥ 128

/-- `If.input_is_simple` (1214-1225). -/
def inputIsSimple (code : String) : Bool :=
  let cs := code.toList
  let cs :=
    if cs.head? == some '(' && cs.getLast? == some ')' then (cs.drop 1).dropLast else cs
  cs.all (fun c => isWord c || c == '"' || c == '\'')

/-- `a in b` for strings. -/
def isIn (a b : String) : Bool :=
  (List.range (b.toList.length + 1)).any (fun n => a.toList.isPrefixOf (b.toList.drop n))

/-- `GetAttr.valid_attr` (1349) on the text of a string constant. -/
def validAttr (s : String) : Bool :=
  match s.toList with
  | [] => false
  | c :: cs => c.isAlpha && cs.all (fun c => c.isAlphanum || c == '_')

/-! ## Code generation -/

/-- An optional item. -/
def Conv.isOpt {Val : Type} : Conv Val → Bool
  | .opt _ _ => true
  | _ => false

/-- `gen_code_and_update_ctx` (302-324) for a conversion with a predefined input. -/
def attachTo {Val : Type} (N : Names Val) (first result : PyExpr Val) : PyExpr Val :=
  if !inputIsSimple (render N first) && !isIn (render N first) (render N result) then
    .attach first result
  else result

/-- `wrap_path_item` of `GetItem` (1296) and `GetAttr` (1351-1354): the text of an index is a quoted
identifier only for a string constant. -/
def wrapItem {Val : Type} (attr : Bool) (e i : PyExpr Val) : PyExpr Val :=
  if attr then
    match i with
    | .const (.str s) => if validAttr s then .dot e s else .getattr e i
    | i => .getattr e i
  else .sub e i

/-- The loops over indexes (1303-1305, 1310-1312). -/
def wrapAll {Val : Type} (attr : Bool) (e : PyExpr Val) : List (PyExpr Val) → PyExpr Val
  | [] => e
  | i :: is => wrapAll attr (wrapItem attr e i) is

mutual

/-- Names of the input arguments in a conversion (`get_args` 404-413; C51 is about dependencies). -/
def Conv.args {Val : Type} : Conv Val → List String
  | .this => []
  | .naive _ => []
  | .arg n => [n]
  | .label _ => []
  | .lookup _ s idx => s.args ++ argsAll idx
  | .lookupD _ s idx d => s.args ++ argsAll idx ++ d.args
  | .call s as _ => s.args ++ argsAll as
  | .boolop _ as => argsAll as
  | .eqs as => argsAll as
  | .not a => a.args
  | .bin _ a b => a.args ++ b.args
  | .neg a => a.args
  | .ifc c t f _ => c.args ++ t.args ++ f.args
  | .comp _ i v _ c _ => i.args ++ v.args ++ c.args
  | .coll _ items => argsAll items
  | .dict kvs => argsAll kvs
  | .opt c cond => c.args ++ cond.args
  | .caching c _ _ convs => c.args ++ argsAll convs
  | .tap o ms => o.args ++ argsAll ms
  | .mutSetItem k v => k.args ++ v.args
  | .mutSetAttr k v => k.args ++ v.args
  | .mutDelItem k => k.args
  | .mutDelAttr k => k.args
  | .mutCustom c => c.args
  | .pipe a b => a.args ++ b.args

/-- Names of the input arguments in several conversions. -/
def argsAll {Val : Type} : List (Conv Val) → List String
  | [] => []
  | c :: cs => c.args ++ argsAll cs

end

/-- `get_args` (404-413): sorted, without duplicates. -/
def sortedArgs (as : List String) : List String :=
  as.eraseDups.mergeSort (fun a b => decide (a ≤ b))

/-- Code for the labels of `CachingConversion` (1022-1026). -/
def labelLines {Val : Type} : List String → List (PyExpr Val) → List (PyExpr Val)
  | l :: ls, e :: es => .addLabel (.user l) e :: labelLines ls es
  | _, _ => []

/-- A flag for an item of a collection with optional items (1694-1703). -/
def optFlags {Val : Type} : List (Conv Val) → List Bool
  | [] => []
  | c :: cs => c.isOpt :: optFlags cs

/-- A flag for a pair of a `Dict` with optional items (1844-1866). -/
def optPairFlags {Val : Type} : List (Conv Val) → List Bool
  | k :: v :: rest => (k.isOpt || v.isOpt) :: optPairFlags rest
  | _ => []

/-- `EscapedString(e).pipe(conv)` (1238-1247) for a `conv` which is no pipe: its code, with `e` attached
if needed (302-324). -/
def fin {Val : Type} (N : Names Val) (esc : Bool) (e result : PyExpr Val) : PyExpr Val :=
  if esc then attachTo N e result else result

mutual

/-- `gen_code_and_update_ctx` for the input code `e`; `p` is the place in the tree.  With `esc` it is the
code of `EscapedString(e).pipe(conv)`, which puts `e` before the first stage of `conv` (735-750). -/
def gen {Val : Type} (N : Names Val) (esc : Bool) : Conv Val → PyExpr Val → List Nat → PyExpr Val
  | .this, e, _ => fin N esc e e
  | .naive l, e, _ => fin N esc e (.const l)
  | .arg n, e, _ => fin N esc e (.name n)
  | .label n, e, _ => fin N esc e (.getLabel (.user n))
  | .lookup attr s idx, e, p =>
    fin N esc e (wrapAll attr (gen N false s e (p ++ [0])) (genAll N idx e (p ++ [1]) 0))
  | .lookupD attr s idx d, e, p =>
    -- 1308-1339
    let codeSelf := gen N false s e (p ++ [0])
    let own := render N codeSelf != render N e
    let body := wrapAll attr (.name (if own then "self_" else "obj_"))
      (genAll N idx (.name "obj_") (p ++ [1]) 0)
    fin N esc e (.getOrDefault (N.helper "get_or_default" p) body own codeSelf e
      (gen N false d e (p ++ [2])))
  | .call s as kw, e, p =>
    fin N esc e (.call (gen N false s e (p ++ [0])) (genAll N as e (p ++ [1]) 0) kw)
  | .boolop isAnd as, e, p => fin N esc e (.boolop isAnd (genAll N as e (p ++ [1]) 0))
  | .eqs as, e, p => fin N esc e (.eqs (genAll N as e (p ++ [1]) 0))
  | .not a, e, p => fin N esc e (.not (gen N false a e (p ++ [0])))
  | .bin o a b, e, p => fin N esc e (.bin o (gen N false a e (p ++ [0])) (gen N false b e (p ++ [1])))
  | .neg a, e, p => fin N esc e (.neg (gen N false a e (p ++ [0])))
  | .ifc c t f noCache, e, p =>
    -- 1227-1253
    let simple := inputIsSimple (render N e) || noCache
    let eCond := if simple then e
      else .boolop false [.addLabel (.cached p) e, .getLabel (.cached p)]
    let eRes := if simple then e else .getLabel (.cached p)
    fin N esc e (.ifexp (gen N true t eRes (p ++ [1])) (gen N true c eCond (p ++ [0]))
      (gen N true f eRes (p ++ [2])))
  | .comp k item value hasCond cond sort, e, p =>
    -- 1519-1633
    fin N esc e (
      if k = .set ∧ sort.isSome then .bad "ConversionException"
      else
        .comp k (gen N false item (.name (N.param (render N e))) (p ++ [0]))
          (gen N false value (.name (N.param (render N e))) (p ++ [1])) (N.param (render N e)) e hasCond
          (gen N false cond (.name (N.param (render N e))) (p ++ [2])) sort)
  | .coll k items, e, p =>
    -- 1710-1726, 1779-1812
    fin N esc e (
      if items.any Conv.isOpt then
        .optItems k (N.helper "optional_items_generator" p) (optFlags items)
          (genOpt N items (p ++ [1]) 0) e (sortedArgs (argsAll items))
      else if items.isEmpty && k == .tuple then .bad "SyntaxError"
      else .display (if items.isEmpty && k == .set then .dict else k) (genAll N items e (p ++ [1]) 0))
  | .dict kvs, e, p =>
    -- 1831-1878
    fin N esc e (
      if kvs.any Conv.isOpt then
        .optDict (N.helper "optional_items_generator" p) (optPairFlags kvs)
          (genOptPairs N kvs (p ++ [1]) 0) e (sortedArgs (argsAll kvs))
      else .display .dict (genAll N kvs e (p ++ [1]) 0))
  | .opt _ _, e, _ => fin N esc e (.bad "OptionalCollectionItem cannot be used outside of collections")
  | .caching c name labels convs, e, p =>
    -- 1014-1029
    fin N esc e (.boolop false (.addLabel (.user name) (gen N false c e (p ++ [0])) ::
      (labelLines labels (genAll N convs (.getLabel (.user name)) (p ++ [1]) 0) ++
        [.getLabel (.user name)])))
  | .tap o ms, e, p =>
    -- 1899-1918
    fin N esc e (.tap (N.helper "tap" p) (gen N false o e (p ++ [0]))
      (genAll N ms (.name "data_") (p ++ [1]) 0) (sortedArgs (o.args ++ argsAll ms)))
  | .mutSetItem k v, e, p =>
    fin N esc e (.setitem e (gen N false k e (p ++ [0])) (gen N false v e (p ++ [1])))
  | .mutSetAttr k v, e, p =>
    fin N esc e (.setattr e (gen N false k e (p ++ [0])) (gen N false v e (p ++ [1])))
  | .mutDelItem k, e, p => fin N esc e (.pop e (gen N false k e (p ++ [0])))
  | .mutDelAttr k, e, p => fin N esc e (.delattr e (gen N false k e (p ++ [0])))
  | .mutCustom c, e, p => fin N esc e (gen N false c e (p ++ [0]))
  | .pipe a b, e, p =>
    -- 302-324
    attachTo N (gen N esc a e (p ++ [0])) (gen N false b (gen N esc a e (p ++ [0])) (p ++ [1]))

/-- Code for several conversions. -/
def genAll {Val : Type} (N : Names Val) : List (Conv Val) → PyExpr Val → List Nat → Nat →
    List (PyExpr Val)
  | [], _, _, _ => []
  | c :: cs, e, p, n => gen N false c e (p ++ [n]) :: genAll N cs e p (n + 1)

/-- Condition and value of the items of a collection, inside of the helper (1648-1677, 1694-1703). -/
def genOpt {Val : Type} (N : Names Val) : List (Conv Val) → List Nat → Nat → List (PyExpr Val)
  | [], _, _ => []
  | .opt c cond :: cs, p, n =>
    gen N false cond (.name "data_") (p ++ [n, 0]) :: gen N false c (.name "data_") (p ++ [n, 1]) ::
      genOpt N cs p (n + 1)
  | c :: cs, p, n =>
    .const .none :: gen N false c (.name "data_") (p ++ [n, 1]) :: genOpt N cs p (n + 1)

/-- Condition, key and value of the pairs of a `Dict`, inside of the helper (1844-1866). -/
def genOptPairs {Val : Type} (N : Names Val) : List (Conv Val) → List Nat → Nat → List (PyExpr Val)
  | .opt k ck :: .opt v cv :: rest, p, n =>
    .boolop true [gen N false ck (.name "data_") (p ++ [n, 0]), gen N false cv (.name "data_") (p ++ [n, 1])] ::
      gen N false k (.name "data_") (p ++ [n, 2]) :: gen N false v (.name "data_") (p ++ [n, 3]) ::
      genOptPairs N rest p (n + 1)
  | .opt k ck :: v :: rest, p, n =>
    gen N false ck (.name "data_") (p ++ [n, 0]) ::
      gen N false k (.name "data_") (p ++ [n, 2]) :: gen N false v (.name "data_") (p ++ [n, 3]) ::
      genOptPairs N rest p (n + 1)
  | k :: .opt v cv :: rest, p, n =>
    gen N false cv (.name "data_") (p ++ [n, 1]) ::
      gen N false k (.name "data_") (p ++ [n, 2]) :: gen N false v (.name "data_") (p ++ [n, 3]) ::
      genOptPairs N rest p (n + 1)
  | k :: v :: rest, p, n =>
    .const .none ::
      gen N false k (.name "data_") (p ++ [n, 2]) :: gen N false v (.name "data_") (p ++ [n, 3]) ::
      genOptPairs N rest p (n + 1)
  | _, _, _ => []

end

/-- The stages of a pipe, first one first (554-558, 564). -/
def stages {Val : Type} : Conv Val → List (Conv Val)
  | .pipe a b => stages a ++ [b]
  | c => [c]

/-- Statements of a converter: assignments of the intermediate results, then `return` (560-579);
`var t` is the name for the result of the stage with the input code `t` (`gen_name("pipe", …)`). -/
def genStages {Val : Type} (N : Names Val) (var : String → String) : List (Conv Val) → String → Nat →
    List (String × PyExpr Val)
  | [], _, _ => []
  | c :: cs, input, n =>
    (var input, gen N false c (.name input) [n]) :: genStages N var cs (var input) (n + 1)

/-- `pipe` (787-857) for a `b` which is a pipe itself: `a` goes before the first stage (735-750); C17 is
about the references. -/
def Conv.pipeTo {Val : Type} (a : Conv Val) : Conv Val → Conv Val
  | .pipe b c => .pipe (a.pipeTo b) c
  | b => .pipe a b

/-! ## Evaluation -/

/-- State of a run: labels of the user, `cached_val_<n>` labels, everything else. -/
structure St (Val U : Type) where
  labels : String → Option Val
  cached : List Nat → Option Val
  u : U

/-- A computation: a value or an exception, and the new state. -/
def M (Val U Err α : Type) : Type := St Val U → Except Err α × St Val U

instance {Val U Err : Type} : Monad (M Val U Err) where
  pure x := fun s => (.ok x, s)
  bind m k := fun s =>
    match m s with
    | (.ok x, s') => k x s'
    | (.error e, s') => (.error e, s')

/-- `raise`. -/
def fail {Val U Err α : Type} (e : Err) : M Val U Err α := fun s => (.error e, s)

/-- `try: … except: …`. -/
def onError {Val U Err α : Type} (m : M Val U Err α) (h : Err → M Val U Err α) : M Val U Err α := fun s =>
  match m s with
  | (.ok x, s') => (.ok x, s')
  | (.error e, s') => h e s'

/-- Operations of the Python runtime on values. -/
inductive Op
  | getitem
  | getattr
  | call (kw : List String)
  | bin (o : BinOp)
  | eq
  | neg
  | iter
  | hash
  | mk (k : Kind)
  | sorted
  | toTuple
  | orderedDict
  | setitem
  | setattr
  | delattr
  deriving DecidableEq

/-- The Python runtime: values, their operations (with any effects on `U`), truth, iteration. -/
structure Runtime (Val U Err : Type) where
  op : Op → List Val → U → Except Err Val × U
  truthy : Val → U → Except Err Bool × U
  next : Val → U → Except Err (Option Val) × U
  none : Val
  bool : Bool → Val
  int : Int → Val
  str : String → Val
  nameError : String → Err
  labelError : String → Err
  /-- `TypeError`, `KeyError`, `IndexError`, `AttributeError` (171-179) -/
  caught : Err → Bool
  /-- an exception leaving a generator: `StopIteration` becomes `RuntimeError` -/
  fromGen : Err → Err
  diverged : Err
  bad : Err

/-- Value of a constant. -/
def Runtime.lit {Val U Err : Type} (R : Runtime Val U Err) : Lit Val → Val
  | .none => R.none
  | .bool b => R.bool b
  | .int i => R.int i
  | .str s => R.str s
  | .obj v => v

section
variable {Val U Err : Type}

/-- An operation of the runtime. -/
def runOp (R : Runtime Val U Err) (o : Op) (args : List Val) : M Val U Err Val := fun s =>
  let (r, u) := R.op o args s.u
  (r, { s with u := u })

/-- A truth test. -/
def runTruthy (R : Runtime Val U Err) (x : Val) : M Val U Err Bool := fun s =>
  let (r, u) := R.truthy x s.u
  (r, { s with u := u })

/-- The next item of an iterator. -/
def runNext (R : Runtime Val U Err) (x : Val) : M Val U Err (Option Val) := fun s =>
  let (r, u) := R.next x s.u
  (r, { s with u := u })

/-- `labels_.__getitem__` (510). -/
def runGet (R : Runtime Val U Err) : Lbl → M Val U Err Val
  | .user n => fun s =>
    match s.labels n with
    | some x => (.ok x, s)
    | none => (.error (R.labelError n), s)
  | .cached p => fun s =>
    match s.cached p with
    | some x => (.ok x, s)
    | none => (.error (R.labelError ""), s)

/-- `labels_.__setitem__` (509). -/
def runSet : Lbl → Val → M Val U Err Unit
  | .user n, x => fun s => (.ok (), { s with labels := fun m => if m = n then some x else s.labels m })
  | .cached p, x => fun s => (.ok (), { s with cached := fun q => if q = p then some x else s.cached q })

/-- Exceptions leaving the body of a generator. -/
def inGen (R : Runtime Val U Err) {α : Type} (m : M Val U Err α) : M Val U Err α :=
  onError m (fun e => fail (R.fromGen e))

/-- The loop of a comprehension over the iterator `it`; `body` gives the new items. -/
def loop (R : Runtime Val U Err) (it : Val) (body : Val → M Val U Err (List Val)) : Nat →
    M Val U Err (List Val)
  | 0 => fail R.diverged
  | n + 1 => do
    match ← runNext R it with
    | none => pure []
    | some x =>
      let ys ← body x
      let rest ← loop R it body n
      pure (ys ++ rest)

/-- Lists, dicts and sets are built by comprehensions, other things by consuming a generator. -/
def viaGen (k : Kind) (sort : Option (Lit Val × Bool)) : Bool :=
  match k with
  | .tuple => true
  | .dict => sort.isSome
  | _ => false

/-- The end of a comprehension: sorting, and building the collection. -/
def finish (R : Runtime Val U Err) (k : Kind) (sort : Option (Lit Val × Bool)) (xs : List Val) :
    M Val U Err Val :=
  match sort with
  | none => runOp R (.mk k) xs
  | some (key, rev) => do
    let s ← runOp R .sorted (R.lit key :: R.bool rev :: xs)
    match k with
    | .tuple => runOp R .toTuple [s]
    | .dict => runOp R .orderedDict [s]
    | _ => pure s

/-- What a comprehension adds for an item: a set hashes it, a dict hashes the key, a sorted dict
comprehension makes pairs (1616-1633). -/
def addItem (R : Runtime Val U Err) (k : Kind) (sort : Option (Lit Val × Bool)) (x : M Val U Err Val)
    (y : M Val U Err Val) : M Val U Err (List Val) :=
  match k, sort with
  | .set, _ => do
    let a ← x
    let _ ← runOp R .hash [a]
    pure [a]
  | .dict, none => do
    let a ← x
    let b ← y
    let _ ← runOp R .hash [a]
    pure [a, b]
  | .dict, some _ => do
    let a ← x
    let b ← y
    let t ← runOp R (.mk .tuple) [a, b]
    pure [t]
  | _, _ => do
    let a ← x
    pure [a]

/-- Variables. -/
abbrev Env (Val : Type) := String → Option Val

/-- A new variable. -/
def Env.set {Val : Type} (ρ : Env Val) (n : String) (x : Val) : Env Val := fun m =>
  if m = n then some x else ρ m

/-- Looking up a variable. -/
def runName (R : Runtime Val U Err) (ρ : Env Val) (n : String) : M Val U Err Val :=
  match ρ n with
  | some x => pure x
  | none => fail (R.nameError n)

/-- The variables of a helper function: `data_` and the input arguments passed on. -/
def helperEnv (R : Runtime Val U Err) (ρ : Env Val) (data : Val) : List String → M Val U Err (Env Val)
  | [] => pure (fun n => if n = "data_" then some data else none)
  | a :: as => do
    let x ← runName R ρ a
    let ρ' ← helperEnv R ρ data as
    pure (ρ'.set a x)

/-- The variables of `get_or_default` (1315-1323); `selfGiven` if `self_` is among them. -/
def defaultEnv (selfGiven : Bool) (self obj dflt : Val) : Env Val := fun n =>
  if n = "self_" then (if selfGiven then some self else none) else if n = "obj_" then some obj else if n = "default_" then some dflt
  else none

mutual

/-- Evaluation of generated code.  `fuel` bounds the number of steps of a loop. -/
def eval (R : Runtime Val U Err) (fuel : Nat) : PyExpr Val → Env Val → M Val U Err Val
  | .name n, ρ => runName R ρ n
  | .const l, _ => pure (R.lit l)
  | .getLabel l, _ => runGet R l
  | .addLabel l e, ρ => do
    let x ← eval R fuel e ρ
    runSet l x
    pure R.none
  | .attach a b, ρ => do
    let x ← eval R fuel a ρ
    let _ ← runTruthy R x
    eval R fuel b ρ
  | .sub e i, ρ => do
    let x ← eval R fuel e ρ
    let y ← eval R fuel i ρ
    runOp R .getitem [x, y]
  | .dot e a, ρ => do
    let x ← eval R fuel e ρ
    runOp R .getattr [x, R.str a]
  | .getattr e i, ρ => do
    let x ← eval R fuel e ρ
    let y ← eval R fuel i ρ
    runOp R .getattr [x, y]
  | .call f args kw, ρ => do
    let x ← eval R fuel f ρ
    let ys ← evalAll R fuel args ρ
    runOp R (.call kw) (x :: ys)
  | .boolop isAnd es, ρ => evalBool R fuel isAnd es ρ
  | .eqs es, ρ => evalEqs R fuel es ρ
  | .not e, ρ => do
    let x ← eval R fuel e ρ
    let b ← runTruthy R x
    pure (R.bool (!b))
  | .bin .index a b, ρ => do
    let x ← eval R fuel a ρ
    let y ← eval R fuel b ρ
    runOp R .getitem [x, y]
  | .bin o a b, ρ => do
    let x ← eval R fuel a ρ
    let y ← eval R fuel b ρ
    runOp R (.bin o) [x, y]
  | .neg e, ρ => do
    let x ← eval R fuel e ρ
    runOp R .neg [x]
  | .ifexp t c f, ρ => do
    let x ← eval R fuel c ρ
    let b ← runTruthy R x
    if b then eval R fuel t ρ else eval R fuel f ρ
  | .comp k item value var iter hasCond cond sort, ρ => do
    let src ← eval R fuel iter ρ
    let it ← runOp R .iter [src]
    let run := loop R it (fun x => do
      let keep ← if hasCond then (do
          let c ← eval R fuel cond (ρ.set var x)
          runTruthy R c)
        else pure true
      if keep then
        addItem R k sort (eval R fuel item (ρ.set var x)) (eval R fuel value (ρ.set var x))
      else pure []) fuel
    let xs ← if viaGen k sort then inGen R run else run
    finish R k sort xs
  | .display k items, ρ => do
    let xs ← evalAll R fuel items ρ
    runOp R (.mk k) xs
  | .getOrDefault _ body selfGiven self obj dflt, ρ => do
    let s ← if selfGiven then eval R fuel self ρ else pure R.none
    let o ← eval R fuel obj ρ
    let d ← eval R fuel dflt ρ
    onError (eval R fuel body (defaultEnv selfGiven s o d)) (fun e => if R.caught e then pure d else fail e)
  | .optItems k _ flags body obj args, ρ => do
    let o ← eval R fuel obj ρ
    let ρ' ← helperEnv R ρ o args
    let xs ← inGen R (evalOpt R fuel k flags body ρ')
    runOp R (.mk k) xs
  | .optDict _ flags body obj args, ρ => do
    let o ← eval R fuel obj ρ
    let ρ' ← helperEnv R ρ o args
    let xs ← inGen R (evalOptDict R fuel flags body ρ')
    runOp R (.mk .dict) xs
  | .tap _ obj stmts args, ρ => do
    let o ← eval R fuel obj ρ
    let ρ' ← helperEnv R ρ o args
    let _ ← evalAll R fuel stmts ρ'
    pure o
  | .setitem o k v, ρ => do
    let z ← eval R fuel v ρ
    let x ← eval R fuel o ρ
    let y ← eval R fuel k ρ
    runOp R .setitem [x, y, z]
  | .setattr o k v, ρ => do
    let x ← eval R fuel o ρ
    let y ← eval R fuel k ρ
    let z ← eval R fuel v ρ
    runOp R .setattr [x, y, z]
  | .pop o k, ρ => do
    let x ← eval R fuel o ρ
    let f ← runOp R .getattr [x, R.str "pop"]
    let y ← eval R fuel k ρ
    runOp R (.call []) [f, y]
  | .delattr o k, ρ => do
    let x ← eval R fuel o ρ
    let y ← eval R fuel k ρ
    runOp R .delattr [x, y]
  | .bad _, _ => fail R.bad
  | .given _ v, _ => pure v

/-- Evaluation from left to right. -/
def evalAll (R : Runtime Val U Err) (fuel : Nat) : List (PyExpr Val) → Env Val → M Val U Err (List Val)
  | [], _ => pure []
  | e :: es, ρ => do
    let x ← eval R fuel e ρ
    let xs ← evalAll R fuel es ρ
    pure (x :: xs)

/-- `a and b and …`, `a or b or …`. -/
def evalBool (R : Runtime Val U Err) (fuel : Nat) (isAnd : Bool) : List (PyExpr Val) → Env Val →
    M Val U Err Val
  | [], _ => fail R.bad
  | e :: es, ρ => do
    let x ← eval R fuel e ρ
    match es with
    | [] => pure x
    | _ :: _ => do
      let b ← runTruthy R x
      if b = isAnd then evalBool R fuel isAnd es ρ else pure x

/-- `a == b == …`. -/
def evalEqs (R : Runtime Val U Err) (fuel : Nat) : List (PyExpr Val) → Env Val → M Val U Err Val
  | [], _ => fail R.bad
  | e :: es, ρ => do
    let x ← eval R fuel e ρ
    evalEqs' R fuel x es ρ

/-- The comparisons after the first operand. -/
def evalEqs' (R : Runtime Val U Err) (fuel : Nat) (x : Val) : List (PyExpr Val) → Env Val →
    M Val U Err Val
  | [], _ => pure x
  | e :: es, ρ => do
    let y ← eval R fuel e ρ
    let r ← runOp R .eq [x, y]
    match es with
    | [] => pure r
    | _ :: _ => do
      let b ← runTruthy R r
      if b then evalEqs' R fuel y es ρ else pure r

/-- The body of `optional_items_generator`, consumed by `list`, `tuple` or `set`. -/
def evalOpt (R : Runtime Val U Err) (fuel : Nat) (k : Kind) : List Bool → List (PyExpr Val) → Env Val →
    M Val U Err (List Val)
  | flag :: flags, c :: e :: es, ρ => do
    let keep ← if flag then (do
        let x ← eval R fuel c ρ
        runTruthy R x)
      else pure true
    let xs ← if keep then addItem R k none (eval R fuel e ρ) (pure R.none) else pure []
    let rest ← evalOpt R fuel k flags es ρ
    pure (xs ++ rest)
  | _, _, _ => pure []

/-- The body of `optional_items_generator`, consumed by `dict`. -/
def evalOptDict (R : Runtime Val U Err) (fuel : Nat) : List Bool → List (PyExpr Val) → Env Val →
    M Val U Err (List Val)
  | flag :: flags, c :: k :: e :: es, ρ => do
    let keep ← if flag then (do
        let x ← eval R fuel c ρ
        runTruthy R x)
      else pure true
    let xs ← if keep then addItem R .dict none (eval R fuel k ρ) (eval R fuel e ρ) else pure []
    let rest ← evalOptDict R fuel flags es ρ
    pure (xs ++ rest)
  | _, _, _ => pure []

end

/-- Running the statements of a converter: each stage result goes into its variable (560-579). -/
def runStages (R : Runtime Val U Err) (fuel : Nat) : List (String × PyExpr Val) → Env Val → M Val U Err Val
  | [], _ => pure R.none
  | [(_, e)], ρ => eval R fuel e ρ
  | (x, e) :: st :: rest, ρ => do
    let v ← eval R fuel e ρ
    runStages R fuel (st :: rest) (ρ.set x v)

/-- The converter made by `gen_converter` (474-592), called with `data` and the input arguments `A`. -/
def converter (R : Runtime Val U Err) (fuel : Nat) (N : Names Val) (var : String → String) (c : Conv Val)
    (A : Env Val) (data : Val) : M Val U Err Val :=
  runStages R fuel (genStages N var (stages c) "data_" 0) (A.set "data_" data)

end

end Verif.Expr
