import Verif.Text.LexLemmas
import Verif.Text.Parse
import Verif.Expr.Model

/-!
# Text: tokens and syntax trees meant by generated code

`toks` and `tree` say which tokens and which syntax tree a generated expression (`PyExpr`, see
`Verif/Expr/Model.lean`) stands for; `render` is its text.  `wf` is the condition under which the text is read back
as that tree.
-/

set_option autoImplicit false

namespace Verif.Text

open Verif.Expr

section
variable {Val : Type}

/-- A word which is a name or a constant. -/
def isNameTok (s : String) : Bool := isWordText s.toList && decide (wordTok s = .name s)

/-- A name: a word which is no keyword. -/
def isName (s : String) : Bool := isNameTok s && !isConstName s

/-- What Python's `repr` and the code generator say about constants and names (base.py 938-954, 366-390). -/
structure PyNames (printable : Char → Bool) (N : Names Val) : Prop where
  none : N.const .none = "None"
  bool : ∀ b, N.const (.bool b) = if b then "True" else "False"
  int : ∀ i, N.const (.int i) = String.ofList (reprInt i)
  str : ∀ s, N.const (.str s) = String.ofList (reprStr printable s.toList)
  obj : ∀ v, isName (N.const (.obj v)) = true
  param : ∀ t, isName (N.param t) = true
  helper : ∀ t p, isName (N.helper t p) = true
  cached : ∀ p, plainText (N.cached p).toList = true

/-- Tokens of a constant. -/
def litToks (N : Names Val) : Lit Val → List Tok
  | .none => [.name "None"]
  | .bool b => [.name (if b then "True" else "False")]
  | .int (.ofNat n) => [.num n]
  | .int (.negSucc n) => [.minus, .num (n + 1)]
  | .str s => [.str s.toList]
  | .obj v => [.name (N.const (.obj v))]

/-- Syntax of a constant. -/
def litTree (N : Names Val) : Lit Val → Ast
  | .none => .name "None"
  | .bool b => .name (if b then "True" else "False")
  | .int (.ofNat n) => .num n
  | .int (.negSucc n) => .neg (.num (n + 1))
  | .str s => .str s.toList
  | .obj v => .name (N.const (.obj v))

/-- Tokens of an operator. -/
def opToks : BinOp → List Tok
  | .is => [.is_]
  | .isNot => [.is_, .not_]
  | .in_ => [.in_]
  | .notIn => [.not_, .in_]
  | .ne => [.ne]
  | .gt => [.gt]
  | .ge => [.ge]
  | .lt => [.lt]
  | .le => [.le]
  | .add => [.plus]
  | .mul => [.star]
  | .sub => [.minus]
  | .div => [.slash]
  | .mod => [.percent]
  | .floorDiv => [.slash2]
  | .index => []

/-- Syntax of an operation. -/
def opTree (o : BinOp) (a b : Ast) : Ast :=
  match o with
  | .is => .cmp a [.is] [b]
  | .isNot => .cmp a [.isNot] [b]
  | .in_ => .cmp a [.in_] [b]
  | .notIn => .cmp a [.notIn] [b]
  | .ne => .cmp a [.ne] [b]
  | .gt => .cmp a [.gt] [b]
  | .ge => .cmp a [.ge] [b]
  | .lt => .cmp a [.lt] [b]
  | .le => .cmp a [.le] [b]
  | .add => .bin .add a b
  | .mul => .bin .mul a b
  | .sub => .bin .sub a b
  | .div => .bin .div a b
  | .mod => .bin .mod a b
  | .floorDiv => .bin .floorDiv a b
  | .index => .sub a b

/-- Tokens with separators. -/
def sepBy (sep : List Tok) : List (List Tok) → List Tok
  | [] => []
  | [x] => x
  | x :: y :: rest => x ++ sep ++ sepBy sep (y :: rest)

/-- `k=v` for the last `kw.length` arguments. -/
def kwToks (kw : List String) (args : List (List Tok)) : List (List Tok) :=
  args.take (args.length - kw.length) ++
    List.zipWith (fun k t => .name k :: .assign :: t) kw (args.drop (args.length - kw.length))

/-- `k:v`. -/
def pairToks : List (List Tok) → List (List Tok)
  | k :: v :: rest => (k ++ .colon :: v) :: pairToks rest
  | _ => []

/-- `sorted(…)` around a comprehension. -/
def sortToks (N : Names Val) (k : Kind) (inner : List Tok) : Option (Lit Val × Bool) → List Tok
  | none => inner
  | some (key, rev) =>
    let s := .name "sorted" :: .lpar :: (inner ++ .comma :: .name "key" :: .assign :: (litToks N key ++ .comma ::
      .name "reverse" :: .assign :: (litToks N (.bool rev) ++ [.rpar])))
    match k with
    | .tuple => .name "tuple" :: .lpar :: (s ++ [.rpar])
    | .dict => .name "OrderedDict" :: .lpar :: (s ++ [.rpar])
    | _ => s

/-- `sorted(…)` around a comprehension. -/
def sortTree (N : Names Val) (k : Kind) (inner : Ast) : Option (Lit Val × Bool) → Ast
  | none => inner
  | some (key, rev) =>
    let s := .call (.name "sorted") [inner, litTree N key, litTree N (.bool rev)] ["key", "reverse"]
    match k with
    | .tuple => .call (.name "tuple") [s] []
    | .dict => .call (.name "OrderedDict") [s] []
    | _ => s

/-- The function building a collection of a kind. -/
def kindName : Kind → String
  | .list => "list"
  | .tuple => "tuple"
  | .set => "set"
  | .dict => "dict"

mutual

/-- The tokens of a generated expression. -/
def toks (N : Names Val) : PyExpr Val → List Tok
  | .name n => [.name n]
  | .const l => litToks N l
  | .getLabel l => [.name "get_by_label_", .lpar, .str (l.text N).toList, .rpar]
  | .addLabel l e => .name "add_label_" :: .lpar :: .str (l.text N).toList :: .comma :: (toks N e ++ [.rpar])
  | .attach a b => .lpar :: (toks N a ++ .and_ :: .name "None" :: .or_ :: (toks N b ++ [.rpar]))
  | .sub e i => toks N e ++ .lbr :: (toks N i ++ [.rbr])
  | .dot e a => toks N e ++ [.dot, .name a]
  | .getattr e i => .name "getattr" :: .lpar :: (toks N e ++ .comma :: (toks N i ++ [.rpar]))
  | .call f args kw => toks N f ++ .lpar :: (sepBy [.comma] (kwToks kw (toksAll N args)) ++ [.rpar])
  | .boolop isAnd es => .lpar :: (sepBy [if isAnd then .and_ else .or_] (toksAll N es) ++ [.rpar])
  | .eqs es => .lpar :: (sepBy [.eqeq] (toksAll N es) ++ [.rpar])
  | .not e => .lpar :: .not_ :: (toks N e ++ [.rpar])
  | .bin .index a b => .lpar :: (toks N a ++ .lbr :: (toks N b ++ [.rbr, .rpar]))
  | .bin o a b => .lpar :: (toks N a ++ opToks o ++ (toks N b ++ [.rpar]))
  | .neg e => .lpar :: .minus :: (toks N e ++ [.rpar])
  | .ifexp t c f => .lpar :: (toks N t ++ .if_ :: (toks N c ++ .else_ :: (toks N f ++ [.rpar])))
  | .comp k item value var iter hasCond cond sort =>
    let it := match k with
      | .dict =>
        if sort.isSome then .lpar :: (toks N item ++ .comma :: (toks N value ++ [.rpar]))
        else toks N item ++ .colon :: toks N value
      | _ => toks N item
    let gen := it ++ .for_ :: .name var :: .in_ :: (toks N iter ++ if hasCond then .if_ :: toks N cond else [])
    let inner := match k with
      | .list => .lbr :: (gen ++ [.rbr])
      | .tuple =>
        if sort.isSome then .lpar :: (gen ++ [.rpar]) else .name "tuple" :: .lpar :: (gen ++ [.rpar])
      | .set => .lcu :: (gen ++ [.rcu])
      | .dict => if sort.isSome then .lpar :: (gen ++ [.rpar]) else .lcu :: (gen ++ [.rcu])
    sortToks N k inner sort
  | .display .list items => .lbr :: (sepBy [.comma] (toksAll N items) ++ [.rbr])
  | .display .tuple items => .lpar :: (sepBy [.comma] (toksAll N items) ++ [.comma, .rpar])
  | .display .set items => .lcu :: (sepBy [.comma] (toksAll N items) ++ [.rcu])
  | .display .dict items => .lcu :: (sepBy [.comma] (pairToks (toksAll N items)) ++ [.rcu])
  | .getOrDefault fname _ selfGiven self obj dflt =>
    .name fname :: .lpar :: ((if selfGiven then toks N self ++ [.comma] else []) ++ (toks N obj ++ .comma ::
      (toks N dflt ++ [.rpar])))
  | .optItems k fname _ _ obj args =>
    .name (kindName k) :: .lpar :: .name fname :: .lpar ::
      (sepBy [.comma] (toks N obj :: args.map (fun a => [.name a])) ++ [.rpar, .rpar])
  | .optDict fname _ _ obj args =>
    .name "dict" :: .lpar :: .name fname :: .lpar ::
      (sepBy [.comma] (toks N obj :: args.map (fun a => [.name a])) ++ [.rpar, .rpar])
  | .tap fname obj _ args =>
    .name fname :: .lpar :: (sepBy [.comma] (toks N obj :: args.map (fun a => [.name a])) ++ [.rpar])
  | .setattr o k v =>
    .name "setattr" :: .lpar :: (toks N o ++ .comma :: (toks N k ++ .comma :: (toks N v ++ [.rpar])))
  | .pop o k => toks N o ++ .dot :: .name "pop" :: .lpar :: (toks N k ++ [.rpar])
  | .delattr o k => .name "delattr" :: .lpar :: (toks N o ++ .comma :: (toks N k ++ [.rpar]))
  | .setitem _ _ _ => []
  | .bad _ => []
  | .given _ _ => []

/-- The tokens of several expressions. -/
def toksAll (N : Names Val) : List (PyExpr Val) → List (List Tok)
  | [] => []
  | e :: es => toks N e :: toksAll N es

end

mutual

/-- The syntax tree meant by a generated expression. -/
def tree (N : Names Val) : PyExpr Val → Ast
  | .name n => .name n
  | .const l => litTree N l
  | .getLabel l => .call (.name "get_by_label_") [.str (l.text N).toList] []
  | .addLabel l e => .call (.name "add_label_") [.str (l.text N).toList, tree N e] []
  | .attach a b => .bool false [.bool true [tree N a, .name "None"], tree N b]
  | .sub e i => .sub (tree N e) (tree N i)
  | .dot e a => .attr (tree N e) a
  | .getattr e i => .call (.name "getattr") [tree N e, tree N i] []
  | .call f args kw => .call (tree N f) (treeAll N args) kw
  | .boolop isAnd es => .bool isAnd (treeAll N es)
  | .eqs es =>
    match treeAll N es with
    | [] => .cmp (.name "") [] []
    | a :: bs => .cmp a (bs.map (fun _ => .eq)) bs
  | .not e => .not (tree N e)
  | .bin o a b => opTree o (tree N a) (tree N b)
  | .neg e => .neg (tree N e)
  | .ifexp t c f => .ifexp (tree N t) (tree N c) (tree N f)
  | .comp k item value var iter hasCond cond sort =>
    let c := if hasCond then [tree N cond] else []
    sortTree N k (
      match k with
      | .list => .comp .list [tree N item] var (tree N iter) c
      | .tuple =>
        if sort.isSome then .comp .gen [tree N item] var (tree N iter) c
        else .call (.name "tuple") [.comp .gen [tree N item] var (tree N iter) c] []
      | .set => .comp .set [tree N item] var (tree N iter) c
      | .dict =>
        if sort.isSome then .comp .gen [.display .tuple [tree N item, tree N value]] var (tree N iter) c
        else .comp .dict [tree N item, tree N value] var (tree N iter) c) sort
  | .display .list items => .display .list (treeAll N items)
  | .display .tuple items => .display .tuple (treeAll N items)
  | .display .set items => .display .set (treeAll N items)
  | .display .dict items => .display .dict (treeAll N items)
  | .getOrDefault fname _ selfGiven self obj dflt =>
    .call (.name fname) ((if selfGiven then [tree N self] else []) ++ [tree N obj, tree N dflt]) []
  | .optItems k fname _ _ obj args =>
    .call (.name (kindName k)) [.call (.name fname) (tree N obj :: args.map .name) []] []
  | .optDict fname _ _ obj args => .call (.name "dict") [.call (.name fname) (tree N obj :: args.map .name) []] []
  | .tap fname obj _ args => .call (.name fname) (tree N obj :: args.map .name) []
  | .setattr o k v => .call (.name "setattr") [tree N o, tree N k, tree N v] []
  | .pop o k => .call (.attr (tree N o) "pop") [tree N k] []
  | .delattr o k => .call (.name "delattr") [tree N o, tree N k] []
  | .setitem _ _ _ => .name ""
  | .bad _ => .name ""
  | .given _ _ => .name ""

/-- The syntax trees of several expressions. -/
def treeAll (N : Names Val) : List (PyExpr Val) → List Ast
  | [] => []
  | e :: es => tree N e :: treeAll N es

end

/-- An integer constant. -/
def isInt : PyExpr Val → Bool
  | .const (.int _) => true
  | _ => false

/-- A negative integer constant. -/
def isNeg : PyExpr Val → Bool
  | .const (.int (.negSucc _)) => true
  | _ => false

mutual

/-- The conditions for the text to be read back: no lookup, index or call on a negative integer constant, no dotted
lookup on an integer constant; names are names; labels need no escaping; no empty tuple or set. -/
def wf (N : Names Val) : PyExpr Val → Bool
  | .name n => isName n
  | .const _ => true
  | .getLabel l => plainText (l.text N).toList
  | .addLabel l e => plainText (l.text N).toList && wf N e
  | .attach a b => wf N a && wf N b
  | .sub e i => !isNeg e && wf N e && wf N i
  | .dot e a => !isInt e && isName a && wf N e
  | .getattr e i => wf N e && wf N i
  | .call f args kw => !isNeg f && decide (kw.length ≤ args.length) && kw.all isName && decide kw.Nodup && wf N f &&
      wfAll N args
  | .boolop _ es => decide (2 ≤ es.length) && wfAll N es
  | .eqs es => decide (2 ≤ es.length) && wfAll N es
  | .not e => wf N e
  | .bin .index a b => !isNeg a && wf N a && wf N b
  | .bin _ a b => wf N a && wf N b
  | .neg e => wf N e
  | .ifexp t c f => wf N t && wf N c && wf N f
  | .comp k item value var iter _ cond sort =>
    !(k == .set && sort.isSome) && isName var && wf N item && wf N value && wf N iter && wf N cond
  | .display k items =>
    (match k with
    | .list => true
    | .tuple => !items.isEmpty
    | .set => !items.isEmpty
    | .dict => items.length % 2 == 0) && wfAll N items
  | .getOrDefault fname body _ self obj dflt => isName fname && wf N body && wf N self && wf N obj && wf N dflt
  | .optItems _ fname _ body obj args => isName fname && wfAll N body && wf N obj && args.all isName
  | .optDict fname _ body obj args => isName fname && wfAll N body && wf N obj && args.all isName
  | .tap fname obj _ args => isName fname && wf N obj && args.all isName
  | .setattr o k v => wf N o && wf N k && wf N v
  | .pop o k => !isInt o && wf N o && wf N k
  | .delattr o k => wf N o && wf N k
  | .setitem _ _ _ => false
  | .bad _ => false
  | .given _ _ => false

/-- The same for several expressions. -/
def wfAll (N : Names Val) : List (PyExpr Val) → Bool
  | [] => true
  | e :: es => wf N e && wfAll N es

end

end

end Verif.Text
