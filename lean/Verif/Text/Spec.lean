import Verif.Text.Tree

/-!
# Text: what the text of a conversion should say

`describe` is the syntax tree a conversion describes, for an input which is a variable: every operand of an operator
is an operand of that operator in the tree.  It covers the conversions whose code has no helper function and no
stages.  `readable` is the condition under which generated texts are read as meant: there are conversions for which
it fails and the text says something else (see `Props.lean`).
-/

set_option autoImplicit false

namespace Verif.Text

open Verif.Expr

section
variable {Val : Type}

/-- The constant a conversion compiles to, if its code may be a constant; `k` is the same for the input code. -/
def konst : Conv Val → Option (Lit Val) → Option (Lit Val)
  | .this, k => k
  | .naive l, _ => some l
  | .lookup _ s [], k => konst s k
  | .mutCustom c, k => konst c k
  | .pipe a b, k => konst b (konst a k)
  | _, _ => none

/-- A constant written with a minus sign. -/
def litNeg : Option (Lit Val) → Bool
  | some (.int (.negSucc _)) => true
  | _ => false

/-- A number. -/
def litInt : Option (Lit Val) → Bool
  | some (.int _) => true
  | _ => false

/-- A constant index for which `GetAttr` writes a dot. -/
def dotted : Option (Lit Val) → Option String
  | some (.str s) => if validAttr s then some s else none
  | _ => none

/-- An attribute written behind a dot is a name, i.e. no keyword. -/
def dotOk (i : Option (Lit Val)) : Bool :=
  match dotted i with
  | some s => isName s
  | none => true

/-- Lookups on a constant: no index behind a negative number, no dot behind a number, no keyword behind a dot. -/
def lookOk (attr : Bool) (target : Option (Lit Val)) : List (Option (Lit Val)) → Bool
  | [] => true
  | i :: is =>
    if attr then (!(litInt target && (dotted i).isSome)) && (i :: is).all dotOk
    else !litNeg target

mutual

/-- The text of a conversion can be read as meant: `k` is the constant which is the input code, if it is one. -/
def readable : Conv Val → Option (Lit Val) → Bool
  | .this, _ => true
  | .naive _, _ => true
  | .arg n, _ => isName n
  | .label n, _ => plainText n.toList
  | .lookup attr s idx, k =>
    readable s k && readableAll idx k && lookOk attr (konst s k) (idx.map (fun i => konst i k))
  | .lookupD attr s idx d, k =>
    readable s k && readableAll idx none && readable d k && lookOk attr none (idx.map (fun i => konst i none))
  | .call s as kw, k =>
    readable s k && readableAll as k && !litNeg (konst s k) && decide (kw.length ≤ as.length) && kw.all isName &&
      decide kw.Nodup
  | .boolop _ as, k => decide (2 ≤ as.length) && readableAll as k
  | .eqs as, k => decide (2 ≤ as.length) && readableAll as k
  | .not a, k => readable a k
  | .bin .index a b, k => readable a k && readable b k && !litNeg (konst a k)
  | .bin _ a b, k => readable a k && readable b k
  | .neg a, k => readable a k
  | .ifc c t f _, k => readable c k && readable t k && readable f k
  | .comp kd i v _ c sort, _ => !(kd == .set && sort.isSome) && readable i none && readable v none && readable c none
  | .coll kd items, k =>
    if items.any Conv.isOpt then readableOpt items && (argsAll items).all isName
    else !(items.isEmpty && kd == .tuple) && kd != .dict && readableAll items k
  | .dict kvs, k =>
    if kvs.any Conv.isOpt then readableOpt kvs && (argsAll kvs).all isName
    else kvs.length % 2 == 0 && readableAll kvs k
  | .opt _ _, _ => false
  | .caching c n labels convs, k =>
    readable c k && plainText n.toList && labels.all (fun l => plainText l.toList) && readableAll convs none
  | .tap o ms, k => readable o k && (o.args ++ argsAll ms).all isName
  | .mutSetItem _ _, _ => false
  | .mutSetAttr a b, k => readable a k && readable b k
  | .mutDelItem a, k => readable a k && !litInt k
  | .mutDelAttr a, k => readable a k
  | .mutCustom c, k => readable c k
  | .pipe a b, k => readable a k && readable b (konst a k)

/-- The same for several conversions. -/
def readableAll : List (Conv Val) → Option (Lit Val) → Bool
  | [], _ => true
  | c :: cs, k => readable c k && readableAll cs k

/-- The same for the items of a collection with optional items, whose code is inside of a function. -/
def readableOpt : List (Conv Val) → Bool
  | [] => true
  | .opt c cond :: cs => readable c none && readable cond none && readableOpt cs
  | c :: cs => readable c none && readableOpt cs

end

/-! ## The described tree -/

/-- Lookups one after the other; an attribute is written with a dot if `dotted`. -/
def lookups (attr : Bool) (t : Ast) : List (Option String × Ast) → Ast
  | [] => t
  | (d, i) :: is =>
    lookups attr
      (if attr then
        match d with
        | some s => .attr t s
        | none => .call (.name "getattr") [t, i] []
      else .sub t i) is

/-- `kind` of a comprehension, with sorting. -/
def compTree (N : Names Val) (k : Kind) (item value : Ast) (var : String) (iter : Ast) (cond : List Ast) :
    Option (Lit Val × Bool) → Ast
  | none =>
    match k with
    | .list => .comp .list [item] var iter cond
    | .tuple => .call (.name "tuple") [.comp .gen [item] var iter cond] []
    | .set => .comp .set [item] var iter cond
    | .dict => .comp .dict [item, value] var iter cond
  | some (key, rev) =>
    let sorted := fun g : Ast =>
      Ast.call (.name "sorted") [g, litTree N key, .name (if rev then "True" else "False")] ["key", "reverse"]
    match k with
    | .list => sorted (.comp .list [item] var iter cond)
    | .tuple => .call (.name "tuple") [sorted (.comp .gen [item] var iter cond)] []
    | .set => sorted (.comp .set [item] var iter cond)
    | .dict =>
      .call (.name "OrderedDict") [sorted (.comp .gen [.display .tuple [item, value]] var iter cond)] []

mutual

/-- Conversions covered by `describe`: no helper functions, no stages, no mutations, no names given to results. -/
def direct : Conv Val → Bool
  | .this | .naive _ | .arg _ | .label _ => true
  | .lookup _ s idx => direct s && directAll idx
  | .call s as _ => direct s && directAll as
  | .boolop _ as => directAll as
  | .eqs as => directAll as
  | .not a => direct a
  | .bin _ a b => direct a && direct b
  | .neg a => direct a
  | .ifc c t f _ => direct c && direct t && direct f
  | .comp _ i v _ c _ => direct i && direct v && direct c
  | .coll _ items => directAll items
  | .dict kvs => directAll kvs
  | _ => false

/-- The same for several conversions. -/
def directAll : List (Conv Val) → Bool
  | [] => true
  | c :: cs => direct c && directAll cs

end

mutual

/-- The syntax tree described by a conversion of the variable `x`. -/
def describe (N : Names Val) : Conv Val → String → Ast
  | .this, x => .name x
  | .naive l, _ => litTree N l
  | .arg n, _ => .name n
  | .label n, _ => .call (.name "get_by_label_") [.str n.toList] []
  | .lookup attr s idx, x =>
    lookups attr (describe N s x) ((idx.map (fun i => dotted (konst i none))).zip (describeAll N idx x))
  | .call s as kw, x => .call (describe N s x) (describeAll N as x) kw
  | .boolop isAnd as, x => .bool isAnd (describeAll N as x)
  | .eqs as, x =>
    match describeAll N as x with
    | [] => .cmp (.name "") [] []
    | a :: bs => .cmp a (bs.map (fun _ => .eq)) bs
  | .not a, x => .not (describe N a x)
  | .bin o a b, x => opTree o (describe N a x) (describe N b x)
  | .neg a, x => .neg (describe N a x)
  | .ifc c t f _, x => .ifexp (describe N t x) (describe N c x) (describe N f x)
  | .comp k item value hasCond cond sort, x =>
    compTree N k (describe N item (N.param x)) (describe N value (N.param x)) (N.param x) (.name x)
      (if hasCond then [describe N cond (N.param x)] else []) sort
  | .coll k items, x =>
    .display
      (match k with
      | .list => .list
      | .tuple => .tuple
      | .set => if items.isEmpty then .dict else .set
      | .dict => .dict)
      (describeAll N items x)
  | .dict kvs, x => .display .dict (describeAll N kvs x)
  | _, _ => .name ""

/-- The syntax trees of several conversions. -/
def describeAll (N : Names Val) : List (Conv Val) → String → List Ast
  | [], _ => []
  | c :: cs, x => describe N c x :: describeAll N cs x

end

end

end Verif.Text
