import Verif.GroupKeys.Model
import Verif.Text.Tree

/-!
# Group keys: what is meant

Replacing expressions (not texts), and mentioning the row.
-/

set_option autoImplicit false

namespace Verif.GroupKeys

open Verif.Expr

section
variable {Val : Type}

/-- Lookups on the row: `row_`, `row_[i]`, `row_[i][j]`, … -/
def isChain : PyExpr Val → Bool
  | .name n => n == varRow
  | .sub e _ => isChain e
  | _ => false

/-- The expression is the key. -/
def isKey (N : Names Val) (key e : PyExpr Val) : Bool := isChain e && render N e == render N key

mutual

/-- The expression with `sig` in place of the key. -/
def put (N : Names Val) (key sig : PyExpr Val) : PyExpr Val → PyExpr Val
  | .name n => if isKey N key (.name n) then sig else .name n
  | .const l => .const l
  | .getLabel l => .getLabel l
  | .addLabel l e => .addLabel l (put N key sig e)
  | .attach a b => .attach (put N key sig a) (put N key sig b)
  | .sub e i => if isKey N key (.sub e i) then sig else .sub (put N key sig e) (put N key sig i)
  | .dot e a => .dot (put N key sig e) a
  | .getattr e i => .getattr (put N key sig e) (put N key sig i)
  | .call f args kw => .call (put N key sig f) (putAll N key sig args) kw
  | .boolop isAnd es => .boolop isAnd (putAll N key sig es)
  | .eqs es => .eqs (putAll N key sig es)
  | .not e => .not (put N key sig e)
  | .bin o a b => .bin o (put N key sig a) (put N key sig b)
  | .neg e => .neg (put N key sig e)
  | .ifexp t c f => .ifexp (put N key sig t) (put N key sig c) (put N key sig f)
  | .comp k item value var iter hasCond cond sort =>
    .comp k (put N key sig item) (put N key sig value) var (put N key sig iter) hasCond (put N key sig cond) sort
  | .display k items => .display k (putAll N key sig items)
  | .getOrDefault fname body selfGiven self obj dflt =>
    .getOrDefault fname body selfGiven (put N key sig self) (put N key sig obj) (put N key sig dflt)
  | .optItems k fname flags body obj args => .optItems k fname flags body (put N key sig obj) args
  | .optDict fname flags body obj args => .optDict fname flags body (put N key sig obj) args
  | .tap fname obj stmts args => .tap fname (put N key sig obj) stmts args
  | .setitem o k v => .setitem (put N key sig o) (put N key sig k) (put N key sig v)
  | .setattr o k v => .setattr (put N key sig o) (put N key sig k) (put N key sig v)
  | .pop o k => .pop (put N key sig o) (put N key sig k)
  | .delattr o k => .delattr (put N key sig o) (put N key sig k)
  | .bad m => .bad m
  | .given t v => .given t v

/-- The same for several expressions. -/
def putAll (N : Names Val) (key sig : PyExpr Val) : List (PyExpr Val) → List (PyExpr Val)
  | [] => []
  | e :: es => put N key sig e :: putAll N key sig es

end

mutual

/-- The expression uses or binds the variable `x`. -/
def mentions (x : String) : PyExpr Val → Bool
  | .name n => n == x
  | .const _ => false
  | .getLabel _ => false
  | .addLabel _ e => mentions x e
  | .attach a b => mentions x a || mentions x b
  | .sub e i => mentions x e || mentions x i
  | .dot e _ => mentions x e
  | .getattr e i => mentions x e || mentions x i
  | .call f args _ => mentions x f || mentionsAny x args
  | .boolop _ es => mentionsAny x es
  | .eqs es => mentionsAny x es
  | .not e => mentions x e
  | .bin _ a b => mentions x a || mentions x b
  | .neg e => mentions x e
  | .ifexp t c f => mentions x t || mentions x c || mentions x f
  | .comp k item value var iter hasCond cond _ =>
    var == x || mentions x item || (k == .dict && mentions x value) || mentions x iter || (hasCond && mentions x cond)
  | .display _ items => mentionsAny x items
  | .getOrDefault _ _ selfGiven self obj dflt => (selfGiven && mentions x self) || mentions x obj || mentions x dflt
  | .optItems _ _ _ _ obj args => mentions x obj || args.contains x
  | .optDict _ _ _ obj args => mentions x obj || args.contains x
  | .tap _ obj _ args => mentions x obj || args.contains x
  | .setitem o k v => mentions x o || mentions x k || mentions x v
  | .setattr o k v => mentions x o || mentions x k || mentions x v
  | .pop o k => mentions x o || mentions x k
  | .delattr o k => mentions x o || mentions x k
  | .bad _ => false
  | .given _ _ => false

/-- The same for several expressions. -/
def mentionsAny (x : String) : List (PyExpr Val) → Bool
  | [] => false
  | e :: es => mentions x e || mentionsAny x es

end

mutual

/-- The expression uses (or binds) `row_` outside of the keys. -/
def strays (N : Names Val) (keys : List (PyExpr Val)) : PyExpr Val → Bool
  | .name n => n == varRow && !keys.any (fun key => isKey N key (.name n))
  | .const _ => false
  | .getLabel _ => false
  | .addLabel _ e => strays N keys e
  | .attach a b => strays N keys a || strays N keys b
  | .sub e i => !keys.any (fun key => isKey N key (.sub e i)) && (strays N keys e || strays N keys i)
  | .dot e _ => strays N keys e
  | .getattr e i => strays N keys e || strays N keys i
  | .call f args _ => strays N keys f || straysAny N keys args
  | .boolop _ es => straysAny N keys es
  | .eqs es => straysAny N keys es
  | .not e => strays N keys e
  | .bin _ a b => strays N keys a || strays N keys b
  | .neg e => strays N keys e
  | .ifexp t c f => strays N keys t || strays N keys c || strays N keys f
  | .comp k item value var iter hasCond cond _ =>
    var == varRow || strays N keys item || (k == .dict && strays N keys value) || strays N keys iter || (hasCond && strays N keys cond)
  | .display _ items => straysAny N keys items
  | .getOrDefault _ _ selfGiven self obj dflt => (selfGiven && strays N keys self) || strays N keys obj || strays N keys dflt
  | .optItems _ _ _ _ obj args => strays N keys obj || args.contains varRow
  | .optDict _ _ _ obj args => strays N keys obj || args.contains varRow
  | .tap _ obj _ args => strays N keys obj || args.contains varRow
  | .setitem o k v => strays N keys o || strays N keys k || strays N keys v
  | .setattr o k v => strays N keys o || strays N keys k || strays N keys v
  | .pop o k => strays N keys o || strays N keys k
  | .delattr o k => strays N keys o || strays N keys k
  | .bad _ => false
  | .given _ _ => false

/-- The same for several expressions. -/
def straysAny (N : Names Val) (keys : List (PyExpr Val)) : List (PyExpr Val) → Bool
  | [] => false
  | e :: es => strays N keys e || straysAny N keys es

end

/-- No `row_` in this text. -/
def clean (s : String) : Bool := !isIn varRow s

mutual

/-- No name, constant or label has `row_` as a part of its text, except the variable itself; no
comprehension uses `signature_` as its variable. -/
def quiet (N : Names Val) : PyExpr Val → Bool
  | .name n => n == varRow || clean n
  | .const l => clean (N.const l)
  | .getLabel l => clean (l.text N)
  | .addLabel l e => clean (l.text N) && quiet N e
  | .attach a b => quiet N a && quiet N b
  | .sub e i => quiet N e && quiet N i
  | .dot e a => clean a && quiet N e
  | .getattr e i => quiet N e && quiet N i
  | .call f args kw => kw.all clean && quiet N f && quietAll N args
  | .boolop _ es => quietAll N es
  | .eqs es => quietAll N es
  | .not e => quiet N e
  | .bin .index a b => !isChain a && quiet N a && quiet N b
  | .bin _ a b => quiet N a && quiet N b
  | .neg e => quiet N e
  | .ifexp t c f => quiet N t && quiet N c && quiet N f
  | .comp _ item value var iter _ cond sort =>
    clean var && var != varSignature && quiet N item && quiet N value && quiet N iter && quiet N cond &&
      (match sort with | none => true | some (key, _) => clean (N.const key))
  | .display _ items => quietAll N items
  | .getOrDefault fname _ _ self obj dflt => clean fname && quiet N self && quiet N obj && quiet N dflt
  | .optItems _ fname _ _ obj args => clean fname && quiet N obj && args.all clean
  | .optDict fname _ _ obj args => clean fname && quiet N obj && args.all clean
  | .tap fname obj _ args => clean fname && quiet N obj && args.all clean
  | .setitem o k v => quiet N o && quiet N k && quiet N v
  | .setattr o k v => quiet N o && quiet N k && quiet N v
  | .pop o k => quiet N o && quiet N k
  | .delattr o k => quiet N o && quiet N k
  | .bad _ => false
  | .given _ _ => false

/-- The same for several expressions. -/
def quietAll (N : Names Val) : List (PyExpr Val) → Bool
  | [] => true
  | e :: es => quiet N e && quietAll N es

end

end

end Verif.GroupKeys
