import Verif.Text.Lex

/-!
# Text: Python's expression grammar, for the expressions which occur in generated code

A recursive descent parser following the grammar of the Python Language Reference, chapter 6 (atoms, primaries,
unary and binary arithmetic operators, comparisons, boolean operators, conditional expressions, displays and
comprehensions), with Python's precedences.  This is the reference against which generated code is checked, not
code of the repository.  Left out: `await`, `**`, `@`, bit operators, `lambda`, `:=`, starred expressions, slices,
several `for` or `if` clauses; texts using them are rejected here.
-/

set_option autoImplicit false

namespace Verif.Text

/-- Comparison operators. -/
inductive Cmp
  | eq | ne | lt | le | gt | ge | is | isNot | in_ | notIn
  deriving DecidableEq

/-- Arithmetic operators. -/
inductive Arith
  | add | sub | mul | div | mod | floorDiv
  deriving DecidableEq

/-- Kinds of displays and comprehensions. -/
inductive Shape
  | gen | tuple | list | set | dict
  deriving DecidableEq

/-- Python's abstract syntax of expressions. -/
inductive Ast
  | name (s : String)
  | num (n : Nat)
  | str (s : List Char)
  | attr (e : Ast) (a : String)
  | sub (e i : Ast)
  /-- the last `kws.length` arguments are keyword arguments -/
  | call (f : Ast) (args : List Ast) (kws : List String)
  | neg (e : Ast)
  | bin (o : Arith) (a b : Ast)
  | cmp (a : Ast) (ops : List Cmp) (bs : List Ast)
  | not (e : Ast)
  | bool (isAnd : Bool) (es : List Ast)
  | ifexp (t c f : Ast)
  /-- for a dict keys and values in turn -/
  | display (k : Shape) (es : List Ast)
  /-- `elt` has two expressions for a dict, otherwise one; `cond` at most one -/
  | comp (k : Shape) (elt : List Ast) (var : String) (iter : Ast) (cond : List Ast)

mutual

/-- Equality of expressions. -/
def Ast.beq : Ast → Ast → Bool
  | .name a, .name b => a == b
  | .num a, .num b => a == b
  | .str a, .str b => a == b
  | .attr a x, .attr b y => a.beq b && x == y
  | .sub a x, .sub b y => a.beq b && x.beq y
  | .call a x k, .call b y l => a.beq b && beqAll x y && k == l
  | .neg a, .neg b => a.beq b
  | .bin o a x, .bin p b y => o == p && a.beq b && x.beq y
  | .cmp a o x, .cmp b p y => a.beq b && o == p && beqAll x y
  | .not a, .not b => a.beq b
  | .bool k x, .bool l y => k == l && beqAll x y
  | .ifexp a b c, .ifexp x y z => a.beq x && b.beq y && c.beq z
  | .display k x, .display l y => k == l && beqAll x y
  | .comp k e v i c, .comp l f w j d => k == l && beqAll e f && v == w && i.beq j && beqAll c d
  | _, _ => false

/-- Equality of lists of expressions. -/
def beqAll : List Ast → List Ast → Bool
  | [], [] => true
  | a :: as, b :: bs => a.beq b && beqAll as bs
  | _, _ => false

end

mutual

theorem Ast.eq_of_beq : ∀ {a b : Ast}, a.beq b = true → a = b
  | a, b, h => by
    cases a <;> cases b <;>
      simp only [Ast.beq, Bool.false_eq_true, beq_iff_eq, Bool.and_eq_true] at h <;>
      first
      | (rw [h]; done)
      | (rw [Ast.eq_of_beq h]; done)
      | (rw [Ast.eq_of_beq h.1, h.2]; done)
      | (rw [Ast.eq_of_beq h.1, Ast.eq_of_beq h.2]; done)
      | (rw [h.1, eq_of_beqAll h.2]; done)
      | (rw [Ast.eq_of_beq h.1.1, eq_of_beqAll h.1.2, h.2]; done)
      | (rw [h.1.1, Ast.eq_of_beq h.1.2, Ast.eq_of_beq h.2]; done)
      | (rw [Ast.eq_of_beq h.1.1, h.1.2, eq_of_beqAll h.2]; done)
      | (rw [Ast.eq_of_beq h.1.1, Ast.eq_of_beq h.1.2, Ast.eq_of_beq h.2]; done)
      | (rw [h.1.1.1.1, eq_of_beqAll h.1.1.1.2, h.1.1.2, Ast.eq_of_beq h.1.2, eq_of_beqAll h.2]; done)

theorem eq_of_beqAll : ∀ {as bs : List Ast}, beqAll as bs = true → as = bs
  | [], [], _ => rfl
  | a :: as, b :: bs, h => by
    simp only [beqAll, Bool.and_eq_true] at h
    rw [Ast.eq_of_beq h.1, eq_of_beqAll h.2]

end

mutual

theorem Ast.beq_refl : ∀ a : Ast, a.beq a = true
  | .name _ => by simp [Ast.beq]
  | .num _ => by simp [Ast.beq]
  | .str _ => by simp [Ast.beq]
  | .attr a _ => by simp [Ast.beq, Ast.beq_refl a]
  | .sub a x => by simp [Ast.beq, Ast.beq_refl a, Ast.beq_refl x]
  | .call a x _ => by simp [Ast.beq, Ast.beq_refl a, beqAll_refl x]
  | .neg a => by simp [Ast.beq, Ast.beq_refl a]
  | .bin _ a x => by simp [Ast.beq, Ast.beq_refl a, Ast.beq_refl x]
  | .cmp a _ x => by simp [Ast.beq, Ast.beq_refl a, beqAll_refl x]
  | .not a => by simp [Ast.beq, Ast.beq_refl a]
  | .bool _ x => by simp [Ast.beq, beqAll_refl x]
  | .ifexp a b c => by simp [Ast.beq, Ast.beq_refl a, Ast.beq_refl b, Ast.beq_refl c]
  | .display _ x => by simp [Ast.beq, beqAll_refl x]
  | .comp _ e _ i c => by simp [Ast.beq, beqAll_refl e, Ast.beq_refl i, beqAll_refl c]

theorem beqAll_refl : ∀ as : List Ast, beqAll as as = true
  | [] => rfl
  | a :: as => by simp [beqAll, Ast.beq_refl a, beqAll_refl as]

end

instance : DecidableEq Ast := fun a b =>
  if h : a.beq b = true then isTrue (Ast.eq_of_beq h)
  else isFalse (fun he => h (by subst he; exact Ast.beq_refl a))

/-- What the parser is about to read. -/
inductive Mode
  | expr
  | or
  | orMore (acc : List Ast)
  | and
  | andMore (acc : List Ast)
  | not
  | cmp
  | cmpMore (a : Ast) (ops : List Cmp) (bs : List Ast)
  | arith
  | arithMore (a : Ast)
  | term
  | termMore (a : Ast)
  | factor
  | primary
  | trailers (a : Ast)
  /-- after `(` or `,` of a call -/
  | args (f : Ast) (acc : List Ast) (kws : List String)
  /-- after an argument -/
  | argsMore (f : Ast) (acc : List Ast) (kws : List String)
  /-- after `(` -/
  | paren
  /-- after `[` -/
  | brack
  /-- after `{` -/
  | brace
  /-- after a comma of a tuple, list or set -/
  | items (k : Shape) (acc : List Ast)
  /-- after a comma of a dict -/
  | pairs (acc : List Ast)
  /-- after `for`; ends behind the closing bracket -/
  | comp (k : Shape) (elt : List Ast)

/-- A single operand, or a boolean operation. -/
def mkBool (isAnd : Bool) : List Ast → Ast
  | [a] => a
  | es => .bool isAnd es

/-- A single operand, or a chain of comparisons. -/
def mkCmp (a : Ast) (ops : List Cmp) (bs : List Ast) : Ast :=
  if ops.isEmpty then a else .cmp a ops bs

/-- A comparison operator. -/
def cmpOp : List Tok → Option (Cmp × List Tok)
  | .eqeq :: ts => some (.eq, ts)
  | .ne :: ts => some (.ne, ts)
  | .lt :: ts => some (.lt, ts)
  | .le :: ts => some (.le, ts)
  | .gt :: ts => some (.gt, ts)
  | .ge :: ts => some (.ge, ts)
  | .is_ :: .not_ :: ts => some (.isNot, ts)
  | .is_ :: ts => some (.is, ts)
  | .in_ :: ts => some (.in_, ts)
  | .not_ :: .in_ :: ts => some (.notIn, ts)
  | _ => none

/-- `+` or `-`. -/
def addOp : List Tok → Option (Arith × List Tok)
  | .plus :: ts => some (.add, ts)
  | .minus :: ts => some (.sub, ts)
  | _ => none

/-- `*`, `/`, `//` or `%`. -/
def mulOp : List Tok → Option (Arith × List Tok)
  | .star :: ts => some (.mul, ts)
  | .slash :: ts => some (.div, ts)
  | .slash2 :: ts => some (.floorDiv, ts)
  | .percent :: ts => some (.mod, ts)
  | _ => none

/-- The closing bracket of a display or comprehension. -/
def Shape.close : Shape → Tok
  | .gen => .rpar
  | .tuple => .rpar
  | .list => .rbr
  | .set => .rcu
  | .dict => .rcu

/-- A certain token. -/
def expect (t : Tok) : List Tok → Option (List Tok)
  | [] => none
  | t' :: ts => if t' = t then some ts else none

/-- Names of constants, which are keywords. -/
def isConstName (s : String) : Bool := s == "None" || s == "True" || s == "False"

/-- A parser. -/
abbrev P := Mode → List Tok → Option (Ast × List Tok)

/-- A comma or the end of a tuple, list or set. -/
def itemsNext (rec : P) (k : Shape) (acc : List Ast) (ts : List Tok) : Option (Ast × List Tok) :=
  match ts with
  | .comma :: ts => rec (.items k acc) ts
  | ts => (expect k.close ts).map (fun ts => (.display k acc, ts))

/-- A comma or the end of a dict. -/
def pairsNext (rec : P) (acc : List Ast) (ts : List Tok) : Option (Ast × List Tok) :=
  match ts with
  | .comma :: ts => rec (.pairs acc) ts
  | .rcu :: ts => some (.display .dict acc, ts)
  | _ => none

/-- One step of the parser; `rec` reads parts. -/
def parseStep (rec : P) : P
  | .expr, ts =>
    (rec .or ts).bind fun (t, ts) =>
      match ts with
      | .if_ :: ts =>
        (rec .or ts).bind fun (c, ts) =>
          (expect .else_ ts).bind fun ts =>
            (rec .expr ts).bind fun (f, ts) => some (.ifexp t c f, ts)
      | ts => some (t, ts)
  | .or, ts => (rec .and ts).bind fun (a, ts) => rec (.orMore [a]) ts
  | .orMore acc, ts =>
    match ts with
    | .or_ :: ts => (rec .and ts).bind fun (b, ts) => rec (.orMore (acc ++ [b])) ts
    | ts => some (mkBool false acc, ts)
  | .and, ts => (rec .not ts).bind fun (a, ts) => rec (.andMore [a]) ts
  | .andMore acc, ts =>
    match ts with
    | .and_ :: ts => (rec .not ts).bind fun (b, ts) => rec (.andMore (acc ++ [b])) ts
    | ts => some (mkBool true acc, ts)
  | .not, ts =>
    match ts with
    | .not_ :: ts => (rec .not ts).bind fun (a, ts) => some (.not a, ts)
    | ts => rec .cmp ts
  | .cmp, ts => (rec .arith ts).bind fun (a, ts) => rec (.cmpMore a [] []) ts
  | .cmpMore a ops bs, ts =>
    match cmpOp ts with
    | some (o, ts) => (rec .arith ts).bind fun (b, ts) => rec (.cmpMore a (ops ++ [o]) (bs ++ [b])) ts
    | none => some (mkCmp a ops bs, ts)
  | .arith, ts => (rec .term ts).bind fun (a, ts) => rec (.arithMore a) ts
  | .arithMore a, ts =>
    match addOp ts with
    | some (o, ts) => (rec .term ts).bind fun (b, ts) => rec (.arithMore (.bin o a b)) ts
    | none => some (a, ts)
  | .term, ts => (rec .factor ts).bind fun (a, ts) => rec (.termMore a) ts
  | .termMore a, ts =>
    match mulOp ts with
    | some (o, ts) => (rec .factor ts).bind fun (b, ts) => rec (.termMore (.bin o a b)) ts
    | none => some (a, ts)
  | .factor, ts =>
    match ts with
    | .minus :: ts => (rec .factor ts).bind fun (a, ts) => some (.neg a, ts)
    | ts => rec .primary ts
  | .primary, ts =>
    match ts with
    | .name s :: ts => rec (.trailers (.name s)) ts
    | .num n :: ts => rec (.trailers (.num n)) ts
    | .str s :: ts => rec (.trailers (.str s)) ts
    | .lpar :: ts => (rec .paren ts).bind fun (a, ts) => rec (.trailers a) ts
    | .lbr :: ts => (rec .brack ts).bind fun (a, ts) => rec (.trailers a) ts
    | .lcu :: ts => (rec .brace ts).bind fun (a, ts) => rec (.trailers a) ts
    | _ => none
  | .trailers a, ts =>
    match ts with
    | .dot :: ts =>
      match ts with
      | .name s :: ts => if isConstName s then none else rec (.trailers (.attr a s)) ts
      | _ => none
    | .lbr :: ts =>
      (rec .expr ts).bind fun (i, ts) =>
        (expect .rbr ts).bind fun ts => rec (.trailers (.sub a i)) ts
    | .lpar :: ts => (rec (.args a [] []) ts).bind fun (b, ts) => rec (.trailers b) ts
    | ts => some (a, ts)
  | .args f acc kws, ts =>
    match ts with
    | .rpar :: ts => some (.call f acc kws, ts)
    | .name k :: .assign :: ts =>
      if isConstName k || k ∈ kws then none
      else (rec .expr ts).bind fun (x, ts) => rec (.argsMore f (acc ++ [x]) (kws ++ [k])) ts
    | ts =>
      if kws.isEmpty then
        (rec .expr ts).bind fun (x, ts) =>
          match ts with
          | .for_ :: ts =>
            if acc.isEmpty then (rec (.comp .gen [x]) ts).bind fun (g, ts) => some (.call f [g] [], ts) else none
          | ts => rec (.argsMore f (acc ++ [x]) []) ts
      else none
  | .argsMore f acc kws, ts =>
    match ts with
    | .comma :: ts => rec (.args f acc kws) ts
    | .rpar :: ts => some (.call f acc kws, ts)
    | _ => none
  | .paren, ts =>
    match ts with
    | .rpar :: ts => some (.display .tuple [], ts)
    | ts =>
      (rec .expr ts).bind fun (a, ts) =>
        match ts with
        | .rpar :: ts => some (a, ts)
        | .for_ :: ts => rec (.comp .gen [a]) ts
        | ts => itemsNext rec .tuple [a] ts
  | .brack, ts =>
    match ts with
    | .rbr :: ts => some (.display .list [], ts)
    | ts =>
      (rec .expr ts).bind fun (a, ts) =>
        match ts with
        | .for_ :: ts => rec (.comp .list [a]) ts
        | ts => itemsNext rec .list [a] ts
  | .brace, ts =>
    match ts with
    | .rcu :: ts => some (.display .dict [], ts)
    | ts =>
      (rec .expr ts).bind fun (a, ts) =>
        match ts with
        | .colon :: ts =>
          (rec .expr ts).bind fun (b, ts) =>
            match ts with
            | .for_ :: ts => rec (.comp .dict [a, b]) ts
            | ts => pairsNext rec [a, b] ts
        | .for_ :: ts => rec (.comp .set [a]) ts
        | ts => itemsNext rec .set [a] ts
  | .items k acc, ts =>
    match expect k.close ts with
    | some ts => some (.display k acc, ts)
    | none => (rec .expr ts).bind fun (a, ts) => itemsNext rec k (acc ++ [a]) ts
  | .pairs acc, ts =>
    match ts with
    | .rcu :: ts => some (.display .dict acc, ts)
    | ts =>
      (rec .expr ts).bind fun (a, ts) =>
        (expect .colon ts).bind fun ts =>
          (rec .expr ts).bind fun (b, ts) => pairsNext rec (acc ++ [a, b]) ts
  | .comp k elt, ts =>
    match ts with
    | .name v :: .in_ :: ts =>
      if isConstName v then none
      else
        (rec .or ts).bind fun (it, ts) =>
          match ts with
          | .if_ :: ts =>
            (rec .or ts).bind fun (c, ts) =>
              (expect k.close ts).map fun ts => (.comp k elt v it [c], ts)
          | ts => (expect k.close ts).map fun ts => (.comp k elt v it [], ts)
    | _ => none

/-- The parser, with a bound on the depth of its calls. -/
def parse : Nat → P
  | 0 => fun _ _ => none
  | n + 1 => parseStep (parse n)

/-- `parse` with enough depth reads a whole text as this expression. -/
def Parses (s : String) (a : Ast) : Prop :=
  ∃ ts, lex s = some ts ∧ ∃ n0, ∀ n, n0 ≤ n → parse n .expr ts = some (a, [])

/-- `Parses` for examples: depth `n`. -/
def parseText (n : Nat) (s : String) : Option Ast :=
  match lex s with
  | none => none
  | some ts =>
    match parse n .expr ts with
    | some (a, []) => some a
    | _ => none

example : parseText 100 "a + b * -c[0].d" = some (.bin .add (.name "a")
    (.bin .mul (.name "b") (.neg (.attr (.sub (.name "c") (.num 0)) "d")))) := by decide +kernel

example : parseText 100 "not a == b is not c and f(x for x in y if z) or (d, {1: 2}) if [] else g(u, k=v)" =
    some (.ifexp
      (.bool false [.bool true [.not (.cmp (.name "a") [.eq, .isNot] [.name "b", .name "c"]),
          .call (.name "f") [.comp .gen [.name "x"] "x" (.name "y") [.name "z"]] []],
        .display .tuple [.name "d", .display .dict [.num 1, .num 2]]])
      (.display .list [])
      (.call (.name "g") [.name "u", .name "v"] ["k"])) := by decide +kernel

example : parseText 100 "-1[0]" = some (.neg (.sub (.num 1) (.num 0))) := by decide +kernel

end Verif.Text
