import Verif.Text.Tree
import Verif.Stmt.Read

/-!
# Exec: running the text of a converter

`Verif/Expr/Model.lean` evaluates generated code as a tree made by the code generator.  Here Python's side is modelled
on its own: the syntax trees which the grammars of `Verif/Text/Parse.lean` and `Verif/Stmt/Read.lean` find in the
*texts* are evaluated in a module (`Globals`): the dictionary `ctx` of base.py 497-511 with builtins, the functions and objects put there while code is
generated (366-390, 938-954), and the label dictionary shared by all of them.  Names are looked up in the variables of
the running function first and in the module then; functions are called with their parameters; `None`, `True` and
`False` are keywords.

Left out: generator objects which are not consumed at once by `tuple`, `list`, `set`, `dict` or `sorted`; functions
of the module used as values; labels given by anything but a string constant.  Generated code has none of them, and
such texts fail here.
-/

set_option autoImplicit false

namespace Verif.Exec

open Verif.Expr Verif.Text

/-- A function defined by generated code, as read from its text (`Verif/Stmt/Read.lean`): parameters, parameters given
by keyword only, statements. -/
structure Def where
  params : List String
  kwOnly : List String
  body : List Stmt.Stmt

mutual

/-- A statement contains `yield`. -/
def yields : Stmt.Stmt → Bool
  | .yield_ _ => true
  | .ite _ a b => yieldsAny a || yieldsAny b
  | .for_ _ _ b => yieldsAny b
  | .try_ b _ h => yieldsAny b || yieldsAny h
  | _ => false

/-- One of the statements contains `yield`; the function with this body is a generator function. -/
def yieldsAny : List Stmt.Stmt → Bool
  | [] => false
  | s :: ss => yields s || yieldsAny ss

end

/-- Functions of the module with a meaning of their own: Python's builtins, `OrderedDict` (base.py 1629), and the
methods of the label dictionary (base.py 502, 508-510). -/
inductive Builtin
  | kind (k : Kind)
  | sorted
  | orderedDict
  | getattr
  | setattr
  | delattr
  | getLabel
  | addLabel
  /-- a class of exceptions -/
  | exc (name : String)

/-- What a name of the module is bound to. -/
inductive Global (Val : Type)
  | val (v : Val)
  | def_ (d : Def)
  | builtin (b : Builtin)

/-- The module: `ctx` (base.py 504-511) and Python's builtins. -/
abbrev Globals (Val : Type) := String → Option (Global Val)

section
variable {Val U Err : Type}

/-- How functions of the module are called: `call` runs one, `feed` lets `list`, `tuple`, `set` or `dict` consume a
generator function. -/
structure Calls (Val U Err : Type) where
  call : Def → List Val → M Val U Err Val
  feed : Kind → Def → List Val → M Val U Err (List Val)

/-- Arithmetic operators on values. -/
def arithOp : Arith → BinOp
  | .add => .add
  | .sub => .sub
  | .mul => .mul
  | .div => .div
  | .mod => .mod
  | .floorDiv => .floorDiv

/-- Comparisons on values. -/
def cmpOp : Cmp → Op
  | .eq => .eq
  | .ne => .bin .ne
  | .lt => .bin .lt
  | .le => .bin .le
  | .gt => .bin .gt
  | .ge => .bin .ge
  | .is => .bin .is
  | .isNot => .bin .isNot
  | .in_ => .bin .in_
  | .notIn => .bin .notIn

/-- A name: a keyword constant, a variable of the function, or an object of the module. -/
def lookup (R : Runtime Val U Err) (G : Globals Val) (ρ : Env Val) (n : String) : M Val U Err Val :=
  if n = "None" then pure R.none
  else if n = "True" then pure (R.bool true)
  else if n = "False" then pure (R.bool false)
  else match ρ n with
    | some x => pure x
    | none => match G n with
      | some (.val v) => pure v
      | some _ => fail R.bad
      | none => fail (R.nameError n)

/-- The items of a comprehension: its source is evaluated and `iter` is called at once, also for a generator
expression; `gen` if the loop runs inside of a generator. -/
def compItems (R : Runtime Val U Err) (fuel : Nat) (gen : Bool) (src : M Val U Err Val)
    (cond : Val → M Val U Err Bool) (elt : Val → M Val U Err (List Val)) : M Val U Err (List Val) := do
  let s ← src
  let it ← runOp R .iter [s]
  let run := loop R it (fun x => do
    let keep ← cond x
    if keep then elt x else pure []) fuel
  if gen then inGen R run else run

/-- The function of the module which a called expression names, if no variable has the name. -/
def callee (G : Globals Val) (ρ : Env Val) : Ast → Option (Global Val)
  | .name n =>
    if isConstName n then none
    else match ρ n with
      | some _ => none
      | none => match G n with
        | some (.def_ d) => some (.def_ d)
        | some (.builtin b) => some (.builtin b)
        | _ => none
  | _ => none

/-- An argument which a builtin consumes lazily: a generator expression, or a call of a generator function. -/
def lazyArg (G : Globals Val) (ρ : Env Val) : Ast → Bool
  | .comp .gen _ _ _ _ => true
  | .call f _ _ =>
    match callee G ρ f with
    | some (.def_ d) => yieldsAny d.body
    | _ => false
  | _ => false

mutual

/-- Evaluation of an expression with the variables `ρ`. -/
def run (R : Runtime Val U Err) (fuel : Nat) (G : Globals Val) (C : Calls Val U Err) : Ast → Env Val →
    M Val U Err Val
  | .name n, ρ => lookup R G ρ n
  | .num n, _ => pure (R.int n)
  | .str s, _ => pure (R.str (String.ofList s))
  | .attr e a, ρ => do
    let x ← run R fuel G C e ρ
    runOp R .getattr [x, R.str a]
  | .sub e i, ρ => do
    let x ← run R fuel G C e ρ
    let y ← run R fuel G C i ρ
    runOp R .getitem [x, y]
  | .call f args kws, ρ =>
    match callee G ρ f with
    | some (.builtin b) => runBuiltin R fuel G C b args kws ρ
    | some (.def_ d) => do
      let ys ← runAll R fuel G C args ρ
      if kws.isEmpty then C.call d ys else fail R.bad
    | _ => do
      let x ← run R fuel G C f ρ
      let ys ← runAll R fuel G C args ρ
      runOp R (.call kws) (x :: ys)
  | .neg e, ρ => do
    let x ← run R fuel G C e ρ
    runOp R .neg [x]
  | .bin o a b, ρ => do
    let x ← run R fuel G C a ρ
    let y ← run R fuel G C b ρ
    runOp R (.bin (arithOp o)) [x, y]
  | .cmp a ops bs, ρ => do
    let x ← run R fuel G C a ρ
    runCmp R fuel G C x ops bs ρ
  | .not e, ρ => do
    let x ← run R fuel G C e ρ
    let b ← runTruthy R x
    pure (R.bool (!b))
  | .bool isAnd es, ρ => runBool R fuel G C isAnd es ρ
  | .ifexp t c f, ρ => do
    let x ← run R fuel G C c ρ
    let b ← runTruthy R x
    if b then run R fuel G C t ρ else run R fuel G C f ρ
  | .display k es, ρ => do
    let xs ← runAll R fuel G C es ρ
    match k with
    | .list => runOp R (.mk .list) xs
    | .tuple => runOp R (.mk .tuple) xs
    | .set => runOp R (.mk .set) xs
    | .dict => runOp R (.mk .dict) xs
    | .gen => fail R.bad
  | .comp k elt var iter cond, ρ =>
    match k with
    | .list => do
      let xs ← compItems R fuel false (run R fuel G C iter ρ)
        (fun x => runCond R fuel G C cond (ρ.set var x)) (fun x => runElt R fuel G C .list elt (ρ.set var x))
      runOp R (.mk .list) xs
    | .set => do
      let xs ← compItems R fuel false (run R fuel G C iter ρ)
        (fun x => runCond R fuel G C cond (ρ.set var x)) (fun x => runElt R fuel G C .set elt (ρ.set var x))
      runOp R (.mk .set) xs
    | .dict => do
      let xs ← compItems R fuel false (run R fuel G C iter ρ)
        (fun x => runCond R fuel G C cond (ρ.set var x)) (fun x => runElt R fuel G C .dict elt (ρ.set var x))
      runOp R (.mk .dict) xs
    | _ => fail R.bad

/-- Expressions from left to right. -/
def runAll (R : Runtime Val U Err) (fuel : Nat) (G : Globals Val) (C : Calls Val U Err) : List Ast → Env Val →
    M Val U Err (List Val)
  | [], _ => pure []
  | e :: es, ρ => do
    let x ← run R fuel G C e ρ
    let xs ← runAll R fuel G C es ρ
    pure (x :: xs)

/-- `a and b and …`, `a or b or …`. -/
def runBool (R : Runtime Val U Err) (fuel : Nat) (G : Globals Val) (C : Calls Val U Err) (isAnd : Bool) :
    List Ast → Env Val → M Val U Err Val
  | [], _ => fail R.bad
  | e :: es, ρ => do
    let x ← run R fuel G C e ρ
    match es with
    | [] => pure x
    | _ :: _ => do
      let b ← runTruthy R x
      if b = isAnd then runBool R fuel G C isAnd es ρ else pure x

/-- The rest of a chain of comparisons: `x < b < c` is `x < b and b < c` with `b` evaluated once. -/
def runCmp (R : Runtime Val U Err) (fuel : Nat) (G : Globals Val) (C : Calls Val U Err) (x : Val) : List Cmp →
    List Ast → Env Val → M Val U Err Val
  | o :: ops, e :: es, ρ => do
    let y ← run R fuel G C e ρ
    let r ← runOp R (cmpOp o) [x, y]
    match es with
    | [] => pure r
    | _ :: _ => do
      let b ← runTruthy R r
      if b then runCmp R fuel G C y ops es ρ else pure r
  | _, [], _ => pure x
  | [], _ :: _, _ => fail R.bad

/-- The condition of a comprehension. -/
def runCond (R : Runtime Val U Err) (fuel : Nat) (G : Globals Val) (C : Calls Val U Err) : List Ast → Env Val →
    M Val U Err Bool
  | [], _ => pure true
  | c :: _, ρ => do
    let x ← run R fuel G C c ρ
    runTruthy R x

/-- The element of a comprehension: a set hashes it, a dict hashes the key. -/
def runElt (R : Runtime Val U Err) (fuel : Nat) (G : Globals Val) (C : Calls Val U Err) (k : Kind) :
    List Ast → Env Val → M Val U Err (List Val)
  | [], _ => fail R.bad
  | a :: rest, ρ =>
    match k with
    | .dict => do
      let x ← run R fuel G C a ρ
      let ys ← runAll R fuel G C rest ρ
      let _ ← runOp R .hash [x]
      pure (x :: ys)
    | .set => do
      let x ← run R fuel G C a ρ
      let _ ← runOp R .hash [x]
      pure [x]
    | _ => do
      let x ← run R fuel G C a ρ
      pure [x]

/-- The items of an argument consumed by `list`, `tuple`, `set`, `dict` (`some k`) or by `sorted`. -/
def feed (R : Runtime Val U Err) (fuel : Nat) (G : Globals Val) (C : Calls Val U Err) (k : Option Kind) :
    Ast → Env Val → M Val U Err (List Val)
  | .comp s elt var iter cond, ρ =>
    if (s = .gen ∧ k ≠ some .set ∧ k ≠ some .dict) ∨ (s = .list ∧ k = none) then
      compItems R fuel (s == .gen) (run R fuel G C iter ρ)
        (fun x => runCond R fuel G C cond (ρ.set var x)) (fun x => runElt R fuel G C .list elt (ρ.set var x))
    else fail R.bad
  | .call f args kws, ρ =>
    match k, callee G ρ f with
    | some k, some (.def_ d) => do
      let ys ← runAll R fuel G C args ρ
      if kws.isEmpty then C.feed k d ys else fail R.bad
    | _, _ => fail R.bad
  | _, _ => fail R.bad

/-- A call of a builtin. -/
def runBuiltin (R : Runtime Val U Err) (fuel : Nat) (G : Globals Val) (C : Calls Val U Err) (b : Builtin) :
    List Ast → List String → Env Val → M Val U Err Val
  | [a], [], ρ =>
    match b with
    | .kind k =>
      if lazyArg G ρ a then do
        let xs ← feed R fuel G C (some k) a ρ
        runOp R (.mk k) xs
      else match k with
        | .tuple => do
          let x ← run R fuel G C a ρ
          runOp R .toTuple [x]
        | _ => fail R.bad
    | .orderedDict => do
      let x ← run R fuel G C a ρ
      runOp R .orderedDict [x]
    | .getLabel =>
      match a with
      | .str s => runGet R (.user (String.ofList s))
      | _ => fail R.bad
    | _ => fail R.bad
  | [a, c], [], ρ =>
    match b with
    | .getattr => do
      let x ← run R fuel G C a ρ
      let y ← run R fuel G C c ρ
      runOp R .getattr [x, y]
    | .delattr => do
      let x ← run R fuel G C a ρ
      let y ← run R fuel G C c ρ
      runOp R .delattr [x, y]
    | .addLabel =>
      match a with
      | .str s => do
        let x ← run R fuel G C c ρ
        runSet (.user (String.ofList s)) x
        pure R.none
      | _ => fail R.bad
    | _ => fail R.bad
  | [a, c, d], kws, ρ =>
    match b with
    | .setattr =>
      if kws.isEmpty then do
        let x ← run R fuel G C a ρ
        let y ← run R fuel G C c ρ
        let z ← run R fuel G C d ρ
        runOp R .setattr [x, y, z]
      else fail R.bad
    | .sorted =>
      if kws = ["key", "reverse"] then do
        let xs ← feed R fuel G C none a ρ
        let y ← run R fuel G C c ρ
        let z ← run R fuel G C d ρ
        runOp R .sorted (y :: z :: xs)
      else fail R.bad
    | _ => fail R.bad
  | _, _, _ => fail R.bad

end

/-- The parameters of a function bound to the arguments. -/
def bind : List String → List Val → Env Val
  | p :: ps, v :: vs => (bind ps vs).set p v
  | _, _ => fun _ => none

/-- What a line `yield e` gives to the consumer `k`; `dict` takes the key and the value of a pair. -/
def runYield (R : Runtime Val U Err) (fuel : Nat) (G : Globals Val) (C : Calls Val U Err) (k : Kind) (e : Ast)
    (ρ : Env Val) : M Val U Err (List Val) :=
  match k with
  | .dict =>
    match e with
    | .display .tuple es => do
      let xs ← runAll R fuel G C es ρ
      match xs with
      | [a, _] => do
        let _ ← runOp R .hash [a]
        pure xs
      | _ => fail R.bad
    | _ => fail R.bad
  | .set => do
    let x ← run R fuel G C e ρ
    let _ ← runOp R .hash [x]
    pure [x]
  | _ => do
    let x ← run R fuel G C e ρ
    pure [x]

/-- How a statement ends. -/
inductive Flow (Val : Type)
  /-- the next statement follows, with these variables -/
  | next (ρ : Env Val)
  | ret (v : Val)

/-- The class of exceptions which a name of an `except` clause means. -/
def excName (G : Globals Val) (ρ : Env Val) : Ast → Option String
  | .name n =>
    match ρ n, G n with
    | none, some (.builtin (.exc c)) => some c
    | _, _ => none
  | _ => none

/-- Whether an `except` clause catches an exception.  `Runtime.caught` says which exceptions are instances of the four
classes of `GET_OR_DEFAULT_TEMPLATE` (base.py 177); clauses with other classes are left out. -/
def catches (R : Runtime Val U Err) (G : Globals Val) (ρ : Env Val) (excs : Ast) (e : Err) : Option Bool :=
  match excs with
  | .display .tuple es =>
    if es.map (excName G ρ) = [some "TypeError", some "KeyError", some "IndexError", some "AttributeError"] then
      some (R.caught e)
    else none
  | _ => none

mutual

/-- A statement assigns to a variable. -/
def assigns : Stmt.Stmt → Bool
  | .ret _ | .expr _ | .pass | .global _ | .yield_ _ => false
  | .ite _ a b => assignsAny a || assignsAny b
  | .try_ b _ h => assignsAny b || assignsAny h
  | _ => true

/-- One of the statements assigns to a variable. -/
def assignsAny : List Stmt.Stmt → Bool
  | [] => false
  | s :: ss => assigns s || assignsAny ss

end

mutual

/-- Running a statement of a function with the variables `ρ`.  In an assignment the right side is evaluated first.

Left out (such texts fail here): loops, nested functions and classes, `del`, augmented assignments, assignments to
attributes or to several targets, assignments inside of `try`.  `global` has no effect: generated functions do not
assign to names they declare global. -/
def exec (R : Runtime Val U Err) (fuel : Nat) (G : Globals Val) (C : Calls Val U Err) : Stmt.Stmt → Env Val →
    M Val U Err (Flow Val)
  | .assign [.name x] e, ρ => do
    let v ← run R fuel G C e ρ
    pure (.next (ρ.set x v))
  | .assign [.sub o k] e, ρ => do
    let z ← run R fuel G C e ρ
    let x ← run R fuel G C o ρ
    let y ← run R fuel G C k ρ
    let _ ← runOp R .setitem [x, y, z]
    pure (.next ρ)
  | .expr e, ρ => do
    let _ ← run R fuel G C e ρ
    pure (.next ρ)
  | .ret e, ρ => do
    let v ← run R fuel G C e ρ
    pure (.ret v)
  | .pass, ρ => pure (.next ρ)
  | .global _, ρ => pure (.next ρ)
  | .ite c a b, ρ => do
    let x ← run R fuel G C c ρ
    let t ← runTruthy R x
    if t then execAll R fuel G C a ρ else execAll R fuel G C b ρ
  | .try_ b excs h, ρ =>
    if assignsAny b then fail R.bad
    else onError (execAll R fuel G C b ρ) (fun e =>
      match catches R G ρ excs e with
      | some true => execAll R fuel G C h ρ
      | some false => fail e
      | none => fail R.bad)
  | _, _ => fail R.bad

/-- Running statements one after the other. -/
def execAll (R : Runtime Val U Err) (fuel : Nat) (G : Globals Val) (C : Calls Val U Err) : List Stmt.Stmt → Env Val →
    M Val U Err (Flow Val)
  | [], ρ => pure (.next ρ)
  | s :: ss, ρ => do
    let f ← exec R fuel G C s ρ
    match f with
    | .next ρ' => execAll R fuel G C ss ρ'
    | .ret v => pure (.ret v)

end

/-- What a function returns: without `return`, `None`. -/
def result (R : Runtime Val U Err) : Flow Val → M Val U Err Val
  | .next _ => pure R.none
  | .ret v => pure v

mutual

/-- A statement of a generator function consumed by `k`: what it yields.  Left out: everything but `yield`, `if`,
expressions, `pass` and `global`. -/
def gens (R : Runtime Val U Err) (fuel : Nat) (G : Globals Val) (C : Calls Val U Err) (k : Kind) : Stmt.Stmt →
    Env Val → M Val U Err (List Val)
  | .yield_ e, ρ => runYield R fuel G C k e ρ
  | .expr e, ρ => do
    let _ ← run R fuel G C e ρ
    pure []
  | .pass, _ => pure []
  | .global _, _ => pure []
  | .ite c a b, ρ => do
    let x ← run R fuel G C c ρ
    let t ← runTruthy R x
    if t then gensAll R fuel G C k a ρ else gensAll R fuel G C k b ρ
  | _, _ => fail R.bad

/-- The same for statements one after the other. -/
def gensAll (R : Runtime Val U Err) (fuel : Nat) (G : Globals Val) (C : Calls Val U Err) (k : Kind) :
    List Stmt.Stmt → Env Val → M Val U Err (List Val)
  | [], _ => pure []
  | s :: ss, ρ => do
    let xs ← gens R fuel G C k s ρ
    let ys ← gensAll R fuel G C k ss ρ
    pure (xs ++ ys)

end

/-- Calling a function of the module with positional arguments.  Left out: generator functions (calling one gives a
generator object) and wrong numbers of arguments. -/
def callDef (R : Runtime Val U Err) (fuel : Nat) (G : Globals Val) (C : Calls Val U Err) (d : Def) (vs : List Val) :
    M Val U Err Val :=
  if vs.length = d.params.length ∧ d.kwOnly = [] ∧ yieldsAny d.body = false then do
    let f ← execAll R fuel G C d.body (bind d.params vs)
    result R f
  else fail R.bad

/-- Consuming a call of a generator function of the module. -/
def feedDef (R : Runtime Val U Err) (fuel : Nat) (G : Globals Val) (C : Calls Val U Err) (k : Kind) (d : Def)
    (vs : List Val) : M Val U Err (List Val) :=
  if vs.length = d.params.length ∧ d.kwOnly = [] ∧ yieldsAny d.body = true then
    inGen R (gensAll R fuel G C k d.body (bind d.params vs))
  else fail R.bad

/-- Calls nested up to a depth (Python's recursion limit). -/
def calls (R : Runtime Val U Err) (fuel : Nat) (G : Globals Val) : Nat → Calls Val U Err
  | 0 => { call := fun _ _ => fail R.diverged, feed := fun _ _ _ => fail R.diverged }
  | n + 1 => {
      call := callDef R fuel G (calls R fuel G n)
      feed := feedDef R fuel G (calls R fuel G n) }

/-- Calling a converter: positional arguments, and values of the keyword-only parameters in their order. -/
def callConverter (R : Runtime Val U Err) (fuel : Nat) (G : Globals Val) (C : Calls Val U Err) (d : Def)
    (pos kws : List Val) : M Val U Err Val :=
  if pos.length = d.params.length ∧ kws.length = d.kwOnly.length ∧ yieldsAny d.body = false then do
    let f ← execAll R fuel G C d.body (bind (d.params ++ d.kwOnly) (pos ++ kws))
    result R f
  else fail R.bad

end

end Verif.Exec
