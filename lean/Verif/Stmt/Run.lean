import Verif.Stmt.Read
import Verif.Py.Dict

/-!
# Stmt: execution of the statements of generated aggregation functions

Python's semantics (Language Reference, chapters 6-8) of the statements which `Verif/Stmt/Read.lean` reads, as far as
the functions generated by `/repo/src/convtools/aggregations.py` 143-1277 use them.  This is the reference against
which generated functions are checked, not code of the repository.

The objects which the generated code itself creates are modelled: the iterator `it_`, checksums, the `defaultdict` of
groups, `AggData` objects, the sentinel `_none`, and the tuples, lists, sets and dicts in which reducers (285-483)
accumulate (`Py.tracked` says which displays create them).  Operators combine the values of their operands; for all other expressions, i.e. those generated from the
user's conversions, `Py.eval` says what they give.  They may read all variables and objects.

Simplifications: the user's expressions raise or give a value, but do not change the state; expression statements
other than `append` and `add` to accumulated objects are given by `Py.effect`; iterating over the input does not
raise; a generated function groups by at most one `defaultdict`; keys of accumulated dicts and sets are hashable; in
`x[k] += v` the code of `x[k]` is evaluated twice; `yield`, `try`, `del`, and definitions inside functions are not
executed.  `none` as an error means that the code does something which is not modelled, among other things: a missing
key of a dict.
-/

set_option autoImplicit false

namespace Verif.Stmt

open Verif.Text

/-- Values. -/
inductive PVal (V : Type)
  /-- the object bound to `_none` -/
  | sentinel
  /-- the input collection -/
  | data (rows : List V)
  | iter (i : Nat)
  | builtin (name : String)
  /-- a class, with the body of its definition -/
  | cls (body : List Stmt)
  /-- the `defaultdict` -/
  | dict
  /-- an object of the class -/
  | obj (i : Nat)
  | pair (a b : PVal V)
  /-- an accumulated list, set or dict -/
  | ref (i : Nat)
  /-- every other value, among them numbers, truth values and `None` -/
  | user (v : V)

/-- Values of accumulated dicts. -/
inductive Leaf (V : Type)
  | val (v : V)
  | list (l : List V)
  | set (l : List V)
  | dict (d : List (V × V))

/-- Lists, sets and dicts in which reducers accumulate; a `defaultdict` has the name of its factory.  `gone` is what
has been put into another one. -/
inductive Box (V : Type)
  | list (l : List V)
  | set (l : List V)
  | dict (d : List (V × Leaf V)) (factory : Option String)
  | gone

/-- Variables, iterators (what is left of them), objects of the class given to the `defaultdict`, the `defaultdict`,
and accumulated objects. -/
structure St (V : Type) where
  loc : String → Option (PVal V)
  iters : List (List V)
  objs : List (String → Option (PVal V))
  cls : List Stmt
  dict : List (PVal V × Nat)
  heap : List (Box V)

/-- What a variable holds: a value, or an accumulated object with its contents. -/
inductive DVal (V : Type)
  | val (p : PVal V)
  | box (b : Box V)

/-- A value with its contents; `none` is the sentinel. -/
abbrev Val (V : Type) := Option (DVal V)

/-- The value of a variable as a slot of `Verif/Agg/Model.lean`: the sentinel is `none`. -/
def dec {V : Type} (heap : List (Box V)) : PVal V → Val V
  | .sentinel => none
  | .ref i =>
    match heap[i]? with
    | some b => some (.box b)
    | none => some (.val (.ref i))
  | p => some (.val p)

/-- Everything which the generated code uses. -/
structure Py (V E : Type) where
  /-- global and builtin names -/
  glob : String → Option (PVal V)
  truthy : V → Except E Bool
  /-- `None` -/
  isNone : V → Bool
  bool : Bool → V
  truthy_bool : ∀ b, truthy (bool b) = .ok b
  /-- the number `n` -/
  num : Nat → V
  toNat : V → Option Nat
  toNat_num : ∀ n, toNat (num n) = some n
  /-- equality of keys -/
  keyEq : PVal V → PVal V → Bool
  /-- unhashable keys raise -/
  hash : PVal V → Except E Unit
  eval : Ast → St V → Except E (PVal V)
  /-- the displays whose objects are accumulated objects; for the other ones see `eval` -/
  tracked : Ast → Bool
  /-- comparisons other than those in `cmpVal` -/
  compare : Cmp → PVal V → PVal V → Except E (PVal V)
  arith : Arith → PVal V → PVal V → Except E (PVal V)
  augOp : Aug → PVal V → PVal V → Except E (PVal V)
  effect : Ast → St V → Except E (St V)
  /-- what lookups in the sentinel raise -/
  misuse : E
  /-- a new list of values, whose contents do not change any more -/
  mkList : List (Val V) → V

variable {V E : Type}

/-- Results: a value, an exception, or `none` for what is not modelled. -/
abbrev Res (E α : Type) := Except (Option E) α

/-- An outcome of the user's code. -/
def lift {α : Type} : Except E α → Res E α
  | .ok a => .ok a
  | .error e => .error (some e)

/-- `True` or `False`. -/
def Py.ofBool (P : Py V E) (b : Bool) : PVal V := .user (P.bool b)

/-- A number. -/
def Py.int (P : Py V E) (n : Nat) : PVal V := .user (P.num n)

/-- A new list. -/
def Py.newList (P : Py V E) (l : List (Val V)) : Val V := some (.val (.user (P.mkList l)))

/-- Equality of the keys of accumulated dicts and sets. -/
def Py.beq (P : Py V E) : BEq V := ⟨fun a b => P.keyEq (.user a) (.user b)⟩

/-- A name: a constant such as `None`, else local, else global or builtin. -/
def St.look (P : Py V E) (st : St V) (x : String) : Option (PVal V) :=
  if isConstName x then P.glob x
  else
    match st.loc x with
    | some v => some v
    | none => P.glob x

/-- Assignment to a variable. -/
def St.set (st : St V) (x : String) (v : PVal V) : St V :=
  { st with loc := fun y => if y = x then some v else st.loc y }

/-- `x is y`, if one of them is the sentinel or `None`. -/
def same (P : Py V E) : PVal V → PVal V → Option Bool
  | .sentinel, .sentinel => some true
  | .sentinel, _ => some false
  | _, .sentinel => some false
  | .user v, .user w => if P.isNone v || P.isNone w then some (P.isNone v && P.isNone w) else none
  | .user v, _ => if P.isNone v then some false else none
  | _, .user w => if P.isNone w then some false else none
  | _, _ => none

/-- `x == y` for numbers. -/
def numEq (P : Py V E) : PVal V → PVal V → Option Bool
  | .user v, .user w =>
    match P.toNat v, P.toNat w with
    | some a, some b => some (decide (a = b))
    | _, _ => none
  | _, _ => none

/-- `k in x` for an accumulated dict. -/
def hasKey (P : Py V E) (heap : List (Box V)) : PVal V → PVal V → Option Bool
  | .user k, .ref i =>
    match heap[i]? with
    | some (.dict d _) => some (@Dict.get? V (Leaf V) P.beq d k).isSome
    | _ => none
  | _, _ => none

/-- The value of a comparison, if it is one of those above. -/
def cmpKnown (P : Py V E) (heap : List (Box V)) (o : Cmp) (x y : PVal V) : Option Bool :=
  match o with
  | .is => same P x y
  | .isNot => (same P x y).map not
  | .eq => numEq P x y
  | .in_ => hasKey P heap x y
  | .notIn => (hasKey P heap x y).map not
  | _ => none

/-- The value of a comparison. -/
def cmpVal (P : Py V E) (heap : List (Box V)) (o : Cmp) (x y : PVal V) : Except E (PVal V) :=
  match cmpKnown P heap o x y with
  | some b => .ok (P.ofBool b)
  | none => P.compare o x y

/-- Truth of a value; the sentinel, objects and pairs are true, and so are accumulated objects, which are not tested. -/
def truth (P : Py V E) : PVal V → Except E Bool
  | .user v => P.truthy v
  | _ => .ok true

/-- What the factory of a `defaultdict` gives. -/
def factoryLeaf (P : Py V E) (f : String) : Option (Leaf V) :=
  if f = "list" then some (.list [])
  else if f = "dict" then some (.dict [])
  else if f = "int" then some (.val (P.num 0))
  else none

/-- A new accumulated object. -/
def St.alloc (st : St V) (b : Box V) : PVal V × St V :=
  (.ref st.heap.length, { st with heap := st.heap ++ [b] })

/-- `x[k]` of an accumulated dict; a `defaultdict` gets the key. -/
def St.touch (P : Py V E) (st : St V) (i : Nat) (k : V) : Option (Leaf V × St V) :=
  match st.heap[i]? with
  | some (.dict d f) =>
    match @Dict.get? V (Leaf V) P.beq d k with
    | some x => some (x, st)
    | none =>
      match f.bind (factoryLeaf P) with
      | some x => some (x, { st with heap := st.heap.set i (.dict (@Dict.set V (Leaf V) P.beq d k x) f) })
      | none => none
  | _ => none

/-- A value as a value of an accumulated dict.  Accumulated objects are moved into it. -/
def St.leaf (st : St V) : PVal V → Option (Leaf V × St V)
  | .user v => some (.val v, st)
  | .ref i =>
    match st.heap[i]? with
    | some (.list l) => some (.list l, { st with heap := st.heap.set i .gone })
    | some (.set l) => some (.set l, { st with heap := st.heap.set i .gone })
    | _ => none
  | _ => none

/-- An element of a pair. -/
def pairItem (P : Py V E) (a b : PVal V) : PVal V → Option (PVal V)
  | .user v =>
    match P.toNat v with
    | some 0 => some a
    | some 1 => some b
    | _ => none
  | _ => none

/-- The body of a method. -/
def methodBody (m : String) : List Stmt → List Stmt
  | [] => []
  | .def_ f _ _ body :: rest => if f = m then body else methodBody m rest
  | _ :: rest => methodBody m rest

/-- `__slots__` of a class. -/
def slotList : List Stmt → List String
  | [] => []
  | .assign [.name "__slots__"] (.display .list es) :: _ =>
    es.filterMap fun e =>
      match e with
      | .str s => some (String.ofList s)
      | _ => none
  | _ :: rest => slotList rest

/-- What `__init__` does: assignments of `_none` to attributes which are in `__slots__`.  Other attributes and
statements do not give the object anything, so using the attribute is an error. -/
def runInit (slots : List String) : List Stmt → String → Option (PVal V)
  | [], _ => none
  | .assign [.attr (.name "self") a] (.name "_none") :: rest, x =>
    if x = a ∧ a ∈ slots then some .sentinel else runInit slots rest x
  | _ :: rest, x => runInit slots rest x

/-- `d[key]` of a `defaultdict`. -/
def St.fetch (P : Py V E) (st : St V) (k : PVal V) : PVal V × St V :=
  match @Dict.get? (PVal V) Nat ⟨P.keyEq⟩ st.dict k with
  | some i => (.obj i, st)
  | none =>
    let i := st.objs.length
    (.obj i,
      { st with
        objs := st.objs ++ [runInit (slotList st.cls) (methodBody "__init__" st.cls)]
        dict := @Dict.set (PVal V) Nat ⟨P.keyEq⟩ st.dict k i })

/-- An expression. -/
def ev (P : Py V E) : Ast → St V → Res E (PVal V × St V)
  | .name x, st =>
    match st.look P x with
    | some v => .ok (v, st)
    | none => .error none
  | .num n, st => .ok (P.int n, st)
  | .attr a s, st =>
    match ev P a st with
    | .ok (.obj i, _) =>
      match st.objs[i]? with
      | some o =>
        match o s with
        | some v => .ok (v, st)
        | none => .error none
      | none => .error none
    | _ => (lift (P.eval (.attr a s) st)).map (fun v => (v, st))
  | .cmp a [o] [b], st =>
    match ev P a st with
    | .error e => .error e
    | .ok (x, st) =>
      match ev P b st with
      | .error e => .error e
      | .ok (y, st) => (lift (cmpVal P st.heap o x y)).map (fun v => (v, st))
  | .call (.name f) [a] [], st =>
    let other := (lift (P.eval (.call (.name f) [a] []) st)).map (fun v => (v, st))
    match st.look P f, ev P a st with
    | some (.builtin g), .ok (.data rows, _) =>
      if g = "iter" then .ok (.iter st.iters.length, { st with iters := st.iters ++ [rows] }) else other
    | some (.builtin g), .ok (.cls body, _) =>
      if g = "defaultdict" then
        .ok (.dict,
          { st with
            cls := body
            dict := [] })
      else other
    | some (.builtin g), .ok (.builtin h, _) =>
      if g = "defaultdict" then .ok (st.alloc (.dict [] (some h))) else other
    | _, _ => other
  | .sub a e, st =>
    match ev P a st with
    | .error x => .error x
    | .ok (.dict, _) =>
      match ev P e st with
      | .error x => .error x
      | .ok (k, _) =>
        match P.hash k with
        | .error x => .error (some x)
        | .ok () => .ok (st.fetch P k)
    | .ok (.pair x y, st) =>
      match ev P e st with
      | .error x => .error x
      | .ok (k, st) =>
        match pairItem P x y k with
        | some v => .ok (v, st)
        | none => .error none
    | .ok (.ref i, st) =>
      match ev P e st with
      | .error x => .error x
      | .ok (.user k, st) =>
        match st.touch P i k with
        | some (.val v, st) => .ok (.user v, st)
        | _ => .error none
      | .ok _ => .error none
    | .ok (.sentinel, st) =>
      match ev P e st with
      | .error x => .error x
      | .ok _ => .error (some P.misuse)
    | .ok _ => (lift (P.eval (.sub a e) st)).map (fun v => (v, st))
  | .bool isAnd [a, b], st =>
    match ev P a st with
    | .error x => .error x
    | .ok (v, st) =>
      match truth P v with
      | .error x => .error (some x)
      | .ok t => if t = isAnd then ev P b st else .ok (v, st)
  | .ifexp a c b, st =>
    match ev P c st with
    | .error x => .error x
    | .ok (v, st) =>
      match truth P v with
      | .error x => .error (some x)
      | .ok t => if t then ev P a st else ev P b st
  | .bin o a b, st =>
    match ev P a st with
    | .error e => .error e
    | .ok (x, st) =>
      match ev P b st with
      | .error e => .error e
      | .ok (y, st) => (lift (P.arith o x y)).map (fun v => (v, st))
  | .display .tuple [a, b], st =>
    if P.tracked (.display .tuple [a, b]) then
      match ev P a st with
      | .error e => .error e
      | .ok (x, st) =>
        match ev P b st with
        | .error e => .error e
        | .ok (y, st) => .ok (.pair x y, st)
    else (lift (P.eval (.display .tuple [a, b]) st)).map (fun v => (v, st))
  | .display .list [a], st =>
    if P.tracked (.display .list [a]) then
      match ev P a st with
      | .error e => .error e
      | .ok (.user v, st) => .ok (st.alloc (.list [v]))
      | .ok _ => .error none
    else (lift (P.eval (.display .list [a]) st)).map (fun v => (v, st))
  | .display .set [a], st =>
    if P.tracked (.display .set [a]) then
      match ev P a st with
      | .error e => .error e
      | .ok (.user v, st) => .ok (st.alloc (.set [v]))
      | .ok _ => .error none
    else (lift (P.eval (.display .set [a]) st)).map (fun v => (v, st))
  | .display .dict [k, a], st =>
    if P.tracked (.display .dict [k, a]) then
      match ev P k st with
      | .error e => .error e
      | .ok (.user k, st) =>
        match ev P a st with
        | .error e => .error e
        | .ok (v, st) =>
          match st.leaf v with
          | some (x, st) => .ok (st.alloc (.dict [(k, x)] none))
          | none => .error none
      | .ok _ => .error none
    else (lift (P.eval (.display .dict [k, a]) st)).map (fun v => (v, st))
  | e, st => (lift (P.eval e st)).map (fun v => (v, st))

/-- An accumulated object, or a value of an accumulated dict, or the sentinel. -/
inductive Spot (V : Type)
  | bad
  | whole (i : Nat)
  | entry (i : Nat) (k : V)

/-- The accumulated object which an expression gives. -/
def evSpot (P : Py V E) : Ast → St V → Res E (Spot V × St V)
  | .sub a e, st =>
    match ev P a st with
    | .error x => .error x
    | .ok (.ref i, st) =>
      match ev P e st with
      | .error x => .error x
      | .ok (.user k, st) =>
        match st.touch P i k with
        | some (_, st) => .ok (.entry i k, st)
        | none => .error none
      | .ok _ => .error none
    | .ok (.sentinel, st) =>
      match ev P e st with
      | .error x => .error x
      | .ok _ => .error (some P.misuse)
    | .ok _ => .error none
  | a, st =>
    match ev P a st with
    | .error x => .error x
    | .ok (.ref i, st) => .ok (.whole i, st)
    | .ok (.sentinel, st) => .ok (.bad, st)
    | .ok _ => .error none

/-- Adding to a set, or a key to a dict: nothing changes if an equal element is present, otherwise it comes last. -/
def Py.insert (P : Py V E) (l : List V) (v : V) : List V := if l.any (fun x => P.keyEq (.user x) (.user v)) then l else l ++ [v]

/-- `x.append(v)` of a list, `x.add(v)` of a set. -/
def St.method (P : Py V E) (st : St V) (m : String) (v : V) : Spot V → Option (St V)
  | .bad => none
  | .whole i =>
    match st.heap[i]? with
    | some (.list l) => if m = "append" then some { st with heap := st.heap.set i (.list (l ++ [v])) } else none
    | some (.set l) => if m = "add" then some { st with heap := st.heap.set i (.set (P.insert l v)) } else none
    | _ => none
  | .entry i k =>
    match st.heap[i]? with
    | some (.dict d f) =>
      match @Dict.get? V (Leaf V) P.beq d k with
      | some (.list l) =>
        if m = "append" then
          some { st with heap := st.heap.set i (.dict (@Dict.set V (Leaf V) P.beq d k (.list (l ++ [v]))) f) }
        else none
      | some (.set l) =>
        if m = "add" then
          some { st with heap := st.heap.set i (.dict (@Dict.set V (Leaf V) P.beq d k (.set (P.insert l v))) f) }
        else none
      | _ => none
    | _ => none

/-- `x[k] = v` of a dict; the value of a dict in a dict is not an accumulated object. -/
def St.setAt (P : Py V E) (st : St V) (k : V) (x : Leaf V) : Spot V → Option (St V)
  | .bad => none
  | .whole i =>
    match st.heap[i]? with
    | some (.dict d f) => some { st with heap := st.heap.set i (.dict (@Dict.set V (Leaf V) P.beq d k x) f) }
    | _ => none
  | .entry i j =>
    match st.heap[i]?, x with
    | some (.dict d f), .val v =>
      match @Dict.get? V (Leaf V) P.beq d j with
      | some (.dict c) =>
        some { st with heap := st.heap.set i (.dict (@Dict.set V (Leaf V) P.beq d j (.dict (@Dict.set V V P.beq c k v))) f) }
      | _ => none
    | _, _ => none

/-- Assignment to a target. -/
def store (P : Py V E) (v : PVal V) : Ast → St V → Res E (St V)
  | .name x, st => .ok (st.set x v)
  | .attr a s, st =>
    match ev P a st with
    | .ok (.obj i, _) =>
      match st.objs[i]? with
      | some o =>
        match o s with
        | some _ => .ok { st with objs := st.objs.set i (fun x => if x = s then some v else o x) }
        | none => .error none
      | none => .error none
    | _ => .error none
  | .sub t e, st =>
    match evSpot P t st with
    | .error x => .error x
    | .ok (l, st) =>
      match ev P e st with
      | .error x => .error x
      | .ok (.user k, st) =>
        match l with
        | .bad => .error (some P.misuse)
        | l =>
          match st.leaf v with
          | none => .error none
          | some (x, st) =>
            match st.setAt P k x l with
            | some st => .ok st
            | none => .error none
      | .ok _ => .error none
  | _, _ => .error none

/-- Assignment to several targets, from left to right. -/
def storeAll (P : Py V E) (v : PVal V) : List Ast → St V → Res E (St V)
  | [], st => .ok st
  | t :: ts, st =>
    match store P v t st with
    | .error e => .error e
    | .ok st => storeAll P v ts st

/-- Augmented assignment of values. -/
def augVal (P : Py V E) (o : Aug) (x y : PVal V) : Except E (PVal V) :=
  match o, x, y with
  | .or, .user v, .user w =>
    match P.toNat v, P.toNat w with
    | some a, some b => .ok (P.int (a ||| b))
    | _, _ => P.augOp .or x y
  | o, x, y => P.augOp o x y

/-- `t.append(e)` and `t.add(e)`. -/
def methodOf : Ast → Option (Ast × String × Ast)
  | .call (.attr t m) [a] [] => if m = "append" ∨ m = "add" then some (t, m, a) else none
  | _ => none

/-- How a statement ends. -/
inductive Ctl (V : Type)
  | next
  | brk
  | ret (v : PVal V)

/-- A `for` loop over iterator `i`; the first number bounds the number of turns, the length of the iterator is
enough. -/
def loop (v : String) (i : Nat) (body : St V → Res E (St V × Ctl V)) : Nat → St V → Res E (St V × Ctl V)
  | n, st =>
    match st.iters[i]? with
    | none => .error none
    | some [] => .ok (st, .next)
    | some (r :: rs) =>
      match n with
      | 0 => .error none
      | n + 1 =>
        match body ({ st with iters := st.iters.set i rs }.set v (.user r)) with
        | .error e => .error e
        | .ok (st, .next) => loop v i body n st
        | .ok (st, .brk) => .ok (st, .next)
        | .ok (st, .ret x) => .ok (st, .ret x)

/-- The name `d` of `d.items()`. -/
def itemsOf : Ast → Option String
  | .call (.attr (.name d) "items") [] [] => some d
  | _ => none

/-- The values of a comprehension over the items of the dict; its variables are not visible outside. -/
def pairVals (P : Py V E) (e : Ast) (k v : String) (st : St V) : List (PVal V × Nat) → Res E (List (PVal V))
  | [] => .ok []
  | (key, i) :: rest =>
    match ev P e ((st.set k key).set v (.obj i)) with
    | .error x => .error x
    | .ok (a, _) =>
      match pairVals P e k v st rest with
      | .error x => .error x
      | .ok as => .ok (a :: as)

mutual

/-- A statement. -/
def exec (P : Py V E) : Stmt → St V → Res E (St V × Ctl V)
  | .assign ts e, st =>
    match ev P e st with
    | .error x => .error x
    | .ok (v, st) =>
      match storeAll P v ts st with
      | .error x => .error x
      | .ok st => .ok (st, .next)
  | .pairs t e k v it, st =>
    match itemsOf it with
    | none => .error none
    | some d =>
      match st.look P d with
      | some .dict =>
        match pairVals P e k v st st.dict with
        | .error x => .error x
        | .ok vs =>
          match store P (.user (P.mkList (vs.map (dec st.heap)))) t st with
          | .error x => .error x
          | .ok st => .ok (st, .next)
      | _ => .error none
  | .aug o t e, st =>
    match ev P t st with
    | .error x => .error x
    | .ok (a, st) =>
      match ev P e st with
      | .error x => .error x
      | .ok (b, st) =>
        match augVal P o a b with
        | .error x => .error (some x)
        | .ok v =>
          match store P v t st with
          | .error x => .error x
          | .ok st => .ok (st, .next)
  | .expr e, st =>
    match methodOf e with
    | some (t, m, a) =>
      match evSpot P t st with
      | .error x => .error x
      | .ok (.bad, _) => .error (some P.misuse)
      | .ok (l, st) =>
        match ev P a st with
        | .error x => .error x
        | .ok (.user v, st) =>
          match st.method P m v l with
          | some st => .ok (st, .next)
          | none => .error none
        | .ok _ => .error none
    | none =>
      match P.effect e st with
      | .error x => .error (some x)
      | .ok st => .ok (st, .next)
  | .ret e, st =>
    match ev P e st with
    | .error x => .error x
    | .ok (v, st) => .ok (st, .ret v)
  | .brk, st => .ok (st, .brk)
  | .pass, st => .ok (st, .next)
  | .global _, st => .ok (st, .next)
  | .ite c a b, st =>
    match ev P c st with
    | .error x => .error x
    | .ok (v, st) =>
      match truth P v with
      | .error x => .error (some x)
      | .ok true => execAll P a st
      | .ok false => execAll P b st
  | .for_ v it body, st =>
    match ev P it st with
    | .error x => .error x
    | .ok (.iter i, st) => loop v i (execAll P body) ((st.iters[i]?.getD []).length) st
    | .ok (.data rows, st) =>
      loop v st.iters.length (execAll P body) rows.length { st with iters := st.iters ++ [rows] }
    | .ok _ => .error none
  | _, _ => .error none

/-- Statements one after the other. -/
def execAll (P : Py V E) : List Stmt → St V → Res E (St V × Ctl V)
  | [], st => .ok (st, .next)
  | s :: ss, st =>
    match exec P s st with
    | .error x => .error x
    | .ok (st, .next) => execAll P ss st
    | .ok r => .ok r

end

/-- A call of the function defined by the statements of a text, with positional arguments: what it returns, with its
contents. -/
def callDef (P : Py V E) (f : String) (args : List (PVal V)) : List Stmt → Res E (Val V)
  | [.def_ g ps [] body] =>
    if f = g ∧ ps.length = args.length then
      match execAll P body
          { loc := fun x => (ps.zip args).lookup x
            iters := []
            objs := []
            cls := []
            dict := []
            heap := [] } with
      | .error x => .error x
      | .ok (st, .ret v) => .ok (dec st.heap v)
      | .ok _ => .error none
    else .error none
  | _ => .error none

end Verif.Stmt
