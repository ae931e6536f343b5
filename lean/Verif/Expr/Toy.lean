import Verif.Expr.Model
import Verif.Py.Sort

/-!
# Expressions: a small concrete runtime for examples

Values, functions with a log of their calls, objects on a heap, iterators.  Used in the examples beside
the theorems and in the counterexamples only; no theorem is about it alone.
-/

set_option autoImplicit false

namespace Verif.Expr.Toy

/-- Values. -/
inductive V
  | none
  | bool (b : Bool)
  | int (i : Int)
  | str (s : String)
  | list (xs : List V)
  | tuple (xs : List V)
  | set (xs : List V)
  | dict (kvs : List V)
  | fn (name : String)
  | ref (n : Nat)
  | it (n : Nat)

mutual

/-- Equality of values. -/
def V.beq : V → V → Bool
  | .none, .none => true
  | .bool a, .bool b => a == b
  | .int a, .int b => a == b
  | .str a, .str b => a == b
  | .list a, .list b => beqAll a b
  | .tuple a, .tuple b => beqAll a b
  | .set a, .set b => beqAll a b
  | .dict a, .dict b => beqAll a b
  | .fn a, .fn b => a == b
  | .ref a, .ref b => a == b
  | .it a, .it b => a == b
  | _, _ => false

/-- Equality of lists of values. -/
def beqAll : List V → List V → Bool
  | [], [] => true
  | a :: as, b :: bs => a.beq b && beqAll as bs
  | _, _ => false

end

mutual

theorem V.eq_of_beq : ∀ {a b : V}, a.beq b = true → a = b
  | a, b, h => by
    cases a <;> cases b <;> simp only [V.beq, Bool.false_eq_true, beq_iff_eq] at h <;>
      first
      | rfl
      | (subst h; rfl)
      | (rw [eq_of_beqAll h])

theorem eq_of_beqAll : ∀ {as bs : List V}, beqAll as bs = true → as = bs
  | [], [], _ => rfl
  | a :: as, b :: bs, h => by
    simp only [beqAll, Bool.and_eq_true] at h
    rw [V.eq_of_beq h.1, eq_of_beqAll h.2]

end

mutual

theorem V.beq_refl : ∀ a : V, a.beq a = true
  | .none => rfl
  | .bool a => beq_self_eq_true a
  | .int a => beq_self_eq_true a
  | .str a => beq_self_eq_true a
  | .list a => beqAll_refl a
  | .tuple a => beqAll_refl a
  | .set a => beqAll_refl a
  | .dict a => beqAll_refl a
  | .fn a => beq_self_eq_true a
  | .ref a => beq_self_eq_true a
  | .it a => beq_self_eq_true a

theorem beqAll_refl : ∀ as : List V, beqAll as as = true
  | [] => rfl
  | a :: as => by simp only [beqAll, V.beq_refl a, beqAll_refl as, Bool.and_self]

end

instance : DecidableEq V := fun a b =>
  if h : a.beq b = true then isTrue (V.eq_of_beq h)
  else isFalse (fun he => h (by subst he; exact V.beq_refl a))

/-- Exceptions. -/
inductive E
  | key
  | index
  | type
  | attribute
  | value
  | name (n : String)
  | label (n : String)
  | diverged
  | syntaxError
  deriving DecidableEq

/-- Everything else: calls made so far, what iterators still have to give, attributes or items of objects. -/
structure World where
  log : List String
  iters : List (List V)
  heap : List (List (V × V))

/-- `==` of simple values. -/
def V.same : V → V → Bool
  | .none, .none => true
  | .bool a, .bool b => a == b
  | .int a, .int b => a == b
  | .str a, .str b => a == b
  | .fn a, .fn b => a == b
  | .ref a, .ref b => a == b
  | _, _ => false

/-- Lookup of a key in a list of keys and values in turn. -/
def find (k : V) : List V → Option V
  | a :: b :: rest => if a.beq k then some b else find k rest
  | _ => none

/-- Insertion of a key. -/
def insert (k x : V) : List V → List V
  | a :: b :: rest => if a.beq k then a :: x :: rest else a :: b :: insert k x rest
  | _ => [k, x]

/-- A dict out of keys and values in turn. -/
def mkDict (acc : List V) : List V → List V
  | k :: x :: rest => mkDict (insert k x acc) rest
  | _ => acc

/-- A set out of its items. -/
def mkSet (acc : List V) : List V → List V
  | [] => acc.reverse
  | x :: xs => if acc.any (fun a => a.same x) then mkSet acc xs else mkSet (x :: acc) xs

/-- Functions: every call is logged. -/
def callFn (w : World) (f : String) (args : List V) : Except E V × World :=
  let w := { w with log := w.log ++ [f] }
  match f, args with
  | "boom", _ => (.error .value, w)
  | "inc", [.int i] => (.ok (.int (i + 1)), w)
  | "id", [x] => (.ok x, w)
  | "no", _ => (.ok (.bool false), w)
  | "slice", [a, b, c] => (.ok (.tuple [a, b, c]), w)
  | _, _ => (.error .type, w)

/-- Items of a value that can be iterated. -/
def V.items : V → Option (List V)
  | .list xs => some xs
  | .tuple xs => some xs
  | .set xs => some xs
  | _ => Option.none

/-- What integers, strings and pairs of them are compared by. -/
def V.rank : V → Int × String
  | .int a => (a, "")
  | .str a => (0, a)
  | .tuple [.int a, .str b] => (a, b)
  | _ => (0, "")

/-- `<`, as far as needed. -/
def V.lt (x y : V) : Bool :=
  decide (x.rank.1 < y.rank.1) || (x.rank.1 == y.rank.1 && decide (x.rank.2 < y.rank.2))

/-- `sorted(xs, reverse=rev)`. -/
def sorted (rev : Bool) (xs : List V) : List V := PySort.pySorted V.lt rev xs

/-- Keys and values of pairs, in turn. -/
def unpair : List V → List V
  | .tuple [k, x] :: rest => k :: x :: unpair rest
  | _ => []

/-- Operations. -/
def op : Op → List V → World → Except E V × World
  | .getitem, [.dict kvs, k], w =>
    match find k kvs with
    | some x => (.ok x, w)
    | Option.none => (.error .key, w)
  | .getitem, [.list xs, .int i], w =>
    match xs[i.toNat]? with
    | some x => (.ok x, w)
    | Option.none => (.error .index, w)
  | .getitem, [.tuple xs, .int i], w =>
    match xs[i.toNat]? with
    | some x => (.ok x, w)
    | Option.none => (.error .index, w)
  | .getitem, [.ref n, k], w =>
    match ((w.heap[n]?).getD []).find? (fun p => p.1.same k) with
    | some p => (.ok p.2, w)
    | Option.none => (.error .key, w)
  | .getattr, [.ref n, k], w =>
    match ((w.heap[n]?).getD []).find? (fun p => p.1.same k) with
    | some p => (.ok p.2, w)
    | Option.none => (.error .attribute, w)
  | .setitem, [.ref n, k, x], w =>
    (.ok .none, { w with heap := w.heap.modify n (fun o => (k, x) :: o) })
  | .setattr, [.ref n, k, x], w =>
    (.ok .none, { w with heap := w.heap.modify n (fun o => (k, x) :: o) })
  | .call [], .fn f :: args, w => callFn w f args
  | .bin .ne, [a, b], w => (.ok (.bool (!a.same b)), w)
  | .bin .isNot, [a, b], w => (.ok (.bool (!a.same b)), w)
  | .bin .gt, [.int a, .int b], w => (.ok (.bool (decide (b < a))), w)
  | .bin .add, [.int a, .int b], w => (.ok (.int (a + b)), w)
  | .eq, [a, b], w => (.ok (.bool (a.same b)), w)
  | .iter, [v], w =>
    match v.items with
    | some xs => (.ok (.it w.iters.length), { w with iters := w.iters ++ [xs] })
    | Option.none => (.error .type, w)
  | .hash, [.list _], w => (.error .type, w)
  | .hash, [x], w => (.ok x, w)
  | .mk .list, xs, w => (.ok (.list xs), w)
  | .mk .tuple, xs, w => (.ok (.tuple xs), w)
  | .mk .set, xs, w => (.ok (.set (mkSet [] xs)), w)
  | .mk .dict, xs, w => (.ok (.dict (mkDict [] xs)), w)
  | .sorted, .none :: .bool rev :: xs, w => (.ok (.list (sorted rev xs)), w)
  | .toTuple, [.list xs], w => (.ok (.tuple xs), w)
  | .orderedDict, [.list xs], w => (.ok (.dict (mkDict [] (unpair xs))), w)
  | _, _, w => (.error .type, w)

/-- Truth. -/
def truthy : V → Bool
  | .none => false
  | .bool b => b
  | .int i => i != 0
  | .str s => s != ""
  | .list xs => !xs.isEmpty
  | .tuple xs => !xs.isEmpty
  | .set xs => !xs.isEmpty
  | .dict xs => !xs.isEmpty
  | _ => true

/-- The next item of an iterator. -/
def next : V → World → Except E (Option V) × World
  | .it n, w =>
    match w.iters[n]? with
    | some (x :: xs) => (.ok (some x), { w with iters := w.iters.set n xs })
    | _ => (.ok Option.none, w)
  | _, w => (.error .type, w)

/-- The runtime. -/
def R : Runtime V World E where
  op := op
  truthy v w := (.ok (truthy v), w)
  next := next
  none := .none
  bool := .bool
  int := .int
  str := .str
  nameError := .name
  labelError := .label
  caught e := match e with
    | .key => true
    | .index => true
    | .type => true
    | .attribute => true
    | _ => false
  fromGen e := e
  diverged := .diverged
  bad := .syntaxError

/-- Texts of constants; objects are bound to names. -/
def constText : Lit V → String
  | .none => "None"
  | .bool true => "True"
  | .bool false => "False"
  | .int i => toString i
  | .str s => "'" ++ s ++ "'"
  | .obj (.fn f) => "fn_" ++ f
  | .obj _ => "object_"

/-- Equality of results. -/
instance {α β : Type} [DecidableEq α] [DecidableEq β] : DecidableEq (Except α β)
  | .ok a, .ok b => if h : a = b then isTrue (by rw [h]) else isFalse (fun he => h (by cases he; rfl))
  | .error a, .error b => if h : a = b then isTrue (by rw [h]) else isFalse (fun he => h (by cases he; rfl))
  | .ok _, .error _ => isFalse (fun h => by cases h)
  | .error _, .ok _ => isFalse (fun h => by cases h)

/-- Names. -/
def N : Names V where
  const := constText
  param _ := "i_"
  helper k _ := k ++ "_"
  cached _ := "cached_val_1"

/-- Names of stage results. -/
def var (_ : String) : String := "pipe_"

/-- The state at the beginning. -/
def s0 : St V World := ⟨fun _ => Option.none, fun _ => Option.none, ⟨[], [], []⟩⟩

/-- No input arguments. -/
def noArgs : Env V := fun _ => Option.none

/-- The result of a converter. -/
def result (c : Conv V) (A : Env V) (data : V) : Except E V := (converter R 100 N var c A data s0).1

/-- The calls a converter makes. -/
def calls (c : Conv V) (A : Env V) (data : V) : List String := (converter R 100 N var c A data s0).2.u.log

end Verif.Expr.Toy
