import Verif.Construct.Model
import Verif.Expr.Spec
import Verif.Expr.Toy
/-!
# C62: a reduce is made of what the user gave it
-/
set_option autoImplicit false

namespace Verif.Construct

open Verif.Expr

variable {Val U Err : Type}

/-- Specification: the parameter given by the user, otherwise the one of the reducer. -/
def pick {α : Type} (user reducer : Option α) : Option α := user.or reducer

/-- Specification: additional arguments, those of the reducer only if the user gives none. -/
def pickArgs (user reducer : List (Conv Val)) : List (Conv Val) := if user = [] then reducer else user

/-- Specification: a callable given as a value stands for what it returns. -/
def meant : Given Val → Conv Val
  | .callable f => .call f [] []
  | .value c => c

theorem initialConv_eq : (initialConv : Given Val → Conv Val) = meant := by
  funext g
  cases g <;> rfl

theorem defaultConv_eq (r : Reduce Val) : r.defaultConv = r.default.map meant := by
  simp only [Reduce.defaultConv]
  congr 1

/-- Specification: the conversions that make a pair: a tuple or list of two parts. -/
def IsPair (kind : Kind) (c k v : Conv Val) : Prop :=
  (kind = Kind.tuple ∨ kind = Kind.list) ∧ c = .coll kind [k, v]

/-- Specification: the values a reduce is fed with for a row: the expression, then the additional
arguments. -/
def fed (R : Runtime Val U Err) (fuel : Nat) (A : Env Val) (r : Reduce Val) (row : Val) :
    M Val U Err (List Val) :=
  denAll R fuel A (r.expr :: r.args) row

theorem pickArgs_eq (r : Reducer Val) (p : Params Val) :
    (if (!r.args.isEmpty && p.args.isEmpty) = true then r.args else p.args) = pickArgs p.args r.args := by
  unfold pickArgs
  cases r.args <;> cases p.args <;> simp

theorem pick_eq {α : Type} (a b : Option α) :
    (if (b.isSome && a.isNone) = true then b else a) = pick a b := by
  cases a <;> cases b <;> rfl

theorem configure_eq (r : Reducer Val) (p : Params Val) :
    configure r ⟨p.expr, p.initial, p.default, p.args, none, p.uncond⟩ =
      ⟨pick p.expr r.expr, pick p.initial r.initial, pick p.default r.default, pickArgs p.args r.args,
        r.post, p.uncond || r.uncond⟩ := by
  simp only [configure, pick_eq, pickArgs_eq, Draft.mk.injEq, and_true, true_and]
  cases r.post <;> rfl

/-- **C62, other reducers**: a reduce is refused exactly if there is no expression, or neither an
initial value nor a default; otherwise it has the parameters the user gave, completed by those of the
reducer, and callables given as values stand for what they return. -/
theorem C62_plain (r : Reducer Val) (p : Params Val) (hd : r.dict = false) :
    (∀ e, pick p.expr r.expr = some e → (pick p.initial r.initial).isSome ∨ (pick p.default r.default).isSome →
      ∃ x, construct r p = .ok x ∧ x.expr = e ∧ x.args = pickArgs p.args r.args ∧
        x.initial = (pick p.initial r.initial).map meant ∧
        x.defaultConv = (pick p.default r.default).map initialConv ∧ x.post = r.post ∧
        x.uncond = (p.uncond || r.uncond)) ∧
    (pick p.expr r.expr = none → construct r p = .error .noExpr) ∧
    (∀ e, pick p.expr r.expr = some e → pick p.initial r.initial = none → pick p.default r.default = none →
      construct r p = .error .noInitial) := by
  simp only [construct, configure_eq, hd, Bool.false_eq_true, if_false, finish]
  refine ⟨fun e he hi => ?_, fun he => by simp [he], fun e he h1 h2 => by simp [he, h1, h2]⟩
  have hn : ((pick p.initial r.initial).isNone && (pick p.default r.default).isNone) = false := by
    cases hx : pick p.initial r.initial <;> cases hy : pick p.default r.default <;>
      simp [hx, hy] at hi ⊢
  simp only [he, hn, Bool.false_eq_true, if_false]
  exact ⟨_, rfl, rfl, rfl, by rw [initialConv_eq], defaultConv_eq _, rfl, rfl⟩

/-- **C62, dict reducers** (partial: the pair is not the last stage of a pipe, see the refutation; its
parts are not optional): a dict reducer takes a tuple or list of two conversions, and no additional
arguments; it is fed with the two parts, which together are the value of the expression. -/
theorem C62_dict_partial (R : Runtime Val U Err) (fuel : Nat) (A : Env Val) (r : Reducer Val) (p : Params Val)
    (hd : r.dict = true) (kind : Kind) (e k v : Conv Val) (he : pick p.expr r.expr = some e)
    (hp : IsPair kind e k v)
    (ho : k.isOpt = false ∧ v.isOpt = false) (ha : pickArgs p.args r.args = [])
    (hi : (pick p.initial r.initial).isSome ∨ (pick p.default r.default).isSome) :
    ∃ x, construct r p = .ok x ∧
      (∀ row, den R fuel A e row = (do
        let kv ← fed R fuel A x row
        runOp R (.mk kind) kv)) ∧
      x.initial = (pick p.initial r.initial).map meant ∧
      x.defaultConv = (pick p.default r.default).map initialConv ∧ x.post = r.post ∧
      x.uncond = (p.uncond || r.uncond) := by
  obtain ⟨hk, rfl⟩ := hp
  have hn : ((pick p.initial r.initial).isNone && (pick p.default r.default).isNone) = false := by
    cases hx : pick p.initial r.initial <;> cases hy : pick p.default r.default <;>
      simp [hx, hy] at hi ⊢
  have hu : unpack (some (Conv.coll kind [k, v])) = .ok (k, v) := by
    rcases hk with rfl | rfl <;> rfl
  refine ⟨⟨k, (pick p.initial r.initial).map meant, pick p.default r.default, [v], r.post,
    p.uncond || r.uncond⟩, ?_, fun row => ?_, rfl, ?_, rfl, rfl⟩
  · rw [← initialConv_eq]
    simp only [construct, configure_eq, hd, if_true, configureDict, ha, he, hu, List.isEmpty_nil, finish, hn,
      List.nil_append, Bool.false_eq_true, if_false]
  · simp only [den, List.any_cons, List.any_nil, ho.1, ho.2, Bool.or_false, Bool.false_eq_true, if_false, fed]
  · exact defaultConv_eq _

/-- **C62, what dict reducers refuse**: additional arguments, and everything but a pair. -/
theorem C62_dict_refuses (r : Reducer Val) (p : Params Val) (hd : r.dict = true) (x : Reduce Val)
    (h : construct r p = .ok x) : pickArgs p.args r.args = [] ∧
      ∃ e, pick p.expr r.expr = some e ∧ ∃ kind v, IsPair kind (object e) x.expr v ∧ x.args = [v] := by
  simp only [construct, configure_eq, hd, if_true, configureDict] at h
  split at h
  · rename_i d hc
    split at hc
    · rename_i ha
      have ha' : pickArgs p.args r.args = [] := by simpa using ha
      split at hc
      · rename_i k v hu
        cases hc
        simp only [finish] at h
        split at h
        · cases h
        · cases h
          refine ⟨ha', ?_⟩
          cases he : pick p.expr r.expr with
          | none => rw [he] at hu; simp [unpack] at hu
          | some e =>
            rw [he] at hu
            refine ⟨e, rfl, ?_⟩
            simp only [unpack, Option.map_some] at hu
            split at hu <;> simp only [Except.ok.injEq, Prod.mk.injEq, reduceCtorEq] at hu <;>
              rename_i hx <;> obtain ⟨rfl, rfl⟩ := hu <;> rw [Option.some.inj hx]
            · exact ⟨.tuple, _, ⟨.inl rfl, rfl⟩, by simp [ha']⟩
            · exact ⟨.list, _, ⟨.inr rfl, rfl⟩, by simp [ha']⟩
      · cases hc
    · cases hc
  · cases h

section

open Toy

/-- `c.ReduceFuncs.Dict` (aggregations.py 375-380): the default is `None`. -/
def dictReducer : Reducer V := ⟨true, none, none, some (.value (.naive .none)), [], none, true⟩

/-- `c.ReduceFuncs.Count` (313-319): has an expression of its own. -/
def countReducer : Reducer V := ⟨false, some (.naive (.int 0)), none, some (.value (.naive (.int 0))), [], none, true⟩

/-- `c.item(i)` -/
def item (i : Int) : Conv V := .lookup false .this [.naive (.int i)]

/-- `c.reduce(c.ReduceFuncs.Count)` and `c.reduce(c.ReduceFuncs.Count, default=list)`. -/
example : construct countReducer ⟨none, none, none, [], false⟩ =
    .ok ⟨.naive (.int 0), none, some (.value (.naive (.int 0))), [], none, true⟩ := rfl
example : (construct countReducer ⟨none, none, some (.callable (.naive (.obj (.fn "list")))), [], false⟩).map
    (·.defaultConv) = .ok (some (.call (.naive (.obj (.fn "list"))) [] [])) := rfl

/-- `c.reduce(c.ReduceFuncs.Dict, (c.item(0), c.item(1)))` meets the hypotheses. -/
example : construct dictReducer ⟨some (.coll .tuple [item 0, item 1]), none, none, [], false⟩ =
    .ok ⟨item 0, none, some (.value (.naive .none)), [item 1], none, true⟩ ∧
    IsPair .tuple (.coll .tuple [item 0, item 1]) (item 0) (item 1) := ⟨rfl, .inl rfl, rfl⟩

example : construct dictReducer ⟨some (item 0), none, none, [], false⟩ = .error .notPair := rfl
example : construct dictReducer ⟨some (.coll .tuple [item 0]), none, none, [], false⟩ = .error .notTwo := rfl

/-- **C62 is violated by pairs at the end of a pipe**: `c.reduce(c.ReduceFuncs.Dict,
c.item(1).pipe((c.item(0), c.item(1))))` is accepted, but the first stage is lost: the row
`("a", ("k", "v"))` is taken as the pair `("a", ("k", "v"))` instead of `("k", "v")`. -/
theorem C62_refuted_piped :
    ∃ (e : Conv V) (x : Reduce V) (row : V),
      construct dictReducer ⟨some e, none, none, [], false⟩ = .ok x ∧
      (den R 100 noArgs e row s0).1 = .ok (.tuple [.str "k", .str "v"]) ∧
      (fed R 100 noArgs x row s0).1 = .ok [.str "a", .tuple [.str "k", .str "v"]] :=
  ⟨.pipe (item 1) (.coll .tuple [item 0, item 1]), _, .tuple [.str "a", .tuple [.str "k", .str "v"]], rfl,
    by decide +kernel, by with_unfolding_all rfl⟩

end

end Verif.Construct
