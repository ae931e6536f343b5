import Verif.Expr.Lemmas

/-!
# Expressions: side conditions under which generated code is right

`Good` collects what is asked of a conversion, its input code and its input value.  The `…_refuted…` theorems of
the `Props` files show what goes wrong without the main conditions.
-/

set_option autoImplicit false

namespace Verif.Expr

section
variable {Val U Err : Type}

mutual

/-- Labels a conversion may set. -/
def Conv.sets : Conv Val → List String
  | .this => []
  | .naive _ => []
  | .arg _ => []
  | .label _ => []
  | .lookup _ s idx => s.sets ++ setsAll idx
  | .lookupD _ s idx d => s.sets ++ setsAll idx ++ d.sets
  | .call s as _ => s.sets ++ setsAll as
  | .boolop _ as => setsAll as
  | .eqs as => setsAll as
  | .not a => a.sets
  | .bin _ a b => a.sets ++ b.sets
  | .neg a => a.sets
  | .ifc c t f _ => c.sets ++ t.sets ++ f.sets
  | .comp _ i v _ c _ => i.sets ++ v.sets ++ c.sets
  | .coll _ items => setsAll items
  | .dict kvs => setsAll kvs
  | .opt c cond => c.sets ++ cond.sets
  | .caching c name labels convs => name :: labels ++ c.sets ++ setsAll convs
  | .tap o ms => o.sets ++ setsAll ms
  | .mutSetItem k v => k.sets ++ v.sets
  | .mutSetAttr k v => k.sets ++ v.sets
  | .mutDelItem k => k.sets
  | .mutDelAttr k => k.sets
  | .mutCustom c => c.sets
  | .pipe a b => a.sets ++ b.sets

/-- Labels several conversions may set. -/
def setsAll : List (Conv Val) → List String
  | [] => []
  | c :: cs => c.sets ++ setsAll cs

end

/-- No string constant. -/
def PyExpr.notStr : PyExpr Val → Prop
  | .const (.str _) => False
  | _ => True

/-- A constant. -/
def Conv.isNaive : Conv Val → Bool
  | .naive _ => true
  | _ => false

/-- A constant, an input argument, or a label. -/
def Conv.inert : Conv Val → Bool
  | .naive _ => true
  | .arg _ => true
  | .label _ => true
  | _ => false

mutual

/-- The code of a conversion evaluates its input exactly once, and before anything else that matters.
`simple` tells whether the text of the input may be simple. -/
def Conv.once (simple : Bool) : Conv Val → Bool
  | .this => true
  | .lookup _ s idx => s.once simple && idx.all Conv.inert
  | .lookupD _ .this _ d => d.inert
  | .call s as _ => (s.once simple && as.all Conv.inert) || (s.isNaive && onceArgs simple as)
  | .boolop _ as => onceHead simple as
  | .eqs as => onceHead simple as
  | .not a => a.once simple
  | .bin _ a b => (a.once simple && b.inert) || (a.isNaive && b.once simple)
  | .neg a => a.once simple
  | .ifc c t f noCache => c.once true && !noCache && (!simple || (t.inert && f.inert))
  | .comp k _ _ _ _ sort => !(k == .set && sort.isSome)
  | .coll k items => items.any Conv.isOpt || (onceArgs simple items && k != .dict)
  | .dict kvs => kvs.any Conv.isOpt || (onceArgs simple kvs && kvs.length % 2 == 0)
  | .caching c _ _ _ => c.once simple
  | .tap o _ => o.once simple
  | .mutCustom c => c.once simple
  | .pipe a b => a.once simple && b.once true
  | _ => false

/-- Constants, then a conversion evaluating its input once, then constants, input arguments, labels. -/
def onceArgs (simple : Bool) : List (Conv Val) → Bool
  | [] => false
  | c :: cs => (c.once simple && cs.all Conv.inert) || (c.isNaive && onceArgs simple cs)

/-- The same for the first conversion. -/
def onceHead (simple : Bool) : List (Conv Val) → Bool
  | [] => false
  | c :: cs => c.once simple && cs.all Conv.inert

end

mutual

/-- The code of a conversion evaluates its input, whenever it returns a value. -/
def Conv.strict : Conv Val → Bool
  | .this => true
  | .naive _ => false
  | .arg _ => false
  | .label _ => false
  | .lookup _ s idx => s.strict || strictAny idx
  | .lookupD _ _ _ _ => true
  | .call s as _ => s.strict || strictAny as
  | .boolop _ as => strictHead as
  | .eqs as => strictHead as
  | .not a => a.strict
  | .bin _ a b => a.strict || b.strict
  | .neg a => a.strict
  | .ifc c _ _ _ => c.strict
  | .comp _ _ _ _ _ _ => true
  | .coll _ items => items.any Conv.isOpt || strictAny items
  | .dict kvs => kvs.any Conv.isOpt || strictAny kvs
  | .opt _ _ => false
  | .caching c _ _ _ => c.strict
  | .tap o _ => o.strict
  | .mutSetItem _ _ => true
  | .mutSetAttr _ _ => true
  | .mutDelItem _ => true
  | .mutDelAttr _ => true
  | .mutCustom c => c.strict
  | .pipe a b => a.strict && b.strict

/-- One of several conversions, all evaluated. -/
def strictAny : List (Conv Val) → Bool
  | [] => false
  | c :: cs => c.strict || strictAny cs

/-- The first conversion. -/
def strictHead : List (Conv Val) → Bool
  | [] => true
  | c :: _ => c.strict

end

/-- `EscapedString(e).pipe(c)` attaches `e`, as its text is not in the code of `c` (302-324). -/
def attaches (N : Names Val) (esc : Bool) (c : Conv Val) (e : PyExpr Val) (p : List Nat) : Bool :=
  match c with
  | .pipe _ _ => false
  | c => esc && (!inputIsSimple (render N e) && !isIn (render N e) (render N (gen N false c e p)))

/-- Testing the truth of `v` has no effect and raises nothing, in states with `P0`. -/
def TruthOk (R : Runtime Val U Err) (P0 : (String → Option Val) → U → Prop) (v : Val) : Prop :=
  ∀ l u, P0 l u → ∃ b, R.truthy v u = (.ok b, u)

/-- Evaluating `a` on `v` gives `x` without any effect, in states with `P0`. -/
def Stable (R : Runtime Val U Err) (fuel : Nat) (A : Env Val) (P0 : (String → Option Val) → U → Prop)
    (a : Conv Val) (v x : Val) : Prop :=
  ∀ s, P0 s.labels s.u → den R fuel A a v s = (.ok x, s)

/-- The code `If` uses for its input in the condition (1228-1236). -/
def ifCond (N : Names Val) (e : PyExpr Val) (p : List Nat) (noCache : Bool) : PyExpr Val :=
  if inputIsSimple (render N e) || noCache then e
  else .boolop false [.addLabel (.cached p) e, .getLabel (.cached p)]

/-- The code `If` uses for its input in the branches (1228-1236). -/
def ifRes (N : Names Val) (e : PyExpr Val) (p : List Nat) (noCache : Bool) : PyExpr Val :=
  if inputIsSimple (render N e) || noCache then e else .getLabel (.cached p)

mutual

/-- Side conditions for the conversion with the input code `e` at the place `p`, on the value `v`. -/
def Good (R : Runtime Val U Err) (fuel : Nat) (N : Names Val) (A : Env Val)
    (P0 : (String → Option Val) → U → Prop) : Bool → Conv Val → PyExpr Val → List Nat → Val → Prop
  | _, .this, _, _, _ => True
  | _, .naive _, _, _, _ => True
  | _, .arg _, _, _, _ => True
  | _, .label _, _, _, _ => True
  | _, .lookup _ s idx, e, p, v =>
    Good R fuel N A P0 false s e (p ++ [0]) v ∧ GoodAll R fuel N A P0 idx e (p ++ [1]) 0 v
  | _, .lookupD _ s idx d, e, p, v =>
    Good R fuel N A P0 false s e (p ++ [0]) v ∧
      GoodAll R fuel N A P0 idx (.name "obj_") (p ++ [1]) 0 v ∧
      Good R fuel N A P0 false d e (p ++ [2]) v ∧
      -- input arguments do not reach the helper function
      argsAll idx = [] ∧
      -- the text of the object is compared with the text of the input
      (render N (gen N false s e (p ++ [0])) = render N e → den R fuel A s v = pure v)
  | _, .call s as _, e, p, v =>
    Good R fuel N A P0 false s e (p ++ [0]) v ∧ GoodAll R fuel N A P0 as e (p ++ [1]) 0 v
  | _, .boolop _ as, e, p, v => GoodAll R fuel N A P0 as e (p ++ [1]) 0 v
  | _, .eqs as, e, p, v => GoodAll R fuel N A P0 as e (p ++ [1]) 0 v
  | _, .not a, e, p, v => Good R fuel N A P0 false a e (p ++ [0]) v
  | _, .bin _ a b, e, p, v =>
    Good R fuel N A P0 false a e (p ++ [0]) v ∧ Good R fuel N A P0 false b e (p ++ [1]) v
  | _, .neg a, e, p, v => Good R fuel N A P0 false a e (p ++ [0]) v
  | _, .ifc c t f noCache, e, p, v =>
    Good R fuel N A P0 true c (ifCond N e p noCache) (p ++ [0]) v ∧
      Good R fuel N A P0 true t (ifRes N e p noCache) (p ++ [1]) v ∧
      Good R fuel N A P0 true f (ifRes N e p noCache) (p ++ [2]) v ∧
      -- attaching the input to the code tests its truth
      (inputIsSimple (render N e) = true ∨ TruthOk R P0 v) ∧
      -- the input is cached by the condition
      (inputIsSimple (render N e) = true ∨ noCache = true ∨ c.strict = true ∨
        attaches N true c (ifCond N e p noCache) (p ++ [0]) = true)
  | _, .comp k item value _ cond sort, e, p, v =>
    ¬ (k = .set ∧ sort.isSome) ∧
    ∀ x, Elem R v x →
      Good R fuel N A P0 false item (.name (N.param (render N e))) (p ++ [0]) x ∧
      Good R fuel N A P0 false value (.name (N.param (render N e))) (p ++ [1]) x ∧
      Good R fuel N A P0 false cond (.name (N.param (render N e))) (p ++ [2]) x
  | _, .coll k items, e, p, v =>
    -- `()` and `set()` are miscompiled
    ¬ (items = [] ∧ (k = .tuple ∨ k = .set)) ∧
    if items.any Conv.isOpt then GoodOpt R fuel N A P0 items (p ++ [1]) 0 v
    else GoodAll R fuel N A P0 items e (p ++ [1]) 0 v
  | _, .dict kvs, e, p, v =>
    if kvs.any Conv.isOpt then GoodOptPairs R fuel N A P0 kvs (p ++ [1]) 0 v
    else GoodAll R fuel N A P0 kvs e (p ++ [1]) 0 v
  | _, .opt _ _, _, _, _ => False
  | _, .caching c name labels convs, e, p, v =>
    Good R fuel N A P0 false c e (p ++ [0]) v ∧
      -- the name is not used again for a label
      name ∉ labels ∧ name ∉ setsAll convs ∧
      ∀ x, May (den R fuel A c v) x →
        GoodAll R fuel N A P0 convs (.getLabel (.user name)) (p ++ [1]) 0 x
  | _, .tap o ms, e, p, v =>
    Good R fuel N A P0 false o e (p ++ [0]) v ∧
      ∀ x, May (den R fuel A o v) x → GoodAll R fuel N A P0 ms (.name "data_") (p ++ [1]) 0 x
  | _, .mutSetItem k x, e, p, v =>
    Good R fuel N A P0 false k e (p ++ [0]) v ∧ Good R fuel N A P0 false x e (p ++ [1]) v
  | _, .mutSetAttr k x, e, p, v =>
    Good R fuel N A P0 false k e (p ++ [0]) v ∧ Good R fuel N A P0 false x e (p ++ [1]) v
  | _, .mutDelItem k, e, p, v => Good R fuel N A P0 false k e (p ++ [0]) v
  | _, .mutDelAttr k, e, p, v => Good R fuel N A P0 false k e (p ++ [0]) v
  | _, .mutCustom c, e, p, v => Good R fuel N A P0 false c e (p ++ [0]) v
  | esc, .pipe a b, e, p, v =>
    Good R fuel N A P0 esc a e (p ++ [0]) v ∧
      -- either the code of the first stage may be evaluated any number of times
      ((∃ x, Stable R fuel A P0 a v x ∧ TruthOk R P0 x ∧
        Good R fuel N A P0 false b (gen N esc a e (p ++ [0])) (p ++ [1]) x) ∨
      -- or it is evaluated once
      (b.once (inputIsSimple (render N (gen N esc a e (p ++ [0])))) = true ∧
        (gen N esc a e (p ++ [0])).notStr ∧
        ∀ x, May (den R fuel A a v) x →
          Good R fuel N A P0 false b (.given (render N (gen N esc a e (p ++ [0]))) x) (p ++ [1]) x))

/-- Side conditions for several conversions. -/
def GoodAll (R : Runtime Val U Err) (fuel : Nat) (N : Names Val) (A : Env Val)
    (P0 : (String → Option Val) → U → Prop) : List (Conv Val) → PyExpr Val → List Nat → Nat → Val → Prop
  | [], _, _, _, _ => True
  | c :: cs, e, p, n, v =>
    Good R fuel N A P0 false c e (p ++ [n]) v ∧ GoodAll R fuel N A P0 cs e p (n + 1) v

/-- Side conditions for collections with optional items. -/
def GoodOpt (R : Runtime Val U Err) (fuel : Nat) (N : Names Val) (A : Env Val)
    (P0 : (String → Option Val) → U → Prop) : List (Conv Val) → List Nat → Nat → Val → Prop
  | [], _, _, _ => True
  | .opt c cond :: cs, p, n, v =>
    Good R fuel N A P0 false cond (.name "data_") (p ++ [n, 0]) v ∧
      Good R fuel N A P0 false c (.name "data_") (p ++ [n, 1]) v ∧ GoodOpt R fuel N A P0 cs p (n + 1) v
  | c :: cs, p, n, v =>
    Good R fuel N A P0 false c (.name "data_") (p ++ [n, 1]) v ∧ GoodOpt R fuel N A P0 cs p (n + 1) v

/-- Side conditions for dicts with optional items. -/
def GoodOptPairs (R : Runtime Val U Err) (fuel : Nat) (N : Names Val) (A : Env Val)
    (P0 : (String → Option Val) → U → Prop) : List (Conv Val) → List Nat → Nat → Val → Prop
  | .opt k ck :: .opt e ce :: rest, p, n, v =>
    Good R fuel N A P0 false ck (.name "data_") (p ++ [n, 0]) v ∧
      Good R fuel N A P0 false ce (.name "data_") (p ++ [n, 1]) v ∧
      Good R fuel N A P0 false k (.name "data_") (p ++ [n, 2]) v ∧
      Good R fuel N A P0 false e (.name "data_") (p ++ [n, 3]) v ∧
      GoodOptPairs R fuel N A P0 rest p (n + 1) v
  | .opt k ck :: e :: rest, p, n, v =>
    Good R fuel N A P0 false ck (.name "data_") (p ++ [n, 0]) v ∧
      Good R fuel N A P0 false k (.name "data_") (p ++ [n, 2]) v ∧
      Good R fuel N A P0 false e (.name "data_") (p ++ [n, 3]) v ∧
      GoodOptPairs R fuel N A P0 rest p (n + 1) v
  | k :: .opt e ce :: rest, p, n, v =>
    Good R fuel N A P0 false ce (.name "data_") (p ++ [n, 1]) v ∧
      Good R fuel N A P0 false k (.name "data_") (p ++ [n, 2]) v ∧
      Good R fuel N A P0 false e (.name "data_") (p ++ [n, 3]) v ∧
      GoodOptPairs R fuel N A P0 rest p (n + 1) v
  | k :: e :: rest, p, n, v =>
    Good R fuel N A P0 false k (.name "data_") (p ++ [n, 2]) v ∧
      Good R fuel N A P0 false e (.name "data_") (p ++ [n, 3]) v ∧
      GoodOptPairs R fuel N A P0 rest p (n + 1) v
  | _, _, _, _ => True

end

/-- The variables `ρ` have the values of the input arguments `ns`, whose names differ from the names the
generated code uses. -/
def Agree (N : Names Val) (A ρ : Env Val) (ns : List String) : Prop :=
  ∀ n ∈ ns, ρ n = A n ∧ (A n).isSome ∧ n ≠ "data_" ∧ ∀ t, N.param t ≠ n

end

end Verif.Expr
