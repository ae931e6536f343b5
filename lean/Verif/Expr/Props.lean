import Verif.Expr.ToyOk

/-!
# C13-C16, C18, C20: compiled expressions, pipes, conditions, lookups with default

`den` (Spec.lean) says what a conversion means; `view` is what can be seen of a run: value or exception,
labels, and everything else.  Runtimes are arbitrary: every operation, truth test and iteration may raise
and have any effect.
-/

set_option autoImplicit false

namespace Verif.Expr

section
variable {Val U Err : Type}

/-! ## C13: expressions -/

mutual

/-- Conversions built from constants, input arguments, labels, lookups, calls, operators, `and_`, `or_`,
`not_`, `==`, collections and comprehensions.  Left out: `()` and `set()` (see `C13_refuted_empty_set`,
`C13_refuted_empty_tuple`) and sorted set comprehensions, which are rejected. -/
def Conv.fragment : Conv Val → Bool
  | .this => true
  | .naive _ => true
  | .arg _ => true
  | .label _ => true
  | .lookup _ s idx => s.fragment && fragmentAll idx
  | .call s as _ => s.fragment && fragmentAll as
  | .boolop _ as => fragmentAll as
  | .eqs as => fragmentAll as
  | .not a => a.fragment
  | .bin _ a b => a.fragment && b.fragment
  | .neg a => a.fragment
  | .comp k i v _ c sort => i.fragment && v.fragment && c.fragment && !(k == .set && sort.isSome)
  | .coll k items => fragmentAll items && !(items.isEmpty && (k == .tuple || k == .set))
  | .dict kvs => fragmentAll kvs
  | _ => false

/-- The same for several conversions. -/
def fragmentAll : List (Conv Val) → Bool
  | [] => true
  | c :: cs => c.fragment && fragmentAll cs

end

theorem fragment_not_opt {c : Conv Val} (h : c.fragment = true) : c.isOpt = false := by
  cases c <;> first | rfl | (simp [Conv.fragment] at h)

theorem fragmentAll_not_opt : ∀ {cs : List (Conv Val)}, fragmentAll cs = true → cs.any Conv.isOpt = false
  | [], _ => rfl
  | c :: cs, h => by
    simp only [fragmentAll, Bool.and_eq_true] at h
    simp only [List.any_cons, fragment_not_opt h.1, fragmentAll_not_opt h.2, Bool.or_false]

mutual

theorem ok_of_fragment (tp w : Bool) : ∀ {c : Conv Val}, c.fragment = true → c.ok tp w = true
  | .this, _ => rfl
  | .naive _, _ => rfl
  | .arg _, _ => rfl
  | .label _, _ => rfl
  | .lookup _ s idx, h => by
    simp only [Conv.fragment, Bool.and_eq_true] at h
    simp only [Conv.ok, ok_of_fragment tp w h.1, okAll_of_fragment tp w h.2, Bool.and_true]
  | .call s as _, h => by
    simp only [Conv.fragment, Bool.and_eq_true] at h
    simp only [Conv.ok, ok_of_fragment tp w h.1, okAll_of_fragment tp w h.2, Bool.and_true]
  | .boolop _ as, h => by
    simp only [Conv.fragment] at h
    simp only [Conv.ok, okAll_of_fragment tp w h]
  | .eqs as, h => by
    simp only [Conv.fragment] at h
    simp only [Conv.ok, okAll_of_fragment tp w h]
  | .not a, h => by
    simp only [Conv.fragment] at h
    simp only [Conv.ok, ok_of_fragment tp w h]
  | .bin _ a b, h => by
    simp only [Conv.fragment, Bool.and_eq_true] at h
    simp only [Conv.ok, ok_of_fragment tp w h.1, ok_of_fragment tp w h.2, Bool.and_true]
  | .neg a, h => by
    simp only [Conv.fragment] at h
    simp only [Conv.ok, ok_of_fragment tp w h]
  | .comp k i v _ c sort, h => by
    simp only [Conv.fragment, Bool.and_eq_true] at h
    obtain ⟨⟨⟨h1, h2⟩, h3⟩, h4⟩ := h
    simp only [Conv.ok, ok_of_fragment tp true h1, ok_of_fragment tp true h2, ok_of_fragment tp true h3, h4,
      Bool.and_true]
  | .coll k items, h => by
    simp only [Conv.fragment, Bool.and_eq_true] at h
    simp only [Conv.ok, h.2, fragmentAll_not_opt h.1, Bool.false_eq_true, if_false, okAll_of_fragment tp w h.1,
      Bool.and_true]
  | .dict kvs, h => by
    simp only [Conv.fragment] at h
    simp only [Conv.ok, fragmentAll_not_opt h, Bool.false_eq_true, if_false, okAll_of_fragment tp w h]

theorem okAll_of_fragment (tp w : Bool) : ∀ {cs : List (Conv Val)}, fragmentAll cs = true → okAll tp w cs = true
  | [], _ => rfl
  | c :: cs, h => by
    simp only [fragmentAll, Bool.and_eq_true] at h
    simp only [okAll, ok_of_fragment tp w h.1, okAll_of_fragment tp w h.2, Bool.and_true]

end

theorem fragment_stages {c : Conv Val} (h : c.fragment = true) : stages c = [c] := by
  cases c <;> first | rfl | (simp [Conv.fragment] at h)

variable {R : Runtime Val U Err} {fuel : Nat} {N : Names Val} {A : Env Val} {var : String → String}

/-- C13 (partial: `()` and `set()` are excepted, and names of input arguments clashing with names of
generated variables): the compiled code of every expression gives the value, the exception, the labels and the
effects of the conversion, on every input. -/
theorem C13_expressions_partial (hnone : NoneFalsy R) (hN : NamesOk N) (hvar : ∀ t, VarOk N (var t))
    (c : Conv Val) (hc : c.fragment = true) (hfit : ArgsFit N var A c.args) (data : Val) (s : St Val U) :
    view (converter R fuel N var c A data s) = view (den R fuel A c data s) :=
  converter_ok (tp := false) hnone hN (fun h => by cases h) hvar
    (by rw [fragment_stages hc]; simpa using ok_of_fragment false true hc) hfit data s

/-- C13 for all conversions passing the check `Conv.ok`, pipes, conditions, defaults, labels, optional items and
mutations among them. -/
theorem C13_checked_partial (hnone : NoneFalsy R) (hN : NamesOk N) (hvar : ∀ t, VarOk N (var t)) (tp : Bool)
    (ht : tp = true → ∀ v u, ∃ b, R.truthy v u = (.ok b, u)) (c : Conv Val)
    (hc : ∀ d ∈ stages c, d.ok tp true = true) (hfit : ArgsFit N var A c.args) (data : Val) (s : St Val U) :
    view (converter R fuel N var c A data s) = view (den R fuel A c data s) :=
  converter_ok hnone hN (fun h v _ u _ => ht h v u) hvar hc hfit data s

section
open Toy

/-- `{"n": [f(x), x + 1, ...] for x in data if x > 1}` and the like. -/
def sampleExpr : Conv V :=
  .dict [.naive (.str "n"), .comp .list
    (.coll .tuple [.call (.naive (.obj (.fn "inc"))) [.this] [], .bin .add .this (.naive (.int 5)), .arg "k"])
    .this true (.boolop true [.bin .gt .this (.naive (.int 1)), .not (.eqs [.this, .naive (.int 3)])]) none]

/-- One input argument. -/
def kArg : Env V := fun n => if n = "k" then some (.str "a") else none

theorem kFit : ArgsFit Toy.N Toy.var kArg ["k"] := by
  refine ⟨?_, ?_, ?_, ?_⟩ <;> intro n hn <;> simp only [List.mem_singleton] at hn <;> subst hn
  · rfl
  · decide
  · intro t; simp [Toy.N]
  · intro t; simp [Toy.var]

example : sampleExpr.fragment = true := by rfl

example : view (converter Toy.R 100 Toy.N Toy.var sampleExpr kArg (.list [.int 1, .int 2, .int 3, .int 4]) s0) =
    view (den Toy.R 100 kArg sampleExpr (.list [.int 1, .int 2, .int 3, .int 4]) s0) :=
  C13_expressions_partial noneFalsy namesOk varOk _ (by rfl) kFit _ _

example : result sampleExpr kArg (.list [.int 1, .int 2, .int 3, .int 4]) =
    .ok (.dict [.str "n", .list [.tuple [.int 3, .int 7, .str "a"], .tuple [.int 5, .int 9, .str "a"]]]) := by decide +kernel

example : calls sampleExpr kArg (.list [.int 1, .int 2, .int 3, .int 4]) = ["inc", "inc"] := by decide +kernel

end

/-- C13 is violated by `c.set()` (and `ensure_conversion(set())`): the code `{}` makes a dict. -/
theorem C13_refuted_empty_set : ∃ (c : Conv Toy.V) (data : Toy.V),
    Toy.result c Toy.noArgs data = .ok (.dict []) ∧
    (den Toy.R 100 Toy.noArgs c data Toy.s0).1 = .ok (.set []) :=
  ⟨.coll .set [], .none, by decide +kernel, by decide +kernel⟩

/-- C13 is violated by `c.tuple()` (and `ensure_conversion(())`): the code `(,)` is a syntax error. -/
theorem C13_refuted_empty_tuple : ∃ (c : Conv Toy.V) (data : Toy.V),
    Toy.result c Toy.noArgs data = .error .syntaxError ∧
    (den Toy.R 100 Toy.noArgs c data Toy.s0).1 = .ok (.tuple []) :=
  ⟨.coll .tuple [], .none, by decide +kernel, by decide +kernel⟩

/-! ## C14: pipes at the top level -/

/-- C14: piping into a pipe appends its stages. -/
theorem C14_pipe_stages (a b : Conv Val) : stages (a.pipeTo b) = stages a ++ stages b := by
  match b with
  | .pipe b c =>
    simp only [Conv.pipeTo, stages]
    rw [C14_pipe_stages a b, List.append_assoc]
  | .this => rfl
  | .naive _ => rfl
  | .arg _ => rfl
  | .label _ => rfl
  | .lookup _ _ _ => rfl
  | .lookupD _ _ _ _ => rfl
  | .call _ _ _ => rfl
  | .boolop _ _ => rfl
  | .eqs _ => rfl
  | .not _ => rfl
  | .bin _ _ _ => rfl
  | .neg _ => rfl
  | .ifc _ _ _ _ => rfl
  | .comp _ _ _ _ _ _ => rfl
  | .coll _ _ => rfl
  | .dict _ => rfl
  | .opt _ _ => rfl
  | .caching _ _ _ _ => rfl
  | .tap _ _ => rfl
  | .mutSetItem _ _ => rfl
  | .mutSetAttr _ _ => rfl
  | .mutDelItem _ => rfl
  | .mutDelAttr _ => rfl
  | .mutCustom _ => rfl

/-- C14: the converter of a pipe runs its stages in order, each once on the result of the one before, up to the
first exception (`inOrder`); with a check on the form of each stage, which all expressions pass. -/
theorem C14_stages_in_order (hnone : NoneFalsy R) (hN : NamesOk N) (hvar : ∀ t, VarOk N (var t)) (tp : Bool)
    (ht : tp = true → ∀ v u, ∃ b, R.truthy v u = (.ok b, u)) (c : Conv Val)
    (hc : ∀ d ∈ stages c, d.ok tp true = true) (hfit : ArgsFit N var A c.args) (data : Val) (s : St Val U) :
    view (converter R fuel N var c A data s) = view (inOrder (den R fuel A) (stages c) data s) := by
  rw [C13_checked_partial hnone hN hvar tp ht c hc hfit, den_stages]

section
open Toy

/-- `c.call_func(inc, c.this()).pipe(c.and_(c.this(), c.this())).pipe(c.call_func(boom, …)).pipe(inc …)` -/
def samplePipe : Conv V :=
  (((Conv.call (.naive (.obj (.fn "inc"))) [.this] []).pipeTo (.boolop true [.this, .this])).pipeTo
    (.call (.naive (.obj (.fn "boom"))) [.this] [])).pipeTo (.call (.naive (.obj (.fn "inc"))) [.this] [])

example : view (converter Toy.R 100 Toy.N Toy.var samplePipe noArgs (.int 1) s0) =
    view (inOrder (den Toy.R 100 noArgs) (stages samplePipe) (.int 1) s0) :=
  C14_stages_in_order noneFalsy namesOk varOk false (by simp) _
    (by intro d hd; simp [samplePipe, Conv.pipeTo, stages] at hd; rcases hd with rfl | rfl | rfl | rfl <;> rfl)
    noFit _ _

example : result samplePipe noArgs (.int 1) = .error .value := by rfl
example : calls samplePipe noArgs (.int 1) = ["inc", "boom"] := by rfl

end

/-! ## C15, C16: nested pipes -/

/-- C15, C16 (partial): the code of a nested pipe runs the first conversion exactly once and then the second one
on its result, if the second conversion uses its input exactly once and first (`Conv.once`).  For other second
conversions see `C15_refuted` and `C16_refuted_twice`. -/
theorem C15_once_partial (hnone : NoneFalsy R) (hN : NamesOk N) (tp : Bool)
    (ht : tp = true → ∀ v u, ∃ b, R.truthy v u = (.ok b, u)) (a b : Conv Val) (ha : a.ok tp true = true)
    (hs : a.noStr = true) (hb : b.ok tp false = true) (ho : b.once (!a.complex) = true)
    (hfit : ArgsFit N var A (a.args ++ b.args)) (data : Val) (p : List Nat) (s : St Val U) :
    view (eval R fuel (gen N false (.pipe a b) (.name "data_") p) (A.set "data_" data) s) =
      view (match den R fuel A a data s with
        | (.ok x, s') => den R fuel A b x s'
        | (.error e, s') => (.error e, s')) := by
  have hd : "data_" ∉ a.args ++ b.args := fun h => hfit.data _ h rfl
  have hρ : Agree N A (A.set "data_" data) (a.args ++ b.args) := fun n hn =>
    ⟨by unfold Env.set; rw [if_neg (hfit.data n hn)], hfit.given n hn, hfit.data n hn, hfit.param n hn⟩
  rw [run_ok (c := .pipe a b) (A := A) hnone hN (fun h v _ u _ => ht h v u)
    (by simp only [Conv.ok, ha, hs, ho, hb, Bool.and_true]) p (v := data) (by simp [Env.set])
    ⟨by decide, hN.constData⟩ hd hρ (St.Same.rfl' s)]
  simp only [den]
  rw [bind_run]
  cases den R fuel A a data s with
  | mk r s' => cases r <;> rfl

/-- C15 (partial): with a first conversion which returns a value without any effect, the second conversion may be
any conversion passing the check.  Truth tests must have no effects and must not raise. -/
theorem C15_pure_partial (hnone : NoneFalsy R) (hN : NamesOk N)
    (ht : ∀ v u, ∃ b, R.truthy v u = (.ok b, u)) (a b : Conv Val) (ha : a.ok true true = true)
    (hs : a.noStr = true) (hb : b.ok true false = true) (hfit : ArgsFit N var A (a.args ++ b.args))
    (data x : Val) (hx : ∀ s : St Val U, den R fuel A a data s = (.ok x, s)) (p : List Nat) (s : St Val U) :
    view (eval R fuel (gen N false (.pipe a b) (.name "data_") p) (A.set "data_" data) s) =
      view (den R fuel A b x s) := by
  have hd : "data_" ∉ a.args ++ b.args := fun h => hfit.data _ h rfl
  have hρ : Agree N A (A.set "data_" data) (a.args ++ b.args) := fun n hn =>
    ⟨by unfold Env.set; rw [if_neg (hfit.data n hn)], hfit.given n hn, hfit.data n hn, hfit.param n hn⟩
  have hargs : ArgsOk N (a.args ++ b.args) := fun n hn => ⟨hfit.data n hn, hfit.param n hn⟩
  have htr : TruthAll R true (fun _ _ => True) := fun _ v _ u _ => ht v u
  have hin : InOk N true (.name "data_") a.args :=
    InOk.data hN (hargs.mono (by simp +contextual))
  have hgood : Good R fuel N A (fun _ _ => True) false (.pipe a b) (.name "data_") p data := by
    simp only [Good]
    refine ⟨good_of_ok hN htr a false true _ _ data ha (hargs.mono (by simp +contextual)) hin,
      Or.inl ⟨x, fun s _ => hx s, fun _ u _ => ht x u, ?_⟩⟩
    exact good_of_ok hN htr b false false _ _ x hb (hargs.mono (by simp +contextual))
      ⟨notStr_gen false a _ _ hs trivial, fun h => by cases h⟩
  have := (run_good (s := s) (t := s) hnone (c := .pipe a b) p (x := "data_") (v := data) (by simp [Env.set]) hρ
    (Kept.true _) hgood trivial (St.Same.rfl' s)).1
  rw [this]
  simp only [den]
  rw [bind_run, hx s]

/-- C16 (partial): if the second conversion has no effects, all effects are those of one run of the first. -/
theorem C16_once_partial (hnone : NoneFalsy R) (hN : NamesOk N) (tp : Bool)
    (ht : tp = true → ∀ v u, ∃ b, R.truthy v u = (.ok b, u)) (a b : Conv Val) (ha : a.ok tp true = true)
    (hs : a.noStr = true) (hb : b.ok tp false = true) (ho : b.once (!a.complex) = true)
    (hfit : ArgsFit N var A (a.args ++ b.args)) (data : Val) (p : List Nat) (s : St Val U)
    (heff : ∀ x (s : St Val U), (den R fuel A b x s).2.u = s.u) :
    (eval R fuel (gen N false (.pipe a b) (.name "data_") p) (A.set "data_" data) s).2.u =
      (den R fuel A a data s).2.u := by
  have := C15_once_partial (fuel := fuel) (var := var) hnone hN tp ht a b ha hs hb ho hfit data p s
  have h2 := congrArg (fun v => v.2.2) this
  simp only [view] at h2
  rw [h2]
  cases h : den R fuel A a data s with
  | mk r s' =>
    cases r with
    | ok x => exact heff x s'
    | error e => rfl

section
open Toy

/-- `inc(data)` -/
def callInc : Conv V := .call (.naive (.obj (.fn "inc"))) [.this] []

/-- `c.list(inc.pipe(c.this() + 1))` -/
example : result (.coll .list [.pipe callInc (.bin .add .this (.naive (.int 1)))]) noArgs (.int 1) =
    .ok (.list [.int 3]) := by rfl

example : (Conv.bin .add .this (.naive (.int 1)) : Conv V).once (!callInc.complex) = true := by rfl

example (p : List Nat) (s : St V World) :
    view (eval Toy.R 100 (gen Toy.N false (.pipe callInc (.bin .add .this (.naive (.int 1)))) (.name "data_") p)
      (noArgs.set "data_" (.int 1)) s) =
    view (match den Toy.R 100 noArgs callInc (.int 1) s with
      | (.ok x, s') => den Toy.R 100 noArgs (.bin .add .this (.naive (.int 1))) x s'
      | (.error e, s') => (.error e, s')) :=
  C15_once_partial (var := Toy.var) noneFalsy namesOk false (by simp) _ _ (by rfl) (by rfl) (by rfl) (by rfl) noFit _ p s

/-- A pure first stage used three times. -/
example (p : List Nat) (s : St V World) :
    view (eval Toy.R 100 (gen Toy.N false (.pipe (.lookup false .this [.naive (.str "a")])
      (.coll .list [.this, .bin .add .this .this])) (.name "data_") p)
      (noArgs.set "data_" (.dict [.str "a", .int 2])) s) = view ((.ok (.list [.int 2, .int 4]), s) : Except E V × _) :=
  C15_pure_partial (var := Toy.var) noneFalsy namesOk (fun v u => ⟨_, rfl⟩) _ _ (by rfl) (by rfl) (by rfl) noFit
    (.dict [.str "a", .int 2]) (.int 2) (fun _ => rfl) p s

end

/-- C15 is violated: a first stage which raises is not evaluated, if the second stage returns before it comes to its
input.  `c.list(boom.pipe(c.and_(False, c.this())))` returns `[False]`. -/
theorem C15_refuted : ∃ (a b : Conv Toy.V) (data : Toy.V),
    (den Toy.R 100 Toy.noArgs (.coll .list [.pipe a b]) data Toy.s0).1 = .error .value ∧
    Toy.result (.coll .list [.pipe a b]) Toy.noArgs data = .ok (.list [.bool false]) :=
  ⟨.call (.naive (.obj (.fn "boom"))) [.this] [], .boolop true [.naive (.bool false), .this], .int 1, by decide +kernel, by decide +kernel⟩

/-- C16 is violated: the first stage is called as often as the second stage mentions its input. -/
theorem C16_refuted_twice : ∃ (a b : Conv Toy.V) (data : Toy.V),
    (den Toy.R 100 Toy.noArgs (.coll .list [.pipe a b]) data Toy.s0).2.u.log = ["inc"] ∧
    Toy.calls (.coll .list [.pipe a b]) Toy.noArgs data = ["inc", "inc"] :=
  ⟨callInc, .bin .add .this .this, .int 1, by decide +kernel, by decide +kernel⟩

/-- C16 is violated: the first stage is not called at all, if its text is in the text of the second stage, even as
a part of a string constant (302-324). -/
theorem C16_refuted_text : ∃ (a b : Conv Toy.V) (data : Toy.V),
    (den Toy.R 100 Toy.noArgs (.coll .list [.pipe a b]) data Toy.s0).2.u.log = ["inc"] ∧
    Toy.calls (.coll .list [.pipe a b]) Toy.noArgs data = [] :=
  ⟨callInc, .naive (.str "fn_inc(data_)"), .int 1, by decide +kernel, by decide +kernel⟩

/-! ## C18: conditions -/

/-- What `if_` means: the condition on the input, its truth, then one of the branches on the input. -/
def branch (R : Runtime Val U Err) (cond t f : Val → St Val U → Except Err Val × St Val U) (x : Val)
    (s : St Val U) : Except Err Val × St Val U :=
  match cond x s with
  | (.error e, s1) => (.error e, s1)
  | (.ok y, s1) =>
    match R.truthy y s1.u with
    | (.error e, u) => (.error e, { s1 with u := u })
    | (.ok true, u) => t x { s1 with u := u }
    | (.ok false, u) => f x { s1 with u := u }

theorem den_ifc (c t f : Conv Val) (nc : Bool) (x : Val) (s : St Val U) :
    den R fuel A (.ifc c t f nc) x s =
      branch R (den R fuel A c) (den R fuel A t) (den R fuel A f) x s := by
  simp only [den, branch]
  rw [bind_run]
  cases den R fuel A c x s with
  | mk r s1 =>
    cases r with
    | error e => rfl
    | ok y =>
      dsimp only
      rw [truthy_run]
      cases h : R.truthy y s1.u with
      | mk r u =>
        cases r with
        | error e => rfl
        | ok b => cases b <;> rfl

/-- C18 (partial): `if_` on a variable evaluates the condition, then the branch its truth selects. -/
theorem C18_if_partial (hnone : NoneFalsy R) (hN : NamesOk N) (hvar : ∀ t, VarOk N (var t)) (tp : Bool)
    (ht : tp = true → ∀ v u, ∃ b, R.truthy v u = (.ok b, u)) (c t f : Conv Val) (nc : Bool)
    (hc : c.ok tp true = true) (h1 : t.ok tp true = true) (h2 : f.ok tp true = true)
    (hfit : ArgsFit N var A (c.args ++ t.args ++ f.args)) (data : Val) (s : St Val U) :
    view (converter R fuel N var (.ifc c t f nc) A data s) =
      view (branch R (den R fuel A c) (den R fuel A t) (den R fuel A f) data s) := by
  rw [C13_checked_partial hnone hN hvar tp ht _ (by
    simp only [stages, List.mem_singleton, forall_eq, Conv.ok, hc, h1, h2, Bool.true_or, Bool.and_true]) hfit,
    den_ifc]

/-- C18 (partial): `if_` on an input which is a lookup or a call of a constant or of a lookup (`Conv.complex`):
the input is evaluated exactly once, whatever the branches are.  The condition must use its input exactly once and
first; truth tests must have no effects and must not raise: see `C18_refuted_key_error`, `C18_refuted_twice`,
`C18_refuted_truth`. -/
theorem C18_input_once_partial (hnone : NoneFalsy R) (hN : NamesOk N)
    (ht : ∀ v u, ∃ b, R.truthy v u = (.ok b, u)) (a c t f : Conv Val)
    (ha : a.ok true true = true) (hcx : a.complex = true) (hc : c.ok true false = true)
    (ho : c.once true = true) (hst : c.strict = true) (h1 : t.ok true false = true) (h2 : f.ok true false = true)
    (hfit : ArgsFit N var A (a.args ++ (c.args ++ t.args ++ f.args))) (data : Val) (p : List Nat) (s : St Val U) :
    view (eval R fuel (gen N false (.pipe a (.ifc c t f false)) (.name "data_") p) (A.set "data_" data) s) =
      view (match den R fuel A a data s with
        | (.ok x, s') => branch R (den R fuel A c) (den R fuel A t) (den R fuel A f) x s'
        | (.error e, s') => (.error e, s')) := by
  have hns : a.noStr = true := by
    cases a with
    | lookup attr s idx => cases idx <;> first | rfl | (simp [Conv.complex] at hcx)
    | naive l => simp [Conv.complex] at hcx
    | mutCustom c => simp [Conv.complex] at hcx
    | pipe a b => simp [Conv.complex] at hcx
    | _ => rfl
  rw [C15_once_partial (var := var) hnone hN true (fun _ => ht) a (.ifc c t f false) ha hns
    (by simp only [Conv.ok, hc, h1, h2, hst, Bool.and_true, Bool.false_or])
    (by simp only [Conv.once, ho, hcx, Bool.not_true, Bool.not_false, Bool.true_or, Bool.and_true]) hfit]
  congr 1
  split
  · exact den_ifc _ _ _ _ _ _
  · rfl

section
open Toy

/-- `inc.pipe(c.if_(c.this() > 3, (c.this(), c.this()), "small"))` in a list -/
def sampleIf : Conv V :=
  .coll .list [.pipe callInc (.ifc (.bin .gt .this (.naive (.int 3))) (.coll .tuple [.this, .this])
    (.naive (.str "small")) false)]

example : result sampleIf noArgs (.int 3) = .ok (.list [.tuple [.int 4, .int 4]]) ∧
    result sampleIf noArgs (.int 2) = .ok (.list [.str "small"]) ∧
    calls sampleIf noArgs (.int 3) = ["inc"] ∧ calls sampleIf noArgs (.int 2) = ["inc"] := by
  decide +kernel

example (p : List Nat) (s : St V World) :
    view (eval Toy.R 100 (gen Toy.N false (.pipe callInc (.ifc (.bin .gt .this (.naive (.int 3)))
      (.coll .tuple [.this, .this]) (.naive (.str "small")) false)) (.name "data_") p)
      (noArgs.set "data_" (.int 3)) s) =
    view ((.ok (.tuple [.int 4, .int 4]), { s with u := { s.u with log := s.u.log ++ ["inc"] } }) : Except E V × _) :=
  C18_input_once_partial (var := Toy.var) noneFalsy namesOk (fun v u => ⟨_, rfl⟩) _ _ _ _ (by rfl) (by rfl) (by rfl)
    (by rfl) (by rfl) (by rfl) (by rfl) noFit _ p s

example (s : St V World) : view (converter Toy.R 100 Toy.N Toy.var
      (.ifc (.bin .gt .this (.naive (.int 3))) callInc (.naive .none) false) noArgs (.int 4) s) =
    view (branch Toy.R (den Toy.R 100 noArgs (.bin .gt .this (.naive (.int 3)))) (den Toy.R 100 noArgs callInc)
      (den Toy.R 100 noArgs (.naive .none)) (.int 4) s) :=
  C18_if_partial noneFalsy namesOk varOk false (by simp) _ _ _ _ (by rfl) (by rfl) (by rfl) noFit _ s

end

/-- C18 is violated: the input is saved by the code of the condition; if the condition does not come to its input,
the branches raise `KeyError`. -/
theorem C18_refuted_key_error : ∃ (a c : Conv Toy.V) (data : Toy.V),
    (den Toy.R 100 Toy.noArgs (.coll .list [.pipe a (.ifc c .this .this false)]) data Toy.s0).1 =
      .ok (.list [.int 2]) ∧
    Toy.result (.coll .list [.pipe a (.ifc c .this .this false)]) Toy.noArgs data = .error (.label "") :=
  ⟨callInc, .boolop true [.naive (.bool false), .this], .int 1, by decide +kernel, by decide +kernel⟩

/-- C18 is violated: an input which is not simple is computed again for every mention in the condition. -/
theorem C18_refuted_twice : ∃ (a c : Conv Toy.V) (data : Toy.V),
    (den Toy.R 100 Toy.noArgs (.coll .list [.pipe a (.ifc c .this .this false)]) data Toy.s0).2.u.log = ["inc"] ∧
    Toy.calls (.coll .list [.pipe a (.ifc c .this .this false)]) Toy.noArgs data = ["inc", "inc"] :=
  ⟨callInc, .bin .gt .this .this, .int 1, by decide +kernel, by decide +kernel⟩

/-- The same runtime with objects whose truth cannot be tested (arrays, for example). -/
def Toy.noTruth : Runtime Toy.V Toy.World Toy.E :=
  { Toy.R with
    truthy := fun v w => match v with
      | .list _ => (.error .value, w)
      | v => (.ok (Toy.truthy v), w) }

/-- C18 is violated: a branch which does not mention the input gets code testing the truth of the input. -/
theorem C18_refuted_truth : ∃ (a c t f : Conv Toy.V) (data : Toy.V),
    (den Toy.noTruth 100 Toy.noArgs (.coll .tuple [.pipe a (.ifc c t f false)]) data Toy.s0).1 =
      .ok (.tuple [.int 1]) ∧
    (converter Toy.noTruth 100 Toy.N Toy.var (.coll .tuple [.pipe a (.ifc c t f false)]) Toy.noArgs data Toy.s0).1 =
      .error .value :=
  ⟨.call (.naive (.obj (.fn "id"))) [.this] [], .eqs [.lookup false .this [.naive (.int 0)], .naive (.int 5)],
    .naive (.int 1), .naive (.int 2), .list [.int 5], by decide +kernel, by decide +kernel⟩

/-! ## C20: lookups with default -/

/-- Lookups one after another from `x`; the keys are computed on the input. -/
def walk (R : Runtime Val U Err) (key : Conv Val → St Val U → Except Err Val × St Val U) (attr : Bool) :
    Val → List (Conv Val) → St Val U → Except Err Val × St Val U
  | x, [], s => (.ok x, s)
  | x, c :: cs, s =>
    match key c s with
    | (.error e, s1) => (.error e, s1)
    | (.ok k, s1) =>
      match R.op (if attr then .getattr else .getitem) [x, k] s1.u with
      | (.error e, u) => (.error e, { s1 with u := u })
      | (.ok y, u) => walk R key attr y cs { s1 with u := u }

/-- A lookup with default: the default is computed, then the lookups are tried; `TypeError`, `KeyError`, `IndexError`
and `AttributeError` give the default, other exceptions go on. -/
def lookupOr (R : Runtime Val U Err) (key : Conv Val → St Val U → Except Err Val × St Val U) (attr : Bool)
    (x : Val) (idx : List (Conv Val)) (dflt : Conv Val) (s : St Val U) : Except Err Val × St Val U :=
  match key dflt s with
  | (.error e, s1) => (.error e, s1)
  | (.ok d, s1) =>
    match walk R key attr x idx s1 with
    | (.ok y, s2) => (.ok y, s2)
    | (.error e, s2) => if R.caught e then (.ok d, s2) else (.error e, s2)

theorem denPath_walk (attr : Bool) (v : Val) (idx : List (Conv Val)) : ∀ (x : Val) (s : St Val U),
    denPath R fuel A attr x idx v s = walk R (fun c => den R fuel A c v) attr x idx s := by
  induction idx with
  | nil => intro x s; rfl
  | cons c cs ih =>
    intro x s
    simp only [denPath, walk]
    rw [bind_run]
    cases den R fuel A c v s with
    | mk r s1 =>
      cases r with
      | error e => rfl
      | ok k =>
        dsimp only
        rw [op_run]
        cases h : R.op (if attr = true then Op.getattr else Op.getitem) [x, k] s1.u with
        | mk r u =>
          cases r with
          | error e => rfl
          | ok y => exact ih _ _

/-- C20 (partial: indexes without input arguments, see `C20_refuted_args`): `c.item(k1 … kn, default=d)` and `c.attr`;
the indexes are conversions, evaluated on the input. -/
theorem C20_default_partial (hnone : NoneFalsy R) (hN : NamesOk N) (hvar : ∀ t, VarOk N (var t)) (tp : Bool)
    (ht : tp = true → ∀ v u, ∃ b, R.truthy v u = (.ok b, u)) (attr : Bool) (idx : List (Conv Val)) (d : Conv Val)
    (hi : okAll tp true idx = true) (hargs : argsAll idx = []) (hd : d.ok tp true = true)
    (hfit : ArgsFit N var A d.args) (data : Val) (s : St Val U) :
    view (converter R fuel N var (.lookupD attr .this idx d) A data s) =
      view (lookupOr R (fun c => den R fuel A c data) attr data idx d s) := by
  rw [C13_checked_partial hnone hN hvar tp ht _ (by
    simp only [stages, List.mem_singleton, forall_eq, Conv.ok, hi, hargs, hd]
    rfl) (by simpa [Conv.args, hargs] using hfit)]
  congr 1
  simp only [den, pure_bind', lookupOr]
  rw [bind_run]
  cases den R fuel A d data s with
  | mk r s1 =>
    cases r with
    | error e => rfl
    | ok dv =>
      dsimp only
      simp only [onError, denPath_walk]
      cases walk R (fun c => den R fuel A c data) attr data idx s1 with
      | mk r s2 =>
        cases r with
        | ok y => rfl
        | error e =>
          dsimp only
          split <;> rfl

section
open Toy

/-- `c.item("a", c.item("k"), default=-1)` -/
def sampleItem : Conv V :=
  .lookupD false .this [.naive (.str "a"), .lookup false .this [.naive (.str "k")]] (.naive (.int (-1)))

example : result sampleItem noArgs (.dict [.str "a", .list [.int 5, .int 6], .str "k", .int 1]) = .ok (.int 6) ∧
    result sampleItem noArgs (.dict [.str "a", .list [.int 5, .int 6], .str "k", .int 7]) = .ok (.int (-1)) ∧
    result sampleItem noArgs (.dict [.str "k", .int 1]) = .ok (.int (-1)) := by
  decide +kernel

/-- Other exceptions go on. -/
example : result (.lookupD false .this [.call (.naive (.obj (.fn "boom"))) [] []] (.naive .none)) noArgs
    (.dict []) = .error .value := by decide +kernel

example (data : V) (s : St V World) : view (converter Toy.R 100 Toy.N Toy.var sampleItem noArgs data s) =
    view (lookupOr Toy.R (fun c => den Toy.R 100 noArgs c data) false data
      [.naive (.str "a"), .lookup false .this [.naive (.str "k")]] (.naive (.int (-1))) s) :=
  C20_default_partial noneFalsy namesOk varOk false (by simp) _ _ _ (by rfl) (by rfl) (by rfl) noFit _ s

end

/-- C20 is violated: an input argument as an index is not passed to the helper function; the lookup raises
`NameError`. -/
theorem C20_refuted_args : ∃ (c : Conv Toy.V) (A : Env Toy.V) (data : Toy.V), (A "k").isSome ∧
    (den Toy.R 100 A c data Toy.s0).1 = .ok (.int 1) ∧ Toy.result c A data = .error (.name "k") :=
  ⟨.lookupD false .this [.arg "k"] (.naive .none), kArg, .dict [.str "a", .int 1], rfl, by decide +kernel, by decide +kernel⟩

end

end Verif.Expr
