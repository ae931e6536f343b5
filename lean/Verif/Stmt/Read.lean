import Verif.Stmt.Layout
import Verif.Text.ParseMono
import Verif.Text.ParseCode

/-!
# Stmt: Python's statements

Grammar of the statements which occur in the functions generated by the library (Python Language Reference,
chapters 7 and 8), over the lines of `Verif/Stmt/Layout.lean` and the expressions of `Verif/Text/Parse.lean`.  This
is the reference against which generated functions are checked, not code of the repository.  List comprehensions with
two variables, which `Verif/Text/Parse.lean` does not have, are read where they are the whole value of an assignment.

Left out: `while`, `with`, `raise`, `import`, `assert`, `continue`, `nonlocal`, decorators, annotations, default
values of parameters, base classes, `else` of loops, `finally`, several `except` clauses, assignments to tuples;
texts using them are rejected here.
-/

set_option autoImplicit false

namespace Verif.Stmt

open Verif.Text

/-- Augmented assignments. -/
inductive Aug
  | add
  | or
  deriving DecidableEq

/-- Python's abstract syntax of statements. -/
inductive Stmt
  | assign (targets : List Ast) (e : Ast)
  /-- `target = [e for k, v in it]` -/
  | pairs (target e : Ast) (k v : String) (it : Ast)
  | aug (o : Aug) (target e : Ast)
  | expr (e : Ast)
  | ret (e : Ast)
  | yield_ (e : Ast)
  | del (e : Ast)
  | brk
  | pass
  | global (names : List String)
  | ite (c : Ast) (a b : List Stmt)
  | for_ (v : String) (it : Ast) (body : List Stmt)
  | try_ (body : List Stmt) (excs : Ast) (handler : List Stmt)
  /-- parameters, and those which are keyword-only -/
  | def_ (name : String) (params kwOnly : List String) (body : List Stmt)
  | class_ (name : String) (body : List Stmt)

/-- A whole expression. -/
def readExpr (n : Nat) (ts : List Tok) : Option Ast :=
  match parse n .expr ts with
  | some (a, []) => some a
  | _ => none

/-- What may be assigned to. -/
def isTarget : Ast → Bool
  | .name s => !isConstName s
  | .attr _ _ => true
  | .sub _ _ => true
  | _ => false

/-- After `=`: further targets and the value. -/
def readAssign (n : Nat) : Nat → List Ast → List Tok → Option Stmt
  | 0, _, _ => none
  | k + 1, acc, ts =>
    match parse n .primary ts with
    | some (t, .assign :: us) => if isTarget t then readAssign n k (acc ++ [t]) us else none
    | _ => (readExpr n ts).map (fun e => .assign acc e)

/-- `[e for k, v in it]` as the value of an assignment. -/
def readPairs (n : Nat) (t : Ast) (ts : List Tok) : Option Stmt :=
  match ts with
  | .lbr :: us =>
    match parse n .expr us with
    | some (e, .for_ :: .name k :: .comma :: .name v :: .in_ :: vs) =>
      if isConstName k || isConstName v then none
      else
        match parse n .or vs with
        | some (it, [.rbr]) => some (.pairs t e k v it)
        | _ => none
    | _ => none
  | _ => none

/-- What is assigned to a target. -/
def readValue (n : Nat) (t : Ast) (us : List Tok) : Option Stmt :=
  match readAssign n n [t] us with
  | some s => some s
  | none => readPairs n t us

/-- Names separated by commas. -/
def readNames : List Tok → Option (List String)
  | [.name s] => some [s]
  | .name s :: .comma :: ts => (readNames ts).map (s :: ·)
  | _ => none

/-- A simple statement. -/
def readSimple (n : Nat) (ts : List Tok) : Option Stmt :=
  match ts with
  | [.kw "pass"] => some .pass
  | [.kw "break"] => some .brk
  | .kw "return" :: ts => (readExpr n ts).map .ret
  | .kw "yield" :: ts => (readExpr n ts).map .yield_
  | .kw "del" :: ts => (readExpr n ts).bind fun e => if isTarget e then some (.del e) else none
  | .kw "global" :: ts => (readNames ts).map .global
  | ts =>
    match parse n .primary ts with
    | some (t, .assign :: us) => if isTarget t then readValue n t us else none
    | some (t, .plus :: .assign :: us) => if isTarget t then (readExpr n us).map (.aug .add t) else none
    | some (t, .bar :: .assign :: us) => if isTarget t then (readExpr n us).map (.aug .or t) else none
    | _ => (readExpr n ts).map .expr

/-- Parameters up to `)`: the first list those before `*`, the second those after it. -/
def readParams : List Tok → Option (List String × List String)
  | [.rpar] => some ([], [])
  | [.name s, .rpar] => some ([s], [])
  | .name s :: .comma :: ts => (readParams ts).map fun (a, b) => (s :: a, b)
  | .star :: .comma :: ts =>
    match readNames ts.dropLast with
    | some b => if ts.getLast? = some .rpar then some ([], b) else none
    | none => none
  | _ => none

/-- `elif` and `else` clauses; without them the statements are left as they are. -/
def readElse (n : Nat) (rec : List Tree → Option (List Stmt)) : List Tree → Option (List Stmt × List Tree)
  | .block [.else_] body :: rest => (rec body).map fun b => (b, rest)
  | .block (.kw "elif" :: ts) body :: rest =>
    (readExpr n ts).bind fun c => (rec body).bind fun a =>
      (readElse n rec rest).map fun (b, rest) => ([.ite c a b], rest)
  | ts => some ([], ts)

/-- Statements, with a bound on the depth of the calls. -/
def readAll : Nat → List Tree → Option (List Stmt)
  | 0, _ => none
  | _ + 1, [] => some []
  | n + 1, .leaf ts :: rest => (readSimple n ts).bind fun s => (readAll n rest).map (s :: ·)
  | n + 1, .block head body :: rest =>
    match head with
    | .if_ :: ts =>
      (readExpr n ts).bind fun c => (readAll n body).bind fun a =>
        (readElse n (readAll n) rest).bind fun (b, rest) => (readAll n rest).map (.ite c a b :: ·)
    | .for_ :: .name v :: .in_ :: ts =>
      if isConstName v then none
      else
        (readExpr n ts).bind fun it => (readAll n body).bind fun b => (readAll n rest).map (.for_ v it b :: ·)
    | [.kw "try"] =>
      (readAll n body).bind fun b =>
        match rest with
        | .block (.kw "except" :: ts) h :: rest =>
          (readExpr n ts).bind fun e => (readAll n h).bind fun h => (readAll n rest).map (.try_ b e h :: ·)
        | _ => none
    | .kw "def" :: .name f :: .lpar :: ts =>
      (readParams ts).bind fun (a, k) =>
        if (a ++ k).Nodup then (readAll n body).bind fun b => (readAll n rest).map (.def_ f a k b :: ·) else none
    | [.kw "class", .name c] => (readAll n body).bind fun b => (readAll n rest).map (.class_ c b :: ·)
    | _ => none

/-- The text is the source of these statements. -/
def Source (s : List Char) (b : List Stmt) : Prop :=
  ∃ ts, parseLines s = some ts ∧ ∃ n0, ∀ n, n0 ≤ n → readAll n ts = some b

/-- `Source` for examples: depth `n`. -/
def readText (n : Nat) (s : String) : Option (List Stmt) := (parseLines s.toList).bind (readAll n)

/-! ## How statements are read -/

/-- The tokens are read as this expression. -/
def ExprToks (ts : List Tok) (a : Ast) : Prop := ∃ n0, ∀ n, n0 ≤ n → readExpr n ts = some a

theorem exprToks_of_ev {ts : List Tok} {a : Ast} (h : Ev .expr ts (a, [])) : ExprToks ts a := by
  obtain ⟨n0, h⟩ := h
  exact ⟨n0, fun n hn => by simp only [readExpr, h n hn]⟩

theorem exprToks_of_rd {ts : List Tok} {a : Ast} (h : Rd ts a) : ExprToks ts a := by
  have := h.expr (rest := []) (by decide)
  rw [List.append_nil] at this
  exact exprToks_of_ev this

/-- The tokens are read as this simple statement. -/
def SimpleToks (ts : List Tok) (s : Stmt) : Prop := ∃ n0, ∀ n, n0 ≤ n → readSimple n ts = some s

/-- The tokens begin with a name, number, string or bracket: no statement keyword. -/
def noKw : List Tok → Bool
  | .kw _ :: _ => false
  | _ => true

theorem readSimple_noKw {n : Nat} {ts : List Tok} (h : noKw ts = true) :
    readSimple n ts =
      match parse n .primary ts with
      | some (t, .assign :: us) => if isTarget t then readValue n t us else none
      | some (t, .plus :: .assign :: us) => if isTarget t then (readExpr n us).map (.aug .add t) else none
      | some (t, .bar :: .assign :: us) => if isTarget t then (readExpr n us).map (.aug .or t) else none
      | _ => (readExpr n ts).map .expr := by
  unfold readSimple
  split <;> first | rfl | simp [noKw] at h

theorem ev_of_parse {n : Nat} {m : Mode} {ts : List Tok} {r : Ast × List Tok} (h : parse n m ts = some r) :
    Ev m ts r := ⟨n, fun _ hk => parse_more h hk⟩

theorem ev_unique {m : Mode} {ts : List Tok} {r r' : Ast × List Tok} (h : Ev m ts r) (h' : Ev m ts r') : r = r' := by
  obtain ⟨a, h⟩ := h
  obtain ⟨b, h'⟩ := h'
  have h1 := h (a + b) (by omega)
  have h2 := h' (a + b) (by omega)
  rw [h1] at h2
  exact Option.some.inj h2

/-- The first token of something which is read as a primary. -/
theorem primary_start {ts : List Tok} {r : Ast × List Tok} (h : Ev .primary ts r) :
    ts.head? ≠ some .minus ∧ ts.head? ≠ some .not_ := by
  obtain ⟨n, h⟩ := h
  have := h (n + 1) (by omega)
  cases ts with
  | nil => simp
  | cons t ts =>
    refine ⟨?_, ?_⟩ <;>
    · simp only [List.head?_cons, ne_eq, Option.some.injEq]
      rintro rfl
      simp [parse, parseStep] at this

/-- A primary at which an expression ends is the expression. -/
theorem ev_expr_primary {ts rest : List Tok} {a : Ast} (h : Ev .primary ts (a, rest)) (hs : 7 ≤ strength rest) :
    Ev .expr ts (a, rest) := by
  obtain ⟨h1, h2⟩ := primary_start h
  have hf : Ev .factor ts (a, rest) := by
    refine ev1 h (fun rec h3 => ?_)
    cases ts with
    | nil => exact h3
    | cons t ts => cases t <;> first | exact h3 | exact absurd rfl h1
  exact ev_expr (ev_or (ev_and (ev_not (ev_cmp (ev_arith (ev_term hf (by omega)) (by omega)) (by omega)) h2)
    (by omega)) (by omega)) hs

/-- The tokens are an expression. -/
def Ex (ts : List Tok) (a : Ast) : Prop := Ev .expr ts (a, [])

theorem Ex.toks {ts : List Tok} {a : Ast} (h : Ex ts a) : ExprToks ts a := exprToks_of_ev h

theorem Ex.of_rd {ts : List Tok} {a : Ast} (h : Rd ts a) : Ex ts a := by
  have := h.expr (rest := []) (by decide)
  rwa [List.append_nil] at this

theorem Ex.noAssign {ts : List Tok} {a : Ast} (h : Ex ts a) (n : Nat) (t : Ast) (r : List Tok) :
    parse n .primary ts ≠ some (t, .assign :: r) := by
  intro hp
  have h1 := ev_expr_primary (ev_of_parse hp) (by simp [strength])
  have h2 := ev_unique h h1
  cases h2

/-- Targets of an assignment. -/
inductive Targets : List (List Tok) → List Ast → Prop
  | nil : Targets [] []
  | cons {ts : List Tok} {t : Ast} {tss : List (List Tok)} {as : List Ast} : Pr ts t → isTarget t = true →
      Targets tss as → Targets (ts :: tss) (t :: as)

/-- The tokens of targets, each with its `=`. -/
def targetToks : List (List Tok) → List Tok
  | [] => []
  | ts :: tss => ts ++ .assign :: targetToks tss

theorem readAssign_of {us : List Tok} {e : Ast} (h : Ex us e) : ∀ {tss : List (List Tok)} {as : List Ast},
    Targets tss as → ∃ n0, ∀ n, n0 ≤ n → ∀ k, tss.length < k → ∀ acc,
      readAssign n k acc (targetToks tss ++ us) = some (.assign (acc ++ as) e)
  | _, _, .nil => by
    obtain ⟨n0, hn⟩ := h.toks
    refine ⟨n0, fun n hk k hlt acc => ?_⟩
    obtain ⟨k, rfl⟩ : ∃ j, k = j + 1 := ⟨k - 1, by simp at hlt; omega⟩
    simp only [targetToks, List.nil_append, readAssign, List.append_nil]
    cases hp : parse n .primary us with
    | none => simp only [hn n hk, Option.map_some]
    | some r =>
      obtain ⟨t, r⟩ := r
      have := h.noAssign n t
      cases r with
      | nil => simp only [hn n hk, Option.map_some]
      | cons x r =>
        cases x <;> first | exact absurd hp (this r) | simp only [hn n hk, Option.map_some]
  | _, _, .cons (ts := ts) (t := t) (tss := tss) (as := as) hp ht hr => by
    obtain ⟨n1, h1⟩ := hp.read (.assign :: (targetToks tss ++ us)) _ (ev_trailers_end (by simp [strength]))
    obtain ⟨n2, h2⟩ := readAssign_of h hr
    refine ⟨n1 + n2, fun n hk k hlt acc => ?_⟩
    obtain ⟨k, rfl⟩ : ∃ j, k = j + 1 := ⟨k - 1, by simp only [List.length_cons] at hlt; omega⟩
    have e1 : targetToks (ts :: tss) ++ us = ts ++ .assign :: (targetToks tss ++ us) := by
      simp [targetToks]
    rw [e1]
    simp only [readAssign, h1 n (by omega), ht, if_true]
    rw [h2 n (by omega) k (by simp only [List.length_cons] at hlt; omega)]
    simp

/-- What the statement readers look at first. -/
theorem pr_noKw {ts rest : List Tok} {a : Ast} (h : Pr ts a) : noKw (ts ++ rest) = true := by
  obtain ⟨t, l, rfl, h1, _⟩ := h.start
  cases t <;> first | rfl | cases h1

theorem simple_assign {us : List Tok} {e : Ast} (h : Ex us e) {ts : List Tok} {t : Ast} {tss : List (List Tok)}
    {as : List Ast} (ht : Targets (ts :: tss) (t :: as)) :
    SimpleToks (targetToks (ts :: tss) ++ us) (.assign (t :: as) e) := by
  cases ht with
  | cons hp ht hr =>
    obtain ⟨n1, h1⟩ := hp.read (.assign :: (targetToks tss ++ us)) _ (ev_trailers_end (by simp [strength]))
    obtain ⟨n2, h2⟩ := readAssign_of h hr
    refine ⟨n1 + n2 + tss.length + 1, fun n hk => ?_⟩
    have e1 : targetToks (ts :: tss) ++ us = ts ++ .assign :: (targetToks tss ++ us) := by
      simp [targetToks]
    rw [e1, readSimple_noKw (pr_noKw hp), h1 n (by omega)]
    simp only [ht, if_true, readValue]
    rw [h2 n (by omega) n (by omega)]
    simp

/-- `T = E`. -/
theorem simple_assign1 {ts us : List Tok} {t e : Ast} (ht : Pr ts t) (hi : isTarget t = true) (h : Ex us e) :
    SimpleToks (ts ++ .assign :: us) (.assign [t] e) := by
  have := simple_assign h (.cons ht hi .nil)
  simpa [targetToks] using this

/-- `T += E`. -/
theorem simple_add {ts us : List Tok} {t e : Ast} (ht : Pr ts t) (hi : isTarget t = true) (h : Ex us e) :
    SimpleToks (ts ++ .plus :: .assign :: us) (.aug .add t e) := by
  obtain ⟨n1, h1⟩ := ht.read (.plus :: .assign :: us) _ (ev_trailers_end (by simp [strength]))
  obtain ⟨n2, h2⟩ := h.toks
  refine ⟨n1 + n2, fun n hk => ?_⟩
  rw [readSimple_noKw (pr_noKw ht), h1 n (by omega)]
  simp only [hi, if_true, h2 n (by omega), Option.map_some]

/-- `T |= E`. -/
theorem simple_or {ts us : List Tok} {t e : Ast} (ht : Pr ts t) (hi : isTarget t = true) (h : Ex us e) :
    SimpleToks (ts ++ .bar :: .assign :: us) (.aug .or t e) := by
  obtain ⟨n1, h1⟩ := ht.read (.bar :: .assign :: us) _ (ev_trailers_end (by simp [strength]))
  obtain ⟨n2, h2⟩ := h.toks
  refine ⟨n1 + n2, fun n hk => ?_⟩
  rw [readSimple_noKw (pr_noKw ht), h1 n (by omega)]
  simp only [hi, if_true, h2 n (by omega), Option.map_some]

/-- An expression statement. -/
theorem simple_expr {ts : List Tok} {a : Ast} (h : Pr ts a) : SimpleToks ts (.expr a) := by
  obtain ⟨n1, h1⟩ := h.read [] _ (ev_trailers_end (by decide))
  obtain ⟨n2, h2⟩ := (Ex.of_rd h.rd).toks
  rw [List.append_nil] at h1
  refine ⟨n1 + n2, fun n hk => ?_⟩
  have := pr_noKw (rest := []) h
  rw [List.append_nil] at this
  rw [readSimple_noKw this, h1 n (by omega)]
  simp only [h2 n (by omega), Option.map_some]

theorem simple_ret {us : List Tok} {e : Ast} (h : Ex us e) : SimpleToks (.kw "return" :: us) (.ret e) := by
  obtain ⟨n2, h2⟩ := h.toks
  exact ⟨n2, fun n hk => by simp only [readSimple, h2 n hk, Option.map_some]⟩

theorem simple_yield {us : List Tok} {e : Ast} (h : Ex us e) : SimpleToks (.kw "yield" :: us) (.yield_ e) := by
  obtain ⟨n2, h2⟩ := h.toks
  exact ⟨n2, fun n hk => by simp only [readSimple, h2 n hk, Option.map_some]⟩

theorem simple_break : SimpleToks [.kw "break"] .brk := ⟨0, fun _ _ => rfl⟩

theorem simple_pass : SimpleToks [.kw "pass"] .pass := ⟨0, fun _ _ => rfl⟩

theorem simple_global {ts : List Tok} {ns : List String} (h : readNames ts = some ns) :
    SimpleToks (.kw "global" :: ts) (.global ns) :=
  ⟨0, fun _ _ => by simp only [readSimple, h, Option.map_some]⟩

/-- The trees are read as these statements. -/
def StmtsOf (ts : List Tree) (b : List Stmt) : Prop := ∃ n0, ∀ n, n0 ≤ n → readAll n ts = some b

theorem StmtsOf.nil : StmtsOf [] [] :=
  ⟨1, fun n hn => by
    obtain ⟨k, rfl⟩ : ∃ k, n = k + 1 := ⟨n - 1, by omega⟩
    rfl⟩

theorem StmtsOf.leaf {ts : List Tok} {s : Stmt} {rest : List Tree} {b : List Stmt} (h : SimpleToks ts s)
    (hr : StmtsOf rest b) : StmtsOf (.leaf ts :: rest) (s :: b) := by
  obtain ⟨n1, h1⟩ := h
  obtain ⟨n2, h2⟩ := hr
  refine ⟨n1 + n2 + 1, fun n hn => ?_⟩
  obtain ⟨k, rfl⟩ : ∃ k, n = k + 1 := ⟨n - 1, by omega⟩
  simp only [readAll, h1 k (by omega), Option.bind_some, h2 k (by omega), Option.map_some]

/-- No `elif` or `else` clause. -/
def noElse : List Tree → Bool
  | .block [.else_] _ :: _ => false
  | .block (.kw "elif" :: _) _ :: _ => false
  | _ => true

theorem readElse_none {n : Nat} {rec : List Tree → Option (List Stmt)} {ts : List Tree} (h : noElse ts = true) :
    readElse n rec ts = some ([], ts) := by
  unfold readElse
  split <;> first | rfl | simp [noElse] at h

/-- `elif` and `else` clauses. -/
def ElseOf (ts : List Tree) (b : List Stmt) (rest : List Tree) : Prop :=
  ∃ n0, ∀ n, n0 ≤ n → readElse n (readAll n) ts = some (b, rest)

theorem ElseOf.none {ts : List Tree} (h : noElse ts = true) : ElseOf ts [] ts := ⟨0, fun _ _ => readElse_none h⟩

theorem ElseOf.else_ {body rest : List Tree} {b : List Stmt} (h : StmtsOf body b) :
    ElseOf (.block [.else_] body :: rest) b rest := by
  obtain ⟨n1, h1⟩ := h
  exact ⟨n1, fun n hn => by simp only [readElse, h1 n hn, Option.map_some]⟩

theorem ElseOf.elif {us : List Tok} {c : Ast} {body more rest : List Tree} {a b : List Stmt} (hc : Ex us c)
    (h : StmtsOf body a) (hm : ElseOf more b rest) :
    ElseOf (.block (.kw "elif" :: us) body :: more) [.ite c a b] rest := by
  obtain ⟨n1, h1⟩ := hc.toks
  obtain ⟨n2, h2⟩ := h
  obtain ⟨n3, h3⟩ := hm
  exact ⟨n1 + n2 + n3, fun n hn => by
    simp only [readElse, h1 n (by omega), h2 n (by omega), h3 n (by omega), Option.bind_some, Option.map_some]⟩

theorem StmtsOf.ite {us : List Tok} {c : Ast} {body more rest : List Tree} {a b s : List Stmt} (hc : Ex us c)
    (h : StmtsOf body a) (he : ElseOf more b rest) (hr : StmtsOf rest s) :
    StmtsOf (.block (.if_ :: us) body :: more) (.ite c a b :: s) := by
  obtain ⟨n1, h1⟩ := hc.toks
  obtain ⟨n2, h2⟩ := h
  obtain ⟨n3, h3⟩ := he
  obtain ⟨n4, h4⟩ := hr
  refine ⟨n1 + n2 + n3 + n4 + 1, fun n hn => ?_⟩
  obtain ⟨k, rfl⟩ : ∃ k, n = k + 1 := ⟨n - 1, by omega⟩
  simp only [readAll, h1 k (by omega), h2 k (by omega), h3 k (by omega), h4 k (by omega), Option.bind_some,
    Option.map_some]

theorem StmtsOf.for_ {v : String} {us : List Tok} {it : Ast} {body rest : List Tree} {b s : List Stmt}
    (hv : isConstName v = false) (hi : Ex us it) (h : StmtsOf body b) (hr : StmtsOf rest s) :
    StmtsOf (.block (.for_ :: .name v :: .in_ :: us) body :: rest) (.for_ v it b :: s) := by
  obtain ⟨n1, h1⟩ := hi.toks
  obtain ⟨n2, h2⟩ := h
  obtain ⟨n4, h4⟩ := hr
  refine ⟨n1 + n2 + n4 + 1, fun n hn => ?_⟩
  obtain ⟨k, rfl⟩ : ∃ k, n = k + 1 := ⟨n - 1, by omega⟩
  simp only [readAll, hv, h1 k (by omega), h2 k (by omega), h4 k (by omega), Option.bind_some,
    Option.map_some, Bool.false_eq_true, if_false]

theorem StmtsOf.def_ {f : String} {ts : List Tok} {ps ks : List String} {body rest : List Tree} {b s : List Stmt}
    (hp : readParams ts = some (ps, ks)) (hd : (ps ++ ks).Nodup) (h : StmtsOf body b) (hr : StmtsOf rest s) :
    StmtsOf (.block (.kw "def" :: .name f :: .lpar :: ts) body :: rest) (.def_ f ps ks b :: s) := by
  obtain ⟨n2, h2⟩ := h
  obtain ⟨n4, h4⟩ := hr
  refine ⟨n2 + n4 + 1, fun n hn => ?_⟩
  obtain ⟨k, rfl⟩ : ∃ k, n = k + 1 := ⟨n - 1, by omega⟩
  simp only [readAll, hp, hd, h2 k (by omega), h4 k (by omega), Option.bind_some, Option.map_some, if_true]

theorem StmtsOf.class_ {c : String} {body rest : List Tree} {b s : List Stmt} (h : StmtsOf body b)
    (hr : StmtsOf rest s) : StmtsOf (.block [.kw "class", .name c] body :: rest) (.class_ c b :: s) := by
  obtain ⟨n2, h2⟩ := h
  obtain ⟨n4, h4⟩ := hr
  refine ⟨n2 + n4 + 1, fun n hn => ?_⟩
  obtain ⟨k, rfl⟩ : ∃ k, n = k + 1 := ⟨n - 1, by omega⟩
  simp only [readAll, h2 k (by omega), h4 k (by omega), Option.bind_some, Option.map_some]

theorem StmtsOf.try_ {us : List Tok} {e : Ast} {body hd rest : List Tree} {b h s : List Stmt} (hb : StmtsOf body b)
    (he : Ex us e) (hh : StmtsOf hd h) (hr : StmtsOf rest s) :
    StmtsOf (.block [.kw "try"] body :: .block (.kw "except" :: us) hd :: rest) (.try_ b e h :: s) := by
  obtain ⟨n1, h1⟩ := he.toks
  obtain ⟨n2, h2⟩ := hb
  obtain ⟨n3, h3⟩ := hh
  obtain ⟨n4, h4⟩ := hr
  refine ⟨n1 + n2 + n3 + n4 + 1, fun n hn => ?_⟩
  obtain ⟨k, rfl⟩ : ∃ k, n = k + 1 := ⟨n - 1, by omega⟩
  simp only [readAll, h1 k (by omega), h2 k (by omega), h3 k (by omega), h4 k (by omega), Option.bind_some,
    Option.map_some]

/-- The trees are read as these statements, whatever follows. -/
def Seg (ts : List Tree) (b : List Stmt) : Prop :=
  ∀ rest s, noElse rest = true → StmtsOf rest s → StmtsOf (ts ++ rest) (b ++ s)

theorem noElse_append {a b : List Tree} (ha : noElse a = true) (hb : noElse b = true) : noElse (a ++ b) = true := by
  cases a with
  | nil => exact hb
  | cons t a =>
    simp only [List.cons_append]
    unfold noElse at ha ⊢
    split <;> simp_all

theorem Seg.stmts {ts : List Tree} {b : List Stmt} (h : Seg ts b) : StmtsOf ts b := by
  have := h [] [] rfl .nil
  simpa using this

theorem Seg.nil : Seg [] [] := fun _ _ _ h => h

theorem Seg.append {as bs : List Tree} {a b : List Stmt} (ha : Seg as a) (hb : Seg bs b) (hn : noElse bs = true) :
    Seg (as ++ bs) (a ++ b) := by
  intro rest s hr h
  have := ha (bs ++ rest) (b ++ s) (noElse_append hn hr) (hb rest s hr h)
  simpa using this

theorem Seg.leaf {ts : List Tok} {x : Stmt} (h : SimpleToks ts x) : Seg [.leaf ts] [x] :=
  fun _ _ _ hr => .leaf h hr

theorem Seg.ite {us : List Tok} {c : Ast} {body : List Tree} {a : List Stmt} (hc : Ex us c) (h : StmtsOf body a) :
    Seg [.block (.if_ :: us) body] [.ite c a []] :=
  fun _ _ hn hr => .ite hc h (.none hn) hr

theorem Seg.iteElse {us : List Tok} {c : Ast} {body more : List Tree} {a b : List Stmt} (hc : Ex us c)
    (h : StmtsOf body a) (h' : StmtsOf more b) :
    Seg [.block (.if_ :: us) body, .block [.else_] more] [.ite c a b] :=
  fun _ _ _ hr => .ite hc h (.else_ h') hr

theorem Seg.iteElif {us vs : List Tok} {c d : Ast} {body more : List Tree} {a b : List Stmt} (hc : Ex us c)
    (h : StmtsOf body a) (hd : Ex vs d) (h' : StmtsOf more b) :
    Seg [.block (.if_ :: us) body, .block (.kw "elif" :: vs) more] [.ite c a [.ite d b []]] :=
  fun _ _ hn hr => .ite hc h (.elif hd h' (.none hn)) hr

theorem Seg.for_ {v : String} {us : List Tok} {it : Ast} {body : List Tree} {b : List Stmt}
    (hv : isConstName v = false) (hi : Ex us it) (h : StmtsOf body b) :
    Seg [.block (.for_ :: .name v :: .in_ :: us) body] [.for_ v it b] :=
  fun _ _ _ hr => .for_ hv hi h hr

theorem source_of {s : List Char} {ts : List Tree} {b : List Stmt} (h : Has s (flatAll 0 ts)) (hok : OkAll ts)
    (hb : StmtsOf ts b) : Source s b := ⟨ts, parseLines_of h hok, hb⟩

end Verif.Stmt
