import Verif.Text.Tree

/-!
# Text: rules of the parser
-/

set_option autoImplicit false

namespace Verif.Text

/-- With enough depth the parser returns `r`. -/
def Ev (m : Mode) (ts : List Tok) (r : Ast × List Tok) : Prop :=
  ∃ n0, ∀ n, n0 ≤ n → parse n m ts = some r

theorem ev0 {m : Mode} {ts : List Tok} {r : Ast × List Tok} (h : ∀ rec, parseStep rec m ts = some r) : Ev m ts r :=
  ⟨1, fun n hn => by
    obtain ⟨k, rfl⟩ : ∃ k, n = k + 1 := ⟨n - 1, by omega⟩
    exact h _⟩

theorem ev1 {m m1 : Mode} {ts t1 : List Tok} {r r1 : Ast × List Tok} (h1 : Ev m1 t1 r1)
    (h : ∀ rec : P, rec m1 t1 = some r1 → parseStep rec m ts = some r) : Ev m ts r := by
  obtain ⟨n1, h1⟩ := h1
  refine ⟨n1 + 1, fun n hn => ?_⟩
  obtain ⟨k, rfl⟩ : ∃ k, n = k + 1 := ⟨n - 1, by omega⟩
  exact h _ (h1 k (by omega))

theorem ev2 {m m1 m2 : Mode} {ts t1 t2 : List Tok} {r r1 r2 : Ast × List Tok} (h1 : Ev m1 t1 r1) (h2 : Ev m2 t2 r2)
    (h : ∀ rec : P, rec m1 t1 = some r1 → rec m2 t2 = some r2 → parseStep rec m ts = some r) : Ev m ts r := by
  obtain ⟨n1, h1⟩ := h1
  obtain ⟨n2, h2⟩ := h2
  refine ⟨n1 + n2 + 1, fun n hn => ?_⟩
  obtain ⟨k, rfl⟩ : ∃ k, n = k + 1 := ⟨n - 1, by omega⟩
  exact h _ (h1 k (by omega)) (h2 k (by omega))

theorem ev3 {m m1 m2 m3 : Mode} {ts t1 t2 t3 : List Tok} {r r1 r2 r3 : Ast × List Tok} (h1 : Ev m1 t1 r1)
    (h2 : Ev m2 t2 r2) (h3 : Ev m3 t3 r3)
    (h : ∀ rec : P, rec m1 t1 = some r1 → rec m2 t2 = some r2 → rec m3 t3 = some r3 →
      parseStep rec m ts = some r) : Ev m ts r := by
  obtain ⟨n1, h1⟩ := h1
  obtain ⟨n2, h2⟩ := h2
  obtain ⟨n3, h3⟩ := h3
  refine ⟨n1 + n2 + n3 + 1, fun n hn => ?_⟩
  obtain ⟨k, rfl⟩ : ∃ k, n = k + 1 := ⟨n - 1, by omega⟩
  exact h _ (h1 k (by omega)) (h2 k (by omega)) (h3 k (by omega))

/-- How tightly the next token binds to what is before it. -/
def strength : List Tok → Nat
  | .dot :: _ => 0
  | .lbr :: _ => 0
  | .lpar :: _ => 0
  | .star :: _ => 1
  | .slash :: _ => 1
  | .slash2 :: _ => 1
  | .percent :: _ => 1
  | .plus :: _ => 2
  | .minus :: _ => 2
  | .eqeq :: _ => 3
  | .ne :: _ => 3
  | .lt :: _ => 3
  | .le :: _ => 3
  | .gt :: _ => 3
  | .ge :: _ => 3
  | .is_ :: _ => 3
  | .in_ :: _ => 3
  | .not_ :: _ => 3
  | .and_ :: _ => 4
  | .or_ :: _ => 5
  | .if_ :: _ => 6
  | _ => 7

/-! ## Rules where nothing more follows -/

theorem ev_trailers_end {a : Ast} {rest : List Tok} (h : 1 ≤ strength rest) : Ev (.trailers a) rest (a, rest) := by
  refine ev0 (fun rec => ?_)
  cases rest with
  | nil => rfl
  | cons t ts => cases t <;> first | rfl | (simp [strength] at h)

theorem mulOp_none {rest : List Tok} (h : 2 ≤ strength rest) : mulOp rest = none := by
  cases rest with
  | nil => rfl
  | cons t ts => cases t <;> first | rfl | (simp [strength] at h)

theorem addOp_none {rest : List Tok} (h : 3 ≤ strength rest) : addOp rest = none := by
  cases rest with
  | nil => rfl
  | cons t ts => cases t <;> first | rfl | (simp [strength] at h)

theorem cmpOp_none {rest : List Tok} (h : 4 ≤ strength rest) : cmpOp rest = none := by
  cases rest with
  | nil => rfl
  | cons t ts => cases t <;> first | rfl | (simp [strength] at h)

theorem ev_termMore_end {a : Ast} {rest : List Tok} (h : 2 ≤ strength rest) : Ev (.termMore a) rest (a, rest) :=
  ev0 (fun rec => by simp only [parseStep, mulOp_none h])

theorem ev_arithMore_end {a : Ast} {rest : List Tok} (h : 3 ≤ strength rest) : Ev (.arithMore a) rest (a, rest) :=
  ev0 (fun rec => by simp only [parseStep, addOp_none h])

theorem ev_cmpMore_end {a : Ast} {ops : List Cmp} {bs : List Ast} {rest : List Tok} (h : 4 ≤ strength rest) :
    Ev (.cmpMore a ops bs) rest (mkCmp a ops bs, rest) :=
  ev0 (fun rec => by simp only [parseStep, cmpOp_none h])

theorem ev_andMore_end {acc : List Ast} {rest : List Tok} (h : 5 ≤ strength rest) :
    Ev (.andMore acc) rest (mkBool true acc, rest) := by
  refine ev0 (fun rec => ?_)
  cases rest with
  | nil => rfl
  | cons t ts => cases t <;> first | rfl | (simp [strength] at h)

theorem ev_orMore_end {acc : List Ast} {rest : List Tok} (h : 6 ≤ strength rest) :
    Ev (.orMore acc) rest (mkBool false acc, rest) := by
  refine ev0 (fun rec => ?_)
  cases rest with
  | nil => rfl
  | cons t ts => cases t <;> first | rfl | (simp [strength] at h)

/-! ## From level to level -/

theorem ev_term {ts rest : List Tok} {a : Ast} (h : Ev .factor ts (a, rest)) (hs : 2 ≤ strength rest) :
    Ev .term ts (a, rest) :=
  ev2 h (ev_termMore_end (a := a) hs) (fun rec h1 h2 => by simp only [parseStep, h1, Option.bind_some, h2])

theorem ev_arith {ts rest : List Tok} {a : Ast} (h : Ev .term ts (a, rest)) (hs : 3 ≤ strength rest) :
    Ev .arith ts (a, rest) :=
  ev2 h (ev_arithMore_end (a := a) hs) (fun rec h1 h2 => by simp only [parseStep, h1, Option.bind_some, h2])

theorem ev_cmp {ts rest : List Tok} {a : Ast} (h : Ev .arith ts (a, rest)) (hs : 4 ≤ strength rest) :
    Ev .cmp ts (a, rest) :=
  ev2 h (ev_cmpMore_end (a := a) (ops := []) (bs := []) hs) (fun rec h1 h2 => by simp only [parseStep, h1, Option.bind_some, h2]; rfl)

theorem ev_not {ts : List Tok} {r : Ast × List Tok} (h : Ev .cmp ts r) (hn : ts.head? ≠ some .not_) :
    Ev .not ts r := by
  refine ev1 h (fun rec h1 => ?_)
  cases ts with
  | nil => exact h1
  | cons t ts => cases t <;> first | exact h1 | exact absurd rfl hn

theorem ev_and {ts rest : List Tok} {a : Ast} (h : Ev .not ts (a, rest)) (hs : 5 ≤ strength rest) :
    Ev .and ts (a, rest) :=
  ev2 h (ev_andMore_end (acc := [a]) hs) (fun rec h1 h2 => by simp only [parseStep, h1, Option.bind_some, h2]; rfl)

theorem ev_or {ts rest : List Tok} {a : Ast} (h : Ev .and ts (a, rest)) (hs : 6 ≤ strength rest) :
    Ev .or ts (a, rest) :=
  ev2 h (ev_orMore_end (acc := [a]) hs) (fun rec h1 h2 => by simp only [parseStep, h1, Option.bind_some, h2]; rfl)

theorem ev_expr {ts rest : List Tok} {a : Ast} (h : Ev .or ts (a, rest)) (hs : 7 ≤ strength rest) :
    Ev .expr ts (a, rest) := by
  refine ev1 h (fun rec h1 => ?_)
  simp only [parseStep, h1, Option.bind_some]
  cases rest with
  | nil => rfl
  | cons t ts => cases t <;> first | rfl | (simp [strength] at hs)

/-! ## Readable parts -/

/-- Tokens with which an operand begins. -/
def startTok : Tok → Bool
  | .name _ => true
  | .num _ => true
  | .str _ => true
  | .lpar => true
  | .lbr => true
  | .lcu => true
  | .minus => true
  | _ => false

/-- Not a keyword argument. -/
def noAssign : List Tok → Bool
  | .name _ :: .assign :: _ => false
  | _ => true

/-- These tokens are read as this operand of operators. -/
structure Rd (ts : List Tok) (a : Ast) : Prop where
  start : ∃ t l, ts = t :: l ∧ startTok t = true
  noKw : ∀ rest, rest.head? ≠ some .assign → noAssign (ts ++ rest) = true
  read : ∀ rest, 1 ≤ strength rest → Ev .factor (ts ++ rest) (a, rest)

/-- These tokens are read as this expression, whatever lookups and calls follow. -/
structure Pr (ts : List Tok) (a : Ast) : Prop where
  start : ∃ t l, ts = t :: l ∧ startTok t = true ∧ t ≠ .minus
  noKw : ∀ rest, rest.head? ≠ some .assign → noAssign (ts ++ rest) = true
  read : ∀ rest r, Ev (.trailers a) rest r → Ev .primary (ts ++ rest) r

/-- Several parts. -/
inductive AllRd : List (List Tok) → List Ast → Prop
  | nil : AllRd [] []
  | cons {ts : List Tok} {a : Ast} {tss : List (List Tok)} {as : List Ast} : Rd ts a → AllRd tss as →
      AllRd (ts :: tss) (a :: as)

theorem Pr.rd {ts : List Tok} {a : Ast} (h : Pr ts a) : Rd ts a := by
  obtain ⟨t, l, rfl, h1, h2⟩ := h.start
  refine ⟨⟨t, l, rfl, h1⟩, h.noKw, fun rest hs => ?_⟩
  refine ev1 (h.read rest _ (ev_trailers_end hs)) (fun rec h3 => ?_)
  cases t <;> first | exact h3 | exact absurd rfl h2

namespace Rd
variable {ts : List Tok} {a : Ast} (h : Rd ts a)
include h

theorem notNot (rest : List Tok) : (ts ++ rest).head? ≠ some .not_ := by
  obtain ⟨t, l, rfl, h1⟩ := h.start
  simp only [List.cons_append, List.head?_cons, ne_eq, Option.some.injEq]
  rintro rfl
  cases h1

theorem term {rest : List Tok} (hs : 2 ≤ strength rest) : Ev .term (ts ++ rest) (a, rest) :=
  ev_term (h.read rest (by omega)) hs

theorem arith {rest : List Tok} (hs : 3 ≤ strength rest) : Ev .arith (ts ++ rest) (a, rest) :=
  ev_arith (h.term (by omega)) hs

theorem cmp {rest : List Tok} (hs : 4 ≤ strength rest) : Ev .cmp (ts ++ rest) (a, rest) :=
  ev_cmp (h.arith (by omega)) hs

theorem not {rest : List Tok} (hs : 4 ≤ strength rest) : Ev .not (ts ++ rest) (a, rest) :=
  ev_not (h.cmp hs) (h.notNot rest)

theorem and {rest : List Tok} (hs : 5 ≤ strength rest) : Ev .and (ts ++ rest) (a, rest) :=
  ev_and (h.not (by omega)) hs

theorem or {rest : List Tok} (hs : 6 ≤ strength rest) : Ev .or (ts ++ rest) (a, rest) :=
  ev_or (h.and (by omega)) hs

theorem expr {rest : List Tok} (hs : 7 ≤ strength rest) : Ev .expr (ts ++ rest) (a, rest) :=
  ev_expr (h.or (by omega)) hs

theorem ne_close (rest : List Tok) {t : Tok} (ht : startTok t = false) : expect t (ts ++ rest) = none := by
  obtain ⟨t', l, rfl, h1⟩ := h.start
  simp only [List.cons_append, expect]
  rw [if_neg]
  rintro rfl
  rw [h1] at ht
  cases ht

end Rd

/-! ## Atoms -/

theorem pr_name (s : String) : Pr [.name s] (.name s) where
  start := ⟨_, _, rfl, rfl, by simp⟩
  noKw := by
    intro rest h
    cases rest with
    | nil => rfl
    | cons t ts => cases t <;> first | rfl | exact absurd rfl h
  read := fun rest r h => ev1 h (fun rec h1 => h1)

theorem pr_num (n : Nat) : Pr [.num n] (.num n) where
  start := ⟨_, _, rfl, rfl, by simp⟩
  noKw := fun _ _ => rfl
  read := fun rest r h => ev1 h (fun rec h1 => h1)

theorem pr_str (s : List Char) : Pr [.str s] (.str s) where
  start := ⟨_, _, rfl, rfl, by simp⟩
  noKw := fun _ _ => rfl
  read := fun rest r h => ev1 h (fun rec h1 => h1)

theorem rd_neg {ts : List Tok} {a : Ast} (h : Rd ts a) : Rd (.minus :: ts) (.neg a) where
  start := ⟨_, _, rfl, rfl⟩
  noKw := fun _ _ => rfl
  read := fun rest hs => ev1 (h.read rest hs) (fun rec h1 => by
    simp only [List.cons_append, parseStep, h1, Option.bind_some])

/-- Something in round brackets. -/
theorem pr_paren {ts : List Tok} {a : Ast} (h : ∀ rest, Ev .paren (ts ++ rest) (a, rest)) :
    Pr (.lpar :: ts) a where
  start := ⟨_, _, rfl, rfl, by simp⟩
  noKw := fun _ _ => rfl
  read := fun rest r hr => ev2 (h rest) hr (fun rec h1 h2 => by
    simp only [List.cons_append, parseStep, h1, Option.bind_some, h2])

/-- Something in square brackets. -/
theorem pr_brack {ts : List Tok} {a : Ast} (h : ∀ rest, Ev .brack (ts ++ rest) (a, rest)) :
    Pr (.lbr :: ts) a where
  start := ⟨_, _, rfl, rfl, by simp⟩
  noKw := fun _ _ => rfl
  read := fun rest r hr => ev2 (h rest) hr (fun rec h1 h2 => by
    simp only [List.cons_append, parseStep, h1, Option.bind_some, h2])

/-- Something in braces. -/
theorem pr_brace {ts : List Tok} {a : Ast} (h : ∀ rest, Ev .brace (ts ++ rest) (a, rest)) :
    Pr (.lcu :: ts) a where
  start := ⟨_, _, rfl, rfl, by simp⟩
  noKw := fun _ _ => rfl
  read := fun rest r hr => ev2 (h rest) hr (fun rec h1 h2 => by
    simp only [List.cons_append, parseStep, h1, Option.bind_some, h2])

/-- An expression in round brackets; `h'` says that it is not empty. -/
theorem ev_paren {ts rest : List Tok} {a : Ast} (h : Ev .expr ts (a, .rpar :: rest)) (h' : ts.head? ≠ some .rpar) :
    Ev .paren ts (a, rest) := by
  refine ev1 h (fun rec h1 => ?_)
  cases ts with
  | nil => simp only [parseStep, h1, Option.bind_some]
  | cons t ts =>
    cases t <;> first | exact absurd rfl h' | (simp only [parseStep, h1, Option.bind_some])

theorem Rd.head {ts : List Tok} {a : Ast} (h : Rd ts a) (rest : List Tok) {t : Tok} (ht : startTok t = false) :
    (ts ++ rest).head? ≠ some t := by
  obtain ⟨t', l, rfl, h1⟩ := h.start
  simp only [List.cons_append, List.head?_cons, ne_eq, Option.some.injEq]
  rintro rfl
  rw [h1] at ht
  cases ht

/-! ## Lookups and calls -/

theorem pr_dot {ts : List Tok} {a : Ast} (h : Pr ts a) {s : String} (hs : isConstName s = false) :
    Pr (ts ++ [.dot, .name s]) (.attr a s) where
  start := by
    obtain ⟨t, l, rfl, h1, h2⟩ := h.start
    exact ⟨t, _, rfl, h1, h2⟩
  noKw := by
    intro rest _
    rw [List.append_assoc]
    exact h.noKw _ (by simp)
  read := by
    intro rest r hr
    rw [List.append_assoc]
    exact h.read _ _ (ev1 hr (fun rec h1 => by
      simp only [List.cons_append, List.nil_append, parseStep, hs, Bool.false_eq_true, if_false]
      exact h1))

theorem pr_sub {ts us : List Tok} {a b : Ast} (h : Pr ts a) (h' : Rd us b) :
    Pr (ts ++ .lbr :: (us ++ [.rbr])) (.sub a b) where
  start := by
    obtain ⟨t, l, rfl, h1, h2⟩ := h.start
    exact ⟨t, _, rfl, h1, h2⟩
  noKw := by
    intro rest _
    rw [List.append_assoc]
    exact h.noKw _ (by simp)
  read := by
    intro rest r hr
    rw [List.append_assoc]
    refine h.read _ _ (ev2 (h'.expr (rest := .rbr :: rest) (by simp [strength])) hr (fun rec h1 h2 => ?_))
    simp only [List.cons_append, List.append_assoc, List.nil_append, parseStep, h1, Option.bind_some, expect, if_true,
      h2]

/-- A call, given how its arguments are read. -/
theorem pr_call_of {ts us : List Tok} {a b : Ast} (h : Pr ts a)
    (h' : ∀ rest, Ev (.args a [] []) (us ++ rest) (b, rest)) : Pr (ts ++ .lpar :: us) b where
  start := by
    obtain ⟨t, l, rfl, h1, h2⟩ := h.start
    exact ⟨t, _, rfl, h1, h2⟩
  noKw := by
    intro rest _
    rw [List.append_assoc]
    exact h.noKw _ (by simp)
  read := by
    intro rest r hr
    rw [List.append_assoc]
    refine h.read _ _ (ev2 (h' rest) hr (fun rec h1 h2 => ?_))
    simp only [List.cons_append, parseStep, h1, Option.bind_some, h2]

theorem parse_args_pos (rec : P) {f : Ast} {acc : List Ast} {ts : List Tok} (h1 : noAssign ts = true)
    (h2 : ts.head? ≠ some .rpar) :
    parseStep rec (.args f acc []) ts = (rec .expr ts).bind fun (x, ts) =>
      match ts with
      | .for_ :: ts =>
        if acc.isEmpty then (rec (.comp .gen [x]) ts).bind fun (g, ts) => some (.call f [g] [], ts) else none
      | ts => rec (.argsMore f (acc ++ [x]) []) ts := by
  cases ts with
  | nil => rfl
  | cons t ts =>
    cases t <;> try rfl
    · cases ts with
      | nil => rfl
      | cons t' ts => cases t' <;> first | rfl | (simp [noAssign] at h1)
    · exact absurd rfl h2

/-- Positional arguments, and how the rest is read. -/
theorem ev_args_pos {f : Ast} {tss : List (List Tok)} {as : List Ast} (h : AllRd tss as) : ∀ (acc : List Ast)
    (more : List (List Tok)) (rest : List Tok) (r : Ast × List Tok),
    (more = [] → r = (.call f (acc ++ as) [], rest)) →
    (more ≠ [] → Ev (.args f (acc ++ as) []) (sepBy [.comma] more ++ .rpar :: rest) r) →
    Ev (.args f acc []) (sepBy [.comma] (tss ++ more) ++ .rpar :: rest) r := by
  induction h with
  | nil =>
    intro acc more rest r h1 h2
    cases more with
    | nil =>
      rw [h1 rfl]
      refine ev0 (fun rec => ?_)
      simp only [List.append_nil, sepBy, List.nil_append, parseStep]
    | cons m ms => simpa using h2 (by simp)
  | @cons ts a tss as h ht ih =>
    intro acc more rest r h1 h2
    cases hm : tss ++ more with
    | nil =>
      obtain ⟨rfl, rfl⟩ := List.append_eq_nil_iff.1 hm
      cases ht
      rw [h1 rfl]
      simp only [List.append_nil, sepBy]
      have he := h.expr (rest := .rpar :: rest) (by simp [strength])
      have hx : Ev (.argsMore f (acc ++ [a]) []) (.rpar :: rest) (.call f (acc ++ [a]) [], rest) :=
        ev0 (fun rec => rfl)
      refine ev2 he hx (fun rec e1 e2 => ?_)
      rw [parse_args_pos rec (h.noKw _ (by simp)) (h.head _ rfl), e1]
      exact e2
    | cons m ms =>
      have e : sepBy [.comma] (ts :: tss ++ more) = ts ++ .comma :: sepBy [.comma] (tss ++ more) := by
        rw [List.cons_append, hm, sepBy]
        simp
      rw [e]
      simp only [List.append_assoc, List.cons_append]
      have he := h.expr (rest := .comma :: (sepBy [.comma] (tss ++ more) ++ .rpar :: rest)) (by simp [strength])
      have hi := ih (acc ++ [a]) more rest r (by simpa using h1) (by simpa using h2)
      have hx : Ev (.argsMore f (acc ++ [a]) []) (.comma :: (sepBy [.comma] (tss ++ more) ++ .rpar :: rest)) r :=
        ev1 hi (fun rec e => e)
      refine ev2 he hx (fun rec e1 e2 => ?_)
      rw [parse_args_pos rec (h.noKw _ (by simp)) (h.head _ rfl), e1]
      exact e2

/-- Keyword arguments. -/
theorem ev_args_kw {f : Ast} {tss : List (List Tok)} {as : List Ast} (h : AllRd tss as) : ∀ (acc : List Ast)
    (kws kw : List String) (rest : List Tok), kw.length = tss.length → (kws ++ kw).Nodup →
    (∀ k ∈ kw, isConstName k = false) → (tss ≠ []) →
    Ev (.args f acc kws) (sepBy [.comma] (List.zipWith (fun k t => .name k :: .assign :: t) kw tss) ++ .rpar :: rest)
      (.call f (acc ++ as) (kws ++ kw), rest) := by
  induction h with
  | nil => intro _ _ _ _ _ _ _ h; exact absurd rfl h
  | @cons ts a tss as h ht ih =>
    intro acc kws kw rest hl hn hc _
    cases kw with
    | nil => simp at hl
    | cons k kw =>
      have hk : k ∉ kws := by
        intro hk
        rw [List.nodup_append] at hn
        exact hn.2.2 k hk k (by simp) rfl
      have hp : ∀ (rec : P) (us : List Tok) (x : Ast) (rest' : List Tok), rec .expr us = some (x, rest') →
          parseStep rec (.args f acc kws) (.name k :: .assign :: us) =
            rec (.argsMore f (acc ++ [x]) (kws ++ [k])) rest' := by
        intro rec us x rest' e
        simp only [parseStep, e, hc k (by simp), Bool.false_or, decide_eq_true_eq, if_neg hk, Option.bind_some]
      cases ht with
      | nil =>
        have : kw = [] := by simpa using hl
        subst this
        simp only [List.zipWith_cons_cons, List.zipWith_nil_left, sepBy, List.cons_append]
        have he := h.expr (rest := .rpar :: rest) (by simp [strength])
        have hx : Ev (.argsMore f (acc ++ [a]) (kws ++ [k])) (.rpar :: rest)
            (.call f (acc ++ [a]) (kws ++ [k]), rest) := ev0 (fun rec => rfl)
        refine ev2 he hx (fun rec e1 e2 => ?_)
        rw [hp rec _ _ _ e1]
        exact e2
      | @cons ts' a' tss' as' h' ht' =>
        cases kw with
        | nil => simp at hl
        | cons k' kw =>
          have hi := ih (acc ++ [a]) (kws ++ [k]) (k' :: kw) rest (by simpa using hl) (by simpa using hn)
            (fun x hx => hc x (List.mem_cons_of_mem _ hx)) (by simp)
          simp only [List.zipWith_cons_cons, sepBy, List.cons_append, List.append_assoc, List.nil_append] at hi ⊢
          have he := h.expr (rest := .comma :: (sepBy [.comma] ((.name k' :: .assign :: ts') ::
            List.zipWith (fun k t => .name k :: .assign :: t) kw tss') ++ .rpar :: rest)) (by simp [strength])
          have hx : Ev (.argsMore f (acc ++ [a]) (kws ++ [k])) (.comma :: (sepBy [.comma] ((.name k' :: .assign :: ts') ::
            List.zipWith (fun k t => .name k :: .assign :: t) kw tss') ++ .rpar :: rest))
            (.call f (acc ++ (a :: a' :: as')) (kws ++ (k :: k' :: kw)), rest) := ev1 hi (fun rec e => e)
          refine ev2 he hx (fun rec e1 e2 => ?_)
          rw [hp rec _ _ _ e1]
          exact e2

theorem AllRd.length {tss : List (List Tok)} {as : List Ast} (h : AllRd tss as) : tss.length = as.length := by
  induction h with
  | nil => rfl
  | cons _ _ ih => simp [ih]

theorem AllRd.take {tss : List (List Tok)} {as : List Ast} (h : AllRd tss as) : ∀ n : Nat,
    AllRd (tss.take n) (as.take n) := by
  induction h with
  | nil => intro n; simp only [List.take_nil]; exact .nil
  | cons h1 h2 ih =>
    intro n
    cases n with
    | zero => exact .nil
    | succ n => exact .cons h1 (ih n)

theorem AllRd.drop {tss : List (List Tok)} {as : List Ast} (h : AllRd tss as) : ∀ n : Nat,
    AllRd (tss.drop n) (as.drop n) := by
  induction h with
  | nil => intro n; simp only [List.drop_nil]; exact .nil
  | cons h1 h2 ih =>
    intro n
    cases n with
    | zero => exact .cons h1 h2
    | succ n => exact ih n

/-- A call. -/
theorem pr_call {ts : List Tok} {a : Ast} (h : Pr ts a) {tss : List (List Tok)} {as : List Ast} (hs : AllRd tss as)
    {kw : List String} (hl : kw.length ≤ tss.length) (hn : kw.Nodup) (hc : ∀ k ∈ kw, isConstName k = false) :
    Pr (ts ++ .lpar :: (sepBy [.comma] (kwToks kw tss) ++ [.rpar])) (.call a as kw) := by
  refine pr_call_of h (fun rest => ?_)
  simp only [List.append_assoc, List.cons_append, List.nil_append, kwToks]
  refine ev_args_pos (hs.take _) [] _ rest _ ?_ ?_
  · intro he
    have : kw = [] := by
      cases kw with
      | nil => rfl
      | cons k kw =>
        exfalso
        have h1 := congrArg List.length he
        simp only [List.length_zipWith, List.length_drop, List.length_nil, List.length_cons] at h1 hl
        omega
    subst this
    simp only [List.length_nil, Nat.sub_zero, hs.length, List.take_length, List.nil_append]
  · intro he
    have h0 : tss.drop (tss.length - kw.length) ≠ [] := by
      intro h0
      rw [h0] at he
      exact he (by simp)
    have h1 := ev_args_kw (f := a) (hs.drop (tss.length - kw.length)) (as.take (tss.length - kw.length)) [] kw rest
      (by simp only [List.length_drop]; omega) (by simpa using hn) hc h0
    simpa using h1

theorem kwToks_nil (tss : List (List Tok)) : kwToks [] tss = tss := by
  simp [kwToks]

/-- A call without keyword arguments. -/
theorem pr_call' {ts : List Tok} {a : Ast} (h : Pr ts a) {tss : List (List Tok)} {as : List Ast} (hs : AllRd tss as) :
    Pr (ts ++ .lpar :: (sepBy [.comma] tss ++ [.rpar])) (.call a as []) := by
  have := pr_call h hs (kw := []) (by simp) (by simp) (by simp)
  rwa [kwToks_nil] at this

/-! ## Operators -/

theorem ev_andMore {tss : List (List Tok)} {as : List Ast} (h : AllRd tss as) : ∀ (acc : List Ast) (rest : List Tok),
    5 ≤ strength rest → Ev (.andMore acc) (tss.flatMap (.and_ :: ·) ++ rest) (mkBool true (acc ++ as), rest) := by
  induction h with
  | nil =>
    intro acc rest hs
    simpa using ev_andMore_end hs
  | @cons ts a tss as h ht ih =>
    intro acc rest hs
    have hi := ih (acc ++ [a]) rest hs
    have hr : 4 ≤ strength (tss.flatMap (.and_ :: ·) ++ rest) := by
      cases tss with
      | nil => simp only [List.flatMap_nil, List.nil_append]; omega
      | cons x xs => simp [strength]
    refine ev2 (h.not hr) hi (fun rec h1 h2 => ?_)
    simp only [List.flatMap_cons, List.cons_append, List.append_assoc, parseStep, h1, Option.bind_some, h2,
      List.nil_append]

theorem ev_orMore {tss : List (List Tok)} {as : List Ast} (h : AllRd tss as) : ∀ (acc : List Ast) (rest : List Tok),
    6 ≤ strength rest → Ev (.orMore acc) (tss.flatMap (.or_ :: ·) ++ rest) (mkBool false (acc ++ as), rest) := by
  induction h with
  | nil =>
    intro acc rest hs
    simpa using ev_orMore_end hs
  | @cons ts a tss as h ht ih =>
    intro acc rest hs
    have hi := ih (acc ++ [a]) rest hs
    have hr : 5 ≤ strength (tss.flatMap (.or_ :: ·) ++ rest) := by
      cases tss with
      | nil => simp only [List.flatMap_nil, List.nil_append]; omega
      | cons x xs => simp [strength]
    refine ev2 (h.and hr) hi (fun rec h1 h2 => ?_)
    simp only [List.flatMap_cons, List.cons_append, List.append_assoc, parseStep, h1, Option.bind_some, h2,
      List.nil_append]

theorem ev_eqMore {tss : List (List Tok)} {as : List Ast} (h : AllRd tss as) : ∀ (a : Ast) (ops : List Cmp)
    (bs : List Ast) (rest : List Tok), 4 ≤ strength rest →
    Ev (.cmpMore a ops bs) (tss.flatMap (.eqeq :: ·) ++ rest)
      (mkCmp a (ops ++ as.map (fun _ => .eq)) (bs ++ as), rest) := by
  induction h with
  | nil =>
    intro a ops bs rest hs
    simpa using ev_cmpMore_end hs
  | @cons ts b tss as h ht ih =>
    intro a ops bs rest hs
    have hi := ih a (ops ++ [.eq]) (bs ++ [b]) rest hs
    have hr : 3 ≤ strength (tss.flatMap (.eqeq :: ·) ++ rest) := by
      cases tss with
      | nil => simp only [List.flatMap_nil, List.nil_append]; omega
      | cons x xs => simp [strength]
    refine ev2 (h.arith hr) hi (fun rec h1 h2 => ?_)
    simp only [List.flatMap_cons, List.cons_append, List.append_assoc, parseStep, cmpOp, h1, Option.bind_some, h2,
      List.nil_append, List.map_cons]

theorem sepBy_cons (t : Tok) (x : List Tok) (xs : List (List Tok)) :
    sepBy [t] (x :: xs) = x ++ xs.flatMap (t :: ·) := by
  induction xs generalizing x with
  | nil => simp [sepBy]
  | cons y ys ih => rw [sepBy, ih]; simp

theorem strength_flat {t : Tok} {n : Nat} (xs : List (List Tok)) (rest : List Tok) (h : n ≤ strength [t])
    (h' : n ≤ strength rest) (ht : ∀ l, strength (t :: l) = strength [t]) :
    n ≤ strength (xs.flatMap (t :: ·) ++ rest) := by
  cases xs with
  | nil => simpa using h'
  | cons x xs => simp only [List.flatMap_cons, List.cons_append]; rw [ht]; exact h

theorem pr_and {ts ts' : List Tok} {a a' : Ast} {tss : List (List Tok)} {as : List Ast} (h : Rd ts a)
    (h' : AllRd (ts' :: tss) (a' :: as)) :
    Pr (.lpar :: (sepBy [.and_] (ts :: ts' :: tss) ++ [.rpar])) (.bool true (a :: a' :: as)) := by
  refine pr_paren (fun rest => ?_)
  rw [sepBy_cons]
  simp only [List.append_assoc, List.cons_append, List.nil_append]
  have h0 := h.not (rest := (ts' :: tss).flatMap (.and_ :: ·) ++ .rpar :: rest) (by simp [strength])
  have h1 := ev_andMore h' [a] (.rpar :: rest) (by simp [strength])
  have h2 : Ev .and (ts ++ ((ts' :: tss).flatMap (.and_ :: ·) ++ .rpar :: rest))
      (.bool true (a :: a' :: as), .rpar :: rest) :=
    ev2 h0 h1 (fun rec e1 e2 => by simp only [parseStep, e1, Option.bind_some, e2]; rfl)
  exact ev_paren (ev_expr (ev_or h2 (by simp [strength])) (by simp [strength])) (h.head _ rfl)

theorem pr_or {ts ts' : List Tok} {a a' : Ast} {tss : List (List Tok)} {as : List Ast} (h : Rd ts a)
    (h' : AllRd (ts' :: tss) (a' :: as)) :
    Pr (.lpar :: (sepBy [.or_] (ts :: ts' :: tss) ++ [.rpar])) (.bool false (a :: a' :: as)) := by
  refine pr_paren (fun rest => ?_)
  rw [sepBy_cons]
  simp only [List.append_assoc, List.cons_append, List.nil_append]
  have h0 := h.and (rest := (ts' :: tss).flatMap (.or_ :: ·) ++ .rpar :: rest) (by simp [strength])
  have h1 := ev_orMore h' [a] (.rpar :: rest) (by simp [strength])
  have h2 : Ev .or (ts ++ ((ts' :: tss).flatMap (.or_ :: ·) ++ .rpar :: rest))
      (.bool false (a :: a' :: as), .rpar :: rest) :=
    ev2 h0 h1 (fun rec e1 e2 => by simp only [parseStep, e1, Option.bind_some, e2]; rfl)
  exact ev_paren (ev_expr h2 (by simp [strength])) (h.head _ rfl)

theorem pr_attach {ts us : List Tok} {a b : Ast} (h : Rd ts a) (h' : Rd us b) :
    Pr (.lpar :: (ts ++ .and_ :: .name "None" :: .or_ :: (us ++ [.rpar])))
      (.bool false [.bool true [a, .name "None"], b]) := by
  refine pr_paren (fun rest => ?_)
  simp only [List.append_assoc, List.cons_append, List.nil_append]
  have hN := (pr_name "None").rd
  have h0 := h.not (rest := .and_ :: .name "None" :: .or_ :: (us ++ .rpar :: rest)) (by simp [strength])
  have h1 := ev_andMore (.cons hN .nil) [a] (.or_ :: (us ++ .rpar :: rest)) (by simp [strength])
  have h2 : Ev .and (ts ++ .and_ :: .name "None" :: .or_ :: (us ++ .rpar :: rest))
      (.bool true [a, .name "None"], .or_ :: (us ++ .rpar :: rest)) :=
    ev2 h0 h1 (fun rec e1 e2 => by
      simp only [parseStep, e1, Option.bind_some]
      exact e2)
  have h3 := ev_orMore (.cons h' .nil) [.bool true [a, .name "None"]] (.rpar :: rest) (by simp [strength])
  have h4 : Ev .or (ts ++ .and_ :: .name "None" :: .or_ :: (us ++ .rpar :: rest))
      (.bool false [.bool true [a, .name "None"], b], .rpar :: rest) :=
    ev2 h2 h3 (fun rec e1 e2 => by
      simp only [parseStep, e1, Option.bind_some]
      simpa [mkBool] using e2)
  exact ev_paren (ev_expr h4 (by simp [strength])) (h.head _ rfl)

/-- From comparisons to brackets. -/
theorem pr_of_cmp {ts us : List Tok} {a b : Ast} (h : Rd ts a)
    (h' : ∀ rest, Ev .cmp (ts ++ (us ++ .rpar :: rest)) (b, .rpar :: rest)) :
    Pr (.lpar :: (ts ++ (us ++ [.rpar]))) b := by
  refine pr_paren (fun rest => ?_)
  simp only [List.append_assoc, List.cons_append, List.nil_append]
  exact ev_paren (ev_expr (ev_or (ev_and (ev_not (h' rest) (h.notNot _)) (by simp [strength])) (by simp [strength]))
    (by simp [strength])) (h.head _ rfl)

theorem pr_eqs {ts ts' : List Tok} {a a' : Ast} {tss : List (List Tok)} {as : List Ast} (h : Rd ts a)
    (h' : AllRd (ts' :: tss) (a' :: as)) :
    Pr (.lpar :: (sepBy [.eqeq] (ts :: ts' :: tss) ++ [.rpar]))
      (.cmp a ((a' :: as).map (fun _ => .eq)) (a' :: as)) := by
  rw [sepBy_cons, List.append_assoc]
  refine pr_of_cmp h (fun rest => ?_)
  have h0 := h.arith (rest := (ts' :: tss).flatMap (.eqeq :: ·) ++ .rpar :: rest) (by simp [strength])
  have h1 := ev_eqMore h' a [] [] (.rpar :: rest) (by simp [strength])
  exact ev2 h0 h1 (fun rec e1 e2 => by simp only [parseStep, e1, Option.bind_some, e2]; rfl)

theorem pr_cmp {ts us ot : List Tok} {a b : Ast} {o : Cmp} (h : Rd ts a) (h' : Rd us b)
    (ho : ∀ rest, cmpOp (ot ++ (us ++ rest)) = some (o, us ++ rest)) (hs : ∀ l, 3 ≤ strength (ot ++ l)) :
    Pr (.lpar :: (ts ++ ot ++ (us ++ [.rpar]))) (.cmp a [o] [b]) := by
  have := pr_of_cmp (us := ot ++ us) (b := .cmp a [o] [b]) h (fun rest => by
    simp only [List.append_assoc]
    have h0 := h.arith (rest := ot ++ (us ++ .rpar :: rest)) (hs _)
    have h1 := h'.arith (rest := .rpar :: rest) (by simp [strength])
    have h2 : Ev (.cmpMore a [o] [b]) (.rpar :: rest) (.cmp a [o] [b], .rpar :: rest) :=
      ev_cmpMore_end (by simp [strength])
    have h3 : Ev (.cmpMore a [] []) (ot ++ (us ++ .rpar :: rest)) (.cmp a [o] [b], .rpar :: rest) :=
      ev2 h1 h2 (fun rec e1 e2 => by
        simp only [parseStep, ho, e1, Option.bind_some]
        exact e2)
    exact ev2 h0 h3 (fun rec e1 e2 => by simp only [parseStep, e1, Option.bind_some, e2]))
  simpa using this

theorem pr_add {ts us : List Tok} {a b : Ast} {t : Tok} {o : Arith} (h : Rd ts a) (h' : Rd us b)
    (ho : ∀ rest, addOp (t :: rest) = some (o, rest)) (hs : ∀ l, strength (t :: l) = 2) :
    Pr (.lpar :: (ts ++ [t] ++ (us ++ [.rpar]))) (.bin o a b) := by
  have := pr_of_cmp (us := t :: us) (b := .bin o a b) h (fun rest => by
    simp only [List.cons_append]
    have h0 := h.term (rest := t :: (us ++ .rpar :: rest)) (by rw [hs]; omega)
    have h1 := h'.term (rest := .rpar :: rest) (by simp [strength])
    have h2 : Ev (.arithMore (.bin o a b)) (.rpar :: rest) (.bin o a b, .rpar :: rest) :=
      ev_arithMore_end (by simp [strength])
    have h3 : Ev (.arithMore a) (t :: (us ++ .rpar :: rest)) (.bin o a b, .rpar :: rest) :=
      ev2 h1 h2 (fun rec e1 e2 => by simp only [parseStep, ho, e1, Option.bind_some, e2])
    exact ev_cmp (ev2 h0 h3 (fun rec e1 e2 => by simp only [parseStep, e1, Option.bind_some, e2]))
      (by simp [strength]))
  simpa using this

theorem pr_mul {ts us : List Tok} {a b : Ast} {t : Tok} {o : Arith} (h : Rd ts a) (h' : Rd us b)
    (ho : ∀ rest, mulOp (t :: rest) = some (o, rest)) (hs : ∀ l, strength (t :: l) = 1) :
    Pr (.lpar :: (ts ++ [t] ++ (us ++ [.rpar]))) (.bin o a b) := by
  have := pr_of_cmp (us := t :: us) (b := .bin o a b) h (fun rest => by
    simp only [List.cons_append]
    have h0 := h.read (t :: (us ++ .rpar :: rest)) (by rw [hs]; omega)
    have h1 := h'.read (.rpar :: rest) (by simp [strength])
    have h2 : Ev (.termMore (.bin o a b)) (.rpar :: rest) (.bin o a b, .rpar :: rest) :=
      ev_termMore_end (by simp [strength])
    have h3 : Ev (.termMore a) (t :: (us ++ .rpar :: rest)) (.bin o a b, .rpar :: rest) :=
      ev2 h1 h2 (fun rec e1 e2 => by simp only [parseStep, ho, e1, Option.bind_some, e2])
    exact ev_cmp (ev_arith (ev2 h0 h3 (fun rec e1 e2 => by simp only [parseStep, e1, Option.bind_some, e2]))
      (by simp [strength])) (by simp [strength]))
  simpa using this

/-- An operand in brackets. -/
theorem pr_group {ts : List Tok} {a : Ast} (h : Rd ts a) : Pr (.lpar :: (ts ++ [.rpar])) a := by
  refine pr_paren (fun rest => ?_)
  simp only [List.append_assoc, List.cons_append, List.nil_append]
  exact ev_paren (h.expr (by simp [strength])) (h.head _ rfl)

theorem pr_not {ts : List Tok} {a : Ast} (h : Rd ts a) : Pr (.lpar :: .not_ :: (ts ++ [.rpar])) (.not a) := by
  refine pr_paren (fun rest => ?_)
  simp only [List.append_assoc, List.cons_append, List.nil_append]
  have h0 := h.not (rest := .rpar :: rest) (by simp [strength])
  have h1 : Ev .not (.not_ :: (ts ++ .rpar :: rest)) (.not a, .rpar :: rest) :=
    ev1 h0 (fun rec e1 => by simp only [parseStep, e1, Option.bind_some])
  exact ev_paren (ev_expr (ev_or (ev_and h1 (by simp [strength])) (by simp [strength])) (by simp [strength]))
    (by simp)

theorem pr_ifexp {ts us vs : List Tok} {a b c : Ast} (h : Rd ts a) (h' : Rd us b) (h'' : Rd vs c) :
    Pr (.lpar :: (ts ++ .if_ :: (us ++ .else_ :: (vs ++ [.rpar])))) (.ifexp a b c) := by
  refine pr_paren (fun rest => ?_)
  simp only [List.append_assoc, List.cons_append, List.nil_append]
  refine ev_paren (ev3 (h.or (rest := .if_ :: (us ++ .else_ :: (vs ++ .rpar :: rest))) (by simp [strength]))
    (h'.or (rest := .else_ :: (vs ++ .rpar :: rest)) (by simp [strength]))
    (h''.expr (rest := .rpar :: rest) (by simp [strength])) (fun rec e1 e2 e3 => ?_)) (h.head _ rfl)
  simp only [parseStep, e1, e2, e3, Option.bind_some, expect, if_true]

/-! ## Displays -/

/-- The rest of a tuple, list or set after a comma. -/
theorem ev_items {k : Shape} {tss : List (List Tok)} {as : List Ast} (h : AllRd tss as) (tl : List Tok)
    (htl : tl = [] ∨ tl = [.comma]) : ∀ (acc : List Ast) (rest : List Tok), tss ≠ [] →
    Ev (.items k acc) (sepBy [.comma] tss ++ (tl ++ k.close :: rest)) (.display k (acc ++ as), rest) := by
  have hk : startTok k.close = false := by cases k <;> rfl
  have hc : expect k.close [Tok.comma] = none := by cases k <;> rfl
  have hend : ∀ acc rest, Ev (.items k acc) (k.close :: rest) (.display k acc, rest) := fun acc rest =>
    ev0 (fun rec => by simp only [parseStep, expect, if_true])
  have hnext : ∀ (rec : P) acc rest, itemsNext rec k acc (k.close :: rest) = some (.display k acc, rest) := by
    intro rec acc rest
    cases k <;> simp [itemsNext, expect, Shape.close]
  induction h with
  | nil => intro _ _ h; exact absurd rfl h
  | @cons ts a tss as h ht ih =>
    intro acc rest _
    cases ht with
    | nil =>
      simp only [sepBy]
      rcases htl with rfl | rfl
      · refine ev1 (h.expr (rest := k.close :: rest) (by cases k <;> simp [strength, Shape.close]))
          (fun rec e1 => ?_)
        simp only [List.nil_append, parseStep, h.ne_close _ hk, e1, Option.bind_some, hnext]
      · refine ev2 (h.expr (rest := .comma :: k.close :: rest) (by simp [strength])) (hend (acc ++ [a]) rest)
          (fun rec e1 e2 => ?_)
        simp only [List.cons_append, List.nil_append, parseStep, h.ne_close _ hk, e1, Option.bind_some, itemsNext, e2]
    | @cons ts' a' tss' as' h' ht' =>
      have hi := ih (acc ++ [a]) rest (by simp)
      simp only [sepBy, List.append_assoc, List.cons_append, List.nil_append]
      refine ev2 (h.expr (rest := .comma :: (sepBy [.comma] (ts' :: tss') ++ (tl ++ k.close :: rest)))
        (by simp [strength])) hi (fun rec e1 e2 => ?_)
      simp only [parseStep, h.ne_close _ hk, e1, Option.bind_some, itemsNext, e2]
      simp

/-- What follows the first item of a tuple, list or set. -/
def tailOf (tss : List (List Tok)) (tl : List Tok) : List Tok :=
  match tss with
  | [] => tl
  | _ => .comma :: (sepBy [.comma] tss ++ tl)

theorem sepBy_tail (ts : List Tok) (tss : List (List Tok)) (tl : List Tok) :
    sepBy [.comma] (ts :: tss) ++ tl = ts ++ tailOf tss tl := by
  cases tss with
  | nil => rfl
  | cons t tss => simp [sepBy, tailOf]

theorem tailOf_append (tss : List (List Tok)) (tl rest : List Tok) : tailOf tss tl ++ rest = tailOf tss (tl ++ rest) := by
  cases tss <;> simp [tailOf]

/-- What is read after the first item. -/
theorem ev_tail {k : Shape} {tss : List (List Tok)} {as : List Ast} (h : AllRd tss as) {tl : List Tok}
    (htl : tl = [] ∨ tl = [.comma]) (a : Ast) (rest : List Tok) :
    ∃ n0, ∀ n, n0 ≤ n →
      itemsNext (parse n) k [a] (tailOf tss (tl ++ k.close :: rest)) = some (.display k (a :: as), rest) := by
  have hend : Ev (.items k [a]) (k.close :: rest) (.display k [a], rest) :=
    ev0 (fun rec => by simp only [parseStep, expect, if_true])
  cases h with
  | nil =>
    rcases htl with rfl | rfl
    · refine ⟨0, fun n _ => ?_⟩
      cases k <;> simp [tailOf, itemsNext, expect, Shape.close]
    · obtain ⟨n0, hn⟩ := hend
      exact ⟨n0, fun n h => hn n h⟩
  | cons h1 h2 =>
    obtain ⟨n0, hn⟩ := ev_items (k := k) (.cons h1 h2) tl htl [a] rest (by simp)
    exact ⟨n0, fun n h => hn n h⟩

theorem tail_strength {k : Shape} (tss : List (List Tok)) {tl : List Tok} (htl : tl = [] ∨ tl = [.comma])
    (rest : List Tok) : 7 ≤ strength (tailOf tss (tl ++ k.close :: rest)) := by
  cases tss with
  | nil => rcases htl with rfl | rfl <;> cases k <;> simp [tailOf, strength, Shape.close]
  | cons _ _ => simp [tailOf, strength]

theorem tail_head {k : Shape} (tss : List (List Tok)) {tl : List Tok} (htl : tl = [] ∨ tl = [.comma])
    (rest : List Tok) : ∃ t l, tailOf tss (tl ++ k.close :: rest) = t :: l ∧ (t = .comma ∨ (t = k.close ∧ tss = [] ∧ tl = [])) := by
  cases tss with
  | nil =>
    rcases htl with rfl | rfl
    · exact ⟨_, _, rfl, .inr ⟨rfl, rfl, rfl⟩⟩
    · exact ⟨_, _, rfl, .inl rfl⟩
  | cons _ _ => exact ⟨_, _, rfl, .inl rfl⟩

theorem pr_list {tss : List (List Tok)} {as : List Ast} (h : AllRd tss as) :
    Pr (.lbr :: (sepBy [.comma] tss ++ [.rbr])) (.display .list as) := by
  refine pr_brack (fun rest => ?_)
  cases h with
  | nil => exact ev0 (fun rec => rfl)
  | @cons ts a tss as h ht =>
    rw [sepBy_tail, List.append_assoc, tailOf_append, show [Tok.rbr] ++ rest = [] ++ Shape.close .list :: rest from rfl]
    obtain ⟨n0, hn⟩ := ev_tail (k := .list) ht (.inl rfl) a rest
    obtain ⟨n1, hn1⟩ := h.expr (tail_strength (k := .list) tss (.inl rfl) rest)
    obtain ⟨t, l, hl, hc⟩ := tail_head (k := .list) tss (.inl rfl) rest
    refine ⟨n0 + n1 + 1, fun n hn' => ?_⟩
    obtain ⟨m, rfl⟩ : ∃ m, n = m + 1 := ⟨n - 1, by omega⟩
    have e1 := hn1 m (by omega)
    have e2 := hn m (by omega)
    have e0 := h.ne_close (tailOf tss ([] ++ Shape.close .list :: rest)) (t := .rbr) rfl
    obtain ⟨t0, l0, h0, hs0⟩ := h.start
    rw [hl] at e1 e2 ⊢
    simp only [parse]
    subst h0
    have : parseStep (parse m) .brack (t0 :: l0 ++ t :: l) = itemsNext (parse m) .list [a] (t :: l) := by
      simp only [List.cons_append] at e1 ⊢
      simp only [Shape.close] at hc
      rcases hc with rfl | ⟨rfl, _⟩ <;> cases t0 <;>
        first | (simp [startTok] at hs0; done) | simp only [parseStep, e1, Option.bind_some, Shape.close]
    rw [this, e2]

theorem pr_tuple {ts : List Tok} {a : Ast} {tss : List (List Tok)} {as : List Ast} (h : Rd ts a) (ht : AllRd tss as)
    {tl : List Tok} (htl : tl = [.comma] ∨ (tl = [] ∧ tss ≠ [])) :
    Pr (.lpar :: (sepBy [.comma] (ts :: tss) ++ (tl ++ [.rpar]))) (.display .tuple (a :: as)) := by
  refine pr_paren (fun rest => ?_)
  have htl' : tl = [] ∨ tl = [.comma] := htl.elim .inr (fun h => .inl h.1)
  rw [sepBy_tail, List.append_assoc, tailOf_append, List.append_assoc,
    show [Tok.rpar] ++ rest = Shape.close .tuple :: rest from rfl]
  obtain ⟨n0, hn⟩ := ev_tail (k := .tuple) ht htl' a rest
  obtain ⟨n1, hn1⟩ := h.expr (tail_strength (k := .tuple) tss htl' rest)
  obtain ⟨t, l, hl, hc⟩ := tail_head (k := .tuple) tss htl' rest
  have hc' : t = .comma := by
    rcases hc with rfl | ⟨_, rfl, rfl⟩
    · rfl
    · simp at htl
  refine ⟨n0 + n1 + 1, fun n hn' => ?_⟩
  obtain ⟨m, rfl⟩ : ∃ m, n = m + 1 := ⟨n - 1, by omega⟩
  have e1 := hn1 m (by omega)
  have e2 := hn m (by omega)
  obtain ⟨t0, l0, h0, hs0⟩ := h.start
  rw [hl] at e1 e2 ⊢
  simp only [parse]
  subst h0 hc'
  have : parseStep (parse m) .paren (t0 :: l0 ++ .comma :: l) = itemsNext (parse m) .tuple [a] (.comma :: l) := by
    simp only [List.cons_append] at e1 ⊢
    cases t0 <;>
      first | (simp [startTok] at hs0; done) | simp only [parseStep, e1, Option.bind_some]
  rw [this, e2]

theorem pr_set {ts : List Tok} {a : Ast} {tss : List (List Tok)} {as : List Ast} (h : Rd ts a) (ht : AllRd tss as) :
    Pr (.lcu :: (sepBy [.comma] (ts :: tss) ++ [.rcu])) (.display .set (a :: as)) := by
  refine pr_brace (fun rest => ?_)
  rw [sepBy_tail, List.append_assoc, tailOf_append, show [Tok.rcu] ++ rest = [] ++ Shape.close .set :: rest from rfl]
  obtain ⟨n0, hn⟩ := ev_tail (k := .set) ht (.inl rfl) a rest
  obtain ⟨n1, hn1⟩ := h.expr (tail_strength (k := .set) tss (.inl rfl) rest)
  obtain ⟨t, l, hl, hc⟩ := tail_head (k := .set) tss (.inl rfl) rest
  refine ⟨n0 + n1 + 1, fun n hn' => ?_⟩
  obtain ⟨m, rfl⟩ : ∃ m, n = m + 1 := ⟨n - 1, by omega⟩
  have e1 := hn1 m (by omega)
  have e2 := hn m (by omega)
  obtain ⟨t0, l0, h0, hs0⟩ := h.start
  rw [hl] at e1 e2 ⊢
  simp only [parse]
  subst h0
  have : parseStep (parse m) .brace (t0 :: l0 ++ t :: l) = itemsNext (parse m) .set [a] (t :: l) := by
    simp only [List.cons_append] at e1 ⊢
    simp only [Shape.close] at hc
    rcases hc with rfl | ⟨rfl, _⟩ <;> cases t0 <;>
      first | (simp [startTok] at hs0; done) | simp only [parseStep, e1, Option.bind_some, Shape.close]
  rw [this, e2]

/-- Pairs of a dict. -/
inductive AllPairs : List (List Tok) → List Ast → Prop
  | nil : AllPairs [] []
  | cons {ks vs : List Tok} {k v : Ast} {tss : List (List Tok)} {as : List Ast} : Rd ks k → Rd vs v →
      AllPairs tss as → AllPairs ((ks ++ .colon :: vs) :: tss) (k :: v :: as)

theorem ev_pairs {tss : List (List Tok)} {as : List Ast} (h : AllPairs tss as) : ∀ (acc : List Ast) (rest : List Tok),
    tss ≠ [] → Ev (.pairs acc) (sepBy [.comma] tss ++ .rcu :: rest) (.display .dict (acc ++ as), rest) := by
  have hp : ∀ (rec : P) (acc : List Ast) (ts : List Tok), ts.head? ≠ some .rcu → parseStep rec (.pairs acc) ts =
      ((rec .expr ts).bind fun (a, ts) => (expect .colon ts).bind fun ts =>
        (rec .expr ts).bind fun (b, ts) => pairsNext rec (acc ++ [a, b]) ts) := by
    intro rec acc ts h
    cases ts with
    | nil => rfl
    | cons t ts => cases t <;> first | rfl | exact absurd rfl h
  induction h with
  | nil => intro _ _ h; exact absurd rfl h
  | @cons ks vs k v tss as h1 h2 ht ih =>
    intro acc rest _
    cases ht with
    | nil =>
      simp only [sepBy, List.append_assoc, List.cons_append]
      refine ev2 (h1.expr (rest := .colon :: (vs ++ .rcu :: rest)) (by simp [strength]))
        (h2.expr (rest := .rcu :: rest) (by simp [strength])) (fun rec e1 e2 => ?_)
      rw [hp _ _ _ (h1.head _ rfl)]
      simp only [e1, e2, Option.bind_some, expect, if_true, pairsNext]
    | @cons ks' vs' k' v' tss' as' h1' h2' ht' =>
      have hi := ih (acc ++ [k, v]) rest (by simp)
      rw [sepBy]
      simp only [List.append_assoc, List.cons_append, List.nil_append]
      refine ev3 (h1.expr (rest := .colon :: (vs ++ .comma :: (sepBy [.comma] ((ks' ++ .colon :: vs') :: tss') ++
        .rcu :: rest))) (by simp [strength]))
        (h2.expr (rest := .comma :: (sepBy [.comma] ((ks' ++ .colon :: vs') :: tss') ++ .rcu :: rest))
          (by simp [strength])) hi (fun rec e1 e2 e3 => ?_)
      rw [hp _ _ _ (h1.head _ rfl)]
      simp only [e1, e2, Option.bind_some, expect, if_true, pairsNext, e3]
      simp

theorem pr_dict {tss : List (List Tok)} {as : List Ast} (h : AllPairs tss as) :
    Pr (.lcu :: (sepBy [.comma] tss ++ [.rcu])) (.display .dict as) := by
  refine pr_brace (fun rest => ?_)
  simp only [List.append_assoc, List.cons_append, List.nil_append]
  have hp : ∀ (rec : P) (ts rest : List Tok) (a : Ast), ts.head? ≠ some .rcu → rec .expr ts = some (a, .colon :: rest) →
      parseStep rec .brace ts = ((rec .expr rest).bind fun (b, ts) =>
            match ts with
            | .for_ :: ts => rec (.comp .dict [a, b]) ts
            | ts => pairsNext rec [a, b] ts) := by
    intro rec ts rest a h h1
    cases ts with
    | nil => simp only [parseStep, h1, Option.bind_some]; rfl
    | cons t ts => cases t <;> first | exact absurd rfl h | (simp only [parseStep, h1, Option.bind_some]; rfl)
  cases h with
  | nil => exact ev0 (fun rec => rfl)
  | @cons ks vs k v tss as h1 h2 ht =>
    cases ht with
    | nil =>
      simp only [sepBy, List.append_assoc, List.cons_append]
      refine ev2 (h1.expr (rest := .colon :: (vs ++ .rcu :: rest)) (by simp [strength]))
        (h2.expr (rest := .rcu :: rest) (by simp [strength])) (fun rec e1 e2 => ?_)
      rw [hp _ _ _ _ (h1.head _ rfl) e1]
      simp only [e2, Option.bind_some, pairsNext]
    | @cons ks' vs' k' v' tss' as' h1' h2' ht' =>
      have hi := ev_pairs (.cons h1' h2' ht') [k, v] rest (by simp)
      rw [sepBy]
      simp only [List.append_assoc, List.cons_append, List.nil_append]
      refine ev3 (h1.expr (rest := .colon :: (vs ++ .comma :: (sepBy [.comma] ((ks' ++ .colon :: vs') :: tss') ++
        .rcu :: rest))) (by simp [strength]))
        (h2.expr (rest := .comma :: (sepBy [.comma] ((ks' ++ .colon :: vs') :: tss') ++ .rcu :: rest))
          (by simp [strength])) hi (fun rec e1 e2 e3 => ?_)
      rw [hp _ _ _ _ (h1.head _ rfl) e1]
      simp only [e2, Option.bind_some, pairsNext, e3]
      simp

/-! ## Comprehensions -/

/-- `for v in it if c`. -/
def forToks (v : String) (it : List Tok) (c : Option (List Tok)) : List Tok :=
  .for_ :: .name v :: .in_ :: (it ++ match c with
    | none => []
    | some c => .if_ :: c)

theorem ev_comp (k : Shape) (elt : List Ast) {v : String} (hv : isConstName v = false) {it : List Tok} {i : Ast} (h : Rd it i) (rest : List Tok) :
    Ev (.comp k elt) (.name v :: .in_ :: (it ++ k.close :: rest)) (.comp k elt v i [], rest) := by
  refine ev1 (h.or (rest := k.close :: rest) (by cases k <;> simp [strength, Shape.close])) (fun rec e => ?_)
  cases k <;> simp only [Shape.close] at e ⊢ <;> simp [parseStep, hv, e, Shape.close, expect]

theorem ev_comp_if (k : Shape) (elt : List Ast) {v : String} (hv : isConstName v = false) {it cs : List Tok} {i c : Ast} (h : Rd it i)
    (hc : Rd cs c) (rest : List Tok) :
    Ev (.comp k elt) (.name v :: .in_ :: (it ++ .if_ :: (cs ++ k.close :: rest))) (.comp k elt v i [c], rest) := by
  refine ev2 (h.or (rest := .if_ :: (cs ++ k.close :: rest)) (by simp [strength]))
    (hc.or (rest := k.close :: rest) (by cases k <;> simp [strength, Shape.close])) (fun rec e1 e2 => ?_)
  cases k <;> simp only [Shape.close] at e1 e2 ⊢ <;> simp [parseStep, hv, e1, e2, Shape.close, expect]

/-- The part after the element of a comprehension. -/
structure For (k : Shape) (us : List Tok) (v : String) (i : Ast) (cond : List Ast) : Prop where
  read : ∀ elt rest, Ev (.comp k elt) (us ++ k.close :: rest) (.comp k elt v i cond, rest)

theorem pr_listcomp {ts us : List Tok} {a i : Ast} {v : String} {c : List Ast} (h : Rd ts a) (hf : For .list us v i c) :
    Pr (.lbr :: (ts ++ .for_ :: us ++ [.rbr])) (.comp .list [a] v i c) := by
  refine pr_brack (fun rest => ?_)
  simp only [List.append_assoc, List.cons_append, List.nil_append]
  refine ev2 (h.expr (rest := .for_ :: (us ++ .rbr :: rest)) (by simp [strength])) (hf.read [a] rest)
    (fun rec e1 e2 => ?_)
  obtain ⟨t0, l0, rfl, hs0⟩ := h.start
  simp only [List.cons_append, Shape.close] at e1 e2 ⊢
  cases t0 <;> first | (simp [startTok] at hs0; done) | simp only [parseStep, e1, e2, Option.bind_some]

theorem pr_gencomp {ts us : List Tok} {a i : Ast} {v : String} {c : List Ast} (h : Rd ts a) (hf : For .gen us v i c) :
    Pr (.lpar :: (ts ++ .for_ :: us ++ [.rpar])) (.comp .gen [a] v i c) := by
  refine pr_paren (fun rest => ?_)
  simp only [List.append_assoc, List.cons_append, List.nil_append]
  refine ev2 (h.expr (rest := .for_ :: (us ++ .rpar :: rest)) (by simp [strength])) (hf.read [a] rest)
    (fun rec e1 e2 => ?_)
  obtain ⟨t0, l0, rfl, hs0⟩ := h.start
  simp only [List.cons_append, Shape.close] at e1 e2 ⊢
  cases t0 <;> first | (simp [startTok] at hs0; done) | simp only [parseStep, e1, e2, Option.bind_some]

theorem pr_setcomp {ts us : List Tok} {a i : Ast} {v : String} {c : List Ast} (h : Rd ts a) (hf : For .set us v i c) :
    Pr (.lcu :: (ts ++ .for_ :: us ++ [.rcu])) (.comp .set [a] v i c) := by
  refine pr_brace (fun rest => ?_)
  simp only [List.append_assoc, List.cons_append, List.nil_append]
  refine ev2 (h.expr (rest := .for_ :: (us ++ .rcu :: rest)) (by simp [strength])) (hf.read [a] rest)
    (fun rec e1 e2 => ?_)
  obtain ⟨t0, l0, rfl, hs0⟩ := h.start
  simp only [List.cons_append, Shape.close] at e1 e2 ⊢
  cases t0 <;> first | (simp [startTok] at hs0; done) | simp only [parseStep, e1, e2, Option.bind_some]

theorem pr_dictcomp {ts ts' us : List Tok} {a b i : Ast} {v : String} {c : List Ast} (h : Rd ts a) (h' : Rd ts' b)
    (hf : For .dict us v i c) :
    Pr (.lcu :: (ts ++ .colon :: ts' ++ .for_ :: us ++ [.rcu])) (.comp .dict [a, b] v i c) := by
  refine pr_brace (fun rest => ?_)
  simp only [List.append_assoc, List.cons_append, List.nil_append]
  refine ev3 (h.expr (rest := .colon :: (ts' ++ .for_ :: (us ++ .rcu :: rest))) (by simp [strength]))
    (h'.expr (rest := .for_ :: (us ++ .rcu :: rest)) (by simp [strength])) (hf.read [a, b] rest)
    (fun rec e1 e2 e3 => ?_)
  obtain ⟨t0, l0, rfl, hs0⟩ := h.start
  simp only [List.cons_append, Shape.close] at e1 e2 e3 ⊢
  cases t0 <;> first | (simp [startTok] at hs0; done) | simp only [parseStep, e1, e2, e3, Option.bind_some]

/-- `f(x for …)`. -/
theorem pr_callgen {fs ts us : List Tok} {f a i : Ast} {v : String} {c : List Ast} (hf' : Pr fs f) (h : Rd ts a)
    (hf : For .gen us v i c) :
    Pr (fs ++ .lpar :: (ts ++ .for_ :: us ++ [.rpar])) (.call f [.comp .gen [a] v i c] []) := by
  refine pr_call_of hf' (fun rest => ?_)
  simp only [List.append_assoc, List.cons_append, List.nil_append]
  refine ev2 (h.expr (rest := .for_ :: (us ++ .rpar :: rest)) (by simp [strength])) (hf.read [a] rest)
    (fun rec e1 e2 => ?_)
  rw [parse_args_pos rec (h.noKw _ (by simp)) (h.head _ rfl), e1]
  simp only [Shape.close] at e2
  simp only [Option.bind_some, e2, List.isEmpty_nil, if_true]

end Verif.Text
