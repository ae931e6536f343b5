import Verif.Stmt.TemplateRead

/-!
# Stmt: the statements of the reducers

Nothing here is code of the repository.
-/

set_option autoImplicit false

namespace Verif.Stmt

open Verif.Text Verif.Agg

/-! ## Checking templates -/

mutual

/-- `Tree.Ok`, computed. -/
def Tree.okB : Tree → Bool
  | .leaf ts => !decide (ts.getLast? = some .colon)
  | .block _ body => !body.isEmpty && okAllB body

/-- The same for all. -/
def okAllB : List Tree → Bool
  | [] => true
  | t :: ts => t.okB && okAllB ts

end

/-- The statements of a template, with names in the place of codes. -/
def ckTemplate (σ : Fill) (ss : List String) : Option (List Tree × List Stmt) :=
  (partsAll (if ss.isEmpty then ["pass"] else ss)).bind fun ps => (linesParts ps).bind fun ls =>
    match forest ls.length 0 ls with
    | some (ts, []) =>
      if !ps.isEmpty && decide (flatAll 0 ts = ls) && okAllB ts && !ts.isEmpty then (ckAll σ 20 ts).map (ts, ·) else none
    | _ => none

theorem fill_last {σ : Fill} (hσ : Fills σ) {ts : List Tok} (h : ts.getLast? ≠ some .colon) :
    (fill σ ts).getLast? ≠ some .colon := by
  rcases List.eq_nil_or_concat ts with rfl | ⟨us, t, rfl⟩
  · exact h
  · rw [List.concat_eq_append] at h ⊢
    rw [fill_append]
    have h1 : t ≠ .colon := by
      rintro rfl
      simp at h
    cases t with
    | name x =>
      have e : fill σ [.name x] = fillTok σ (.name x) := by simp [fill]
      rw [e]
      simp only [fillTok]
      cases hx : σ x with
      | none => simp
      | some p =>
        obtain ⟨vs, a, b⟩ := p
        have := (Ex.of_rd (hσ x vs a b hx).1).last
        simp only
        rw [List.getLast?_append]
        cases hl : vs.getLast? with
        | none => exact absurd (List.getLast?_eq_none_iff.1 hl) this.1
        | some t =>
          rw [hl] at this
          simpa using this.2
    | _ => simpa [fill, fillTok] using h1

mutual

theorem fill_ok {σ : Fill} (hσ : Fills σ) : ∀ (t : Tree), t.okB = true → (fillTree σ t).Ok
  | .leaf ts, h => by
    simp only [Tree.okB, Bool.not_eq_true', decide_eq_false_iff_not] at h
    exact fill_last hσ h
  | .block hd body, h => by
    simp only [Tree.okB, Bool.and_eq_true, Bool.not_eq_true', List.isEmpty_eq_false_iff] at h
    refine ⟨?_, fill_okAll hσ body h.2⟩
    cases body with
    | nil => exact absurd rfl h.1
    | cons t b => simp [fillTrees]

theorem fill_okAll {σ : Fill} (hσ : Fills σ) : ∀ (ts : List Tree), okAllB ts = true → OkAll (fillTrees σ ts)
  | [], _ => trivial
  | t :: ts, h => by
    simp only [okAllB, Bool.and_eq_true] at h
    exact ⟨fill_ok hσ t h.1, fill_okAll hσ ts h.2⟩

end

/-- A formatted template consists of its statements. -/
theorem template_part {σ : Fill} {var : List Char} {args : List (List Char)} (hσ : Fills σ) (hp : Puts var args σ)
    (ht : ∀ ts a b, σ resPh = some (ts, a, b) → isTarget a = true) (hb : noBrace var = true)
    (hv : startsOk var = true) {ss : List String} {ts : List Tree} {b : List Stmt} (h : ckTemplate σ ss = some (ts, b))
    {s : List Char} (hs : formatStatements var ss args = some s) : Part 0 s (fillTrees σ ts) (fillSs σ b) := by
  simp only [ckTemplate, Option.bind_eq_some_iff] at h
  obtain ⟨ps, h1, ls, h2, h3⟩ := h
  cases hf : forest ls.length 0 ls with
  | none => rw [hf] at h3; cases h3
  | some r =>
    obtain ⟨us, r⟩ := r
    rw [hf] at h3
    cases r with
    | cons x r => cases h3
    | nil =>
      simp only at h3
      split at h3
      · next hc =>
        simp only [Bool.and_eq_true, decide_eq_true_eq, Bool.not_eq_true', List.isEmpty_eq_false_iff] at hc
        simp only [Option.map_eq_some_iff, Prod.mk.injEq] at h3
        obtain ⟨b', h4, rfl, rfl⟩ := h3
        rw [formatStatements_eq hb args h1, Option.map_eq_some_iff] at hs
        obtain ⟨xs, h5, rfl⟩ := hs
        refine ⟨?_, fill_okAll hσ us hc.1.2, ?_, ckAll_seg hσ ht 20 us b' h4, fill_noElse hσ ht 20 us b' h4⟩
        · rw [fillTrees_flat, hc.1.1.2]
          exact has_lines hp hv ps ls xs h2 h5 hc.1.1.1
        · cases us with
          | nil => exact absurd rfl hc.2
          | cons t us => simp [fillTrees]
      · cases h3

/-! ## The check does not depend on the codes -/

/-- The same names stand for codes, and the same ones may be followed by lookups. -/
def SameMask (σ τ : Fill) : Prop := ∀ x, (σ x).map (·.2.2) = (τ x).map (·.2.2)

section
variable {σ τ : Fill} (h : SameMask σ τ)
include h

theorem mask_isNone (x : String) : (σ x).isNone = (τ x).isNone := by
  have := h x
  cases hs : σ x <;> cases ht : τ x <;> simp_all

theorem mask_noPh (ts : List Tok) : noPh σ ts = noPh τ ts := by
  unfold noPh
  split
  · exact mask_isNone h _
  · rfl

theorem mask_noPhKw (ts : List Tok) : noPhKw σ ts = noPhKw τ ts := by
  unfold noPhKw
  split
  · exact mask_isNone h _
  · rfl

theorem mask_okNext (t : Tok) (ts : List Tok) : okNext σ t ts = okNext τ t ts := by
  unfold okNext
  rw [mask_noPh h, mask_noPhKw h]
  cases t with
  | name x =>
    simp only
    have := h x
    cases hs : σ x with
    | none =>
      cases ht : τ x with
      | none => rfl
      | some q => rw [hs, ht] at this; cases this
    | some p =>
      cases ht : τ x with
      | none => rw [hs, ht] at this; cases this
      | some q =>
        obtain ⟨a, b, c⟩ := p
        obtain ⟨a', b', c'⟩ := q
        rw [hs, ht] at this
        simp only [Option.map_some, Option.some.injEq] at this
        subst this
        cases c <;> rfl
  | _ => rfl

theorem mask_safe : ∀ ts : List Tok, safe σ ts = safe τ ts
  | [] => rfl
  | t :: ts => by simp only [safe, mask_okNext h, mask_safe ts]

theorem mask_pre (ts : List Tok) : pre σ .primary ts = pre τ .primary ts := by
  cases ts with
  | nil => rfl
  | cons t ts =>
    cases t with
    | name x =>
      simp only [pre]
      have := h x
      cases hs : σ x with
      | none =>
        cases ht : τ x with
        | none => rfl
        | some q => rw [hs, ht] at this; cases this
      | some p =>
        cases ht : τ x with
        | none => rw [hs, ht] at this; cases this
        | some q =>
          obtain ⟨a, b, c⟩ := p
          obtain ⟨a', b', c'⟩ := q
          rw [hs, ht] at this
          simp only [Option.map_some, Option.some.injEq] at this
          subst this
          cases c <;> rfl
    | _ => rfl

theorem mask_ckExpr (ts : List Tok) : ckExpr σ ts = ckExpr τ ts := by simp only [ckExpr, mask_safe h]

theorem mask_ckTarget (a : Ast) : ckTarget σ a = ckTarget τ a := by
  cases a with
  | name x => simp only [ckTarget, mask_isNone h]
  | _ => rfl

theorem mask_ckAssign : ∀ (k : Nat) (ts : List Tok), ckAssign σ k ts = ckAssign τ k ts
  | 0, _ => rfl
  | k + 1, ts => by
    simp only [ckAssign, mask_safe h, mask_pre h, mask_ckTarget h, mask_ckExpr h, mask_ckAssign k]

theorem mask_ckLeaf (ts : List Tok) : ckLeaf σ ts = ckLeaf τ ts := by
  simp only [ckLeaf, mask_safe h, mask_pre h, mask_ckTarget h, mask_ckExpr h, mask_ckAssign h]

mutual

theorem mask_ckAll : ∀ (n : Nat) (ts : List Tree), ckAll σ n ts = ckAll τ n ts
  | 0, _ => rfl
  | n + 1, ts => by
    cases ts with
    | nil => rfl
    | cons t ts =>
      cases t with
      | leaf us => simp only [ckAll, mask_ckLeaf h, mask_ckAll n]
      | block hd body =>
        cases hd with
        | nil => rfl
        | cons x hd =>
          cases x <;> first | rfl | simp only [ckAll, mask_ckExpr h, mask_ckAll n, mask_ckElse n]

theorem mask_ckElse : ∀ (n : Nat) (ts : List Tree), ckElse σ n ts = ckElse τ n ts
  | 0, _ => rfl
  | n + 1, ts => by
    unfold ckElse
    split
    · next hn => cases hn
    · next hn =>
      cases hn
      simp only [mask_ckAll n]
    · next hn =>
      cases hn
      simp only [mask_ckExpr h, mask_ckAll n, mask_ckElse n]
    · rfl

end

theorem mask_ckTemplate (ss : List String) : ckTemplate σ ss = ckTemplate τ ss := by
  simp only [ckTemplate, mask_ckAll h]

end

/-- The codes of a variable and of arguments. -/
def codeFill (var : List Tok × Ast) (args : List (List Tok × Ast × Bool)) : Fill := fun x =>
  if x = resPh then some (var.1, var.2, true)
  else if x = argPh 0 then args[0]?
  else if x = argPh 1 then args[1]?
  else if x = argPh 2 then args[2]?
  else none

/-- Placeholders for arguments, with which templates are checked. -/
def maskFill (bs : List Bool) : Fill := codeFill ([], .num 0) (bs.map fun b => ([], .num 0, b))

theorem sameMask_codeFill (var : List Tok × Ast) (args : List (List Tok × Ast × Bool)) :
    SameMask (codeFill var args) (maskFill (args.map (·.2.2))) := by
  intro x
  unfold maskFill codeFill
  split
  · rfl
  split
  · cases args <;> rfl
  split
  · rcases args with _ | ⟨_, _ | ⟨_, _⟩⟩ <;> rfl
  split
  · rcases args with _ | ⟨_, _ | ⟨_, _ | ⟨_, _⟩⟩⟩ <;> rfl
  · rfl

/-! ## Comparing statements -/

mutual

/-- Equality of the statements of templates; `false` for other statements. -/
def Stmt.eqB : Stmt → Stmt → Bool
  | .assign ts e, .assign us f => decide (ts = us) && decide (e = f)
  | .aug o t e, .aug p u f => decide (o = p) && decide (t = u) && decide (e = f)
  | .expr e, .expr f => decide (e = f)
  | .pass, .pass => true
  | .ite c a b, .ite d x y => decide (c = d) && stmtsEqB a x && stmtsEqB b y
  | _, _ => false

/-- The same for lists. -/
def stmtsEqB : List Stmt → List Stmt → Bool
  | [], [] => true
  | s :: ss, t :: ts => s.eqB t && stmtsEqB ss ts
  | _, _ => false

end

mutual

theorem Stmt.eq_of_eqB : ∀ {s t : Stmt}, s.eqB t = true → s = t
  | .assign _ _, .assign _ _, h => by
    simp only [Stmt.eqB, Bool.and_eq_true, decide_eq_true_eq] at h
    rw [h.1, h.2]
  | .aug _ _ _, .aug _ _ _, h => by
    simp only [Stmt.eqB, Bool.and_eq_true, decide_eq_true_eq] at h
    rw [h.1.1, h.1.2, h.2]
  | .expr _, .expr _, h => by
    simp only [Stmt.eqB, decide_eq_true_eq] at h
    rw [h]
  | .pass, .pass, _ => rfl
  | .ite _ _ _, .ite _ _ _, h => by
    simp only [Stmt.eqB, Bool.and_eq_true, decide_eq_true_eq] at h
    rw [h.1.1, stmts_eq_of_eqB h.1.2, stmts_eq_of_eqB h.2]

theorem stmts_eq_of_eqB : ∀ {ss ts : List Stmt}, stmtsEqB ss ts = true → ss = ts
  | [], [], _ => rfl
  | s :: ss, t :: ts, h => by
    simp only [stmtsEqB, Bool.and_eq_true] at h
    rw [Stmt.eq_of_eqB h.1, stmts_eq_of_eqB h.2]

end

/-- The template is read as these statements. -/
def ckIs (bs : List Bool) (ss : List String) (b : List Stmt) : Bool :=
  match ckTemplate (maskFill bs) ss with
  | some (_, b') => stmtsEqB b' b
  | none => false

theorem ckIs_template {bs : List Bool} {ss : List String} {b : List Stmt} (h : ckIs bs ss b = true) :
    ∃ ts, ckTemplate (maskFill bs) ss = some (ts, b) := by
  simp only [ckIs] at h
  cases hc : ckTemplate (maskFill bs) ss with
  | none => rw [hc] at h; cases h
  | some r =>
    rw [hc] at h
    obtain ⟨ts, b'⟩ := r
    exact ⟨ts, by rw [stmts_eq_of_eqB h]⟩

/-! ## The table -/

/-- The names which stand for codes. -/
abbrev r_ : Ast := .name "%r"
/-- Argument 0. -/
abbrev a0_ : Ast := .name "%0"
/-- Argument 1. -/
abbrev a1_ : Ast := .name "%1"
/-- Argument 2. -/
abbrev a2_ : Ast := .name "%2"
/-- `None`. -/
abbrev none_ : Ast := .name "None"

/-- The statements of `reduce` with the trees of the codes in them: of the variable, and of the arguments. -/
def Fn.reduceWith (r a0 a1 a2 : Ast) : Fn → List Stmt
  | .sum => [.aug .add r (.bool false [a1, .num 0])]
  | .sumOrNone =>
    [.ite (.cmp a1 [.is] [none_]) [.assign [r] none_]
      [.ite (.cmp a0 [.isNot] [none_]) [.assign [r] (.bin .add a0 a1)] []]]
  | .max => [.ite (.bool true [.cmp a1 [.isNot] [none_], .cmp a1 [.gt] [a0]]) [.assign [r] a1] []]
  | .min => [.ite (.bool true [.cmp a1 [.isNot] [none_], .cmp a1 [.lt] [a0]]) [.assign [r] a1] []]
  | .count => [.aug .add r (.num 1)]
  | .countDistinct => [.expr (.call (.attr r "add") [a1] [])]
  | .first => [.pass]
  | .last => [.assign [r] a1]
  | .maxRow =>
    [.ite (.bool true [.cmp a1 [.isNot] [none_], .cmp (.sub a0 (.num 0)) [.lt] [a1]])
      [.assign [r] (.display .tuple [a1, a2])] []]
  | .minRow =>
    [.ite (.bool true [.cmp a1 [.isNot] [none_], .cmp (.sub a0 (.num 0)) [.gt] [a1]])
      [.assign [r] (.display .tuple [a1, a2])] []]
  | .array => [.expr (.call (.attr r "append") [a1] [])]
  | .arrayDistinct => [.assign [.sub r a1] none_]
  | .dict => [.assign [.sub r a1] a2]
  | .dictArray => [.expr (.call (.attr (.sub r a1) "append") [a2] [])]
  | .dictArrayDistinct => [.assign [.sub (.sub r a1) a2] none_]
  | .dictSum => [.aug .add (.sub r a1) (.bool false [a2, .num 0])]
  | .dictSumOrNone =>
    [.ite (.cmp a2 [.is] [none_]) [.assign [.sub r a1] none_]
      [.ite (.cmp (.sub a0 a1) [.isNot] [none_]) [.aug .add (.sub r a1) a2] []]]
  | .dictMax =>
    [.ite (.bool true [.cmp a2 [.isNot] [none_],
        .bool false [.cmp a1 [.notIn] [a0], .cmp a2 [.gt] [.sub a0 a1]]])
      [.assign [.sub r a1] a2] []]
  | .dictMin =>
    [.ite (.bool true [.cmp a2 [.isNot] [none_],
        .bool false [.cmp a1 [.notIn] [a0], .cmp a2 [.lt] [.sub a0 a1]]])
      [.assign [.sub r a1] a2] []]
  | .dictCount =>
    [.ite (.cmp a1 [.notIn] [a0]) [.assign [.sub r a1] (.num 1)] [.aug .add (.sub r a1) (.num 1)]]
  | .dictCountDistinct =>
    [.ite (.cmp a1 [.notIn] [a0]) [.assign [.sub r a1] (.display .set [a2])]
      [.expr (.call (.attr (.sub r a1) "add") [a2] [])]]
  | .dictFirst => [.ite (.cmp a1 [.notIn] [a0]) [.assign [.sub r a1] a2] []]
  | .dictLast => [.assign [.sub r a1] a2]

/-- The statements of `initial_from_first` with the trees of the codes in them. -/
def Fn.firstWith (r a0 a1 : Ast) : Fn → List Stmt
  | .sum => [.assign [r] (.bool false [a0, .num 0])]
  | .sumOrNone => [.assign [r] a0]
  | .max => [.ite (.cmp a0 [.isNot] [none_]) [.assign [r] a0] []]
  | .min => [.ite (.cmp a0 [.isNot] [none_]) [.assign [r] a0] []]
  | .count => [.assign [r] (.num 1)]
  | .countDistinct => [.assign [r] (.display .set [a0])]
  | .first => [.assign [r] a0]
  | .last => [.assign [r] a0]
  | .maxRow => [.ite (.cmp a0 [.isNot] [none_]) [.assign [r] (.display .tuple [a0, a1])] []]
  | .minRow => [.ite (.cmp a0 [.isNot] [none_]) [.assign [r] (.display .tuple [a0, a1])] []]
  | .array => [.assign [r] (.display .list [a0])]
  | .arrayDistinct => [.assign [r] (.display .dict [a0, none_])]
  | .dict => [.assign [r] (.display .dict [a0, a1])]
  | .dictArray =>
    [.assign [r, .name "_d"] (.call (.name "defaultdict") [.name "list"] []),
      .expr (.call (.attr (.sub (.name "_d") a0) "append") [a1] [])]
  | .dictArrayDistinct =>
    [.assign [r, .name "_d"] (.call (.name "defaultdict") [.name "dict"] []),
      .assign [.sub (.sub (.name "_d") a0) a1] none_]
  | .dictSum =>
    [.assign [r, .name "_d"] (.call (.name "defaultdict") [.name "int"] []),
      .aug .add (.sub (.name "_d") a0) (.bool false [a1, .num 0])]
  | .dictSumOrNone =>
    [.assign [r, .name "_d"] (.call (.name "defaultdict") [.name "int"] []),
      .assign [.sub (.name "_d") a0] a1]
  | .dictMax => [.ite (.cmp a1 [.isNot] [none_]) [.assign [r] (.display .dict [a0, a1])] []]
  | .dictMin => [.ite (.cmp a1 [.isNot] [none_]) [.assign [r] (.display .dict [a0, a1])] []]
  | .dictCount => [.assign [r] (.display .dict [a0, .num 1])]
  | .dictCountDistinct => [.assign [r] (.display .dict [a0, .display .set [a1]])]
  | .dictFirst => [.assign [r] (.display .dict [a0, a1])]
  | .dictLast => [.assign [r] (.display .dict [a0, a1])]

/-- The statements of `reduce`. -/
def Fn.reduceStmts (f : Fn) : List Stmt := f.reduceWith r_ a0_ a1_ a2_

/-- The statements of `initial_from_first`. -/
def Fn.firstStmts (f : Fn) : List Stmt := f.firstWith r_ a0_ a1_

/-- Whether the statements use a second argument besides the expression. -/
def Fn.two : Fn → Bool
  | .maxRow | .minRow | .dict | .dictArray | .dictArrayDistinct | .dictSum | .dictSumOrNone | .dictMax | .dictMin
  | .dictCount | .dictCountDistinct | .dictFirst | .dictLast => true
  | _ => false

/-- The arguments of `reduce`: the variable, the expression, the additional argument. -/
def Fn.reduceMask (f : Fn) : List Bool := if f.two then [true, false, false] else [true, false]

/-- The arguments of `initial_from_first`. -/
def Fn.firstMask (f : Fn) : List Bool := if f.two then [false, false] else [false]

theorem reduce_reads (f : Fn) : ckIs f.reduceMask f.template.reduce f.reduceStmts = true := by
  cases f <;> decide +kernel

theorem first_reads (f : Fn) : ckIs f.firstMask f.template.first f.firstStmts = true := by
  cases f <;> decide +kernel

end Verif.Stmt
