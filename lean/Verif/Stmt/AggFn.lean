import Verif.Stmt.AggLines
import Verif.Stmt.ReadPairs
import Verif.Text.ParseEnd

/-!
# Stmt: how Python reads the generated aggregation functions
-/

set_option autoImplicit false

namespace Verif.Stmt

open Verif.Text Verif.Agg

/-- An expression does not end with a colon. -/
theorem Ex.last {ts : List Tok} {a : Ast} (h : Ex ts a) : ts ≠ [] ∧ ts.getLast? ≠ some .colon := by
  obtain ⟨n, h⟩ := h
  obtain ⟨t, h1, h2⟩ := parse_last (h n (Nat.le_refl n))
  refine ⟨?_, ?_⟩
  · rintro rfl
    cases h1
  · rw [h1]
    intro he
    cases he
    cases h2

theorem Ex.okAfter {ts : List Tok} {a : Ast} (h : Ex ts a) (pre : List Tok) : (Tree.leaf (pre ++ ts)).Ok := by
  have := h.last
  simp only [Tree.Ok, List.getLast?_append]
  cases hl : ts.getLast? with
  | none => rw [List.getLast?_eq_none_iff] at hl; exact absurd hl this.1
  | some x =>
    rw [hl] at this
    simpa using this.2

/-- A line of any text. -/
theorem Has.lineAny {spaced : String} (k : Nat) {s : List Char} {ts : List Tok}
    (hs : spaced.toList = List.replicate k ' ') (hc : s.head? ≠ some ' ') (hne : s ≠ [])
    (h : lexFrom .start s = some ts) : Has (spaced.toList ++ s) [(k, ts)] := by
  rw [hs]
  cases s with
  | nil => exact absurd rfl hne
  | cons c l => exact Has.line k (by simpa using hc) h

/-- Tokens of `code_args`. -/
def argToks : List String → List Tok
  | [] => []
  | a :: as => .comma :: .name a :: argToks as

theorem codeArgs_end (args : List String) (r : String) (hr : endLit r = true) :
    wEnd (codeArgs args ++ r.toList) = true ∧ (codeArgs args ++ r.toList).head? ≠ some '.' := by
  cases args with
  | nil => simpa [codeArgs] using endLit_ends hr []
  | cons a as =>
    have := endLit_ends (s := ", ") (by decide) (a.toList ++ (codeArgs as ++ r.toList))
    simpa [codeArgs] using this

theorem lex_codeArgs {args : List String} (h : args.all isName = true) (r : String) (hr : endLit r = true)
    {tr : List Tok} (ht : lexFrom .start r.toList = some tr) :
    lexFrom .start (codeArgs args ++ r.toList) = some (argToks args ++ tr) := by
  induction args with
  | nil => simpa [codeArgs, argToks] using ht
  | cons a as ih =>
    simp only [List.all_cons, Bool.and_eq_true] at h
    have hp : Piece ", " [.comma] := by decide +kernel
    have he := codeArgs_end as r hr
    simp only [codeArgs, List.append_assoc]
    rw [hp.lex, reads_name h.1 true _ he.1 (fun _ => he.2), ih h.2]
    simp [argToks]

theorem readParams_args (x : String) : ∀ args : List String,
    readParams (.name x :: (argToks args ++ [.rpar])) = some (x :: args, [])
  | [] => rfl
  | a :: as => by
    have h := readParams_args a as
    simp only [argToks, List.cons_append, readParams, h, Option.map_some]

/-- The header of the generated functions. -/
theorem lex_def {name : String} {args : List String} (hn : isName name = true) (h : args.all isName = true) :
    lexFrom .start (name.toList ++ ("(data_".toList ++ (codeArgs args ++ "):".toList))) =
      some (.name name :: .lpar :: .name "data_" :: (argToks args ++ [.rpar, .colon])) := by
  have e : "(data_".toList = "(".toList ++ "data_".toList := rfl
  have hp : Piece "(" [.lpar] := by decide +kernel
  have he := codeArgs_end args "):" (by decide)
  have h1 := endLit_ends (s := "(") (by decide) ("data_".toList ++ (codeArgs args ++ "):".toList))
  rw [e, List.append_assoc, reads_name hn true _ h1.1 (fun _ => h1.2), hp.lex,
    reads_name (s := "data_") (by decide +kernel) true _ he.1 (fun _ => he.2),
    lex_codeArgs h "):" (by decide) (tr := [.rpar, .colon]) (by decide +kernel)]
  rfl

/-- `code_result`: of `c.aggregate` an expression, of `group_by` a comprehension (1118-1124). -/
inductive Rhs
  | expr (a : Ast)
  | pairs (e : Ast) (k v : String) (it : Ast)

/-- Its assignment. -/
def Rhs.stmt (t : Ast) : Rhs → Stmt
  | .expr a => .assign [t] a
  | .pairs e k v it => .pairs t e k v it

/-- The tokens are read in this way. -/
def Rhs.Reads (ts : List Tok) : Rhs → Prop
  | .expr a => Ex ts a
  | .pairs e k v it => isConstName k = false ∧ isConstName v = false ∧
      ∃ us vs, ts = pairToks us k v vs ∧ Rd us e ∧ Rd vs it

theorem Rhs.Reads.ok {ts : List Tok} {r : Rhs} (h : r.Reads ts) (pre : List Tok) : (Tree.leaf (pre ++ ts)).Ok := by
  cases r with
  | expr a => exact Ex.okAfter h pre
  | pairs e k v it =>
    obtain ⟨_, _, us, vs, rfl, _⟩ := h
    have e : pre ++ pairToks us k v vs =
        (pre ++ .lbr :: (us ++ .for_ :: .name k :: .comma :: .name v :: .in_ :: vs)) ++ [.rbr] := by
      simp [pairToks]
    rw [e, Tree.Ok, List.getLast?_append]
    simp

theorem Rhs.Reads.simple {ts : List Tok} {r : Rhs} (h : r.Reads ts) {us : List Tok} {t : Ast} (ht : Pr us t)
    (hi : isTarget t = true) : SimpleToks (us ++ .assign :: ts) (r.stmt t) := by
  cases r with
  | expr a => exact simple_assign1 ht hi h
  | pairs e k v it =>
    obtain ⟨hk, hv, us, vs, rfl, h1, h2⟩ := h
    exact simple_pairs ht hi h1 hk hv h2

/-- How the parts of the templates are read. -/
structure FnSrc where
  noneT : List Tok
  noneA : Ast
  resultT : List Tok
  result : Rhs
  sort : Option (List Tok × Ast)

/-- The texts filled into the templates are read in this way. -/
structure FnReads (f : FnText) (r : FnSrc) : Prop where
  name : isName f.name = true
  args : f.args.all isName = true
  nodup : ("data_" :: f.args).Nodup
  noneL : Lx f.none_.toList r.noneT
  noneE : Ex r.noneT r.noneA
  resultL : Lx f.result.toList r.resultT
  resultE : r.result.Reads r.resultT
  sort : match r.sort with
    | none => f.sorting = ""
    | some (ts, a) => f.sorting.toList.head? ≠ some ' ' ∧ f.sorting ≠ "" ∧ Lx f.sorting.toList ts ∧ Pr ts a

/-- `{code_sorting}`. -/
def sortTrees : Option (List Tok × Ast) → List Tree
  | none => []
  | some (ts, _) => [.leaf ts]

/-- The same as statements. -/
def sortStmts : Option (List Tok × Ast) → List Stmt
  | none => []
  | some (_, a) => [.expr a]

/-- The end of both functions (763-765, 782-784). -/
def FnSrc.endTrees (r : FnSrc) : List Tree :=
  .leaf ([.name "result_", .assign] ++ r.resultT) :: (sortTrees r.sort ++ [.leaf [.kw "return", .name "result_"]])

/-- The same as statements. -/
def FnSrc.endStmts (r : FnSrc) : List Stmt :=
  r.result.stmt (.name "result_") :: (sortStmts r.sort ++ [.ret (.name "result_")])

/-- The beginning of both functions (757-758, 770-771). -/
def FnSrc.startTrees (r : FnSrc) : List Tree :=
  [.leaf [.kw "global", .name "add_label_", .comma, .name "get_by_label_"], .leaf ([.name "_none", .assign] ++ r.noneT)]

/-- The same as statements. -/
def FnSrc.startStmts (r : FnSrc) : List Stmt :=
  [.global ["add_label_", "get_by_label_"], .assign [.name "_none"] r.noneA]

theorem pr_last {ts : List Tok} {a : Ast} (h : Pr ts a) : (Tree.leaf ts).Ok := by
  have := (Ex.of_rd h.rd).okAfter []
  simpa using this

section
variable {f : FnText} {r : FnSrc} (h : FnReads f r)
include h

theorem start_has : HasAll ["    global add_label_, get_by_label_".toList, "    _none = ".toList ++ f.none_.toList]
    (flatAll 4 r.startTrees) := by
  have l1 := Has.fixed (spaced := "    global add_label_, get_by_label_") (pre := "global add_label_, get_by_label_") 4
    (ts := [.kw "global", .name "add_label_", .comma, .name "get_by_label_"]) rfl (by decide +kernel) (by decide)
    (by decide)
  have l2 := Has.lineOf (spaced := "    _none = ") (pre := "_none = ") 4 (tp := [.name "_none", .assign]) rfl
    (by decide +kernel) (by decide) (by decide) h.noneL.whole
  exact .cons l1 (.one l2)

theorem start_part : OkAll r.startTrees ∧ Seg r.startTrees r.startStmts := by
  refine ⟨⟨?_, ?_, trivial⟩, ?_⟩
  · simp [Tree.Ok]
  · exact h.noneE.okAfter _
  · exact (Seg.leaf (simple_global rfl)).append
      (Seg.leaf (simple_assign1 (pr_name "_none") rfl h.noneE)) rfl

theorem end_has : HasAll
    ["    result_ = ".toList ++ f.result.toList, "    ".toList ++ f.sorting.toList, "    return result_".toList, []]
    (flatAll 4 r.endTrees) := by
  have l1 := Has.lineOf (spaced := "    result_ = ") (pre := "result_ = ") 4 (tp := [.name "result_", .assign]) rfl
    (by decide +kernel) (by decide) (by decide) h.resultL.whole
  have l2 : Has ("    ".toList ++ f.sorting.toList) (flatAll 4 (sortTrees r.sort)) := by
    have hs := h.sort
    cases hr : r.sort with
    | none =>
      rw [hr] at hs
      rw [hs]
      exact Has.blank 4
    | some p =>
      obtain ⟨ts, a⟩ := p
      rw [hr] at hs
      refine Has.lineAny 4 rfl hs.1 ?_ hs.2.2.1.whole
      intro he
      exact hs.2.1 (String.toList_inj.1 (by rw [he]; rfl))
  have l3 := Has.fixed (spaced := "    return result_") (pre := "return result_") 4
    (ts := [.kw "return", .name "result_"]) rfl (by decide +kernel) (by decide) (by decide)
  have := HasAll.cons l1 (.cons l2 (.cons l3 (.one .nil)))
  simpa [FnSrc.endTrees, flatAll, Tree.flat, flatAll_append] using this

theorem end_part : OkAll r.endTrees ∧ Seg r.endTrees r.endStmts := by
  have hs := h.sort
  refine ⟨⟨h.resultE.ok _, okAll_append ?_ ?_⟩, ?_⟩
  · cases hr : r.sort with
    | none => trivial
    | some p =>
      obtain ⟨ts, a⟩ := p
      rw [hr] at hs
      exact ⟨pr_last hs.2.2.2, trivial⟩
  · simp [OkAll, Tree.Ok]
  · have s1 := Seg.leaf (h.resultE.simple (pr_name "result_") rfl)
    have s3 := Seg.leaf (simple_ret (Ex.of_rd (pr_name "result_").rd))
    have s2 : Seg (sortTrees r.sort) (sortStmts r.sort) := by
      cases hr : r.sort with
      | none => exact .nil
      | some p =>
        obtain ⟨ts, a⟩ := p
        rw [hr] at hs
        exact Seg.leaf (simple_expr hs.2.2.2)
    refine s1.append (s2.append s3 rfl) ?_
    cases hr : r.sort with
    | none => rfl
    | some p => rfl

end

/-! ## `c.aggregate` -/

/-- Variables, read as these tokens. -/
inductive Vars : List String → List (List Tok) → List Ast → Prop
  | nil : Vars [] [] []
  | cons {v : String} {vt : List Tok} {va : Ast} {vs : List String} {vts : List (List Tok)} {vas : List Ast} :
      VarCode v.toList vt va → v.toList.head? ≠ some ' ' → v ≠ "" → Vars vs vts vas →
      Vars (v :: vs) (vt :: vts) (va :: vas)

theorem Vars.targets {vs : List String} {vts : List (List Tok)} {vas : List Ast} (h : Vars vs vts vas) :
    Targets vts vas := by
  induction h with
  | nil => exact .nil
  | cons h1 _ _ _ ih => exact .cons h1.pr h1.target ih

theorem initVars_cons (v : String) (vs : List String) : initVars (v :: vs) =
    v.toList ++ (vs.flatMap (fun w => " = ".toList ++ w.toList) ++ " = _none".toList) := by
  rw [initVars, joinVars, List.append_assoc]

/-- Tokens of the rest of the line. -/
def moreToks : List (List Tok) → List Tok
  | [] => [.assign]
  | t :: ts => .assign :: (t ++ moreToks ts)

theorem more_end (vs : List String) : wEnd (vs.flatMap (fun w => " = ".toList ++ w.toList) ++ " = _none".toList) = true ∧
    (vs.flatMap (fun w => " = ".toList ++ w.toList) ++ " = _none".toList).head? ≠ some '.' := by
  cases vs with
  | nil => exact ⟨by decide, by decide⟩
  | cons w ws =>
    rw [List.flatMap_cons, List.append_assoc, List.append_assoc]
    exact endLit_ends (by decide) _

theorem lex_more {vs : List String} {vts : List (List Tok)} {vas : List Ast} (h : Vars vs vts vas) :
    lexFrom .start (vs.flatMap (fun w => " = ".toList ++ w.toList) ++ " = _none".toList) =
      some (moreToks vts ++ [.name "_none"]) := by
  induction h with
  | nil =>
    have : lexFrom .start " = _none".toList = some [.assign, .name "_none"] := by decide +kernel
    rw [List.flatMap_nil, List.nil_append, this]
    rfl
  | cons h1 _ _ h2 ih =>
    rename_i vs _ _ _ _
    have hp : Piece " = " [.assign] := by decide +kernel
    have he := more_end vs
    rw [List.flatMap_cons, List.append_assoc, List.append_assoc, hp.lex, h1.lx _ he.1 he.2, ih]
    simp [moreToks]

theorem targetToks_more (t : List Tok) : ∀ ts : List (List Tok), targetToks (t :: ts) = t ++ moreToks ts
  | [] => by simp [targetToks, moreToks]
  | u :: us => by
    have := targetToks_more u us
    simp only [targetToks, moreToks] at this ⊢
    rw [this]

theorem lex_initVars {vs : List String} {vts : List (List Tok)} {vas : List Ast} (h : Vars vs vts vas)
    (hne : vs ≠ []) : lexFrom .start (initVars vs) = some (targetToks vts ++ [.name "_none"]) := by
  cases h with
  | nil => exact absurd rfl hne
  | cons h1 _ _ h2 =>
    rename_i v vt _ vs vts _ _ _
    have he := more_end vs
    rw [initVars_cons, h1.lx _ he.1 he.2, lex_more h2, targetToks_more]
    simp

theorem Vars.head {vs : List String} {vts : List (List Tok)} {vas : List Ast} (h : Vars vs vts vas)
    (hne : vs ≠ []) : (initVars vs).head? ≠ some ' ' ∧ initVars vs ≠ [] := by
  cases h with
  | nil => exact absurd rfl hne
  | cons h1 h2 h3 h4 =>
    rename_i v _ _ vs _ _
    have hv : v.toList ≠ [] := fun he => h3 (String.toList_inj.1 (by rw [he]; rfl))
    rw [initVars_cons]
    cases hl : v.toList with
    | nil => exact absurd hl hv
    | cons c l =>
      rw [hl] at h2
      simpa using h2

/-- The body of the function of `c.aggregate` (769-785). -/
def aggTrees (r : FnSrc) (vts : List (List Tok)) (expected : Nat) (bs : List BlockSrc) : List Tree :=
  r.startTrees ++
  ([.leaf (targetToks vts ++ [.name "_none"]),
    .leaf [.name "expected_checksum_", .assign, .num expected],
    .leaf [.name "checksum_", .assign, .num 0],
    .leaf [.name "it_", .assign, .name "iter", .lpar, .name "data_", .rpar],
    .block [.for_, .name "row_", .in_, .name "it_"] (bs.flatMap BlockSrc.trees),
    .block [.for_, .name "row_", .in_, .name "it_"] (bs.flatMap BlockSrc.noInitTrees)] ++ r.endTrees)

/-- The same as statements. -/
def aggStmts (r : FnSrc) (vas : List Ast) (expected : Nat) (bs : List BlockSrc) : List Stmt :=
  r.startStmts ++
  ([.assign vas (.name "_none"),
    .assign [.name "expected_checksum_"] (.num expected),
    .assign [.name "checksum_"] (.num 0),
    .assign [.name "it_"] (.call (.name "iter") [.name "data_"] []),
    .for_ "row_" (.name "it_") (bs.flatMap BlockSrc.stmts),
    .for_ "row_" (.name "it_") (bs.flatMap BlockSrc.noInitStmts)] ++ r.endStmts)

theorem Vars.ne {vs : List String} {vts : List (List Tok)} {vas : List Ast} (h : Vars vs vts vas) (hne : vs ≠ []) :
    vts ≠ [] ∧ vas ≠ [] := by
  cases h with
  | nil => exact absurd rfl hne
  | cons => simp

theorem pr_iter : Pr [.name "iter", .lpar, .name "data_", .rpar] (.call (.name "iter") [.name "data_"] []) :=
  pr_call' (pr_name "iter") (.cons (pr_name "data_").rd .nil)

theorem noElse_flat {α : Type} (f : α → List Tree) (h : ∀ x, noElse (f x) = true) :
    ∀ l : List α, noElse (l.flatMap f) = true
  | [] => rfl
  | x :: l => by
    rw [List.flatMap_cons]
    exact noElse_append (h x) (noElse_flat f h l)

section
variable {f : FnText} {r : FnSrc} (h : FnReads f r) {vs : List String} {vts : List (List Tok)} {vas : List Ast}
  (hv : Vars vs vts vas) (hne : vs ≠ []) (n : Nat) {bs : List BlockText} {rs : List BlockSrc} (hb : AllReads bs rs)
  (hbne : bs ≠ [])
include h hv hne hb hbne

theorem agg_seg : Seg (aggTrees r vts n rs) (aggStmts r vas n rs) := by
  have s1 : Seg [.leaf (targetToks vts ++ [.name "_none"])] [.assign vas (.name "_none")] := by
    cases hv with
    | nil => exact absurd rfl hne
    | cons h1 _ _ h2 => exact Seg.leaf (simple_assign (Ex.of_rd (pr_name "_none").rd) (.cons h1.pr h1.target h2.targets))
  have s2 := Seg.leaf (simple_assign1 (pr_name "expected_checksum_") rfl (Ex.of_rd (pr_num n).rd))
  have s3 := Seg.leaf (simple_assign1 (pr_name "checksum_") rfl (Ex.of_rd (pr_num 0).rd))
  have s4 := Seg.leaf (simple_assign1 (pr_name "it_") rfl (Ex.of_rd pr_iter.rd))
  have s5 := Seg.for_ (v := "row_") (by decide +kernel) (Ex.of_rd (pr_name "it_").rd) (blocks_part hb hbne).seg.stmts
  have s6 := Seg.for_ (v := "row_") (by decide +kernel) (Ex.of_rd (pr_name "it_").rd) (noInits_part hb hbne).seg.stmts
  exact (start_part h).2.append
    ((s1.append (s2.append (s3.append (s4.append (s5.append s6 rfl) rfl) rfl) rfl) rfl).append (end_part h).2 rfl) rfl

theorem agg_ok : OkAll (aggTrees r vts n rs) := by
  refine okAll_append (start_part h).1 (okAll_append ?_ (end_part h).1)
  have p1 := blocks_part hb hbne
  have p2 := noInits_part hb hbne
  refine ⟨?_, ?_, ?_, ?_, ⟨p1.ne, p1.ok⟩, ⟨p2.ne, p2.ok⟩, trivial⟩ <;> simp [Tree.Ok]

/-- The text of the function of `c.aggregate` is read as its statements. -/
theorem aggregate_source : Source (aggregateText f vs n bs)
    [.def_ f.name ("data_" :: f.args) [] (aggStmts r vas n rs)] := by
  have l1 := Has.lineOf (spaced := "def ") (pre := "def ") 0 (tp := [.kw "def"]) rfl (by decide +kernel) (by decide)
    (by decide) (lex_def h.name h.args)
  have l2 := Has.lineAny (spaced := "    ") 4 rfl (hv.head hne).1 (hv.head hne).2 (lex_initVars hv hne)
  have l3 := Has.lineOf (spaced := "    expected_checksum_ = ") (pre := "expected_checksum_ = ") 4
    (tp := [.name "expected_checksum_", .assign]) rfl (by decide +kernel) (by decide) (by decide) (nat_lx n)
  have l4 := Has.fixed (spaced := "    checksum_ = 0") (pre := "checksum_ = 0") 4
    (ts := [.name "checksum_", .assign, .num 0]) rfl (by decide +kernel) (by decide) (by decide)
  have l5 := Has.fixed (spaced := "    it_ = iter(data_)") (pre := "it_ = iter(data_)") 4
    (ts := [.name "it_", .assign, .name "iter", .lpar, .name "data_", .rpar]) rfl (by decide +kernel) (by decide)
    (by decide)
  have l6 := Has.fixed (spaced := "    for row_ in it_:") (pre := "for row_ in it_:") 4
    (ts := [.for_, .name "row_", .in_, .name "it_", .colon]) rfl (by decide +kernel) (by decide) (by decide)
  have p1 := blocks_part hb hbne
  have p2 := noInits_part hb hbne
  have a2 := HasAll.cons l2 (.cons l3 (.cons l4 (.cons l5 (.cons l6 (.cons p1.has (.cons .nil (.cons l6 (.cons p2.has
    (.cons .nil (end_has h))))))))))
  have all := (HasAll.cons .nil (.cons l1 ((start_has h).append a2))).join
  have e : flatAll 0 [.block (.kw "def" :: .name f.name :: .lpar :: .name "data_" :: (argToks f.args ++ [.rpar]))
      (aggTrees r vts n rs)] = _ := rfl
  refine source_of (ts := [.block (.kw "def" :: .name f.name :: .lpar :: .name "data_" :: (argToks f.args ++ [.rpar]))
      (aggTrees r vts n rs)]) ?_ ⟨⟨by simp [aggTrees, FnSrc.startTrees], agg_ok h hv hne n hb hbne⟩, trivial⟩ ?_
  · simpa [aggregateText, flatAll, Tree.flat, aggTrees, flatAll_append] using all
  · refine StmtsOf.def_ (readParams_args "data_" f.args) (by simpa using h.nodup) ?_ .nil
    exact (agg_seg h hv hne n hb hbne).stmts

end

end Verif.Stmt
