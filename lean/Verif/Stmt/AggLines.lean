import Verif.Stmt.AggText

/-!
# Stmt: how Python reads the texts of the generated aggregation functions
-/

set_option autoImplicit false

namespace Verif.Stmt

open Verif.Text Verif.Agg

/-- The text is read as these tokens, before any text at which words and numbers end. -/
def Lx (s : List Char) (ts : List Tok) : Prop :=
  ∀ cs, wEnd cs = true → cs.head? ≠ some '.' → lexFrom .start (s ++ cs) = (lexFrom .start cs).map (ts ++ ·)

theorem Lx.of_reads {i : Bool} {s : String} {ts : List Tok} (h : Reads i s ts) : Lx s.toList ts :=
  fun cs h1 h2 => h cs h1 (fun _ => h2)

theorem Lx.whole {s : List Char} {ts : List Tok} (h : Lx s ts) : lexFrom .start s = some ts := by
  have := h [] rfl (by simp)
  simpa [lexFrom, final] using this

theorem Lx.then {s : List Char} {ts tr : List Tok} (h : Lx s ts) (r : String)
    (hr : lexFrom .start r.toList = some tr) (he : endLit r = true := by decide +kernel) :
    lexFrom .start (s ++ r.toList) = some (ts ++ tr) := by
  have h1 := endLit_ends he []
  rw [List.append_nil] at h1
  rw [h _ h1.1 h1.2, hr]
  rfl

/-- The text is the code of an expression which may stand beside operators. -/
structure Code (s : List Char) (ts : List Tok) (a : Ast) : Prop where
  lx : Lx s ts
  rd : Rd ts a

/-- The text is the code of something which may be assigned to. -/
structure VarCode (s : List Char) (ts : List Tok) (a : Ast) : Prop where
  lx : Lx s ts
  pr : Pr ts a
  target : isTarget a = true

/-- The text consists of these statements. -/
structure Part (n : Nat) (s : List Char) (ts : List Tree) (b : List Stmt) : Prop where
  has : Has s (flatAll n ts)
  ok : OkAll ts
  ne : ts ≠ []
  seg : Seg ts b
  first : noElse ts = true

theorem Part.indent {s : List Char} {ts : List Tree} {b : List Stmt} (h : Part 0 s ts b) (level : Nat) :
    Part (4 * level) (Agg.indent level s) ts b :=
  ⟨h.has.indentAll level, h.ok, h.ne, h.seg, h.first⟩

theorem Part.append {n : Nat} {s t : List Char} {ts us : List Tree} {a b : List Stmt} (h : Part n s ts a)
    (h' : Part n t us b) : Part n (s ++ '\n' :: t) (ts ++ us) (a ++ b) where
  has := by
    rw [flatAll_append]
    exact h.has.append h'.has
  ok := okAll_append h.ok h'.ok
  ne := by simp [h.ne]
  seg := h.seg.append h'.seg h'.first
  first := noElse_append h.first h'.first

/-- A blank line between statements. -/
theorem Part.appendBlank {n : Nat} {s t : List Char} {ts us : List Tree} {a b : List Stmt} (h : Part n s ts a)
    (h' : Part n t us b) : Part n (s ++ '\n' :: '\n' :: t) (ts ++ us) (a ++ b) where
  has := by
    have h2 := Has.nil.append h'.has
    have := h.has.append h2
    rw [flatAll_append]
    simpa using this
  ok := okAll_append h.ok h'.ok
  ne := by simp [h.ne]
  seg := h.seg.append h'.seg h'.first
  first := noElse_append h.first h'.first

theorem ok_leaf {ts : List Tok} (h : ts.getLast? ≠ some .colon) : (Tree.leaf ts).Ok := h

/-! ## Expressions of the templates -/

theorem ex_is {ts us : List Tok} {a b : Ast} (ha : Rd ts a) (hb : Rd us b) (hn : us.head? ≠ some .not_) :
    Ex (ts ++ .is_ :: us) (.cmp a [.is] [b]) := by
  have h1 : Ev .arith (ts ++ .is_ :: us) (a, .is_ :: us) := ha.arith (by simp [strength])
  have h2 : Ev .arith us (b, []) := by simpa using hb.arith (rest := []) (by decide)
  have hop : cmpOp (.is_ :: us) = some (.is, us) := by
    cases us with
    | nil => rfl
    | cons t us => cases t <;> first | rfl | exact absurd rfl hn
  have h3 : Ev (.cmpMore a [] []) (.is_ :: us) (.cmp a [.is] [b], []) :=
    ev2 h2 (ev_cmpMore_end (a := a) (ops := [.is]) (bs := [b]) (rest := []) (by decide))
      (fun rec r1 r2 => by simp only [parseStep, hop, r1, Option.bind_some, List.nil_append, r2]; rfl)
  have h4 : Ev .cmp (ts ++ .is_ :: us) (.cmp a [.is] [b], []) :=
    ev2 h1 h3 (fun rec r1 r2 => by simp only [parseStep, r1, Option.bind_some, r2])
  exact ev_expr (ev_or (ev_and (ev_not h4 (ha.notNot _)) (by decide)) (by decide)) (by decide)

theorem ex_isNot {ts us : List Tok} {a b : Ast} (ha : Rd ts a) (hb : Rd us b) :
    Ex (ts ++ .is_ :: .not_ :: us) (.cmp a [.isNot] [b]) := by
  have h1 : Ev .arith (ts ++ .is_ :: .not_ :: us) (a, .is_ :: .not_ :: us) := ha.arith (by simp [strength])
  have h2 : Ev .arith us (b, []) := by simpa using hb.arith (rest := []) (by decide)
  have h3 : Ev (.cmpMore a [] []) (.is_ :: .not_ :: us) (.cmp a [.isNot] [b], []) :=
    ev2 h2 (ev_cmpMore_end (a := a) (ops := [.isNot]) (bs := [b]) (rest := []) (by decide))
      (fun rec r1 r2 => by simp only [parseStep, cmpOp, r1, Option.bind_some, List.nil_append, r2]; rfl)
  have h4 : Ev .cmp (ts ++ .is_ :: .not_ :: us) (.cmp a [.isNot] [b], []) :=
    ev2 h1 h3 (fun rec r1 r2 => by simp only [parseStep, r1, Option.bind_some, r2])
  exact ev_expr (ev_or (ev_and (ev_not h4 (ha.notNot _)) (by decide)) (by decide)) (by decide)

theorem ex_eq {ts us : List Tok} {a b : Ast} (ha : Rd ts a) (hb : Rd us b) :
    Ex (ts ++ .eqeq :: us) (.cmp a [.eq] [b]) := by
  have h1 : Ev .arith (ts ++ .eqeq :: us) (a, .eqeq :: us) := ha.arith (by simp [strength])
  have h2 : Ev .arith us (b, []) := by simpa using hb.arith (rest := []) (by decide)
  have h3 : Ev (.cmpMore a [] []) (.eqeq :: us) (.cmp a [.eq] [b], []) :=
    ev2 h2 (ev_cmpMore_end (a := a) (ops := [.eq]) (bs := [b]) (rest := []) (by decide))
      (fun rec r1 r2 => by simp only [parseStep, cmpOp, r1, Option.bind_some, List.nil_append, r2]; rfl)
  have h4 : Ev .cmp (ts ++ .eqeq :: us) (.cmp a [.eq] [b], []) :=
    ev2 h1 h3 (fun rec r1 r2 => by simp only [parseStep, r1, Option.bind_some, r2])
  exact ev_expr (ev_or (ev_and (ev_not h4 (ha.notNot _)) (by decide)) (by decide)) (by decide)

/-! ## Blocks -/

/-- The statements under `is not _none` (619-624). -/
def checkTrees (vt : List Tok) (flag : Nat) : List Tree :=
  if flag = 0 then []
  else
    [.block (.if_ :: (vt ++ [.is_, .not_, .name "_none"]))
      [.leaf [.name "checksum_", .bar, .assign, .num flag],
        .block [.if_, .name "checksum_", .eqeq, .name "expected_checksum_"] [.leaf [.kw "break"]]]]

/-- The same as statements. -/
def checkStmts (va : Ast) (flag : Nat) : List Stmt :=
  if flag = 0 then []
  else
    [.ite (.cmp va [.isNot] [.name "_none"])
      [.aug .or (.name "checksum_") (.num flag),
        .ite (.cmp (.name "checksum_") [.eq] [.name "expected_checksum_"]) [.brk] []] []]

theorem check_ok (vt : List Tok) (flag : Nat) : OkAll (checkTrees vt flag) := by
  unfold checkTrees
  split
  · trivial
  · simp [OkAll, Tree.Ok]

theorem check_first (vt : List Tok) (flag : Nat) : noElse (checkTrees vt flag) = true := by
  unfold checkTrees
  split <;> rfl

theorem check_seg {vt : List Tok} {va : Ast} (hp : Pr vt va) (flag : Nat) :
    Seg (checkTrees vt flag) (checkStmts va flag) := by
  unfold checkTrees checkStmts
  split
  · exact .nil
  · refine Seg.ite (ex_isNot hp.rd (pr_name "_none").rd) ?_
    refine .leaf ?_ (Seg.ite ?_ (Seg.leaf simple_break).stmts).stmts
    · exact simple_or (pr_name "checksum_") rfl (Ex.of_rd (pr_num flag).rd)
    · exact ex_eq (pr_name "checksum_").rd (pr_name "expected_checksum_").rd

theorem pad_toList (k : Nat) (pad pre : String) (h : pad.toList = List.replicate k ' ') (s : List Char) :
    pad.toList ++ pre.toList ++ s = (pad ++ pre).toList ++ s := by
  simp

theorem nat_lx (n : Nat) : lexFrom .start (toString n).toList = some [.num n] := by
  have h := lex_nat n [] rfl
  have : (toString n).toList = Nat.toDigits 10 n := by
    simp [toString, Nat.repr]
  rw [this]
  simpa [lexFrom, final] using h

/-- `optional_checksum_code` is read as the check. -/
theorem has_check {b : BlockText} {vt : List Tok} (hv : Lx b.var vt) {pad : String} {k : Nat}
    (hp : pad.toList = List.replicate k ' ') : Has (checksumCode pad b) (flatAll k (checkTrees vt b.flag)) := by
  unfold checksumCode checkTrees
  split
  · exact .nil
  · have e1 : (pad ++ "if ").toList = List.replicate k ' ' ++ "if ".toList := by simp [hp]
    have e2 : (pad ++ "    checksum_ |= ").toList = List.replicate (k + 4) ' ' ++ "checksum_ |= ".toList := by
      simp only [String.toList_append, hp, ← List.replicate_append_replicate, List.append_assoc]
      rfl
    have e3 : (pad ++ "    if checksum_ == expected_checksum_:").toList =
        List.replicate (k + 4) ' ' ++ "if checksum_ == expected_checksum_:".toList := by
      simp only [String.toList_append, hp, ← List.replicate_append_replicate, List.append_assoc]
      rfl
    have e4 : (pad ++ "        break").toList = List.replicate (k + 4 + 4) ' ' ++ "break".toList := by
      simp only [String.toList_append, hp, ← List.replicate_append_replicate, List.append_assoc]
      rfl
    have l1 := Has.lineOf k (tp := [.if_]) e1 (by decide +kernel) (by decide) (by decide)
      (hv.then " is not _none:" (tr := [.is_, .not_, .name "_none", .colon]) (by decide +kernel))
    have l2 := Has.lineOf (k + 4) (tp := [.name "checksum_", .bar, .assign]) e2 (by decide +kernel) (by decide)
      (by decide) (nat_lx b.flag)
    have l3 := Has.fixed (k + 4)
      (ts := [.if_, .name "checksum_", .eqeq, .name "expected_checksum_", .colon]) e3 (by decide +kernel) (by decide)
      (by decide)
    have l4 := Has.fixed (k + 4 + 4) (ts := [.kw "break"]) e4 (by decide +kernel) (by decide) (by decide)
    have := (HasAll.cons .nil (.cons l1 (.cons l2 (.cons l3 (.cons l4 (.one .nil)))))).join
    simpa [flatAll, Tree.flat, String.toList_append, List.append_assoc] using this

/-- The code of a condition, with its tokens and its tree. -/
structure CondSrc where
  toks : List Tok
  tree : Ast

/-- How the parts of a block are read. -/
structure BlockSrc where
  vt : List Tok
  va : Ast
  init : List Tree
  initS : List Stmt
  two : List Tree
  twoS : List Stmt
  cond : Option CondSrc
  flag : Nat

/-- The parts of the text of a block are read in this way. -/
structure BlockReads (b : BlockText) (r : BlockSrc) : Prop where
  var : VarCode b.var r.vt r.va
  init : Part 0 b.init r.init r.initS
  two : Part 0 b.two r.two r.twoS
  flag : b.flag = r.flag
  cond : match b.cond, r.cond with
    | none, none => True
    | some c, some d => Lx c d.toks ∧ Ex d.toks d.tree
    | _, _ => False

/-- The statements of a block (608-615, 662-670), inside the condition. -/
def BlockSrc.innerTrees (r : BlockSrc) : List Tree :=
  [.block (.if_ :: (r.vt ++ [.is_, .name "_none"])) (r.init ++ checkTrees r.vt r.flag), .block [.else_] r.two]

/-- The same as statements. -/
def BlockSrc.innerStmts (r : BlockSrc) : List Stmt :=
  [.ite (.cmp r.va [.is] [.name "_none"]) (r.initS ++ checkStmts r.va r.flag) r.twoS]

/-- The statements of a block. -/
def BlockSrc.trees (r : BlockSrc) : List Tree :=
  match r.cond with
  | none => r.innerTrees
  | some c => [.block (.if_ :: c.toks) r.innerTrees]

/-- The same as statements. -/
def BlockSrc.stmts (r : BlockSrc) : List Stmt :=
  match r.cond with
  | none => r.innerStmts
  | some c => [.ite c.tree r.innerStmts []]

/-- The statements of a block in the second loop (616-618, 671-675). -/
def BlockSrc.noInitTrees (r : BlockSrc) : List Tree :=
  match r.cond with
  | none => r.two
  | some c => [.block (.if_ :: c.toks) r.two]

/-- The same as statements. -/
def BlockSrc.noInitStmts (r : BlockSrc) : List Stmt :=
  match r.cond with
  | none => r.twoS
  | some c => [.ite c.tree r.twoS []]

theorem inner_ok {b : BlockText} {r : BlockSrc} (h : BlockReads b r) : OkAll r.innerTrees := by
  simp only [BlockSrc.innerTrees, OkAll, Tree.Ok, and_true]
  exact ⟨⟨by simp [h.init.ne], okAll_append h.init.ok (check_ok _ _)⟩, h.two.ne, h.two.ok⟩

theorem inner_seg {b : BlockText} {r : BlockSrc} (h : BlockReads b r) : Seg r.innerTrees r.innerStmts :=
  Seg.iteElse (ex_is h.var.pr.rd (pr_name "_none").rd (by simp))
    (h.init.seg.append (check_seg h.var.pr r.flag) (check_first _ _)).stmts h.two.seg.stmts

/-- `to_code` is read as the statements of the block. -/
theorem toCode_part {b : BlockText} {r : BlockSrc} (h : BlockReads b r) : Part 8 (toCode b) r.trees r.stmts := by
  have hc := h.cond
  cases hbc : b.cond with
  | none =>
    cases hrc : r.cond with
    | some d => rw [hbc, hrc] at hc; exact hc.elim
    | none =>
      have e : toCode b = joinLines
        [ [], "        if ".toList ++ b.var ++ " is _none:".toList, indent 3 b.init,
          checksumCode "            " b, "        else:".toList, indent 3 b.two, [] ] := by
        simp only [toCode, hbc]
      have ht : r.trees = r.innerTrees := by simp only [BlockSrc.trees, hrc]
      have hst : r.stmts = r.innerStmts := by simp only [BlockSrc.stmts, hrc]
      rw [ht, hst]
      refine ⟨?_, inner_ok h, by simp [BlockSrc.innerTrees], inner_seg h, rfl⟩
      have l1 := Has.lineOf (spaced := "        if ") (pre := "if ") 8 (tp := [.if_]) rfl (by decide +kernel) (by decide)
        (by decide) (h.var.lx.then " is _none:" (tr := [.is_, .name "_none", .colon]) (by decide +kernel))
      have l2 := (h.init.indent 3).has
      have l3 := has_check (b := b) (pad := "            ") (k := 12) h.var.lx rfl
      have l4 := Has.fixed (spaced := "        else:") (pre := "else:") 8 (ts := [.else_, .colon]) rfl
        (by decide +kernel) (by decide) (by decide)
      have l5 := (h.two.indent 3).has
      have := (HasAll.cons .nil (.cons l1 (.cons l2 (.cons l3 (.cons l4 (.cons l5 (.one .nil))))))).join
      rw [e]
      simpa [flatAll, Tree.flat, BlockSrc.innerTrees, flatAll_append, h.flag, List.append_assoc] using this
  | some c =>
    cases hrc : r.cond with
    | none => rw [hbc, hrc] at hc; exact hc.elim
    | some d =>
      rw [hbc, hrc] at hc
      have e : toCode b = joinLines
        [ [], "        if ".toList ++ c ++ ":".toList, "            if ".toList ++ b.var ++ " is _none:".toList,
          indent 4 b.init, checksumCode "                " b, "            else:".toList, indent 4 b.two, [] ] := by
        simp only [toCode, hbc]
      have ht : r.trees = [.block (.if_ :: d.toks) r.innerTrees] := by simp only [BlockSrc.trees, hrc]
      have hst : r.stmts = [.ite d.tree r.innerStmts []] := by simp only [BlockSrc.stmts, hrc]
      rw [ht, hst]
      refine ⟨?_, ⟨⟨by simp [BlockSrc.innerTrees], inner_ok h⟩, trivial⟩, by simp,
        Seg.ite hc.2 (inner_seg h).stmts, rfl⟩
      have l0 := Has.lineOf (spaced := "        if ") (pre := "if ") 8 (tp := [.if_]) rfl (by decide +kernel) (by decide)
        (by decide) (hc.1.then ":" (tr := [.colon]) (by decide +kernel))
      have l1 := Has.lineOf (spaced := "            if ") (pre := "if ") 12 (tp := [.if_]) rfl (by decide +kernel)
        (by decide) (by decide)
        (h.var.lx.then " is _none:" (tr := [.is_, .name "_none", .colon]) (by decide +kernel))
      have l2 := (h.init.indent 4).has
      have l3 := has_check (b := b) (pad := "                ") (k := 16) h.var.lx rfl
      have l4 := Has.fixed (spaced := "            else:") (pre := "else:") 12 (ts := [.else_, .colon]) rfl
        (by decide +kernel) (by decide) (by decide)
      have l5 := (h.two.indent 4).has
      have := (HasAll.cons .nil (.cons l0 (.cons l1 (.cons l2 (.cons l3 (.cons l4 (.cons l5 (.one .nil)))))))).join
      rw [e]
      simpa [flatAll, Tree.flat, BlockSrc.innerTrees, flatAll_append, h.flag, List.append_assoc] using this

/-- `to_no_init_code` is read as the statements of the block. -/
theorem noInit_part {b : BlockText} {r : BlockSrc} (h : BlockReads b r) :
    Part 8 (noInitCode b) r.noInitTrees r.noInitStmts := by
  have hc := h.cond
  cases hbc : b.cond with
  | none =>
    cases hrc : r.cond with
    | some d => rw [hbc, hrc] at hc; exact hc.elim
    | none =>
      have e : noInitCode b = joinLines [[], indent 2 b.two, []] := by simp only [noInitCode, hbc]
      have ht : r.noInitTrees = r.two := by simp only [BlockSrc.noInitTrees, hrc]
      have hst : r.noInitStmts = r.twoS := by simp only [BlockSrc.noInitStmts, hrc]
      rw [ht, hst, e]
      refine ⟨?_, h.two.ok, h.two.ne, h.two.seg, h.two.first⟩
      have l5 := (h.two.indent 2).has
      have := (HasAll.cons .nil (.cons l5 (.one .nil))).join
      simpa using this
  | some c =>
    cases hrc : r.cond with
    | none => rw [hbc, hrc] at hc; exact hc.elim
    | some d =>
      rw [hbc, hrc] at hc
      have e : noInitCode b = joinLines [[], "        if ".toList ++ c ++ ":".toList, indent 3 b.two, [], []] := by
        simp only [noInitCode, hbc]
      have ht : r.noInitTrees = [.block (.if_ :: d.toks) r.two] := by simp only [BlockSrc.noInitTrees, hrc]
      have hst : r.noInitStmts = [.ite d.tree r.twoS []] := by simp only [BlockSrc.noInitStmts, hrc]
      rw [ht, hst, e]
      refine ⟨?_, ⟨⟨h.two.ne, h.two.ok⟩, trivial⟩, by simp, Seg.ite hc.2 h.two.seg.stmts, rfl⟩
      have l0 := Has.lineOf (spaced := "        if ") (pre := "if ") 8 (tp := [.if_]) rfl (by decide +kernel) (by decide)
        (by decide) (hc.1.then ":" (tr := [.colon]) (by decide +kernel))
      have l5 := (h.two.indent 3).has
      have := (HasAll.cons .nil (.cons l0 (.cons l5 (.cons .nil (.one .nil))))).join
      simpa [flatAll, Tree.flat] using this

/-- All blocks are read in these ways. -/
inductive AllReads : List BlockText → List BlockSrc → Prop
  | nil : AllReads [] []
  | cons {b : BlockText} {r : BlockSrc} {bs : List BlockText} {rs : List BlockSrc} : BlockReads b r → AllReads bs rs →
      AllReads (b :: bs) (r :: rs)

/-- `ReduceBlocks.to_code` (746-747). -/
theorem blocks_part {bs : List BlockText} {rs : List BlockSrc} (h : AllReads bs rs) (hne : bs ≠ []) :
    Part 8 (joinBlocks (bs.map toCode)) (rs.flatMap BlockSrc.trees) (rs.flatMap BlockSrc.stmts) := by
  induction h with
  | nil => exact absurd rfl hne
  | cons h1 h2 ih =>
    rename_i b r bs rs
    cases h2 with
    | nil => simpa [joinBlocks] using toCode_part h1
    | cons h3 h4 =>
      have := (toCode_part h1).appendBlank (ih (by simp))
      simpa [joinBlocks] using this

/-- `ReduceBlocks.to_no_init_code` (749-752). -/
theorem noInits_part {bs : List BlockText} {rs : List BlockSrc} (h : AllReads bs rs) (hne : bs ≠ []) :
    Part 8 (joinBlocks (bs.map noInitCode)) (rs.flatMap BlockSrc.noInitTrees) (rs.flatMap BlockSrc.noInitStmts) := by
  induction h with
  | nil => exact absurd rfl hne
  | cons h1 h2 ih =>
    rename_i b r bs rs
    cases h2 with
    | nil => simpa [joinBlocks] using noInit_part h1
    | cons h3 h4 =>
      have := (noInit_part h1).appendBlank (ih (by simp))
      simpa [joinBlocks] using this

end Verif.Stmt
