import Verif.Stmt.AggFn

/-!
# Stmt: how Python reads the generated functions of `group_by`
-/

set_option autoImplicit false

namespace Verif.Stmt

open Verif.Text Verif.Agg

/-- The body of the function of `group_by` (757-766). -/
def grouperTrees (r : FnSrc) (cls : String) (sigT : List Tok) (bs : List BlockSrc) : List Tree :=
  r.startTrees ++
  ([.leaf [.name "signature_to_agg_data_", .assign, .name "defaultdict", .lpar, .name cls, .rpar],
    .block [.for_, .name "row_", .in_, .name "data_"]
      (.leaf ([.name "agg_data_", .assign, .name "signature_to_agg_data_", .lbr] ++ (sigT ++ [.rbr])) ::
        bs.flatMap BlockSrc.trees)] ++ r.endTrees)

/-- The same as statements. -/
def grouperStmts (r : FnSrc) (cls : String) (sigA : Ast) (bs : List BlockSrc) : List Stmt :=
  r.startStmts ++
  ([.assign [.name "signature_to_agg_data_"] (.call (.name "defaultdict") [.name cls] []),
    .for_ "row_" (.name "data_")
      (.assign [.name "agg_data_"] (.sub (.name "signature_to_agg_data_") sigA) :: bs.flatMap BlockSrc.stmts)] ++
    r.endStmts)

section
variable {f : FnText} {r : FnSrc} (h : FnReads f r) {cls : String} (hc : isName cls = true) {signature : String}
  {sigT : List Tok} {sigA : Ast} (hl : Lx signature.toList sigT) (hs : Rd sigT sigA)
  {bs : List BlockText} {rs : List BlockSrc} (hb : AllReads bs rs) (hbne : bs ≠ [])

include h hs hb hbne in
theorem grouper_seg : Seg (grouperTrees r cls sigT rs) (grouperStmts r cls sigA rs) := by
  have s1 := Seg.leaf (simple_assign1 (pr_name "signature_to_agg_data_") rfl
    (Ex.of_rd (pr_call' (pr_name "defaultdict") (.cons (pr_name cls).rd .nil)).rd))
  have s2 := Seg.leaf (simple_assign1 (pr_name "agg_data_") rfl
    (Ex.of_rd (pr_sub (pr_name "signature_to_agg_data_") hs).rd))
  have p1 := blocks_part hb hbne
  have s3 := Seg.for_ (v := "row_") (by decide +kernel) (Ex.of_rd (pr_name "data_").rd)
    (s2.append p1.seg (noElse_flat _ (fun b => by unfold BlockSrc.trees; cases b.cond <;> rfl) _)).stmts
  exact (start_part h).2.append ((s1.append s3 rfl).append (end_part h).2 rfl) rfl

include h hb hbne in
theorem grouper_ok : OkAll (grouperTrees r cls sigT rs) := by
  refine okAll_append (start_part h).1 (okAll_append ?_ (end_part h).1)
  have p1 := blocks_part hb hbne
  refine ⟨by simp [Tree.Ok], ⟨by simp, ?_, p1.ok⟩, trivial⟩
  rw [Tree.Ok, ← List.append_assoc, List.getLast?_append]
  simp

include h hc hl hs hb hbne in
/-- The text of the function of `group_by` is read as its statements. -/
theorem grouper_source : Source (grouperText f cls signature bs)
    [.def_ f.name ("data_" :: f.args) [] (grouperStmts r cls sigA rs)] := by
  have l1 := Has.lineOf (spaced := "def ") (pre := "def ") 0 (tp := [.kw "def"]) rfl (by decide +kernel) (by decide)
    (by decide) (lex_def h.name h.args)
  have c1 : lexFrom .start (cls.toList ++ ")".toList) = some [.name cls, .rpar] := by
    have he := endLit_ends (s := ")") (by decide) []
    rw [List.append_nil] at he
    have := reads_name hc true ")".toList he.1 (fun _ => he.2)
    rw [this]
    rfl
  have l2 := Has.lineOf (spaced := "    signature_to_agg_data_ = defaultdict(")
    (pre := "signature_to_agg_data_ = defaultdict(") 4
    (tp := [.name "signature_to_agg_data_", .assign, .name "defaultdict", .lpar]) rfl (by decide +kernel) (by decide)
    (by decide) c1
  have l3 := Has.fixed (spaced := "    for row_ in data_:") (pre := "for row_ in data_:") 4
    (ts := [.for_, .name "row_", .in_, .name "data_", .colon]) rfl (by decide +kernel) (by decide) (by decide)
  have c2 : lexFrom .start (signature.toList ++ "]".toList) = some (sigT ++ [.rbr]) :=
    hl.then "]" (by decide) (by decide +kernel)
  have l4 := Has.lineOf (spaced := "        agg_data_ = signature_to_agg_data_[")
    (pre := "agg_data_ = signature_to_agg_data_[") 8
    (tp := [.name "agg_data_", .assign, .name "signature_to_agg_data_", .lbr]) rfl (by decide +kernel) (by decide)
    (by decide) c2
  have p1 := blocks_part hb hbne
  have a2 := HasAll.cons l2 (.cons l3 (.cons l4 (.cons p1.has (.cons .nil (end_has h)))))
  have all := (HasAll.cons .nil (.cons l1 ((start_has h).append a2))).join
  refine source_of (ts := [.block (.kw "def" :: .name f.name :: .lpar :: .name "data_" :: (argToks f.args ++ [.rpar]))
      (grouperTrees r cls sigT rs)]) ?_
    ⟨⟨by simp [grouperTrees, FnSrc.startTrees], grouper_ok h hb hbne⟩, trivial⟩ ?_
  · simpa [grouperText, flatAll, Tree.flat, grouperTrees, flatAll_append] using all
  · refine StmtsOf.def_ (readParams_args "data_" f.args) (by simpa using h.nodup) ?_ .nil
    exact (grouper_seg h hs hb hbne).stmts

end

end Verif.Stmt
