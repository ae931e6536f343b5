import Verif.Stmt.TemplateRename

/-!
# Stmt: the sample texts of `Agg/Hash` are texts of the template
-/

set_option autoImplicit false

namespace Verif.Stmt

open Verif.Agg

/-- The block of a sum the refutations of C35 are about (`sumText`) is the one the template gives. -/
theorem sumText_template (aggMode : Bool) (i : Nat) (expr : String) :
    genBlock Fn.sum.template ⟨none, [expr], none⟩ (placeText aggMode i) (if aggMode then 1 <<< i else 0) =
      some (sumText aggMode i expr) := by
  have hv := placeText_noBrace aggMode i
  have h1 : partsAll ["%(result)s = ({0} or 0)"] = some [[.res, .ch ' ', .ch '=', .ch ' ', .ch '(', .arg 0, .ch ' ', .ch 'o', .ch 'r', .ch ' ', .ch '0', .ch ')']] := by
    with_unfolding_all rfl
  have h2 : partsAll ["%(result)s += ({1} or 0)"] = some [[.res, .ch ' ', .ch '+', .ch '=', .ch ' ', .ch '(', .arg 1, .ch ' ', .ch 'o', .ch 'r', .ch ' ', .ch '0', .ch ')']] := by
    with_unfolding_all rfl
  simp only [genBlock, Template.genInitial, Template.genTwo, Fn.template, Option.map_none, List.map_cons, List.map_nil]
  rw [formatStatements_eq (ss := ["%(result)s = ({0} or 0)"]) hv _ h1,
    formatStatements_eq (ss := ["%(result)s += ({1} or 0)"]) hv _ h2]
  cases aggMode <;> simp [renderAll, render, sumText, placeText, joinLines, varAgg, varGroup]

end Verif.Stmt
