import Verif.Stmt.TemplateFirst
import Verif.Stmt.AggTop

/-!
# Stmt: the statements of the reducers do what the models of the reducers say

Nothing here is code of the repository.
-/

set_option autoImplicit false

namespace Verif.Stmt

open Verif.Text Verif.Agg Verif.Reducers

variable {V E : Type}

/-- The code of a user's expression has the value `x` in each row; it neither changes anything nor reads any variable
besides its row and the arguments of the function. -/
def Gives (P : Py V E) (args : List String) (env : String → Option (PVal V)) (a : Ast) (x : V → Except E V) : Prop :=
  ∀ st row, Ctx args env st → st.loc "row_" = some (.user row) →
    ev P a st = (lift (x row)).map (fun v => (.user v, st))

/-- The builtins which the statements of a reducer call (385-428). -/
def Fn.globals : Fn → List String
  | .dictArray => ["defaultdict", "list"]
  | .dictArrayDistinct => ["defaultdict", "dict"]
  | .dictSum | .dictSumOrNone => ["defaultdict", "int"]
  | _ => []

/-- The displays in the statements of a reducer. -/
def Fn.displays (xa ya : Ast) : Fn → List Ast
  | .countDistinct => [.display .set [xa]]
  | .maxRow | .minRow => [.display .tuple [xa, ya]]
  | .array => [.display .list [xa]]
  | .arrayDistinct => [.display .dict [xa, none_]]
  | .dict | .dictMax | .dictMin | .dictFirst | .dictLast => [.display .dict [xa, ya]]
  | .dictCount => [.display .dict [xa, .num 1]]
  | .dictCountDistinct => [.display .set [ya], .display .dict [xa, .display .set [ya]]]
  | _ => []

/-- What the statements of a reducer need. -/
structure FnOk (P : Py V E) (args : List String) (env : String → Option (PVal V)) (f : Fn) (xa ya : Ast)
    (x y : V → Except E V) : Prop where
  x : Gives P args env xa x
  y : f.arity = 2 → Gives P args env ya y
  globals : ∀ g ∈ f.globals, g ∈ args ∧ env g = none ∧ P.glob g = some (.builtin g)
  displays : ∀ d ∈ f.displays xa ya, P.tracked d = true

section
variable {P : Py V E} {args : List String} {env : String → Option (PVal V)} {a xa ya : Ast} {x y : V → Except E V}
  {st : St V} {row : V} {m : Bool} {j : Nat}

theorem Gives.says (h : Gives P args env a x) (hc : Ctx args env st) (hr : st.loc "row_" = some (.user row)) :
    Says P st a (x row) := fun k => h (st.onHeap k) row (hc.of_loc (fun _ _ => rfl)) hr

theorem fresh_loc {fac n : String} (h1 : n ≠ varAgg j) (h2 : n ≠ "_d") :
    (fresh m j fac st).loc n = st.loc n := by
  simp only [fresh, onHeap_loc, St.set, h2, if_false]
  exact put_loc m j _ st h1

theorem Gives.fresh (ha : ArgsOk args) (h : Gives P args env a x) (hc : Ctx args env st)
    (hr : st.loc "row_" = some (.user row)) (fac : String) : Says P (fresh m j fac st) a (x row) := by
  refine h.says (hc.of_loc ?_) ?_
  · rintro n (rfl | hn)
    · exact fresh_loc (varAgg_ne (by decide) j) (by decide)
    · refine fresh_loc (ha.vars n hn j) ?_
      rintro rfl
      exact ha.fixed _ hn (by decide)
  · rw [fresh_loc (varAgg_ne (by decide) j) (by decide), hr]

theorem look_glob {g : String} {v : PVal V} (hc : Ctx args env st) (h1 : g ∈ args) (h2 : env g = none)
    (h3 : P.glob g = some v) : st.look P g = some v := by
  have := hc.args g h1
  rw [h2] at this
  simp only [St.look, this, h3, ite_self]

end

section
variable {P : Py V E} {ops : Ops V E} {args : List String} {env : String → Option (PVal V)} {f : Fn} {xa ya : Ast}
  {x y : V → Except E V} {m : Bool} {j : Nat}

/-- The statements which combine. -/
theorem fn_two (L : OpsOk P ops) (h : FnOk P args env f xa ya x y) :
    Acts P (Ctx args env) (f.kind P ops) m j (f.reduceWith (place m j) (place m j) xa ya)
      (liftStep P ops f (fun row r => (@Fn.reducer V E P.beq ops f).reduce r r (x row) (y row))) := by
  apply acts_of
  intro st row p s hc hr hh hv hs hd
  letI := P.beq
  have hx := h.x.says hc hr
  have hy := fun h2 => (h.y h2).says hc hr
  cases f with
  | sum => exact sum_reduce L hh hx hs hd
  | sumOrNone => exact sumOrNone_reduce L hh hx hv hs hd hh.ev (val_cases L hh hx rfl hs hd)
  | max => exact extreme_reduce L hh hx rfl (fun _ _ _ => rfl) L.gt L.gtS hv hs hd hh.ev (val_cases L hh hx rfl hs hd)
  | min => exact extreme_reduce L hh hx rfl (fun _ _ _ => rfl) L.lt L.ltS hv hs hd hh.ev (val_cases L hh hx rfl hs hd)
  | count => exact count_reduce L hh hs hd
  | countDistinct => exact countDistinct_reduce L hh hx hs hd
  | first => exact outcome_keep hh hv hs hd rfl
  | last => 
    have := assign_first (f := .last) L hh hx rfl
    cases hxr : x row <;> rw [hxr] at this <;> exact this
  | maxRow => exact extremeRow_reduce L hh hx rfl (fun _ _ _ => rfl) L.lt hv hs hd (hy rfl) (h.displays _ (by simp [Fn.displays]))
  | minRow => exact extremeRow_reduce L hh hx rfl (fun _ _ _ => rfl) L.gt hv hs hd (hy rfl) (h.displays _ (by simp [Fn.displays]))
  | array => exact array_reduce L hh hx hs hd
  | arrayDistinct => exact arrayDistinct_reduce L hh hx hs hd
  | dict => exact setItem_reduce L hh hx rfl (hy rfl) hs hd
  | dictArray => exact dictArray_reduce L hh hx (hy rfl) hs hd
  | dictArrayDistinct => exact dictArrayDistinct_reduce L hh hx (hy rfl) hs hd
  | dictSum => exact dictSum_reduce L hh hx (hy rfl) hs hd
  | dictSumOrNone => exact dictSumOrNone_reduce L hh hx hv (hy rfl) hs hd
  | dictMax => exact dictExtreme_reduce L hh hx rfl (fun _ _ _ => rfl) L.gt hv (hy rfl) hs hd
  | dictMin => exact dictExtreme_reduce L hh hx rfl (fun _ _ _ => rfl) L.lt hv (hy rfl) hs hd
  | dictCount => exact dictCount_reduce L hh hx hs hd
  | dictCountDistinct => exact dictCountDistinct_reduce L hh hx (hy rfl) hs hd (h.displays _ (by simp [Fn.displays]))
  | dictFirst => exact dictFirst_reduce L hh hx hv (hy rfl) hs hd
  | dictLast => exact setItem_reduce L hh hx rfl (hy rfl) hs hd

/-- The statements which start, without `initial`. -/
theorem fn_first (L : OpsOk P ops) (ha : ArgsOk args) (h : FnOk P args env f xa ya x y) :
    Acts P (Ctx args env) (f.kind P ops) m j (f.firstWith (place m j) xa ya)
      (liftStep P ops f (fun row r => (@Fn.reducer V E P.beq ops f).first r (x row) (y row))) := by
  apply acts_of
  intro st row p s hc hr hh hv hs hd
  letI := P.beq
  have hx := h.x.says hc hr
  have hy := fun h2 => (h.y h2).says hc hr
  have hg : ∀ g ∈ f.globals, st.look P g = some (.builtin g) := fun g hg =>
    have := h.globals g hg
    look_glob hc this.1 this.2.1 this.2.2
  have fx := fun fac => h.x.fresh (m := m) (j := j) ha hc hr fac
  have fy := fun h2 fac => (h.y h2).fresh (m := m) (j := j) ha hc hr fac
  cases f with
  | sum => exact sum_first L hh hx
  | sumOrNone => 
    have := assign_first (f := .sumOrNone) L hh hx rfl
    cases hxr : x row <;> rw [hxr] at this <;> exact this
  | max => exact extreme_first L hh hx rfl hv hs hd
  | min => exact extreme_first L hh hx rfl hv hs hd
  | count => exact count_first hh
  | countDistinct => exact countDistinct_first L hh hx (h.displays _ (by simp [Fn.displays]))
  | first => 
    have := assign_first (f := .first) L hh hx rfl
    cases hxr : x row <;> rw [hxr] at this <;> exact this
  | last => 
    have := assign_first (f := .last) L hh hx rfl
    cases hxr : x row <;> rw [hxr] at this <;> exact this
  | maxRow => exact extremeRow_first L hh hx rfl hv hs hd (hy rfl) (h.displays _ (by simp [Fn.displays]))
  | minRow => exact extremeRow_first L hh hx rfl hv hs hd (hy rfl) (h.displays _ (by simp [Fn.displays]))
  | array => exact array_first L hh hx (h.displays _ (by simp [Fn.displays]))
  | arrayDistinct => exact arrayDistinct_first L hh hx (h.displays _ (by simp [Fn.displays]))
  | dict => exact dict_first L hh hx rfl rfl (hy rfl) (h.displays _ (by simp [Fn.displays]))
  | dictArray => exact dictArray_first L hh (hg _ (by simp [Fn.globals])) (hg _ (by simp [Fn.globals])) (fx _) (fy rfl _)
  | dictArrayDistinct =>
    exact dictArrayDistinct_first L hh (hg _ (by simp [Fn.globals])) (hg _ (by simp [Fn.globals])) (fx _) (fy rfl _)
  | dictSum => exact dictSum_first L hh (hg _ (by simp [Fn.globals])) (hg _ (by simp [Fn.globals])) (fx _) (fy rfl _)
  | dictSumOrNone =>
    exact dictSumOrNone_first L hh (hg _ (by simp [Fn.globals])) (hg _ (by simp [Fn.globals])) (fx _) (fy rfl _)
  | dictMax => exact dictExtreme_first L hh hx rfl rfl hv (hy rfl) hs hd (h.displays _ (by simp [Fn.displays]))
  | dictMin => exact dictExtreme_first L hh hx rfl rfl hv (hy rfl) hs hd (h.displays _ (by simp [Fn.displays]))
  | dictCount => exact dictCount_first L hh hx (h.displays _ (by simp [Fn.displays]))
  | dictCountDistinct =>
    exact dictCountDistinct_first L hh hx (hy rfl) (h.displays _ (by simp [Fn.displays])) (h.displays _ (by simp [Fn.displays]))
  | dictFirst => exact dict_first (s := s) L hh hx rfl rfl (hy rfl) (h.displays _ (by simp [Fn.displays]))
  | dictLast => exact dict_first L hh hx rfl rfl (hy rfl) (h.displays _ (by simp [Fn.displays]))

/-- The statements which start, with `initial`. -/
theorem fn_initial (L : OpsOk P ops) (h : FnOk P args env f xa ya x y) (hf : f.takesInitial = true) {ia : Ast} {i : V}
    (hi : Gives P args env ia (fun _ => .ok i)) :
    Acts P (Ctx args env) (f.kind P ops) m j (f.reduceWith (place m j) ia xa ya)
      (liftStep P ops f (fun row r => (@Fn.reducer V E P.beq ops f).reduce r (some (.val i)) (x row) (y row))) := by
  apply acts_of
  intro st row p s hc hr hh hv hs hd
  letI := P.beq
  have hx := h.x.says hc hr
  have h0 := (hi.says hc hr).ok0
  have hi0 : ValIs (some (.val i)) (.user i) := .inr ⟨i, rfl, rfl⟩
  cases f <;> first | exact absurd hf Bool.false_ne_true | skip
  · exact sum_reduce L hh hx hs hd
  · exact sumOrNone_reduce L hh hx hv hs hd h0 hi0
  · exact extreme_reduce L hh hx rfl (fun _ _ _ => rfl) L.gt L.gtS hv hs hd h0 hi0
  · exact extreme_reduce L hh hx rfl (fun _ _ _ => rfl) L.lt L.ltS hv hs hd h0 hi0
  · exact count_reduce L hh hs hd
  · exact outcome_keep hh hv hs hd rfl
  · 
    have := assign_first (f := .last) L hh hx rfl
    cases hxr : x row <;> rw [hxr] at this <;> exact this

end

end Verif.Stmt
