import Verif.Stmt.TemplateActs

/-!
# Stmt: the models of the reducers keep the kind of their slot

Nothing here is code of the repository.
-/

set_option autoImplicit false

namespace Verif.Stmt

open Verif.Agg Verif.Reducers

variable {V E : Type}

/-- The slot is empty, or of the kind of the reducer. -/
def Fn.Holds (f : Fn) (s : Option (Slot V)) : Prop := ∀ x, s = some x → tagOf x = f.tag

theorem Fn.holds_none (f : Fn) : f.Holds (none : Option (Slot V)) := by
  intro x h
  cases h

theorem reduce_tag [BEq V] (ops : Ops V E) (f : Fn) {r a0 t : Option (Slot V)} {x y : Except E V} (hr : f.Holds r)
    (h : (f.reducer ops).reduce r a0 x y = .ok t) : f.Holds t := by
  intro s hs
  subst hs
  cases f <;>
    simp only [Fn.reducer, sum, sumOrNone, Reducers.max, Reducers.min, extreme, count, countDistinct, firstR, lastR, maxRow, minRow,
      extremeRow, array, arrayDistinct, dictLast, dictArray, dictArrayDistinct, dictSum, dictSumOrNone, dictMax, dictMin,
      dictExtreme, dictCount, dictCountDistinct, dictFirst, addAt, addSlot, noDict] at h <;>
    (repeat' split at h) <;>
    first
      | (simp only [Except.ok.injEq, Option.some.injEq, reduceCtorEq] at h; done)
      | (simp only [Except.ok.injEq, Option.some.injEq] at h; subst h; rfl)
      | (simp only [Except.ok.injEq, Option.some.injEq] at h; subst h; exact hr _ rfl)

theorem first_tag [BEq V] (ops : Ops V E) (f : Fn) {r t : Option (Slot V)} {x y : Except E V} (hr : f.Holds r)
    (h : (f.reducer ops).first r x y = .ok t) : f.Holds t := by
  intro s hs
  subst hs
  cases f <;>
    simp only [Fn.reducer, sum, sumOrNone, Reducers.max, Reducers.min, extreme, count, countDistinct, firstR, lastR, maxRow, minRow,
      extremeRow, array, arrayDistinct, dictLast, dictArray, dictArrayDistinct, dictSum, dictSumOrNone, dictMax, dictMin,
      dictExtreme, dictCount, dictCountDistinct, dictFirst, addAt, addSlot, noDict] at h <;>
    (repeat' split at h) <;>
    first
      | (simp only [Except.ok.injEq, Option.some.injEq, reduceCtorEq] at h; done)
      | (simp only [Except.ok.injEq, Option.some.injEq] at h; subst h; rfl)
      | (simp only [Except.ok.injEq, Option.some.injEq] at h; subst h; exact hr _ rfl)

end Verif.Stmt
