import Verif.Expr.Toy
import Verif.Expr.Run

/-!
# Expressions: the concrete runtime meets the hypotheses of the theorems
-/

set_option autoImplicit false

namespace Verif.Expr.Toy

theorem noneFalsy : NoneFalsy R := fun _ => rfl

theorem truthAll (tp : Bool) : TruthAll R tp (fun _ _ => True) := fun _ v l u _ => ⟨truthy v, rfl⟩

theorem int_text (i : Int) (s : String) (h : toString i = s) :
    ∃ c, s.toList.head? = some c ∧ (c.isDigit = true ∨ c = '-') := by
  subst h
  rw [Int.toString_eq_repr, Int.repr_eq_if]
  have hd : ∀ n : Nat, ∃ c, n.repr.toList.head? = some c ∧ c.isDigit = true := by
    intro n
    have hn : n.repr.toList = Nat.toDigits 10 n := by simp [Nat.repr]
    rw [hn]
    cases h : Nat.toDigits 10 n with
    | nil => exact absurd h Nat.toDigits_ne_nil
    | cons c cs =>
      exact ⟨c, rfl, Nat.isDigit_of_mem_toDigits (b := 10) (n := n) (by decide) (by decide) (by rw [h]; simp)⟩
  split
  · obtain ⟨c, h1, h2⟩ := hd i.toNat
    exact ⟨c, h1, Or.inl h2⟩
  · exact ⟨'-', by simp, Or.inr rfl⟩

theorem const_ne (l : Lit V) {s : String} (hs : s = "data_" ∨ s = "obj_" ∨ s = "i_" ∨ s = "" ∨ s = "pipe_") :
    constText l ≠ s := by
  intro h
  have hint : ∀ i : Int, toString i ≠ s := by
    intro i hi
    obtain ⟨c, h1, h2⟩ := int_text i s hi
    rcases hs with rfl | rfl | rfl | rfl | rfl <;> simp at h1 <;> subst h1 <;> revert h2 <;> decide
  cases l with
  | int i => exact hint i h
  | str t =>
    simp only [constText] at h
    have := congrArg (fun s => s.toList.head?) h
    rcases hs with rfl | rfl | rfl | rfl | rfl <;> simp at this
  | bool b => cases b <;> rcases hs with rfl | rfl | rfl | rfl | rfl <;> revert h <;> decide
  | none => rcases hs with rfl | rfl | rfl | rfl | rfl <;> revert h <;> decide
  | obj v =>
    cases v with
    | fn f =>
      simp only [constText] at h
      have := congrArg (fun s => s.toList.take 2) h
      rcases hs with rfl | rfl | rfl | rfl | rfl <;> simp at this
    | _ => rcases hs with rfl | rfl | rfl | rfl | rfl <;> revert h <;> simp [constText]

theorem namesOk : NamesOk N where
  paramWord _ := by simp only [N]; decide
  constParam l _ := const_ne l (by simp [N])
  constData l := const_ne l (by simp)
  constObj l := const_ne l (by simp)
  constText l := const_ne l (by simp)

theorem varOk (t : String) : VarOk N (var t) := ⟨by simp [var]; decide, fun l => const_ne l (by simp [var])⟩

theorem noFit : ArgsFit N var noArgs [] :=
  ⟨fun _ h => (by cases h), fun _ h => (by cases h), fun _ h => (by cases h), fun _ h => (by cases h)⟩

theorem ltOrder : PySort.WeakOrder V.lt where
  asymm a b h := by
    simp only [V.lt, Bool.or_eq_true, Bool.and_eq_true, decide_eq_true_eq, beq_iff_eq] at h
    simp only [V.lt, Bool.or_eq_false_iff, decide_eq_false_iff_not, Bool.and_eq_false_iff, beq_eq_false_iff_ne]
    rcases h with h | ⟨h1, h2⟩
    · exact ⟨by omega, Or.inl (by omega)⟩
    · exact ⟨by omega, Or.inr (String.lt_asymm h2)⟩
  negTrans a b c h1 h2 := by
    simp only [V.lt, Bool.or_eq_false_iff, decide_eq_false_iff_not, Bool.and_eq_false_iff, beq_eq_false_iff_ne] at *
    obtain ⟨h1, h1'⟩ := h1
    obtain ⟨h2, h2'⟩ := h2
    refine ⟨by omega, ?_⟩
    rcases h1' with h | h
    · exact Or.inl (by omega)
    · rcases h2' with h' | h'
      · exact Or.inl (by omega)
      · exact Or.inr (String.not_lt.2 (String.le_trans (String.not_lt.1 h') (String.not_lt.1 h)))

instance : BEq V := ⟨V.beq⟩

instance : LawfulBEq V where
  rfl := V.beq_refl _
  eq_of_beq h := V.eq_of_beq h

end Verif.Expr.Toy
