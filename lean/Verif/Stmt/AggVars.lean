import Verif.Stmt.AggFn

/-!
# Stmt: the variables of the reduces
-/

set_option autoImplicit false

namespace Verif.Stmt

open Verif.Text Verif.Agg

theorem digits_all (n : Nat) : (toString n).toList.all Char.isDigit = true := by
  have e : (toString n).toList = Nat.toDigits 10 n := by simp [toString, Nat.repr]
  rw [e, List.all_eq_true]
  intro c hc
  exact Nat.isDigit_of_mem_toDigits (by decide : 0 < 10) (by decide) hc

theorem digits_ne (n : Nat) : (toString n).toList ≠ [] := by
  have e : (toString n).toList = Nat.toDigits 10 n := by simp [toString, Nat.repr]
  rw [e]
  exact Nat.toDigits_ne_nil

theorem toString_inj {m n : Nat} (h : toString m = toString n) : m = n := by
  have h1 := nat_lx m
  rw [h, nat_lx n] at h1
  simpa using h1.symm

/-- A word with a digit is no keyword. -/
theorem isName_of_digit {s : String} (hw : isWordText s.toList = true) (hd : s.toList.any Char.isDigit = true) :
    isName s = true := by
  have hn : ∀ k : String, k.toList.any Char.isDigit = false → s ≠ k := by
    rintro k hk rfl
    rw [hk] at hd
    cases hd
  have ho : s ∉ otherKeywords := by
    intro hm
    have : ∀ k ∈ otherKeywords, k.toList.any Char.isDigit = false := by decide +kernel
    exact hn s (this s hm) rfl
  have hw' : wordTok s = .name s := by
    simp only [wordTok, hn "and" (by decide +kernel), hn "or" (by decide +kernel), hn "not" (by decide +kernel),
      hn "is" (by decide +kernel), hn "in" (by decide +kernel), hn "if" (by decide +kernel),
      hn "else" (by decide +kernel), hn "for" (by decide +kernel), ho, if_false]
  have hc : isConstName s = false := by
    simp only [isConstName, Bool.or_eq_false_iff, beq_eq_false_iff_ne, ne_eq]
    exact ⟨⟨hn _ (by decide +kernel), hn _ (by decide +kernel)⟩, hn _ (by decide +kernel)⟩
  simp [isName, isNameTok, hw, hw', hc]

theorem digit_idChar {c : Char} (h : c.isDigit = true) : idChar c = true := by
  simp [idChar, Char.isAlphanum, h]

theorem varAgg_toList (j : Nat) : (varAgg j).toList = "agg_data_v".toList ++ ((toString j).toList ++ ['_']) := by
  simp [varAgg, String.toList_append]

theorem varAgg_name (j : Nat) : isName (varAgg j) = true := by
  have hd := digits_all j
  have hne := digits_ne j
  refine isName_of_digit ?_ ?_
  · rw [varAgg_toList]
    generalize (toString j).toList = l at hd hne
    have : (l ++ ['_']).all idChar = true := by
      rw [List.all_append, Bool.and_eq_true]
      exact ⟨by rw [List.all_eq_true] at hd ⊢; exact fun c hc => digit_idChar (hd c hc), by decide⟩
    show (idStart 'a' && ("gg_data_v".toList ++ (l ++ ['_'])).all idChar) = true
    rw [List.all_append, this]
    decide +kernel
  · rw [varAgg_toList]
    generalize (toString j).toList = l at hd hne
    cases l with
    | nil => exact absurd rfl hne
    | cons c l =>
      simp only [List.all_cons, Bool.and_eq_true] at hd
      simp [hd.1]

/-- `v<i>`. -/
def attrName (j : Nat) : String := "v" ++ toString j

theorem attrName_toList (j : Nat) : (attrName j).toList = 'v' :: (toString j).toList := by
  simp [attrName, String.toList_append]

theorem attrName_name (j : Nat) : isName (attrName j) = true := by
  have hd := digits_all j
  have hne := digits_ne j
  refine isName_of_digit ?_ ?_
  · rw [attrName_toList]
    generalize (toString j).toList = l at hd hne
    show (idStart 'v' && l.all idChar) = true
    rw [List.all_eq_true] at hd
    have : l.all idChar = true := by rw [List.all_eq_true]; exact fun c hc => digit_idChar (hd c hc)
    rw [this]
    decide +kernel
  · rw [attrName_toList]
    generalize (toString j).toList = l at hd hne
    cases l with
    | nil => exact absurd rfl hne
    | cons c l =>
      simp only [List.all_cons, Bool.and_eq_true] at hd
      simp [hd.1]

theorem attrName_inj {i j : Nat} (h : attrName i = attrName j) : i = j := by
  have := congrArg String.toList h
  rw [attrName_toList, attrName_toList, List.cons.injEq] at this
  exact toString_inj (String.toList_inj.1 this.2)

theorem varAgg_inj {i j : Nat} (h : varAgg i = varAgg j) : i = j := by
  have := congrArg String.toList h
  rw [varAgg_toList, varAgg_toList, List.append_cancel_left_eq, List.append_cancel_right_eq] at this
  exact toString_inj (String.toList_inj.1 this)

/-- The variables are different from the other variables of the templates. -/
theorem varAgg_ne {x : String} (h : x.toList.head? ≠ some 'a') (j : Nat) : x ≠ varAgg j := by
  rintro rfl
  rw [varAgg_toList] at h
  exact h rfl

/-- The variable of a reduce, as it is read. -/
def place : Bool → Nat → Ast
  | true, j => .name (varAgg j)
  | false, j => .attr (.name "agg_data_") (attrName j)

/-- Its tokens. -/
def placeToks : Bool → Nat → List Tok
  | true, j => [.name (varAgg j)]
  | false, j => [.name "agg_data_", .dot, .name (attrName j)]

/-- Its text (`gen_agg_data_value` 1166-1176). -/
def placeText : Bool → Nat → String
  | true, j => varAgg j
  | false, j => varGroup j

theorem isConst_of_name {s : String} (h : isName s = true) : isConstName s = false := by
  simp only [isName, Bool.and_eq_true, Bool.not_eq_true'] at h
  exact h.2

theorem varAgg_const (j : Nat) : isConstName (varAgg j) = false := isConst_of_name (varAgg_name j)

theorem place_code (m : Bool) (j : Nat) : VarCode (placeText m j).toList (placeToks m j) (place m j) := by
  cases m with
  | true =>
    refine ⟨Lx.of_reads (reads_name (varAgg_name j) true), pr_name _, ?_⟩
    simp [place, isTarget, isConst_of_name (varAgg_name j)]
  | false =>
    refine ⟨?_, pr_dot (pr_name _) (isConst_of_name (attrName_name j)), rfl⟩
    intro cs h1 h2
    have e : (placeText false j).toList ++ cs = "agg_data_".toList ++ (".".toList ++ ((attrName j).toList ++ cs)) := by
      simp [placeText, varGroup, attrName, String.toList_append]
    have hp : Piece "." [.dot] := by decide +kernel
    have ha := reads_name (attrName_name j) true cs h1 (fun _ => h2)
    have hb := reads_name (s := "agg_data_") (by decide +kernel) false (".".toList ++ ((attrName j).toList ++ cs))
      (by simp [wEnd, idChar]) (by simp)
    rw [e, hb, hp.lex, ha]
    cases lexFrom .start cs <;> simp [placeToks]

theorem place_head (m : Bool) (j : Nat) : (placeText m j).toList.head? = some 'a' := by
  cases m with
  | true => rw [placeText, varAgg_toList]; rfl
  | false => simp [placeText, varGroup, String.toList_append]

theorem place_ne (m : Bool) (j : Nat) : placeText m j ≠ "" := by
  intro h
  have := place_head m j
  rw [h] at this
  cases this

theorem vars_place (m : Bool) : ∀ l : List Nat, Vars (l.map (placeText m)) (l.map (placeToks m)) (l.map (place m))
  | [] => .nil
  | j :: l => .cons (place_code m j) (by rw [place_head]; simp) (place_ne m j) (vars_place m l)

end Verif.Stmt
