import Verif.Stmt.InlineRedProps
import Verif.Stmt.CustomDemo

/-!
# Stmt: reduces with inline expressions, examples
-/

set_option autoImplicit false

namespace Verif.Stmt.Demo

open Verif.Text Verif.Agg Verif.Reducers

/-- Negation of numbers. -/
def evalNeg (a : Ast) (st : St D) : Except String (PVal D) :=
  match a with
  | .neg a =>
    match ev py a st with
    | .ok (.user (.int n), _) => .ok (.user (.int (-n)))
    | _ => .error "TypeError"
  | a => py.eval a st

/-- Python with subtraction, addition and negation. -/
def pyI : Py D String :=
  { py with
    eval := evalNeg
    arith := fun o =>
      match o with
      | .sub => onUsers (onInts (fun a b => .int (a - b))) .user
      | _ => onUsers ops.add .user }

/-- What the format strings compute. -/
def exprFns (g : String) (a : Option D) (b : D) : Except String D :=
  match a with
  | some a => if g = "{0} - {1}" then onInts (fun a b => .int (a - b)) a b else ops.add a b
  | none => .error "TypeError"

theorem itemI_gives (args : List String) (env : String → Option (PVal D)) (n : Nat) :
    Gives pyI args env (.sub (.name "row_") (.num n)) (item n) := by
  intro st row hc hr
  have e : ev pyI (.sub (.name "row_") (.num n)) st = ev py (.sub (.name "row_") (.num n)) st := rfl
  rw [e]
  exact item_gives args env n st row hc hr

/-- `c.reduce(c.inline_expr("{0} - {1}"), c.item(1), initial=100).filter(c.item(0) > 1)`. -/
def subtracting : IRed D String := ⟨{ left with g := "{0} - {1}" }, .bin .sub (.name "{0") (.name "{1")⟩

/-- `c.reduce(c.inline_expr("{0} + {1}"), c.item(1))`. -/
def adding : IRed D String := ⟨{ plain with g := "{0} + {1}" }, .bin .add (.name "{0") (.name "{1")⟩

theorem subtracting_format : FormatOk "{0} - {1}" (.bin .sub (.name "{0") (.name "{1")) :=
  format_ok (l := [.code ['0'], .ch ' ', .ch '-', .ch ' ', .code ['1']]) (by decide +kernel) (by decide +kernel) (by decide +kernel)

theorem adding_format : FormatOk "{0} + {1}" (.bin .add (.name "{0") (.name "{1")) :=
  format_ok (l := [.code ['0'], .ch ' ', .ch '+', .ch ' ', .code ['1']]) (by decide +kernel) (by decide +kernel) (by decide +kernel)

theorem apart_short {code : String} {l : List Inline.TPart} (hp : Inline.parts code = some l) (h1 : spaced .fresh l = true)
    (h2 : (literal l).length < 12) (m : Bool) (i : Nat) : FieldsApart code (placeText m i).toList := by
  intro l' hl
  rw [hp] at hl
  cases hl
  refine ⟨h1, fun hi => ?_⟩
  have := hi.length_le
  have := placeText_length m i
  omega

theorem subtracting_at (args : List String) (env : String → Option (PVal D)) (m : Bool) (i : Nat)
    (h : ¬ (placeText m i).toList <:+: "(row_[0] > 1)".toList) : IOk pyI condSem args env m exprFns i subtracting where
  reads :=
    { format := subtracting_format
      x := ⟨_, item_code _ 1 (by decide +kernel)⟩
      initial := ⟨[.num 100], fun cs h1 h2 => lex_reprInt 100 cs (wEnd_nEnd h1 h2), (pr_num 100).rd⟩
      cond := ⟨lx_piece (by decide +kernel), ev_of_parse (n := 60) (by decide +kernel)⟩ }
  x := itemI_gives _ _ 1
  initial := fun _ _ _ _ => rfl
  fn := bin_computes (fun s v => by cases s <;> rfl) _ _ _ _
  cond := fun c d h1 h2 => by
    cases h1
    cases h2
    exact fun st row hc hr => cond_tests args env _ st row hc hr
  free := by
    have hf := left_free m i h
    exact ⟨apart_short (l := [.code ['0'], .ch ' ', .ch '-', .ch ' ', .code ['1']]) (by decide +kernel) (by decide +kernel)
      (by decide +kernel) m i, hf.code, hf.initial, hf.cond⟩

theorem adding_at (args : List String) (env : String → Option (PVal D)) (m : Bool) (i : Nat) :
    IOk pyI condSem args env m exprFns i adding where
  reads :=
    { format := adding_format
      x := ⟨_, item_code _ 1 (by decide +kernel)⟩
      initial := trivial
      cond := trivial }
  x := itemI_gives _ _ 1
  initial := trivial
  fn := bin_computes (fun s v => by cases s <;> rfl) _ _ _ _
  cond := fun c d h1 h2 => by cases h1
  free := by
    have hf := plain_free m i
    exact ⟨apart_short (l := [.code ['0'], .ch ' ', .ch '+', .ch ' ', .code ['1']]) (by decide +kernel) (by decide +kernel)
      (by decide +kernel) m i, hf.code, hf.initial, hf.cond⟩

/-- The function of `c.aggregate(c.reduce(c.inline_expr("{0} - {1}"), c.item(1), initial=100, default=0).filter(…))`. -/
def minusText : List Char := lines [
    "",
    "def aggregate_1(data_):",
    "    global add_label_, get_by_label_",
    "    _none = none_1",
    "    agg_data_v0_ = _none",
    "    expected_checksum_ = 1",
    "    checksum_ = 0",
    "    it_ = iter(data_)",
    "    for row_ in it_:",
    "",
    "        if (row_[0] > 1):",
    "            if agg_data_v0_ is _none:",
    "                agg_data_v0_ = (100 - row_[1])",
    "",
    "                if agg_data_v0_ is not _none:",
    "                    checksum_ |= 1",
    "                    if checksum_ == expected_checksum_:",
    "                        break",
    "",
    "            else:",
    "                agg_data_v0_ = (agg_data_v0_ - row_[1])",
    "",
    "",
    "    for row_ in it_:",
    "",
    "        if (row_[0] > 1):",
    "            agg_data_v0_ = (agg_data_v0_ - row_[1])",
    "",
    "",
    "",
    "    result_ = (0 if agg_data_v0_ is _none else agg_data_v0_)",
    "    ",
    "    return result_",
    ""]

theorem minusText_eq : aggCode { fn with result := OutCode.text ⟨some "0", fun v => v⟩ (varAgg 0) } [subtracting.text] = minusText := by
  decide +kernel

theorem callI_ok : CallOk pyI fn src [] := ⟨rfl, ⟨"none_1", rfl, by decide, rfl⟩, rfl⟩

/-- C71 about `minusText`. -/
theorem demo_minus : ∃ b, Source minusText b ∧ ∀ rows, callDef pyI "aggregate_1" [.data rows] b ≠ .error none ∧ ∀ out,
    callDef pyI "aggregate_1" [.data rows] b = .ok out ↔
      ∃ s w, subtracting.parts.spec (onVals exprFns) condSem rows = .ok s ∧
        customOut (E := String) (some (.ok (some (.val (.user (.int 0)))))) s = .ok w ∧ (.ok w : Except String (Val D)) = .ok out := by
  have h := C71_aggregate_partial (P := pyI) (condSem := condSem) (f := fn) (r := src) (vals := []) (gs := []) (u := subtracting)
    (fns := exprFns) (d := some "0") (dt := some [.num 0]) (da := some (.num 0))
    (dflt := some (.ok (some (.val (.user (.int 0)))))) (sort := .ok)
    (fun _ h => by cases h) src_ok ⟨fun _ h => (by cases h), fun _ h => (by cases h)⟩ callI_ok
    (subtracting_at _ _ true 0 (by decide +kernel))
    ⟨fun cs h1 h2 => lex_reprInt 0 cs (wEnd_nEnd h1 h2), (pr_num 0).rd⟩ (fun st _ => ⟨_, rfl, rfl⟩) (fun _ => rfl)
  rw [minusText_eq] at h
  exact h

/-- The function of `c.group_by(c.item(0)).aggregate(…)` with three reduces, of which the first and the last are equal. -/
def exprsText : List Char := lines [
    "",
    "def aggregate_1(data_):",
    "    global add_label_, get_by_label_",
    "    _none = none_1",
    "    signature_to_agg_data_ = defaultdict(AggData_3)",
    "    for row_ in data_:",
    "        agg_data_ = signature_to_agg_data_[row_[0]]",
    "",
    "        if (row_[0] > 1):",
    "            if agg_data_.v0 is _none:",
    "                agg_data_.v0 = (100 - row_[1])",
    "",
    "            else:",
    "                agg_data_.v0 = (agg_data_.v0 - row_[1])",
    "",
    "",
    "",
    "        if agg_data_.v1 is _none:",
    "            agg_data_.v1 = row_[1]",
    "",
    "        else:",
    "            agg_data_.v1 = (agg_data_.v1 + row_[1])",
    "",
    "",
    "    result_ = [(0 if agg_data_.v1 is _none else agg_data_.v1) for signature_, agg_data_ in signature_to_agg_data_.items()]",
    "    ",
    "    return result_",
    ""]

theorem exprsText_eq : groupCode { fn with result := groupResult (OutCode.text ⟨some "0", fun v => v⟩ (varGroup 1)) } "AggData_3"
    "row_[0]" ([subtracting, adding, subtracting].map IRed.text) = exprsText := by decide +kernel

theorem exprs_slots : (textCompile false ([subtracting, adding, subtracting].map IRed.text)).slotOf = [0, 1, 0] := by decide +kernel

theorem exprs_items : (textCompile false ([subtracting, adding, subtracting].map IRed.text)).items.length = 2 := by decide +kernel

theorem subtracting_plus (i j : Nat) (hi : i < 3) (hj : j < 3) : subtracting.hash false i ≠ adding.hash false j := by
  have h : ∀ i : Fin 3, ∀ j : Fin 3, subtracting.hash false i ≠ adding.hash false j := by decide +kernel
  exact h ⟨i, hi⟩ ⟨j, hj⟩

theorem exprs_at {i : Nat} {u : IRed D String} (h : [subtracting, adding, subtracting][i]? = some u) : i < 3 ∧ (u = subtracting ∨ u = adding) := by
  match i with
  | 0 => exact ⟨by omega, .inl (Option.some.inj h).symm⟩
  | 1 => exact ⟨by omega, .inr (Option.some.inj h).symm⟩
  | 2 => exact ⟨by omega, .inl (Option.some.inj h).symm⟩
  | n + 3 => cases h

theorem exprs_hash : ∀ i j (u v : IRed D String), [subtracting, adding, subtracting][i]? = some u → [subtracting, adding, subtracting][j]? = some v →
    u.hash false i = v.hash false j → u.parts.SameCodes v.parts := by
  intro i j u v hu hv he
  obtain ⟨hi, hu⟩ := exprs_at hu
  obtain ⟨hj, hv⟩ := exprs_at hv
  rcases hu with rfl | rfl <;> rcases hv with rfl | rfl
  · exact ⟨rfl, rfl, rfl, rfl⟩
  · exact absurd he (subtracting_plus i j hi hj)
  · exact absurd he.symm (subtracting_plus j i hj hi)
  · exact ⟨rfl, rfl, rfl, rfl⟩

/-- C71 about `exprsText`. -/
theorem demo_exprs : ∃ b, Source exprsText b ∧ ∀ rows, callDef pyI "aggregate_1" [.data rows] b ≠ .error none ∧ ∀ out,
    callDef pyI "aggregate_1" [.data rows] b = .ok out ↔
      ∃ groups ws, @customGroups _ _ _ ⟨pyI.keyEq⟩ (onVals exprFns) condSem keyOf ([subtracting, adding, subtracting].map IRed.parts) rows = .ok groups ∧
        mapAll (fun g => second g.2) groups = .ok ws ∧ (.ok (pyI.newList ws) : Except String (Val D)) = .ok out := by
  have hcode := out_code (o := ⟨some "0", fun v => v⟩) (v := varGroup 1) (dt := some [.num 0]) (da := some (.num 0))
    (vt := placeToks false 1) (pt := placeToks false 1) (va := place false 1) (pa := place false 1)
    ⟨fun cs h1 h2 => lex_reprInt 0 cs (wEnd_nEnd h1 h2), (pr_num 0).rd⟩ ⟨(place_code false 1).lx, (place_code false 1).pr.rd⟩
    ⟨(place_code false 1).lx, (place_code false 1).pr.rd⟩
  have h := C71_group_by_partial (P := pyI) (condSem := condSem) (vals := []) (gs := []) (us := [subtracting, adding, subtracting]) (fns := exprFns)
    (sort := .ok) (signature := "row_[0]") (cls := "AggData_3") (keyOf := keyOf) (res := fun _ vs => second vs)
    (src_ok.readsPairs hcode) (by decide +kernel)
    (item_code "row_[0]" 0 (by decide +kernel)).lx (item_code "row_[0]" 0 (by decide +kernel)).rd
    (fun _ h => by cases h) (fun _ h => by cases h) ⟨fun _ h => (by cases h), fun _ h => (by cases h)⟩
    (by
      rw [exprs_items]
      exact ⟨rfl, ⟨"none_1", rfl, by decide, rfl⟩, ⟨by decide, rfl⟩, ⟨by decide, rfl⟩⟩)
    (by
      intro st row hc hr
      exact key_ok _ _ st row hc hr)
    (by
      intro i u hu
      match i with
      | 0 => cases hu; exact subtracting_at _ _ false 0 (by decide +kernel)
      | 1 => cases hu; exact adding_at _ _ false 1
      | 2 => cases hu; exact subtracting_at _ _ false 2 (by decide +kernel)
      | n + 3 => cases hu)
    exprs_hash (by simp) rfl
    (by
      rintro st k vs hc _ ⟨hlen, hat⟩
      match vs, hlen with
      | [a, s, c], _ =>
        obtain ⟨j, hj, hv⟩ := hat 1 s rfl
        rw [exprs_slots] at hj
        cases hj
        have hx : dec st.heap (pval s) = s.map (fun v => DVal.val (.user v)) := by cases s <;> rfl
        have := out_yields (P := pyI) (da := some (.num 0)) (pa := place false 1)
          (d := some (.ok (some (.val (.user (.int 0)))))) (post := fun s => .ok (dval s)) hc.1 hv hx
          ⟨_, rfl, rfl⟩ ⟨pval s, hv, by cases s <;> rfl⟩
        have eo : outVal (some (.ok (some (.val (.user (.int 0)))))) (fun s => .ok (dval s)) s = second [a, s, c] := by
          cases s <;> rfl
        rw [eo] at this
        exact this)
    (fun _ => rfl) py_keys
  rw [exprsText_eq] at h
  exact h.2

/-- A call of a function with operators. -/
def callI (text : List Char) (rows : List (List Int)) : Option D :=
  ((parseLines text).bind (readAll 60)).bind fun b =>
    match callDef pyI "aggregate_1" [.data (rows.map .row)] b with
    | .ok (some (.val (.user v))) => some v
    | _ => none

example : callI minusText [[1, 5], [2, 7], [3, 9]] = some (.int 84) := by decide +kernel
example : callI minusText [[1, 5]] = some (.int 0) := by decide +kernel
example : callI exprsText [[1, 5], [2, 7], [1, 2], [3, 9], [2, 1]] = some (.row [7, 8, 9]) := by decide +kernel

/-- `c.reduce(c.inline_expr("{0} - {1}"), c.item(1))`. -/
def minusAll : IRed D String := ⟨{ plain with g := "{0} - {1}" }, .bin .sub (.name "{0") (.name "{1")⟩

/-- `c.reduce(c.inline_expr(" - {1}"), c.item(1))`: the last number, negated. -/
def negated : IRed D String := ⟨{ plain with g := " - {1}" }, .neg (.name "{1")⟩

/-- What the two format strings compute. -/
def twoFns (g : String) (a b : D) : Except String D :=
  match a, b with
  | .int a, .int b => if g = "{0} - {1}" then .ok (.int (a - b)) else .ok (.int (-b))
  | _, _ => .error "TypeError"

/-- **C71** without the hypothesis about texts is false: both format strings are read as what they say and have their fields
apart, but the two reduces are compared by the same text, so they share a variable, and `group_by` gives the first of them
in the place of the second. -/
theorem C71_refuted_shared :
    FormatOk minusAll.parts.g minusAll.tree ∧ FormatOk negated.parts.g negated.tree ∧
    (∀ m i, minusAll.Free (placeText m i) ∧ negated.Free (placeText m i)) ∧
    minusAll.hash false 0 = negated.hash false 1 ∧
    (textCompile false ([minusAll, negated].map IRed.text)).slotOf = [0, 0] ∧
    callI (groupCode { fn with result := groupResult "agg_data_.v0" } "AggData_2" "row_[0]" ([minusAll, negated].map IRed.text))
      [[1, 5], [1, 2]] = some (.row [3]) ∧
    [minusAll, negated].map (fun u => u.parts.spec twoFns condSem [.row [1, 5], .row [1, 2]]) =
      [.ok (some (.int 3)), .ok (some (.int (-2)))] := by
  refine ⟨subtracting_format, format_ok (l := [.ch ' ', .ch '-', .ch ' ', .code ['1']]) (by decide +kernel) (by decide +kernel)
    (by decide +kernel), fun m i => ?_, by decide +kernel, by decide +kernel, by decide +kernel, rfl⟩
  have hf := plain_free m i
  exact ⟨⟨apart_short (l := [.code ['0'], .ch ' ', .ch '-', .ch ' ', .code ['1']]) (by decide +kernel) (by decide +kernel)
      (by decide +kernel) m i, hf.code, hf.initial, hf.cond⟩,
    ⟨apart_short (l := [.ch ' ', .ch '-', .ch ' ', .code ['1']]) (by decide +kernel) (by decide +kernel)
      (by decide +kernel) m i, hf.code, hf.initial, hf.cond⟩⟩

end Verif.Stmt.Demo
