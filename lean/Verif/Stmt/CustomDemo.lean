import Verif.Stmt.CustomProps
import Verif.Stmt.Demo

/-!
# Stmt: reduces with functions of the user, examples
-/

set_option autoImplicit false

namespace Verif.Stmt.Demo

open Verif.Text Verif.Agg Verif.Reducers

/-- The functions of the user: `f_1` subtracts. -/
def userFns (g : String) (a : Option D) (b : D) : Except String D :=
  match a with
  | some a => if g = "f_1" then onInts (fun a b => .int (a - b)) a b else .error "TypeError"
  | none => .error "TypeError"

/-- The values of arguments. -/
def argVal : PVal D → Option D
  | .user v => some v
  | _ => none

/-- Calls of the functions with two arguments. -/
def evalCall (a : Ast) (st : St D) : Except String (PVal D) :=
  match a with
  | .call (.name g) [a, b] [] =>
    match ev py a st with
    | .error (some e) => .error e
    | .error none => .error "TypeError"
    | .ok (p, _) =>
      match ev py b st with
      | .ok (.user v, _) => (userFns g (argVal p) v).map .user
      | .error (some e) => .error e
      | _ => .error "TypeError"
  | a => py.eval a st

/-- Python with these functions. -/
def pyF : Py D String := { py with eval := evalCall }

theorem ev_place (m : Bool) (j : Nat) (st : St D) (p : PVal D) (h : ev pyF (place m j) st = .ok (p, st)) :
    ev py (place m j) st = .ok (p, st) := by
  cases m
  · have e : ∀ Q : Py D String, Q.glob = globals → (∀ a, Q.eval (.attr a (attrName j)) st = .error "TypeError") →
      ev Q (place false j) st = ev py (place false j) st := by
      intro Q hQ he
      simp only [place, ev, St.look, hQ, he, py]
    rw [← e pyF rfl (fun _ => rfl)]
    exact h
  · exact h

theorem ev_item (st : St D) (n : Nat) : ev pyF (.sub (.name "row_") (.num n)) st = ev py (.sub (.name "row_") (.num n)) st := rfl

theorem itemF_gives (args : List String) (env : String → Option (PVal D)) (n : Nat) :
    Gives pyF args env (.sub (.name "row_") (.num n)) (item n) := by
  intro st row hc hr
  rw [ev_item]
  exact item_gives args env n st row hc hr

theorem condF_tests (args : List String) (env : String → Option (PVal D)) (c : String) :
    Tests pyF (Ctx args env) condTree (condSem c) := by
  intro st row hc hr
  exact cond_tests args env c st row hc hr

theorem calls (args : List String) (env : String → Option (PVal D)) (m : Bool) (n : Nat) (u : CRed D String)
    (h : u.ia = some (.num 100) ∨ u.ia = none) :
    CallsFn pyF args env u.g (userFns u.g) (u.firsts m) (.sub (.name "row_") (.num n)) := by
  have hcall : ∀ (a b : Ast) st, ev pyF (.call (.name u.g) [a, b] []) st =
      (lift (evalCall (.call (.name u.g) [a, b] []) st)).map (fun v => (v, st)) := fun _ _ _ => rfl
  have hfst : ∀ a st p, u.firsts m a → ev pyF a st = .ok (p, st) → ev py a st = .ok (p, st) := by
    rintro a st p (⟨j, rfl⟩ | ha) he
    · exact ev_place m j st p he
    · rcases h with h | h
      · rw [h] at ha
        cases ha
        exact he
      · rw [h] at ha
        cases ha
  refine ⟨?_, ?_, ?_⟩
  · intro st a s v ha _ h1 h2
    rw [hcall]
    rw [ev_item] at h2
    simp only [evalCall, hfst a st _ ha h1, h2]
    have : argVal (pval s) = s := by cases s <;> rfl
    rw [this]
    cases userFns u.g s v <;> rfl
  · rintro st a e (⟨j, rfl⟩ | ha) _ h1
    · rw [hcall]
      have hs : ev py (place m j) st = .error (some e) := by
        cases m
        · have e : ∀ Q : Py D String, Q.glob = globals → (∀ a, Q.eval (.attr a (attrName j)) st = .error "TypeError") →
            ev Q (place false j) st = ev py (place false j) st := by
            intro Q hQ he
            simp only [place, ev, St.look, hQ, he, py]
          rw [← e pyF rfl (fun _ => rfl)]
          exact h1
        · exact h1
      simp only [evalCall, hs]
      rfl
    · rcases h with h | h
      · rw [h] at ha
        cases ha
        cases h1
      · rw [h] at ha
        cases ha
  · intro st a s e ha _ h1 h2
    rw [hcall]
    rw [ev_item] at h2
    simp only [evalCall, hfst a st _ ha h1, h2]
    rfl

/-- `c.reduce(f, c.item(1), initial=100).filter(c.item(0) > 1)`. -/
def left : CRed D String where
  g := "f_1"
  code := "row_[1]"
  initial := some "100"
  cond := some "(row_[0] > 1)"
  xa := .sub (.name "row_") (.num 1)
  ia := some (.num 100)
  condS := some ⟨condToks, condTree⟩
  x := item 1
  start := some (fun _ => .ok (.int 100))

/-- `c.reduce(f, c.item(1), default=0)`. -/
def plain : CRed D String where
  g := "f_1"
  code := "row_[1]"
  initial := none
  cond := none
  xa := .sub (.name "row_") (.num 1)
  ia := none
  condS := none
  x := item 1
  start := none

theorem left_at (args : List String) (env : String → Option (PVal D)) (m : Bool) (i : Nat)
    (h : left.Free (placeText m i)) : COk pyF condSem args env m userFns i left where
  reads :=
    { g := by decide +kernel
      x := ⟨_, item_code _ 1 (by decide +kernel)⟩
      initial := ⟨[.num 100], fun cs h1 h2 => lex_reprInt 100 cs (wEnd_nEnd h1 h2), (pr_num 100).rd⟩
      cond := ⟨lx_piece (by decide +kernel), ev_of_parse (n := 60) (by decide +kernel)⟩ }
  x := itemF_gives _ _ 1
  initial := fun _ _ _ _ => rfl
  fn := calls _ _ m 1 left (.inl rfl)
  cond := fun c d h1 h2 => by
    cases h1
    cases h2
    exact condF_tests _ _ _
  free := h

theorem plain_at (args : List String) (env : String → Option (PVal D)) (m : Bool) (i : Nat)
    (h : plain.Free (placeText m i)) : COk pyF condSem args env m userFns i plain where
  reads :=
    { g := by decide +kernel
      x := ⟨_, item_code _ 1 (by decide +kernel)⟩
      initial := trivial
      cond := trivial }
  x := itemF_gives _ _ 1
  initial := trivial
  fn := calls _ _ m 1 plain (.inr rfl)
  cond := fun c d h1 h2 => by cases h1
  free := h

theorem free_short {u : CRed D String} (m : Bool) (i : Nat) (hg : u.g.toList.length < 12) (hx : u.code.toList.length < 12)
    (hi : ∀ t, u.initial = some t → t.toList.length < 12) (hc : ∀ t, u.cond = some t → ' ' ∈ t.toList ∧ ¬ (placeText m i).toList <:+: t.toList) :
    u.Free (placeText m i) := by
  have h := placeText_length m i
  refine ⟨?_, ?_, ?_, fun t ht => (hc t ht).2⟩
  · intro hin
    have := hin.length_le
    omega
  · intro hin
    have := hin.length_le
    omega
  · intro t ht hin
    have := hin.length_le
    have := hi t ht
    omega

theorem left_free (m : Bool) (i : Nat) (h : ¬ (placeText m i).toList <:+: "(row_[0] > 1)".toList) : left.Free (placeText m i) :=
  free_short m i (by decide +kernel) (by decide +kernel) (fun t ht => by cases ht; decide +kernel)
    (fun t ht => by cases ht; exact ⟨by decide +kernel, h⟩)

theorem plain_free (m : Bool) (i : Nat) : plain.Free (placeText m i) :=
  free_short m i (by decide +kernel) (by decide +kernel) (fun t ht => by cases ht) (fun t ht => by cases ht)

/-- The function of `c.aggregate(c.reduce(f, c.item(1), initial=100, default=0).filter(c.item(0) > 1))`. -/
def foldText : List Char := lines [
    "",
    "def aggregate_1(data_):",
    "    global add_label_, get_by_label_",
    "    _none = none_1",
    "    agg_data_v0_ = _none",
    "    expected_checksum_ = 1",
    "    checksum_ = 0",
    "    it_ = iter(data_)",
    "    for row_ in it_:",
    "",
    "        if (row_[0] > 1):",
    "            if agg_data_v0_ is _none:",
    "                agg_data_v0_ = f_1(100,row_[1])",
    "",
    "                if agg_data_v0_ is not _none:",
    "                    checksum_ |= 1",
    "                    if checksum_ == expected_checksum_:",
    "                        break",
    "",
    "            else:",
    "                agg_data_v0_ = f_1(agg_data_v0_,row_[1])",
    "",
    "",
    "    for row_ in it_:",
    "",
    "        if (row_[0] > 1):",
    "            agg_data_v0_ = f_1(agg_data_v0_,row_[1])",
    "",
    "",
    "",
    "    result_ = (0 if agg_data_v0_ is _none else agg_data_v0_)",
    "    ",
    "    return result_",
    ""]

theorem foldText_eq : aggCode { fn with result := OutCode.text ⟨some "0", fun v => v⟩ (varAgg 0) } [left.text] = foldText := by
  decide +kernel

theorem callF_ok : CallOk pyF fn src [] := ⟨rfl, ⟨"none_1", rfl, by decide, rfl⟩, rfl⟩

/-- C67 about `foldText`. -/
theorem demo_fold : ∃ b, Source foldText b ∧ ∀ rows, callDef pyF "aggregate_1" [.data rows] b ≠ .error none ∧ ∀ out,
    callDef pyF "aggregate_1" [.data rows] b = .ok out ↔
      ∃ s w, left.spec (onVals userFns) condSem rows = .ok s ∧
        customOut (E := String) (some (.ok (some (.val (.user (.int 0)))))) s = .ok w ∧ (.ok w : Except String (Val D)) = .ok out := by
  have h := C67_aggregate_partial (P := pyF) (condSem := condSem) (f := fn) (r := src) (vals := []) (gs := []) (u := left)
    (fns := userFns) (d := some "0") (dt := some [.num 0]) (da := some (.num 0))
    (dflt := some (.ok (some (.val (.user (.int 0)))))) (sort := .ok)
    (fun _ h => by cases h) src_ok ⟨fun _ h => (by cases h), fun _ h => (by cases h)⟩ callF_ok
    (left_at _ _ true 0 (left_free true 0 (by decide +kernel)))
    ⟨fun cs h1 h2 => lex_reprInt 0 cs (wEnd_nEnd h1 h2), (pr_num 0).rd⟩ (fun st _ => ⟨_, rfl, rfl⟩) (fun _ => rfl)
  rw [foldText_eq] at h
  exact h

theorem fold_ints : ∀ (l : List (Int × Int)) (a : Int),
    foldFn (onVals userFns "f_1") (item 1) (.int a) (l.map pair) = .ok (.int (a - (l.map (·.2)).sum))
  | [], a => by simp [foldFn]
  | p :: l, a => by
    have h1 : item 1 (pair p) = .ok (.int p.2) := rfl
    have h2 : onVals userFns "f_1" (.int a) (.int p.2) = .ok (.int (a - p.2)) := rfl
    simp only [List.map_cons, foldFn, h1, andThen, h2, fold_ints l, List.sum_cons]
    congr 2
    omega

/-- What the text returns, for all rows of two numbers. -/
theorem demo_left : ∃ b, Source foldText b ∧ ∀ l : List (Int × Int),
    callDef pyF "aggregate_1" [.data (l.map pair)] b =
      .ok (some (.val (.user (.int (if (l.filter (fun p => decide (p.1 > 1))) = [] then 0 else
        100 - ((l.filter (fun p => decide (p.1 > 1))).map (·.2)).sum))))) := by
  obtain ⟨b, h1, h2⟩ := demo_fold
  refine ⟨b, h1, fun l => ((h2 _).2 _).2 ?_⟩
  have hk : passing condSem left.cond (l.map pair) = .ok ((l.filter (fun p => decide (p.1 > 1))).map pair) := kept l
  simp only [CRed.spec, hk, andThen]
  generalize l.filter (fun p => decide (p.1 > 1)) = k
  cases k with
  | nil => exact ⟨none, _, rfl, rfl, rfl⟩
  | cons p k =>
    have hr : reduceFn (onVals userFns "f_1") (some (fun _ => .ok (.int 100))) (item 1) ((p :: k).map pair) =
        (foldFn (onVals userFns "f_1") (item 1) (.int 100) ((p :: k).map pair)).map some := rfl
    rw [fold_ints] at hr
    exact ⟨_, _, hr, rfl, by simp [dval]⟩

/-- The function of `c.group_by(c.item(0)).aggregate(…)` with three reduces, of which the first and the last are equal. -/
def foldsText : List Char := lines [
    "",
    "def aggregate_1(data_):",
    "    global add_label_, get_by_label_",
    "    _none = none_1",
    "    signature_to_agg_data_ = defaultdict(AggData_3)",
    "    for row_ in data_:",
    "        agg_data_ = signature_to_agg_data_[row_[0]]",
    "",
    "        if (row_[0] > 1):",
    "            if agg_data_.v0 is _none:",
    "                agg_data_.v0 = f_1(100,row_[1])",
    "",
    "            else:",
    "                agg_data_.v0 = f_1(agg_data_.v0,row_[1])",
    "",
    "",
    "",
    "        if agg_data_.v1 is _none:",
    "            agg_data_.v1 = row_[1]",
    "",
    "        else:",
    "            agg_data_.v1 = f_1(agg_data_.v1,row_[1])",
    "",
    "",
    "    result_ = [(0 if agg_data_.v1 is _none else agg_data_.v1) for signature_, agg_data_ in signature_to_agg_data_.items()]",
    "    ",
    "    return result_",
    ""]

theorem foldsText_eq : groupCode { fn with result := groupResult (OutCode.text ⟨some "0", fun v => v⟩ (varGroup 1)) } "AggData_3"
    "row_[0]" ([left, plain, left].map CRed.text) = foldsText := by decide +kernel

theorem folds_slots : (textCompile false ([left, plain, left].map CRed.text)).slotOf = [0, 1, 0] := by decide +kernel

theorem folds_items : (textCompile false ([left, plain, left].map CRed.text)).items.length = 2 := by decide +kernel

/-- The second of the values, or the default. -/
def second (vs : List (Option D)) : Except String (Val D) :=
  customOut (some (.ok (some (.val (.user (.int 0)))))) (vs.getD 1 none)

/-- C67 about `foldsText`. -/
theorem demo_folds : ∃ b, Source foldsText b ∧ ∀ rows, callDef pyF "aggregate_1" [.data rows] b ≠ .error none ∧ ∀ out,
    callDef pyF "aggregate_1" [.data rows] b = .ok out ↔
      ∃ groups ws, @customGroups _ _ _ ⟨pyF.keyEq⟩ (onVals userFns) condSem keyOf [left, plain, left] rows = .ok groups ∧
        mapAll (fun g => second g.2) groups = .ok ws ∧ (.ok (pyF.newList ws) : Except String (Val D)) = .ok out := by
  have hcode := out_code (o := ⟨some "0", fun v => v⟩) (v := varGroup 1) (dt := some [.num 0]) (da := some (.num 0))
    (vt := placeToks false 1) (pt := placeToks false 1) (va := place false 1) (pa := place false 1)
    ⟨fun cs h1 h2 => lex_reprInt 0 cs (wEnd_nEnd h1 h2), (pr_num 0).rd⟩ ⟨(place_code false 1).lx, (place_code false 1).pr.rd⟩
    ⟨(place_code false 1).lx, (place_code false 1).pr.rd⟩
  have h := C67_group_by_partial (P := pyF) (condSem := condSem) (vals := []) (gs := []) (us := [left, plain, left]) (fns := userFns)
    (sort := .ok) (signature := "row_[0]") (cls := "AggData_3") (keyOf := keyOf) (res := fun _ vs => second vs)
    (src_ok.readsPairs hcode) (by decide +kernel)
    (item_code "row_[0]" 0 (by decide +kernel)).lx (item_code "row_[0]" 0 (by decide +kernel)).rd
    (fun _ h => by cases h) (fun _ h => by cases h) ⟨fun _ h => (by cases h), fun _ h => (by cases h)⟩
    (by
      rw [folds_items]
      exact ⟨rfl, ⟨"none_1", rfl, by decide, rfl⟩, ⟨by decide, rfl⟩, ⟨by decide, rfl⟩⟩)
    (by
      intro st row hc hr
      exact key_ok _ _ st row hc hr)
    (by
      intro i u hu
      match i with
      | 0 => cases hu; exact left_at _ _ false 0 (left_free false 0 (by decide +kernel))
      | 1 => cases hu; exact plain_at _ _ false 1 (plain_free false 1)
      | 2 => cases hu; exact left_at _ _ false 2 (left_free false 2 (by decide +kernel))
      | n + 3 => cases hu)
    (by simp) rfl
    (by
      rintro st k vs hc _ ⟨hlen, hat⟩
      match vs, hlen with
      | [a, s, c], _ =>
        obtain ⟨j, hj, hv⟩ := hat 1 s rfl
        rw [folds_slots] at hj
        cases hj
        have hx : dec st.heap (pval s) = s.map (fun v => DVal.val (.user v)) := by cases s <;> rfl
        have := out_yields (P := pyF) (da := some (.num 0)) (pa := place false 1)
          (d := some (.ok (some (.val (.user (.int 0)))))) (post := fun s => .ok (dval s)) hc.1 hv hx
          ⟨_, rfl, rfl⟩ ⟨pval s, hv, by cases s <;> rfl⟩
        have eo : outVal (some (.ok (some (.val (.user (.int 0)))))) (fun s => .ok (dval s)) s = second [a, s, c] := by
          cases s <;> rfl
        rw [eo] at this
        exact this)
    (fun _ => rfl) py_keys
  rw [foldsText_eq] at h
  exact h.2

/-- A call of a function with functions of the user. -/
def callF (text : List Char) (rows : List (List Int)) : Option D :=
  ((parseLines text).bind (readAll 60)).bind fun b =>
    match callDef pyF "aggregate_1" [.data (rows.map .row)] b with
    | .ok (some (.val (.user v))) => some v
    | _ => none

example : callF foldText [[1, 5], [2, 7], [3, 9]] = some (.int 84) := by decide +kernel
example : callF foldText [[1, 5]] = some (.int 0) := by decide +kernel
example : callF foldsText [[1, 5], [2, 7], [1, 2], [3, 9], [2, 1]] = some (.row [3, 6, 9]) := by decide +kernel

/-- **C67** is false for a reduce with `initial` and without `default`: if there is nothing to reduce, the generated function
returns the object by which the generated code marks variables without a value, neither `initial` nor an exception. -/
theorem C67_refuted_sentinel : ∃ b, Source (aggCode { fn with result := OutCode.text ⟨none, fun v => v⟩ (varAgg 0) } [left.text]) b ∧
    callDef pyF "aggregate_1" [.data []] b = .ok none ∧ callDef pyF "aggregate_1" [.data [.row [1, 5]]] b = .ok none := by
  have h := C67_aggregate_partial (P := pyF) (condSem := condSem) (f := fn) (r := src) (vals := []) (gs := []) (u := left)
    (fns := userFns) (d := none) (dt := none) (da := none) (dflt := none) (sort := .ok)
    (fun _ h => by cases h) src_ok ⟨fun _ h => (by cases h), fun _ h => (by cases h)⟩ callF_ok
    (left_at _ _ true 0 (left_free true 0 (by decide +kernel))) trivial (fun st _ => trivial) (fun _ => rfl)
  obtain ⟨b, h1, h2⟩ := h
  exact ⟨b, h1, ((h2 []).2 none).2 ⟨none, none, rfl, rfl, rfl⟩, ((h2 [.row [1, 5]]).2 none).2 ⟨none, none, rfl, rfl, rfl⟩⟩

end Verif.Stmt.Demo
