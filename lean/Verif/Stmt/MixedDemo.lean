import Verif.Stmt.Mixed
import Verif.Stmt.CustomDemo
import Verif.Stmt.Demo2

/-!
# Stmt: a built-in reducer and a function of the user in one `group_by`, example
-/

set_option autoImplicit false

namespace Verif.Stmt.Demo

open Verif.Text Verif.Agg Verif.Reducers

theorem pyF_ops : OpsOk pyF ops where
  isNone := fun _ => rfl
  none_ := rfl
  isNone_none := rfl
  truthy := fun _ => rfl
  zero := rfl
  isNone_zero := rfl
  add := fun _ _ => rfl
  aug := fun _ _ => rfl
  inc := fun _ => rfl
  gt := fun _ _ => rfl
  lt := fun _ _ => rfl
  addS := fun _ => rfl
  augS := fun _ => rfl
  gtS := fun _ => rfl
  ltS := fun _ => rfl
  notInS := fun _ => rfl
  misuse := rfl
  refl := fun _ => decide_eq_true rfl

theorem sumF_at (args : List String) (env : String → Option (PVal D)) (m : Bool) (i : Nat)
    (h : ¬ (placeText m i).toList <:+: "row_[1]".toList) : BOk pyF condSem args env m i sumAll where
  codes :=
    { args := ⟨"row_[1]", _, [], rfl, item_code _ 1 (by decide +kernel), rfl⟩
      initial := trivial
      cond := trivial }
  fn := ⟨itemF_gives _ _ 1, fun h => (by cases h), fun _ h => (by cases h), fun _ h => (by cases h)⟩
  initial := trivial
  cond := fun c d h1 h2 => by cases h1
  free := by
    refine ⟨fun a ha => ?_, fun a h => by cases h⟩
    rw [List.mem_singleton.1 ha]
    exact h

/-- The sum, a fold with a function, and the sum once more. -/
def mix : List (URed D String) := [.builtin sumAll, .custom plain, .builtin sumAll]

theorem mix_ok (args : List String) (env : String → Option (PVal D)) (i : Nat) (u : URed D String) (hu : mix[i]? = some u) :
    UOk pyF condSem args env userFns i u := by
  match i, hu with
  | 0, hu => cases hu; exact ⟨sumF_at _ _ _ _ (by decide +kernel), rfl, fun c hc => by cases hc⟩
  | 1, hu => cases hu; exact plain_at _ _ false 1 (plain_free false 1)
  | 2, hu => cases hu; exact ⟨sumF_at _ _ _ _ (by decide +kernel), rfl, fun c hc => by cases hc⟩
  | n + 3, hu => cases hu

theorem mix_slots : (textCompile false (mix.map URed.text)).slotOf = [0, 1, 0] := by decide +kernel

theorem mix_items : (textCompile false (mix.map URed.text)).items.length = 2 := by decide +kernel

/-- The text of the function. -/
def mixText : List Char := lines [
    "",
    "def aggregate_1(data_):",
    "    global add_label_, get_by_label_",
    "    _none = none_1",
    "    signature_to_agg_data_ = defaultdict(AggData_3)",
    "    for row_ in data_:",
    "        agg_data_ = signature_to_agg_data_[row_[0]]",
    "",
    "        if agg_data_.v0 is _none:",
    "            agg_data_.v0 = (row_[1] or 0)",
    "",
    "        else:",
    "            agg_data_.v0 += (row_[1] or 0)",
    "",
    "",
    "",
    "        if agg_data_.v1 is _none:",
    "            agg_data_.v1 = row_[1]",
    "",
    "        else:",
    "            agg_data_.v1 = f_1(agg_data_.v1,row_[1])",
    "",
    "",
    "    result_ = [((0 if agg_data_.v0 is _none else agg_data_.v0) + (0 if agg_data_.v1 is _none else agg_data_.v1)) for signature_, agg_data_ in signature_to_agg_data_.items()]",
    "    ",
    "    return result_",
    ""]

theorem mixText_eq : groupCode { fn with result := groupResult plus } "AggData_3" "row_[0]" (mix.map URed.text) = mixText := by
  decide +kernel

/-- The value of a variable or the default. -/
def orZero (s : Option D) : D := s.getD (.int 0)

/-- What a sum has accumulated. -/
def sumVal : Option (Slot D) → Option D
  | some (.val v) => some v
  | _ => none

/-- The sum of the last two results. -/
def mixOf : List (UVal D) → Except String (Val D)
  | [_, .user b, .slot a] => (ops.add (orZero (sumVal a)) (orZero b)).map (fun v => some (.val (.user v)))
  | _ => .error "TypeError"

theorem outA_ev {args : List String} {env : String → Option (PVal D)} {st : St D} (hc : Ctx args env st) {j : Nat} {s : Option D}
    (hv : ev pyF (place false j) st = .ok (pval s, st)) : ev pyF (outA j) st = .ok (.user (orZero s), st) := by
  have hx : dec st.heap (pval s) = s.map (fun v => DVal.val (.user v)) := by cases s <;> rfl
  have := out_yields (P := pyF) (da := some (.num 0)) (pa := place false j)
    (d := some (.ok (some (.val (.user (.int 0)))))) (post := fun s => .ok (dval s)) hc.1 hv hx
    ⟨_, rfl, rfl⟩ ⟨pval s, hv, by cases s <;> rfl⟩
  have eo : outVal (E := String) (some (.ok (some (.val (.user (.int 0)))))) (fun s => .ok (dval s)) s =
      .ok (some (.val (.user (orZero s)))) := by
    cases s <;> rfl
  rw [eo] at this
  obtain ⟨v, h1, h2⟩ := this
  obtain rfl := dec_user h2
  exact h1

theorem sum_pval {st : St D} {p : PVal D} {s : Option (Slot D)} (h : Fn.sum.Holds s) (hd : dec st.heap p = s.map (enc pyF ops none)) :
    p = pval (sumVal s) := by
  cases s with
  | none => exact pval_of (s := none) hd
  | some s =>
    have := h s rfl
    cases s with
    | val v => exact pval_of (s := some v) hd
    | _ => cases this

/-- C68 about `mixText`. -/
theorem demo_mix : ∃ b, Source mixText b ∧ ∀ rows, callDef pyF "aggregate_1" [.data rows] b ≠ .error none ∧ ∀ out,
    callDef pyF "aggregate_1" [.data rows] b = .ok out ↔
      ∃ groups ws, @mixedGroups _ _ _ ⟨pyF.keyEq⟩ pyF ops (onVals userFns) condSem keyOf mix rows = .ok groups ∧
        mapAll (fun g => mixOf g.2) groups = .ok ws ∧ (.ok (pyF.newList ws) : Except String (Val D)) = .ok out := by
  have h := C68_group_by_partial (P := pyF) (ops := ops) (condSem := condSem) (us := mix) (fns := userFns)
    (f := { fn with result := groupResult plus })
    (r := { src with
      resultT := pairToks plusT "signature_" "agg_data_" groupItemsToks
      result := .pairs plusA "signature_" "agg_data_" groupItems })
    (vals := []) (gs := []) (e := plusA)
    (sort := .ok) (signature := "row_[0]") (cls := "AggData_3") (keyOf := keyOf) (res := fun _ vs => mixOf vs) pyF_ops
    (src_ok.readsPairs plus_code) (by decide +kernel)
    (item_code "row_[0]" 0 (by decide +kernel)).lx (item_code "row_[0]" 0 (by decide +kernel)).rd
    (fun _ h => by cases h) (fun _ h => by cases h) ⟨fun _ h => (by cases h), fun _ h => (by cases h)⟩
    (by rw [mix_items]; exact ⟨rfl, ⟨"none_1", rfl, by decide, rfl⟩, ⟨by decide, rfl⟩, ⟨by decide, rfl⟩⟩)
    (by
      intro st row hc hr
      exact key_ok _ _ st row hc hr)
    (mix_ok _ _) (by simp [mix]) rfl
    (by
      intro st k vs hc _ hs
      obtain ⟨hlen, hat⟩ := hs
      match vs, hlen with
      | [x, y, z], _ =>
        obtain ⟨j, hj, h2⟩ := hat 2 _ z rfl rfl
        obtain ⟨j', hj', h1⟩ := hat 1 _ y rfl rfl
        rw [mix_slots] at hj hj'
        cases hj
        cases hj'
        match z, h2 with
        | .slot a, ⟨g1, p, g2, _, g4⟩ =>
          match y, h1 with
          | .user b, h1 =>
            obtain rfl := sum_pval g1 g4
            have y1 := outA_ev hc g2
            have y2 := outA_ev hc h1
            have hsum : ev pyF plusA st = (lift (ops.add (orZero (sumVal a)) (orZero b))).map (fun v => (.user v, st)) := by
              unfold plusA
              rw [ev.eq_def]
              simp only [y1, y2]
              show (lift ((ops.add _ _).map PVal.user)).map _ = _
              cases ops.add (orZero (sumVal a)) (orZero b) <;> rfl
            show Yields pyF plusA st ((ops.add (orZero (sumVal a)) (orZero b)).map (fun v => some (.val (.user v))))
            unfold Yields
            rw [hsum]
            cases ops.add (orZero (sumVal a)) (orZero b) with
            | error e => rfl
            | ok c => exact ⟨_, rfl, rfl⟩)
    (fun _ => rfl) py_keys
  rw [mixText_eq] at h
  exact h.2

example : callF mixText [[1, 5], [2, 7], [1, 2], [3, 9], [2, 1]] = some (.row [10, 14, 18]) := by decide +kernel

/-- The reduces of the specification: 7 and 3 for the first key. -/
example : URed.spec pyF ops (onVals userFns) condSem [.row [1, 5], .row [1, 2]] (.custom plain) = .ok (.user (some (.int 3))) := by rfl

/-! ## `c.aggregate` -/

/-- The sum and a fold with a function. -/
def two : List (URed D String) := [.builtin sumAll, .custom plain]

theorem two_ok (args : List String) (env : String → Option (PVal D)) (i : Nat) (u : URed D String) (hu : two[i]? = some u) :
    UBase pyF condSem args env true userFns i u := by
  match i, hu with
  | 0, hu => cases hu; exact ⟨sumF_at _ _ _ _ (by decide +kernel), rfl⟩
  | 1, hu => cases hu; exact plain_at _ _ true 1 (plain_free true 1)
  | n + 2, hu => cases hu

theorem two_slots : (textCompile true (two.map URed.text)).slotOf = [0, 1] := by decide +kernel

theorem two_differ : sumAll.hash true 0 ≠ plain.hash true 1 := by decide +kernel

theorem two_distinct (i j : Nat) (u v : URed D String) (hu : two[i]? = some u) (hv : two[j]? = some v)
    (h : u.hash true i = v.hash true j) : i = j := by
  match i, j, hu, hv with
  | 0, 0, _, _ => rfl
  | 1, 1, _, _ => rfl
  | 0, 1, hu, hv => cases hu; cases hv; exact absurd h two_differ
  | 1, 0, hu, hv => cases hu; cases hv; exact absurd h.symm two_differ
  | n + 2, _, hu, _ => cases hu
  | _, n + 2, _, hv => cases hv

/-- The sum of both results. -/
def plus2 : String := "(" ++ out.text (varAgg 0) ++ " + " ++ out.text (varAgg 1) ++ ")"

/-- The tokens of a result. -/
def outT2 (j : Nat) : List Tok := outToks (some [.num 0]) (placeToks true j) (placeToks true j)

/-- The tree of a result. -/
def outA2 (j : Nat) : Ast := outTree (some (.num 0)) (place true j) (place true j)

theorem outA2_code (j : Nat) : Code (out.text (varAgg j)).toList (outT2 j) (outA2 j) := by
  have h := out_at [] (fun _ => none) true j
  exact out_code h.default ⟨(place_code true j).lx, (place_code true j).pr.rd⟩ h.post

theorem plus2_code : Code plus2.toList (.lpar :: (outT2 0 ++ opToks .add ++ (outT2 1 ++ [.rpar]))) (.bin .add (outA2 0) (outA2 1)) :=
  ⟨lx_piece (by decide +kernel), (pr_op .add (by decide) (outA2_code 0).rd (outA2_code 1).rd).rd⟩

theorem outA2_ev {args : List String} {env : String → Option (PVal D)} {st : St D} (hc : Ctx args env st) {j : Nat} {s : Option D}
    (hv : ev pyF (place true j) st = .ok (pval s, st)) : ev pyF (outA2 j) st = .ok (.user (orZero s), st) := by
  have hx : dec st.heap (pval s) = s.map (fun v => DVal.val (.user v)) := by cases s <;> rfl
  have := out_yields (P := pyF) (da := some (.num 0)) (pa := place true j)
    (d := some (.ok (some (.val (.user (.int 0)))))) (post := fun s => .ok (dval s)) hc.1 hv hx
    ⟨_, rfl, rfl⟩ ⟨pval s, hv, by cases s <;> rfl⟩
  have eo : outVal (E := String) (some (.ok (some (.val (.user (.int 0)))))) (fun s => .ok (dval s)) s =
      .ok (some (.val (.user (orZero s)))) := by
    cases s <;> rfl
  rw [eo] at this
  obtain ⟨v, h1, h2⟩ := this
  obtain rfl := dec_user h2
  exact h1

/-- The text of the function. -/
def twoText : List Char := lines [
    "",
    "def aggregate_1(data_):",
    "    global add_label_, get_by_label_",
    "    _none = none_1",
    "    agg_data_v0_ = agg_data_v1_ = _none",
    "    expected_checksum_ = 3",
    "    checksum_ = 0",
    "    it_ = iter(data_)",
    "    for row_ in it_:",
    "",
    "        if agg_data_v0_ is _none:",
    "            agg_data_v0_ = (row_[1] or 0)",
    "",
    "            if agg_data_v0_ is not _none:",
    "                checksum_ |= 1",
    "                if checksum_ == expected_checksum_:",
    "                    break",
    "",
    "        else:",
    "            agg_data_v0_ += (row_[1] or 0)",
    "",
    "",
    "",
    "        if agg_data_v1_ is _none:",
    "            agg_data_v1_ = row_[1]",
    "",
    "            if agg_data_v1_ is not _none:",
    "                checksum_ |= 2",
    "                if checksum_ == expected_checksum_:",
    "                    break",
    "",
    "        else:",
    "            agg_data_v1_ = f_1(agg_data_v1_,row_[1])",
    "",
    "",
    "    for row_ in it_:",
    "",
    "        agg_data_v0_ += (row_[1] or 0)",
    "",
    "",
    "",
    "        agg_data_v1_ = f_1(agg_data_v1_,row_[1])",
    "",
    "",
    "    result_ = ((0 if agg_data_v0_ is _none else agg_data_v0_) + (0 if agg_data_v1_ is _none else agg_data_v1_))",
    "    ",
    "    return result_",
    ""]

theorem twoText_eq : aggCode { fn with result := plus2 } (two.map URed.text) = twoText := by decide +kernel

/-- The sum of both results. -/
def twoOf : List (UVal D) → Except String (Val D)
  | [.slot s, .user b] => (ops.add (orZero (sumVal s)) (orZero b)).map (fun v => some (.val (.user v)))
  | _ => .error "impossible"

/-- C68 about `twoText`. -/
theorem demo_two : ∃ b, Source twoText b ∧ (∀ rows, callDef pyF "aggregate_1" [.data rows] b ≠ .error none) ∧
    ∀ row rows, (∀ u ∈ two, ∃ v, u.spec pyF ops (onVals userFns) condSem [row] = .ok v ∧ v.Has) → ∀ out,
      callDef pyF "aggregate_1" [.data (row :: rows)] b = .ok out ↔
        ∃ vs w, mapAll (URed.spec pyF ops (onVals userFns) condSem (row :: rows)) two = .ok vs ∧ twoOf vs = .ok w ∧
          (.ok w : Except String (Val D)) = .ok out := by
  have h := C68_aggregate_partial (P := pyF) (ops := ops) (condSem := condSem) (us := two) (fns := userFns)
    (f := { fn with result := plus2 }) (r := { src with
      resultT := .lpar :: (outT2 0 ++ opToks .add ++ (outT2 1 ++ [.rpar]))
      result := .expr (.bin .add (outA2 0) (outA2 1)) })
    (vals := []) (gs := []) (sort := .ok) (ra := .bin .add (outA2 0) (outA2 1)) (res := twoOf) pyF_ops
    (fun _ h => by cases h) (src_ok.reads plus2_code) ⟨fun _ h => (by cases h), fun _ h => (by cases h)⟩
    ⟨rfl, ⟨"none_1", rfl, by decide, rfl⟩, rfl⟩ (two_ok _ _) (by simp [two]) two_distinct rfl
    (by
      intro st vs hc hs
      obtain ⟨hlen, hat⟩ := hs
      match vs, hlen with
      | [x, y], _ =>
        obtain ⟨j, hj, h2⟩ := hat 0 _ x rfl rfl
        obtain ⟨j', hj', h1⟩ := hat 1 _ y rfl rfl
        rw [two_slots] at hj hj'
        cases hj
        cases hj'
        match x, h2 with
        | .slot a, ⟨g1, p, g2, _, g4⟩ =>
          match y, h1 with
          | .user b, h1 =>
            obtain rfl := sum_pval g1 g4
            have y1 := outA2_ev hc g2
            have y2 := outA2_ev hc h1
            have hsum : ev pyF (.bin .add (outA2 0) (outA2 1)) st =
                (lift (ops.add (orZero (sumVal a)) (orZero b))).map (fun v => (.user v, st)) := by
              rw [ev.eq_def]
              simp only [y1, y2]
              show (lift ((ops.add _ _).map PVal.user)).map _ = _
              cases ops.add (orZero (sumVal a)) (orZero b) <;> rfl
            show Yields pyF _ st ((ops.add (orZero (sumVal a)) (orZero b)).map (fun v => some (.val (.user v))))
            unfold Yields
            rw [hsum]
            cases ops.add (orZero (sumVal a)) (orZero b) with
            | error e => rfl
            | ok c => exact ⟨_, rfl, rfl⟩)
    (fun _ => rfl)
  rw [twoText_eq] at h
  exact h

/-- Every row of two numbers gives both reduces a value. -/
theorem two_first (p : Int × Int) : ∀ u ∈ two, ∃ v, u.spec pyF ops (onVals userFns) condSem [pair p] = .ok v ∧ v.Has := by
  intro u hu
  rcases List.mem_cons.1 hu with rfl | hu
  · exact ⟨_, rfl, fun h => by cases h⟩
  · rcases List.mem_cons.1 hu with rfl | hu
    · exact ⟨_, rfl, fun h => by cases h⟩
    · cases hu

example : callF twoText [[1, 5], [2, 7], [1, 2]] = some (.int 10) := by decide +kernel

end Verif.Stmt.Demo
