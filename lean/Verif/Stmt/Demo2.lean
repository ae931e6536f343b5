import Verif.Stmt.Demo

/-!
# Stmt: several reduces, two of them sharing a variable
-/

set_option autoImplicit false

namespace Verif.Stmt.Demo

open Verif.Text Verif.Agg Verif.Reducers

/-- `Sum` of the second numbers of all rows. -/
def sumAll : BRed D String := { total with codes := ⟨none, ["row_[1]"], none⟩, cond := none }

theorem sumAll_at (args : List String) (env : String → Option (PVal D)) (m : Bool) (i : Nat)
    (h : ¬ (placeText m i).toList <:+: "row_[1]".toList) : BOk py condSem args env m i sumAll where
  codes :=
    { args := ⟨"row_[1]", _, [], rfl, item_code _ 1 (by decide +kernel), rfl⟩
      initial := trivial
      cond := trivial }
  fn := ⟨item_gives _ _ 1, fun h => (by cases h), fun _ h => (by cases h), fun _ h => (by cases h)⟩
  initial := trivial
  cond := fun c d h1 h2 => by cases h1
  free := by
    refine ⟨fun a ha => ?_, fun a h => by cases h⟩
    rw [List.mem_singleton.1 ha]
    exact h

/-- The filtered sum, the sum, and the filtered sum once more. -/
def three : List (BRed D String) := [total, sumAll, total]

theorem three_ok (args : List String) (env : String → Option (PVal D)) : ReducesOk py condSem args env three where
  ok := by
    intro i u hu
    match i, hu with
    | 0, hu => cases hu; exact total_at _ _ _ _ (by decide +kernel)
    | 1, hu => cases hu; exact sumAll_at _ _ _ _ (by decide +kernel)
    | 2, hu => cases hu; exact total_at _ _ _ _ (by decide +kernel)
    | n + 3, hu => cases hu
  initial := by
    intro u hu
    simp only [three, List.mem_cons, List.not_mem_nil, or_false] at hu
    rcases hu with rfl | rfl | rfl <;> rfl
  free := by
    intro i u c hu hc
    match i, hu with
    | 0, hu => cases hu; cases hc; decide +kernel
    | 1, hu => cases hu; cases hc
    | 2, hu => cases hu; cases hc; decide +kernel
    | n + 3, hu => cases hu

/-- The first and the third reduce share a variable. -/
theorem three_slots : (textCompile false (three.map BRed.text)).slotOf = [0, 1, 0] := by decide +kernel

theorem three_items : (textCompile false (three.map BRed.text)).items.length = 2 := by decide +kernel

/-- The third result plus the second. -/
def plus : String := "(" ++ out.text (varGroup 0) ++ " + " ++ out.text (varGroup 1) ++ ")"

/-- The tokens of a result. -/
def outT (j : Nat) : List Tok := outToks (some [.num 0]) (placeToks false j) (placeToks false j)

/-- The tree of a result. -/
def outA (j : Nat) : Ast := outTree (some (.num 0)) (place false j) (place false j)

theorem outA_code (j : Nat) : Code (out.text (varGroup j)).toList (outT j) (outA j) := by
  have h := out_at [] (fun _ => none) false j
  exact out_code h.default ⟨(place_code false j).lx, (place_code false j).pr.rd⟩ h.post

/-- The text of the function. -/
def threeText : List Char := lines [
    "",
    "def aggregate_1(data_):",
    "    global add_label_, get_by_label_",
    "    _none = none_1",
    "    signature_to_agg_data_ = defaultdict(AggData_3)",
    "    for row_ in data_:",
    "        agg_data_ = signature_to_agg_data_[row_[0]]",
    "",
    "        if (row_[0] > 1):",
    "            if agg_data_.v0 is _none:",
    "                agg_data_.v0 = (row_[1] or 0)",
    "",
    "            else:",
    "                agg_data_.v0 += (row_[1] or 0)",
    "",
    "",
    "",
    "        if agg_data_.v1 is _none:",
    "            agg_data_.v1 = (row_[1] or 0)",
    "",
    "        else:",
    "            agg_data_.v1 += (row_[1] or 0)",
    "",
    "",
    "    result_ = [((0 if agg_data_.v0 is _none else agg_data_.v0) + (0 if agg_data_.v1 is _none else agg_data_.v1)) for signature_, agg_data_ in signature_to_agg_data_.items()]",
    "    ",
    "    return result_",
    ""]

theorem threeText_eq :
    groupCode { fn with result := groupResult plus } "AggData_3" "row_[0]" (three.map BRed.text) = threeText := by
  decide +kernel

example : call threeText [[1, 5], [2, 7], [3, 9], [2, 1]] = some (.row [5, 16, 18]) := by decide +kernel

/-- The tokens of `plus`. -/
def plusT : List Tok := .lpar :: (outT 0 ++ opToks .add ++ (outT 1 ++ [.rpar]))

/-- The tree of `plus`. -/
def plusA : Ast := .bin .add (outA 0) (outA 1)

theorem plus_code : Code plus.toList plusT plusA :=
  ⟨lx_piece (by decide +kernel), (pr_op .add (by decide) (outA_code 0).rd (outA_code 1).rd).rd⟩

theorem dec_user {h : List (Box D)} {p : PVal D} {v : D} (e : dec h p = some (.val (.user v))) : p = .user v := by
  cases p with
  | ref i =>
    simp only [dec] at e
    cases hi : h[i]? <;> rw [hi] at e <;> cases e
  | sentinel => cases e
  | user w => cases e; rfl
  | _ => cases e

/-- The sum of two results. -/
def plusOf (vs : List (Option (Slot D))) : Except String (Val D) :=
  match outOf (@Fn.reducer D String py.beq ops .sum) none (enc py ops none) (vs[2]?.getD none),
      outOf (@Fn.reducer D String py.beq ops .sum) none (enc py ops none) (vs[1]?.getD none) with
  | .ok (some (.val (.user a))), .ok (some (.val (.user b))) => (ops.add a b).map (fun v => some (.val (.user v)))
  | .error e, _ => .error e
  | _, .error e => .error e
  | _, _ => .error "TypeError"

theorem outOf_int (x : Option (Slot D)) (hx : Fn.sum.Holds x) :
    ∃ v, outOf (@Fn.reducer D String py.beq ops .sum) none (enc py ops none) x = .ok (some (.val (.user v))) := by
  cases x with
  | none => exact ⟨.int 0, rfl⟩
  | some s =>
    have := hx s rfl
    cases s with
    | val v => exact ⟨v, rfl⟩
    | _ => cases this

/-- C58 about `threeText`. -/
theorem demo_three : ∃ b, Source threeText b ∧ ∀ rows, callDef py "aggregate_1" [.data rows] b ≠ .error none ∧ ∀ out,
    callDef py "aggregate_1" [.data rows] b = .ok out ↔
      ∃ groups ws, @groupSpec _ _ _ _ ⟨py.keyEq⟩ condSem keyOf (redsFrom py ops false 0 three) rows = .ok groups ∧
        mapAll (fun g => plusOf g.2) groups = .ok ws ∧ (.ok (py.newList ws) : Except String (Val D)) = .ok out := by
  have h := C58_group_by (P := py) (ops := ops) (condSem := condSem) (us := three)
    (f := { fn with result := groupResult plus })
    (r := { src with
      resultT := pairToks plusT "signature_" "agg_data_" groupItemsToks
      result := .pairs plusA "signature_" "agg_data_" groupItems })
    (vals := []) (gs := []) (e := plusA)
    (sort := .ok) (signature := "row_[0]") (cls := "AggData_3") (res := fun _ vs => plusOf vs) py_ops
    (src_ok.readsPairs plus_code) (by decide +kernel)
    (item_code "row_[0]" 0 (by decide +kernel)).lx (item_code "row_[0]" 0 (by decide +kernel)).rd
    (fun _ h => by cases h) (fun _ h => by cases h) ⟨fun _ h => (by cases h), fun _ h => (by cases h)⟩
    (by rw [three_items]; exact ⟨rfl, ⟨"none_1", rfl, by decide, rfl⟩, ⟨by decide, rfl⟩, ⟨by decide, rfl⟩⟩)
    (key_ok _ _) (three_ok _ _) (by decide) rfl
    (by
      intro st k vs hc _ hs
      obtain ⟨hlen, hat⟩ := hs
      match vs, hlen with
      | [x, y, z], _ =>
        rw [three_slots] at hat
        obtain ⟨h1, p, h2, h3, h4⟩ := hat 2 0 total z rfl rfl rfl
        obtain ⟨h1', p', h2', h3', h4'⟩ := hat 1 1 sumAll y rfl rfl rfl
        have y1 := outOk_yields (out_at _ _ false 0) hc (p := p) h2 h1 h4
        have y2 := outOk_yields (out_at _ _ false 1) hc (p := p') h2' h1' h4'
        obtain ⟨a, ea⟩ := outOf_int z h1
        obtain ⟨b, eb⟩ := outOf_int y h1'
        have e1 : outOf (@Fn.reducer D String py.beq ops total.f) none (enc py ops none) z = .ok (some (.val (.user a))) := ea
        have e2 : outOf (@Fn.reducer D String py.beq ops total.f) none (enc py ops none) y = .ok (some (.val (.user b))) := eb
        rw [e1] at y1
        rw [e2] at y2
        obtain ⟨v, y1, d1⟩ := y1
        obtain ⟨w, y2, d2⟩ := y2
        obtain rfl := dec_user d1
        obtain rfl := dec_user d2
        have y1' : ev py (outA 0) st = .ok (.user a, st) := y1
        have y2' : ev py (outA 1) st = .ok (.user b, st) := y2
        have hsum : ev py plusA st = (lift (ops.add a b)).map (fun v => (.user v, st)) := by
          unfold plusA
          rw [ev.eq_def]
          simp only [y1', y2']
          show (lift ((ops.add a b).map PVal.user)).map _ = _
          cases ops.add a b <;> rfl
        have hp : plusOf [x, y, z] = (ops.add a b).map (fun v => some (.val (.user v))) := by
          simp only [plusOf, List.getElem?_cons_succ, List.getElem?_cons_zero, Option.getD_some, ea, eb]
        rw [hp]
        unfold Yields
        rw [hsum]
        cases ops.add a b with
        | error e => rfl
        | ok c => exact ⟨_, rfl, rfl⟩)
    (fun _ => rfl) py_keys
  rw [threeText_eq] at h
  exact h.2

/-! ## The hypotheses of C56 -/

theorem lift_inits {f : Fn} {r : Red D (Slot D) String} (h : Inits r) : Inits (liftRed py ops f r) := by
  intro hu row v hv
  have hv' : (r.init row none).map (Option.map (enc py ops f.factory)) = .ok v := hv
  cases hr : r.init row none with
  | error e => rw [hr] at hv'; cases hv'
  | ok w =>
    rw [hr] at hv'
    cases hv'
    have := h hu row w hr
    cases w with
    | none => exact absurd rfl this
    | some s => exact fun h => by cases h

theorem lift_keeps {f : Fn} {r : Red D (Slot D) String} (h : Keeps r) (hn : ∀ row w, r.two row none = .ok w → w ≠ none) :
    Keeps (liftRed py ops f r) := by
  intro row x v hv
  have hv' : (r.two row (dcd py f.tag x)).map (Option.map (enc py ops f.factory)) = .ok v := hv
  cases hr : r.two row (dcd py f.tag x) with
  | error e => rw [hr] at hv'; cases hv'
  | ok w =>
    rw [hr] at hv'
    cases hv'
    have : w ≠ none := by
      cases hd : dcd py f.tag x with
      | none => rw [hd] at hr; exact hn row w hr
      | some s => rw [hd] at hr; exact h row s w hr
    cases w with
    | none => exact absurd rfl this
    | some s => exact fun h => by cases h

/-- The reduces of C56. -/
def lifted : List (Red D (DVal D) String) := liftsFrom py ops true 0 [total]

theorem lifted_linked : Linked py condSem [] (envOf [] []) true (kinds py ops true [total]) 0 [total.text] lifted :=
  linked_builtin (us := [total]) py_ops ⟨fun _ h => (by cases h), fun _ h => (by cases h)⟩ (sameKinds_one total)
    (fun i u hu => by
      match i, hu with
      | 0, hu => cases hu; exact total_ok _ _ true
      | n + 1, hu => cases hu)

example : Faithful lifted ∧ (∀ r ∈ lifted, Inits r) ∧ (∀ r ∈ lifted, Keeps r) ∧
    ∀ rows, LastLatest condSem (reduceBlocks (compile true lifted).items) rows := by
  letI := py.beq
  have hok := builtins_ok ops (Fn.sum.reducer ops) (fn_builtin ops .sum) (total.hash true 0) total.codes.cond total.x total.y
  refine ⟨?_, ?_, ?_, fun rows => lastLatest_one _ _ _⟩
  · intro a ha a' ha' _
    rw [List.mem_singleton.1 ha, List.mem_singleton.1 ha']
    exact ⟨rfl, rfl, rfl⟩
  · intro r hr
    rw [List.mem_singleton.1 hr]
    exact lift_inits hok.1
  · intro r hr
    rw [List.mem_singleton.1 hr]
    refine lift_keeps hok.2 (fun row w hw => ?_)
    have : (total.red py ops true 0).two row none = .error "TypeError" ∨ ∃ e, (total.red py ops true 0).two row none = .error e := by
      simp only [BRed.red, redOf, total, Fn.reducer, Reducers.sum]
      cases item 1 row with
      | error e => exact .inr ⟨e, rfl⟩
      | ok v => exact .inl rfl
    rcases this with h | ⟨e, h⟩ <;> rw [h] at hw <;> cases hw

end Verif.Stmt.Demo
