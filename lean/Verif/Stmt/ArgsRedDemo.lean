import Verif.Stmt.ArgsRedProps
import Verif.Stmt.InlineRedDemo

/-!
# Stmt: reduces with additional arguments, examples
-/

set_option autoImplicit false

namespace Verif.Stmt.Demo

open Verif.Text Verif.Agg Verif.Reducers

/-- The function `f_1` of three arguments adds to a tuple of two numbers; the format string is `{0} + {1} * {2}`. -/
def fnsA : Callee → Option D → List D → Except String D
  | .inline _ _, some (.int a), [.int b, .int c] => .ok (.int (a + b * c))
  | .function _, some (.row [a, b]), [.int c, .int d] => .ok (.row [a + c, b + d])
  | _, _, _ => .error "TypeError"

/-- A tuple of numbers. -/
def packA (vs : List D) : D := .row (vs.map fun v =>
  match v with
  | .int n => n
  | _ => 0)

/-- Calls with three arguments and tuples of two. -/
def evalArgs (a : Ast) (st : St D) : Except String (PVal D) :=
  match a with
  | .call (.name g) [a, b, c] [] =>
    match ev py a st with
    | .error (some e) => .error e
    | .error none => .error "TypeError"
    | .ok (p, _) =>
      match evs py st [b, c] with
      | .ok vs => (fnsA (.function g) (argVal p) vs).map .user
      | .error (some e) => .error e
      | .error none => .error "TypeError"
  | .display .tuple as =>
    match evs py st as with
    | .ok vs => .ok (.user (packA vs))
    | .error (some e) => .error e
    | .error none => .error "TypeError"
  | a => py.eval a st

/-- Python with addition, multiplication, and these. -/
def pyA : Py D String :=
  { py with
    eval := evalArgs
    tracked := fun _ => false
    arith := fun o =>
      match o with
      | .mul => onUsers (onInts (fun a b => .int (a * b))) .user
      | _ => onUsers ops.add .user }

/-- `c.item(1)` and `c.item(2)`. -/
def itemsA : List Ast := [.sub (.name "row_") (.num 1), .sub (.name "row_") (.num 2)]

theorem evA_item (st : St D) (n : Nat) : ev pyA (.sub (.name "row_") (.num n)) st = ev py (.sub (.name "row_") (.num n)) st := rfl

theorem evsA (st : St D) : evs pyA st itemsA = evs py st itemsA := rfl

theorem itemA_gives (args : List String) (env : String → Option (PVal D)) (n : Nat) :
    Gives pyA args env (.sub (.name "row_") (.num n)) (item n) := by
  intro st row hc hr
  rw [evA_item]
  exact item_gives args env n st row hc hr

theorem evA_place (m : Bool) (j : Nat) (st : St D) : ev pyA (place m j) st = ev py (place m j) st := by
  cases m
  · have e : ∀ Q : Py D String, Q.glob = globals → (∀ a, Q.eval (.attr a (attrName j)) st = .error "TypeError") →
      ev Q (place false j) st = ev py (place false j) st := by
      intro Q hQ he
      simp only [place, ev, St.look, hQ, he, py]
    exact e pyA rfl (fun _ => rfl)
  · rfl

/-- `c.reduce(c.inline_expr("{0} + {1} * {2}"), c.item(1), additional_args=(c.item(2),), initial=100).filter(c.item(0) > 1)`. -/
def weighted : ARed D String where
  callee := .inline "{0} + {1} * {2}" (.bin .add (.name "{0") (.bin .mul (.name "{1") (.name "{2")))
  code := "row_[1]"
  more := ["row_[2]"]
  initial := some "100"
  cond := some "(row_[0] > 1)"
  xa := .sub (.name "row_") (.num 1)
  moreA := [.sub (.name "row_") (.num 2)]
  ia := some (.num 100)
  condS := some ⟨condToks, condTree⟩
  x := item 1
  moreX := [item 2]
  start := some (fun _ => .ok (.int 100))

/-- `c.reduce(f, c.item(1), additional_args=(c.item(2),), default=0)`. -/
def sums : ARed D String where
  callee := .function "f_1"
  code := "row_[1]"
  more := ["row_[2]"]
  initial := none
  cond := none
  xa := .sub (.name "row_") (.num 1)
  moreA := [.sub (.name "row_") (.num 2)]
  ia := none
  condS := none
  x := item 1
  moreX := [item 2]
  start := none

theorem codesA : CodesOf ["row_[1]", "row_[2]"] [[.name "row_", .lbr, .num 1, .rbr], [.name "row_", .lbr, .num 2, .rbr]] itemsA :=
  .cons (item_code _ 1 (by decide +kernel)) (.cons (item_code _ 2 (by decide +kernel)) .nil)

theorem givesA (args : List String) (env : String → Option (PVal D)) : AllGive pyA args env itemsA [item 1, item 2] :=
  .cons (itemA_gives _ _ 1) (.cons (itemA_gives _ _ 2) .nil)

theorem short (m : Bool) (i : Nat) {s : String} (h : s.toList.length < 12) : ¬ (placeText m i).toList <:+: s.toList := by
  intro hi
  have := hi.length_le
  have := placeText_length m i
  omega

theorem place_ne (m : Bool) (i : Nat) : (placeText m i).toList ≠ [] := by
  intro h0
  have := placeText_length m i
  rw [h0] at this
  simp at this

theorem weighted_format : FormatsOk 3 "{0} + {1} * {2}" (.bin .add (.name "{0") (.bin .mul (.name "{1") (.name "{2"))) :=
  formats_ok (l := [.code ['0'], .ch ' ', .ch '+', .ch ' ', .code ['1'], .ch ' ', .ch '*', .ch ' ', .code ['2']])
    (by decide +kernel) (by decide +kernel) (by decide +kernel)

theorem weighted_ast (a : Ast) : weighted.callee.ast (a :: itemsA) =
    .bin .add a (.bin .mul (.sub (.name "row_") (.num 1)) (.sub (.name "row_") (.num 2))) := by
  have h : ∀ (x y z : Inline.Operand) (c : Char), Inline.fillOf ⟨[x, y, z], []⟩ (Inline.ph [c]) =
      ((⟨[x, y, z], []⟩ : Inline.Args Inline.Operand).get [c]).map (fun o => (o.toks, o.tree, o.prim)) := fun x y z c => by
    rw [Inline.fillOf_ph]
  have h0 : "{0" = Inline.ph ['0'] := by decide +kernel
  have h1 : "{1" = Inline.ph ['1'] := by decide +kernel
  have h2 : "{2" = Inline.ph ['2'] := by decide +kernel
  simp only [weighted, Callee.ast, fillA, itemsA, List.map_cons, List.map_nil, h0, h1, h2, h]
  rfl

theorem weighted_applies (args : List String) (env : String → Option (PVal D)) (as : Ast → Prop) :
    Applies pyA args env weighted.callee (fnsA weighted.callee) as itemsA := by
  have hev : ∀ st row, Ctx args env st → st.loc "row_" = some (.user row) →
      evs pyA st itemsA = lift (mapAll (fun x => x row) [item 1, item 2]) := fun st row hc hr => (givesA args env).evs hc hr
  have hbin : ∀ o a b st, ev pyA (.bin o a b) st =
      match ev pyA a st with
      | .error e => .error e
      | .ok (x, st) =>
        match ev pyA b st with
        | .error e => .error e
        | .ok (y, st) => (lift (pyA.arith o x y)).map (fun v => (v, st)) := fun o a b st => by
    simp only [ev]
    cases ev pyA a st with
    | error e => rfl
    | ok p =>
      simp only
      cases ev pyA b p.2 <;> rfl
  refine ⟨?_, ?_, ?_⟩
  · intro st row a s vs _ hc hr h1 h2
    rw [weighted_ast]
    rw [hev st row hc hr] at h2
    have e1 := itemA_gives args env 1 st row hc hr
    have e2 := itemA_gives args env 2 st row hc hr
    simp only [mapAll] at h2
    cases hx : item 1 row with
    | error e => rw [hx] at h2; cases h2
    | ok x =>
      cases hy : item 2 row with
      | error e => rw [hx, hy] at h2; cases h2
      | ok y =>
        rw [hx, hy] at h2
        cases h2
        rw [hx] at e1
        rw [hy] at e2
        simp only [lift, Except.map] at e1 e2
        simp only [hbin, h1, e1, e2]
        cases s with
        | none => cases x <;> cases y <;> rfl
        | some w => cases w <;> cases x <;> cases y <;> rfl
  · intro st row a e _ hc hr h1
    rw [weighted_ast]
    simp only [ev, h1]
  · intro st row a s e _ hc hr h1 h2
    rw [weighted_ast]
    rw [hev st row hc hr] at h2
    have e1 := itemA_gives args env 1 st row hc hr
    have e2 := itemA_gives args env 2 st row hc hr
    simp only [mapAll] at h2
    cases hx : item 1 row with
    | error e =>
      rw [hx] at h2 e1
      cases h2
      simp only [lift, Except.map] at e1
      simp only [hbin, h1, e1]
    | ok x =>
      cases hy : item 2 row with
      | ok y => rw [hx, hy] at h2; cases h2
      | error e =>
        rw [hx, hy] at h2
        cases h2
        rw [hx] at e1
        rw [hy] at e2
        simp only [lift, Except.map] at e1 e2
        simp only [hbin, h1, e1, e2]

theorem sums_applies (args : List String) (env : String → Option (PVal D)) (m : Bool) :
    Applies pyA args env sums.callee (fnsA sums.callee) (sums.firsts m) itemsA := by
  have hcall : ∀ (a : Ast) st, ev pyA (sums.callee.ast (a :: itemsA)) st =
      (lift (evalArgs (sums.callee.ast (a :: itemsA)) st)).map (fun v => (v, st)) := fun _ _ => rfl
  have hast : ∀ a, sums.callee.ast (a :: itemsA) =
      .call (.name "f_1") [a, .sub (.name "row_") (.num 1), .sub (.name "row_") (.num 2)] [] := fun _ => rfl
  have hfst : ∀ a st, sums.firsts m a → ev pyA a st = ev py a st := by
    rintro a st (⟨j, rfl⟩ | ha)
    · exact evA_place m j st
    · cases ha
  refine ⟨?_, ?_, ?_⟩
  · intro st row a s vs ha _ _ h1 h2
    rw [hcall, hast]
    rw [hfst a st ha] at h1
    rw [evsA, itemsA] at h2
    have : argVal (pval s) = s := by cases s <;> rfl
    simp only [evalArgs, h1, h2, this]
    show _ = Except.map _ (lift (fnsA (.function "f_1") s vs))
    cases fnsA (.function "f_1") s vs <;> rfl
  · intro st row a e ha _ _ h1
    rw [hcall, hast]
    rw [hfst a st ha] at h1
    simp only [evalArgs, h1]
    rfl
  · intro st row a s e ha _ _ h1 h2
    rw [hcall, hast]
    rw [hfst a st ha] at h1
    rw [evsA, itemsA] at h2
    simp only [evalArgs, h1, h2]
    rfl

theorem sums_packs (args : List String) (env : String → Option (PVal D)) : Packs pyA args env packA itemsA := by
  have htup : ∀ st, ev pyA (.display .tuple itemsA) st =
      (lift (evalArgs (.display .tuple itemsA) st)).map (fun v => (v, st)) := fun _ => rfl
  refine ⟨?_, ?_⟩
  · intro st row vs _ _ h
    rw [evsA] at h
    rw [htup]
    simp only [evalArgs, h]
    rfl
  · intro st row e _ _ h
    rw [evsA] at h
    rw [htup]
    simp only [evalArgs, h]
    rfl

theorem weighted_at (args : List String) (env : String → Option (PVal D)) (m : Bool) (i : Nat)
    (h : ¬ (placeText m i).toList <:+: "(row_[0] > 1)".toList) : AOk pyA condSem args env m packA fnsA i weighted where
  callee := inlines_ok (place_ne m i) (placeText_sep m i) weighted_format
    (apart_short (l := [.code ['0'], .ch ' ', .ch '+', .ch ' ', .code ['1'], .ch ' ', .ch '*', .ch ' ', .code ['2']])
      (by decide +kernel) (by decide +kernel) (by decide +kernel) m i)
  reads :=
    { codes := ⟨_, codesA⟩
      initial := ⟨[.num 100], fun cs h1 h2 => lex_reprInt 100 cs (wEnd_nEnd h1 h2), (pr_num 100).rd⟩
      cond := ⟨lx_piece (by decide +kernel), ev_of_parse (n := 60) (by decide +kernel)⟩ }
  values := givesA _ _
  initial := fun _ _ _ _ => rfl
  fn := weighted_applies _ _ _
  tuple := fun h => by cases h
  cond := fun c d h1 h2 => by
    cases h1
    cases h2
    exact fun st row hc hr => cond_tests args env _ st row hc hr
  free :=
    { codes := fun c hc => by
        simp only [ARed.codes, weighted, List.mem_cons, List.not_mem_nil, or_false] at hc
        rcases hc with rfl | rfl
        · exact short m i (by decide +kernel)
        · exact short m i (by decide +kernel)
      initial := fun t ht => by
        cases ht
        exact short m i (by decide +kernel)
      cond := fun c hc => by
        cases hc
        exact h }

theorem sums_at (args : List String) (env : String → Option (PVal D)) (m : Bool) (i : Nat) :
    AOk pyA condSem args env m packA fnsA i sums where
  callee := function_ok (place_ne m i) (placeText_sep m i) (by decide +kernel) (short m i (by decide +kernel)) (by decide)
  reads :=
    { codes := ⟨_, codesA⟩
      initial := trivial
      cond := trivial }
  values := givesA _ _
  initial := trivial
  fn := sums_applies _ _ m
  tuple := fun _ _ => sums_packs _ _
  cond := fun c d h1 h2 => by cases h1
  free :=
    { codes := fun c hc => by
        simp only [ARed.codes, sums, List.mem_cons, List.not_mem_nil, or_false] at hc
        rcases hc with rfl | rfl
        · exact short m i (by decide +kernel)
        · exact short m i (by decide +kernel)
      initial := fun t ht => by cases ht
      cond := fun c hc => by cases hc }

/-- The function of `c.aggregate(c.reduce(c.inline_expr("{0} + {1} * {2}"), c.item(1), additional_args=(c.item(2),),
initial=100, default=0).filter(…))`. -/
def weightedText : List Char := lines [
    "",
    "def aggregate_1(data_):",
    "    global add_label_, get_by_label_",
    "    _none = none_1",
    "    agg_data_v0_ = _none",
    "    expected_checksum_ = 1",
    "    checksum_ = 0",
    "    it_ = iter(data_)",
    "    for row_ in it_:",
    "",
    "        if (row_[0] > 1):",
    "            if agg_data_v0_ is _none:",
    "                agg_data_v0_ = (100 + row_[1] * row_[2])",
    "",
    "                if agg_data_v0_ is not _none:",
    "                    checksum_ |= 1",
    "                    if checksum_ == expected_checksum_:",
    "                        break",
    "",
    "            else:",
    "                agg_data_v0_ = (agg_data_v0_ + row_[1] * row_[2])",
    "",
    "",
    "    for row_ in it_:",
    "",
    "        if (row_[0] > 1):",
    "            agg_data_v0_ = (agg_data_v0_ + row_[1] * row_[2])",
    "",
    "",
    "",
    "    result_ = (0 if agg_data_v0_ is _none else agg_data_v0_)",
    "    ",
    "    return result_",
    ""]

theorem weightedText_eq : aggCode { fn with result := OutCode.text ⟨some "0", fun v => v⟩ (varAgg 0) } [weighted.text] = weightedText := by
  decide +kernel

/-- C72 about `weightedText`. -/
theorem demo_weighted : ∃ b, Source weightedText b ∧ ∀ rows, callDef pyA "aggregate_1" [.data rows] b ≠ .error none ∧ ∀ out,
    callDef pyA "aggregate_1" [.data rows] b = .ok out ↔
      ∃ s w, weighted.spec packA (onFirst fnsA) condSem rows = .ok s ∧
        customOut (E := String) (some (.ok (some (.val (.user (.int 0)))))) s = .ok w ∧ (.ok w : Except String (Val D)) = .ok out := by
  have h := C72_aggregate_partial (P := pyA) (condSem := condSem) (f := fn) (r := src) (vals := []) (gs := []) (u := weighted)
    (pack := packA) (fns := fnsA) (d := some "0") (dt := some [.num 0]) (da := some (.num 0))
    (dflt := some (.ok (some (.val (.user (.int 0)))))) (sort := .ok)
    (fun _ h => by cases h) src_ok ⟨fun _ h => (by cases h), fun _ h => (by cases h)⟩ ⟨rfl, ⟨"none_1", rfl, by decide, rfl⟩, rfl⟩
    (weighted_at _ _ true 0 (by decide +kernel))
    ⟨fun cs h1 h2 => lex_reprInt 0 cs (wEnd_nEnd h1 h2), (pr_num 0).rd⟩ (fun st _ => ⟨_, rfl, rfl⟩) (fun _ => rfl)
  rw [weightedText_eq] at h
  exact h

/-- The function of `c.group_by(c.item(0)).aggregate(…)` with both reduces, and the first of them again. -/
def argsText : List Char := lines [
    "",
    "def aggregate_1(data_):",
    "    global add_label_, get_by_label_",
    "    _none = none_1",
    "    signature_to_agg_data_ = defaultdict(AggData_3)",
    "    for row_ in data_:",
    "        agg_data_ = signature_to_agg_data_[row_[0]]",
    "",
    "        if (row_[0] > 1):",
    "            if agg_data_.v0 is _none:",
    "                agg_data_.v0 = (100 + row_[1] * row_[2])",
    "",
    "            else:",
    "                agg_data_.v0 = (agg_data_.v0 + row_[1] * row_[2])",
    "",
    "",
    "",
    "        if agg_data_.v1 is _none:",
    "            agg_data_.v1 = (row_[1],row_[2],)",
    "",
    "        else:",
    "            agg_data_.v1 = f_1(agg_data_.v1,row_[1],row_[2])",
    "",
    "",
    "    result_ = [(0 if agg_data_.v0 is _none else agg_data_.v0) for signature_, agg_data_ in signature_to_agg_data_.items()]",
    "    ",
    "    return result_",
    ""]

theorem argsText_eq : groupCode { fn with result := groupResult (OutCode.text ⟨some "0", fun v => v⟩ (varGroup 0)) } "AggData_3"
    "row_[0]" ([weighted, sums, weighted].map ARed.text) = argsText := by decide +kernel

theorem args_slots : (textCompile false ([weighted, sums, weighted].map ARed.text)).slotOf = [0, 1, 0] := by decide +kernel

theorem args_items : (textCompile false ([weighted, sums, weighted].map ARed.text)).items.length = 2 := by decide +kernel

theorem weighted_sums (i j : Nat) (hi : i < 3) (hj : j < 3) : weighted.hash false i ≠ sums.hash false j := by
  have h : ∀ i : Fin 3, ∀ j : Fin 3, weighted.hash false i ≠ sums.hash false j := by decide +kernel
  exact h ⟨i, hi⟩ ⟨j, hj⟩

theorem args_at {i : Nat} {u : ARed D String} (h : [weighted, sums, weighted][i]? = some u) : i < 3 ∧ (u = weighted ∨ u = sums) := by
  match i with
  | 0 => exact ⟨by omega, .inl (Option.some.inj h).symm⟩
  | 1 => exact ⟨by omega, .inr (Option.some.inj h).symm⟩
  | 2 => exact ⟨by omega, .inl (Option.some.inj h).symm⟩
  | n + 3 => cases h

theorem args_trees : ∀ i j (u v : ARed D String), [weighted, sums, weighted][i]? = some u → [weighted, sums, weighted][j]? = some v →
    u.hash false i = v.hash false j → u.SameTrees v := by
  intro i j u v hu hv he
  obtain ⟨hi, hu⟩ := args_at hu
  obtain ⟨hj, hv⟩ := args_at hv
  rcases hu with rfl | rfl <;> rcases hv with rfl | rfl
  · exact ⟨rfl, rfl, rfl, rfl⟩
  · exact absurd he (weighted_sums i j hi hj)
  · exact absurd he.symm (weighted_sums j i hj hi)
  · exact ⟨rfl, rfl, rfl, rfl⟩

/-- The result: the first reduce, or 0. -/
def firstA (vs : List (Option D)) : Except String (Val D) :=
  customOut (some (.ok (some (.val (.user (.int 0)))))) (vs.headD none)

/-- C72 about `argsText`. -/
theorem demo_args : ∃ b, Source argsText b ∧ ∀ rows, callDef pyA "aggregate_1" [.data rows] b ≠ .error none ∧ ∀ out,
    callDef pyA "aggregate_1" [.data rows] b = .ok out ↔
      ∃ groups ws, @argGroups _ _ _ ⟨pyA.keyEq⟩ packA (onFirst fnsA) condSem keyOf [weighted, sums, weighted] rows = .ok groups ∧
        mapAll (fun g => firstA g.2) groups = .ok ws ∧ (.ok (pyA.newList ws) : Except String (Val D)) = .ok out := by
  have hcode := out_code (o := ⟨some "0", fun v => v⟩) (v := varGroup 0) (dt := some [.num 0]) (da := some (.num 0))
    (vt := placeToks false 0) (pt := placeToks false 0) (va := place false 0) (pa := place false 0)
    ⟨fun cs h1 h2 => lex_reprInt 0 cs (wEnd_nEnd h1 h2), (pr_num 0).rd⟩ ⟨(place_code false 0).lx, (place_code false 0).pr.rd⟩
    ⟨(place_code false 0).lx, (place_code false 0).pr.rd⟩
  have h := C72_group_by_partial (P := pyA) (condSem := condSem) (vals := []) (gs := []) (us := [weighted, sums, weighted])
    (pack := packA) (fns := fnsA) (sort := .ok) (signature := "row_[0]") (cls := "AggData_3") (keyOf := keyOf)
    (res := fun _ vs => firstA vs)
    (src_ok.readsPairs hcode) (by decide +kernel)
    (item_code "row_[0]" 0 (by decide +kernel)).lx (item_code "row_[0]" 0 (by decide +kernel)).rd
    (fun _ h => by cases h) (fun _ h => by cases h) ⟨fun _ h => (by cases h), fun _ h => (by cases h)⟩
    (by
      rw [args_items]
      exact ⟨rfl, ⟨"none_1", rfl, by decide, rfl⟩, ⟨by decide, rfl⟩, ⟨by decide, rfl⟩⟩)
    (by
      intro st row hc hr
      exact key_ok _ _ st row hc hr)
    (by
      intro i u hu
      match i with
      | 0 => cases hu; exact weighted_at _ _ false 0 (by decide +kernel)
      | 1 => cases hu; exact sums_at _ _ false 1
      | 2 => cases hu; exact weighted_at _ _ false 2 (by decide +kernel)
      | n + 3 => cases hu)
    args_trees (by simp) rfl
    (by
      rintro st k vs hc _ ⟨hlen, hat⟩
      match vs, hlen with
      | [s, b, c], _ =>
        obtain ⟨j, hj, hv⟩ := hat 0 s rfl
        rw [args_slots] at hj
        cases hj
        have hx : dec st.heap (pval s) = s.map (fun v => DVal.val (.user v)) := by cases s <;> rfl
        have := out_yields (P := pyA) (da := some (.num 0)) (pa := place false 0)
          (d := some (.ok (some (.val (.user (.int 0)))))) (post := fun s => .ok (dval s)) hc.1 hv hx
          ⟨_, rfl, rfl⟩ ⟨pval s, hv, by cases s <;> rfl⟩
        have eo : outVal (some (.ok (some (.val (.user (.int 0)))))) (fun s => .ok (dval s)) s = firstA [s, b, c] := by
          cases s <;> rfl
        rw [eo] at this
        exact this)
    (fun _ => rfl) py_keys
  rw [argsText_eq] at h
  exact h.2

/-- `sums` with the filter of `weighted`. -/
def sumsF : ARed D String := { sums with cond := some "(row_[0] > 1)", condS := some ⟨condToks, condTree⟩ }

theorem sumsF_at (args : List String) (env : String → Option (PVal D)) (m : Bool) (i : Nat)
    (h : ¬ (placeText m i).toList <:+: "(row_[0] > 1)".toList) : AOk pyA condSem args env m packA fnsA i sumsF where
  callee := function_ok (place_ne m i) (placeText_sep m i) (by decide +kernel) (short m i (by decide +kernel)) (by decide)
  reads :=
    { codes := ⟨_, codesA⟩
      initial := trivial
      cond := ⟨lx_piece (by decide +kernel), ev_of_parse (n := 60) (by decide +kernel)⟩ }
  values := givesA _ _
  initial := trivial
  fn := sums_applies _ _ m
  tuple := fun _ _ => sums_packs _ _
  cond := fun c d h1 h2 => by
    cases h1
    cases h2
    exact fun st row hc hr => cond_tests args env _ st row hc hr
  free :=
    { codes := fun c hc => by
        simp only [ARed.codes, sumsF, sums, List.mem_cons, List.not_mem_nil, or_false] at hc
        rcases hc with rfl | rfl
        · exact short m i (by decide +kernel)
        · exact short m i (by decide +kernel)
      initial := fun t ht => by cases ht
      cond := fun c hc => by
        cases hc
        exact h }

/-- The function of `c.aggregate` with two reduces and one filter. -/
def severalText : List Char := lines [
    "",
    "def aggregate_1(data_):",
    "    global add_label_, get_by_label_",
    "    _none = none_1",
    "    agg_data_v0_ = agg_data_v1_ = _none",
    "    expected_checksum_ = 3",
    "    checksum_ = 0",
    "    it_ = iter(data_)",
    "    for row_ in it_:",
    "",
    "        if (row_[0] > 1):",
    "            if agg_data_v0_ is _none:",
    "                agg_data_v0_ = (100 + row_[1] * row_[2])",
    "",
    "                if agg_data_v0_ is not _none:",
    "                    checksum_ |= 1",
    "                    if checksum_ == expected_checksum_:",
    "                        break",
    "",
    "            else:",
    "                agg_data_v0_ = (agg_data_v0_ + row_[1] * row_[2])",
    "",
    "",
    "",
    "        if (row_[0] > 1):",
    "            if agg_data_v1_ is _none:",
    "                agg_data_v1_ = (row_[1],row_[2],)",
    "",
    "                if agg_data_v1_ is not _none:",
    "                    checksum_ |= 2",
    "                    if checksum_ == expected_checksum_:",
    "                        break",
    "",
    "            else:",
    "                agg_data_v1_ = f_1(agg_data_v1_,row_[1],row_[2])",
    "",
    "",
    "    for row_ in it_:",
    "",
    "        if (row_[0] > 1):",
    "            agg_data_v0_ = (agg_data_v0_ + row_[1] * row_[2])",
    "",
    "",
    "",
    "",
    "        if (row_[0] > 1):",
    "            agg_data_v1_ = f_1(agg_data_v1_,row_[1],row_[2])",
    "",
    "",
    "",
    "    result_ = (0 if agg_data_v0_ is _none else agg_data_v0_)",
    "    ",
    "    return result_",
    ""]

theorem severalText_eq : aggCode { fn with result := OutCode.text ⟨some "0", fun v => v⟩ (varAgg 0) }
    ([weighted, sumsF].map ARed.text) = severalText := by decide +kernel

theorem several_slots : (textCompile true ([weighted, sumsF].map ARed.text)).slotOf = [0, 1] := by decide +kernel

theorem several_hash : weighted.hash true 0 ≠ sumsF.hash true 1 := by decide +kernel

theorem several_at {i : Nat} {u : ARed D String} (h : [weighted, sumsF][i]? = some u) :
    (i = 0 ∧ u = weighted) ∨ (i = 1 ∧ u = sumsF) := by
  match i with
  | 0 => exact .inl ⟨rfl, (Option.some.inj h).symm⟩
  | 1 => exact .inr ⟨rfl, (Option.some.inj h).symm⟩
  | n + 2 => cases h

theorem several_trees : ∀ i j (u v : ARed D String), [weighted, sumsF][i]? = some u → [weighted, sumsF][j]? = some v →
    u.hash true i = v.hash true j → u.SameTrees v := by
  intro i j u v hu hv he
  rcases several_at hu with ⟨rfl, rfl⟩ | ⟨rfl, rfl⟩ <;> rcases several_at hv with ⟨rfl, rfl⟩ | ⟨rfl, rfl⟩
  · exact ⟨rfl, rfl, rfl, rfl⟩
  · exact absurd he several_hash
  · exact absurd he.symm several_hash
  · exact ⟨rfl, rfl, rfl, rfl⟩

theorem several_cond : ∀ u ∈ [weighted, sumsF], ∀ v ∈ [weighted, sumsF], u.cond = v.cond := by
  intro u hu v hv
  simp only [List.mem_cons, List.not_mem_nil, or_false] at hu hv
  rcases hu with rfl | rfl <;> rcases hv with rfl | rfl <;> rfl

/-- C72 about `severalText`. -/
theorem demo_several : ∃ b, Source severalText b ∧ ∀ rows, callDef pyA "aggregate_1" [.data rows] b ≠ .error none ∧ ∀ out,
    callDef pyA "aggregate_1" [.data rows] b = .ok out ↔
      ∃ vs w, mapAll (fun u : ARed D String => u.spec packA (onFirst fnsA) condSem rows) [weighted, sumsF] = .ok vs ∧
        firstA vs = .ok w ∧ (.ok w : Except String (Val D)) = .ok out := by
  have hcode := out_code (o := ⟨some "0", fun v => v⟩) (v := varAgg 0) (dt := some [.num 0]) (da := some (.num 0))
    (vt := placeToks true 0) (pt := placeToks true 0) (va := place true 0) (pa := place true 0)
    ⟨fun cs h1 h2 => lex_reprInt 0 cs (wEnd_nEnd h1 h2), (pr_num 0).rd⟩ ⟨(place_code true 0).lx, (place_code true 0).pr.rd⟩
    ⟨(place_code true 0).lx, (place_code true 0).pr.rd⟩
  have h := C72_several_partial (P := pyA) (condSem := condSem) (vals := []) (gs := []) (us := [weighted, sumsF])
    (pack := packA) (fns := fnsA) (sort := .ok) (res := firstA)
    (fun _ h => by cases h) (src_ok.reads hcode) ⟨fun _ h => (by cases h), fun _ h => (by cases h)⟩
    ⟨rfl, ⟨"none_1", rfl, by decide, rfl⟩, rfl⟩
    (by
      intro i u hu
      match i with
      | 0 => cases hu; exact weighted_at _ _ true 0 (by decide +kernel)
      | 1 => cases hu; exact sumsF_at _ _ true 1 (by decide +kernel)
      | n + 2 => cases hu)
    several_trees several_cond
    (by simp) rfl
    (by
      rintro st vs hc ⟨hlen, hat⟩
      match vs, hlen with
      | [s, b], _ =>
        obtain ⟨j, hj, hv⟩ := hat 0 s rfl
        rw [several_slots] at hj
        cases hj
        have hx : dec st.heap (pval s) = s.map (fun v => DVal.val (.user v)) := by cases s <;> rfl
        have := out_yields (P := pyA) (da := some (.num 0)) (pa := place true 0)
          (d := some (.ok (some (.val (.user (.int 0)))))) (post := fun s => .ok (dval s)) hc.1 hv hx
          ⟨_, rfl, rfl⟩ ⟨pval s, hv, by cases s <;> rfl⟩
        have eo : outVal (some (.ok (some (.val (.user (.int 0)))))) (fun s => .ok (dval s)) s = firstA [s, b] := by
          cases s <;> rfl
        rw [eo] at this
        exact this)
    (fun _ => rfl)
  rw [severalText_eq] at h
  exact h

/-- The hypothesis of `C72_functions_partial` about the functions. -/
example (i : Nat) (u : ARed D String) (h : [sums, sums][i]? = some u) :
    ∃ g, u.callee = .function g ∧ isName g = true ∧ ¬ (placeText false i).toList <:+: g.toList := by
  match i with
  | 0 => cases h; exact ⟨"f_1", rfl, by decide +kernel, short _ _ (by decide +kernel)⟩
  | 1 => cases h; exact ⟨"f_1", rfl, by decide +kernel, short _ _ (by decide +kernel)⟩
  | n + 2 => cases h

/-- A call of a function with operators. -/
def callA (text : List Char) (rows : List (List Int)) : Option D :=
  ((parseLines text).bind (readAll 60)).bind fun b =>
    match callDef pyA "aggregate_1" [.data (rows.map .row)] b with
    | .ok (some (.val (.user v))) => some v
    | _ => none

example : callA weightedText [[1, 5, 1], [2, 7, 2], [3, 9, 3]] = some (.int 141) := by decide +kernel
example : callA weightedText [[1, 5, 1]] = some (.int 0) := by decide +kernel
example : callA argsText [[1, 5, 1], [2, 7, 2], [1, 2, 1], [2, 1, 3]] = some (.row [0, 117]) := by decide +kernel

example : callA severalText [[1, 5, 1], [2, 7, 2], [3, 9, 3]] = some (.int 141) := by decide +kernel
example : mapAll (fun u : ARed D String => u.spec packA (onFirst fnsA) condSem [.row [1, 5, 1], .row [2, 7, 2], .row [3, 9, 3]])
    [weighted, sumsF] = .ok [some (.int 141), some (.row [16, 5])] := rfl

/-- Without `initial`, the fold begins with the tuple of the values of the first row. -/
theorem demo_tuple : sums.spec packA (onFirst fnsA) condSem [.row [1, 5, 1], .row [2, 7, 2]] = .ok (some (.row [12, 3])) ∧
    callA (aggCode { fn with result := "agg_data_v0_" } [sums.text]) [[1, 5, 1], [2, 7, 2]] = some (.row [12, 3]) ∧
    weighted.spec packA (onFirst fnsA) condSem [.row [2, 5, 1], .row [2, 7, 2]] = .ok (some (.int 119)) ∧
    ({ weighted with start := none } : ARed D String).spec packA (onFirst fnsA) condSem [.row [2, 5, 1], .row [2, 7, 2]] =
      .error "TypeError" := by
  refine ⟨rfl, by decide +kernel, rfl, rfl⟩

end Verif.Stmt.Demo
