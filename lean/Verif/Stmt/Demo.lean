import Verif.Stmt.Props

/-!
# Stmt: rows of numbers, for examples
-/

set_option autoImplicit false

namespace Verif.Stmt.Demo

open Verif.Text Verif.Agg Verif.Reducers

/-- `None`, truth values, numbers, and lists of numbers. -/
inductive D
  | nil
  | bool (b : Bool)
  | int (n : Int)
  | row (l : List Int)
  deriving DecidableEq

def D.truthy : D → Bool
  | .nil => false
  | .bool b => b
  | .int n => decide (n ≠ 0)
  | .row l => !l.isEmpty

/-- An operation on numbers. -/
def onInts {A : Type} (f : Int → Int → A) : D → D → Except String A
  | .int a, .int b => .ok (f a b)
  | _, _ => .error "TypeError"

def ops : Ops D String where
  isNone := fun v => decide (v = .nil)
  none := .nil
  truthy := D.truthy
  zero := .int 0
  add := onInts (fun a b => .int (a + b))
  gt := onInts (fun a b => decide (a > b))
  lt := onInts (fun a b => decide (a < b))
  typeError := "TypeError"

def ints : Ints ops where
  ofInt := .int
  ofInt_inj := fun a b h => by simpa using h
  zero := rfl
  notNone := fun _ => rfl
  none := rfl
  noneUnique := fun v h => by simpa [ops] using h
  noneFalsy := rfl
  truthy := fun _ => rfl
  add := fun _ _ => rfl

/-- An operation on values. -/
def onUsers {A B : Type} (f : D → D → Except String A) (g : A → B) : PVal D → PVal D → Except String B
  | .user a, .user b => (f a b).map g
  | _, _ => .error "TypeError"

/-- Item `n` of a row. -/
def item (n : Nat) : D → Except String D
  | .row l =>
    match l[n]? with
    | some x => .ok (.int x)
    | none => .error "IndexError"
  | _ => .error "TypeError"

/-- The numbers in a list of results. -/
def number : Val D → Int
  | some (.val (.user (.int n))) => n
  | _ => 0

/-- Names of the generated code. -/
def globals : String → Option (PVal D)
  | "None" => some (.user .nil)
  | "none_1" => some .sentinel
  | "AggData_2" => some (.cls (classBody 1))
  | "AggData_3" => some (.cls (classBody 2))
  | "iter" => some (.builtin "iter")
  | "defaultdict" => some (.builtin "defaultdict")
  | _ => none

/-- The value, when it is one of the user's. -/
def user : PVal D → Option D
  | .user v => some v
  | _ => none

def py : Py D String where
  glob := globals
  truthy := fun v => .ok v.truthy
  isNone := fun v => decide (v = .nil)
  bool := .bool
  truthy_bool := fun _ => rfl
  num := fun n => .int n
  toNat := fun v =>
    match v with
    | .int (.ofNat n) => some n
    | _ => none
  toNat_num := fun _ => rfl
  keyEq := fun a b => decide (user a = user b)
  hash := fun _ => .ok ()
  eval := fun a st =>
    match a with
    | .sub (.name x) (.num n) =>
      match st.loc x with
      | some (PVal.user v) => (item n v).map PVal.user
      | _ => .error "TypeError"
    | _ => .error "TypeError"
  tracked := fun _ => true
  compare := fun o =>
    match o with
    | .gt => onUsers ops.gt (fun b => .user (.bool b))
    | .lt => onUsers ops.lt (fun b => .user (.bool b))
    | _ => fun _ _ => .error "TypeError"
  arith := fun _ => onUsers ops.add .user
  augOp := fun _ => onUsers ops.add .user
  effect := fun _ _ => .error "TypeError"
  misuse := "TypeError"
  mkList := fun ws => .row (ws.map number)

theorem py_ops : OpsOk py ops where
  isNone := fun _ => rfl
  none_ := rfl
  isNone_none := rfl
  truthy := fun _ => rfl
  zero := rfl
  isNone_zero := rfl
  add := fun _ _ => rfl
  aug := fun _ _ => rfl
  inc := fun _ => rfl
  gt := fun _ _ => rfl
  lt := fun _ _ => rfl
  addS := fun _ => rfl
  augS := fun _ => rfl
  gtS := fun _ => rfl
  ltS := fun _ => rfl
  notInS := fun _ => rfl
  misuse := rfl
  refl := fun k => decide_eq_true rfl

theorem py_keys : @EquivBEq (PVal D) ⟨py.keyEq⟩ := by
  letI : BEq (PVal D) := ⟨py.keyEq⟩
  have e : ∀ a b : PVal D, (a == b) = py.keyEq a b := fun _ _ => rfl
  have e' : ∀ a b : PVal D, (a == b) = true ↔ user a = user b := fun a b => by
    rw [e]; exact decide_eq_true_iff
  refine @EquivBEq.mk _ _ (@PartialEquivBEq.mk _ _ ?_ ?_) (@ReflBEq.mk _ _ ?_)
  · intro a b h
    exact (e' b a).2 ((e' a b).1 h).symm
  · intro a b c h h'
    exact (e' a c).2 (((e' a b).1 h).trans ((e' b c).1 h'))
  · intro a
    exact (e' a a).2 rfl

/-- A text whose end is the end of a token. -/
theorem lx_piece {s : String} {ts : List Tok} (h : Piece s ts) : Lx s.toList ts := fun cs _ _ => h.lex cs

theorem item_code (s : String) (n : Nat) (h : Piece s [.name "row_", .lbr, .num n, .rbr]) :
    Code s.toList [.name "row_", .lbr, .num n, .rbr] (.sub (.name "row_") (.num n)) :=
  ⟨lx_piece h, (pr_sub (pr_name "row_") (pr_num n).rd).rd⟩

theorem item_gives (args : List String) (env : String → Option (PVal D)) (n : Nat) :
    Gives py args env (.sub (.name "row_") (.num n)) (item n) := by
  intro st row _ hr
  have hl : st.look py "row_" = some (.user row) := by
    have : isConstName "row_" = false := by decide
    simp only [St.look, this, Bool.false_eq_true, if_false, hr]
  have he : py.eval (.sub (.name "row_") (.num n)) st = (item n row).map PVal.user := by
    show (match st.loc "row_" with
      | some (PVal.user v) => (item n v).map PVal.user
      | _ => .error "TypeError") = _
    rw [hr]
  simp only [ev, hl, he]
  cases item n row <;> rfl

/-- `row_[0] > 1`. -/
def condTree : Ast := .cmp (.sub (.name "row_") (.num 0)) [.gt] [.num 1]

/-- Its tokens, with parentheses. -/
def condToks : List Tok := [.lpar, .name "row_", .lbr, .num 0, .rbr, .gt, .num 1, .rpar]

/-- What filters mean: the first number of the row is above 1. -/
def condSem (_ : String) (row : D) : Except String Bool :=
  match item 0 row with
  | .error e => .error e
  | .ok v => ops.gt v (.int 1)

theorem cond_tests (args : List String) (env : String → Option (PVal D)) (c : String) :
    Tests py (Ctx args env) condTree (condSem c) := by
  intro st row hc hr
  have h := item_gives args env 0 st row hc hr
  generalize ha : Ast.sub (.name "row_") (.num 0) = a at h
  have hcmp : ev py condTree st =
      match ev py a st with
      | .error e => .error e
      | .ok (x, st) => (lift (cmpVal py st.heap .gt x (py.int 1))).map (fun v => (v, st)) := by
    rw [condTree, ha]
    simp only [ev]
    cases ev py a st <;> rfl
  rw [h] at hcmp
  simp only [test, hcmp, condSem]
  cases hi : item 0 row with
  | error e => exact ⟨fun v st' h => (by cases h), rfl⟩
  | ok v =>
    obtain ⟨n, rfl⟩ : ∃ n, v = .int n := by
      cases row <;> simp only [item] at hi
      all_goals first | cases hi | skip
      split at hi
      · cases hi; exact ⟨_, rfl⟩
      · cases hi
    refine ⟨fun v st' h => ?_, ?_⟩
    · cases h
      rfl
    · rfl

/-- `Sum` of the second numbers of the rows whose first number is above 1. -/
def total : BRed D String where
  f := .sum
  codes := ⟨none, ["row_[1]"], some "(row_[0] > 1)"⟩
  ia := none
  xa := .sub (.name "row_") (.num 1)
  ya := none_
  cond := some ⟨condToks, condTree⟩
  x := item 1
  y := item 1
  initial := none

theorem total_at (args : List String) (env : String → Option (PVal D)) (m : Bool) (i : Nat)
    (h : ¬ (placeText m i).toList <:+: "row_[1]".toList) : BOk py condSem args env m i total where
  codes :=
    { args := ⟨"row_[1]", _, [], rfl, item_code _ 1 (by decide +kernel), rfl⟩
      initial := trivial
      cond := ⟨lx_piece (by decide +kernel), ev_of_parse (n := 60) (by decide +kernel)⟩ }
  fn := ⟨item_gives _ _ 1, fun h => (by cases h), fun _ h => (by cases h), fun _ h => (by cases h)⟩
  initial := trivial
  cond := fun c d h1 h2 => by
    cases h1
    cases h2
    exact cond_tests _ _ _
  free := by
    refine ⟨fun a ha => ?_, fun a h => by cases h⟩
    rw [List.mem_singleton.1 ha]
    exact h

theorem total_ok (args : List String) (env : String → Option (PVal D)) (m : Bool) : BOk py condSem args env m 0 total :=
  total_at args env m 0 (by cases m <;> decide +kernel)

/-- The function which is generated. -/
def fn : FnText := ⟨"aggregate_1", [], "none_1", "", ""⟩

/-- How it is read. -/
def src : FnSrc := ⟨[.name "none_1"], .name "none_1", [], .expr (.name ""), none⟩

theorem src_ok : FnHead fn src where
  name := by decide +kernel
  args := rfl
  nodup := by decide
  noneL := Lx.of_reads (i := false) (reads_name (by decide +kernel) _)
  noneE := rd_ex (pr_name _).rd
  sort := rfl

/-- `(0 if v is _none else v)`. -/
def out : OutCode := ⟨some "0", fun v => v⟩

theorem out_at (args : List String) (env : String → Option (PVal D)) (m : Bool) (j : Nat) :
    OutOk py ops args env total out (some [.num 0]) (some (.num 0)) none (enc py ops none) (placeText m j) (place m j)
      (placeToks m j) (place m j) where
  default := ⟨fun cs h1 h2 => lex_reprInt 0 cs (wEnd_nEnd h1 h2), (pr_num 0).rd⟩
  defaultVal := fun st _ => ⟨_, rfl, rfl⟩
  post := ⟨(place_code m j).lx, (place_code m j).pr.rd⟩
  postVal := fun st p s _ hv _ hd => ⟨p, hv, hd⟩
  postNone := fun h => by cases h

theorem out_ok (args : List String) (env : String → Option (PVal D)) (m : Bool) :
    OutOk py ops args env total out (some [.num 0]) (some (.num 0)) none (enc py ops none) (placeText m 0) (place m 0)
      (placeToks m 0) (place m 0) := out_at args env m 0

/-- The lines of a text. -/
def lines (ls : List String) : List Char := joinLines (ls.map String.toList)

/-- The function of `c.aggregate`. -/
def aggText : List Char := lines [
    "",
    "def aggregate_1(data_):",
    "    global add_label_, get_by_label_",
    "    _none = none_1",
    "    agg_data_v0_ = _none",
    "    expected_checksum_ = 1",
    "    checksum_ = 0",
    "    it_ = iter(data_)",
    "    for row_ in it_:",
    "",
    "        if (row_[0] > 1):",
    "            if agg_data_v0_ is _none:",
    "                agg_data_v0_ = (row_[1] or 0)",
    "",
    "                if agg_data_v0_ is not _none:",
    "                    checksum_ |= 1",
    "                    if checksum_ == expected_checksum_:",
    "                        break",
    "",
    "            else:",
    "                agg_data_v0_ += (row_[1] or 0)",
    "",
    "",
    "    for row_ in it_:",
    "",
    "        if (row_[0] > 1):",
    "            agg_data_v0_ += (row_[1] or 0)",
    "",
    "",
    "",
    "    result_ = (0 if agg_data_v0_ is _none else agg_data_v0_)",
    "    ",
    "    return result_",
    ""]

theorem aggText_eq : aggCode { fn with result := out.text (varAgg 0) } [total.text] = aggText := by decide +kernel

/-- The function of `group_by(c.item(0))`. -/
def groupText : List Char := lines [
    "",
    "def aggregate_1(data_):",
    "    global add_label_, get_by_label_",
    "    _none = none_1",
    "    signature_to_agg_data_ = defaultdict(AggData_2)",
    "    for row_ in data_:",
    "        agg_data_ = signature_to_agg_data_[row_[0]]",
    "",
    "        if (row_[0] > 1):",
    "            if agg_data_.v0 is _none:",
    "                agg_data_.v0 = (row_[1] or 0)",
    "",
    "            else:",
    "                agg_data_.v0 += (row_[1] or 0)",
    "",
    "",
    "    result_ = [(0 if agg_data_.v0 is _none else agg_data_.v0) for signature_, agg_data_ in signature_to_agg_data_.items()]",
    "    ",
    "    return result_",
    ""]

theorem groupText_eq :
    groupCode { fn with result := groupResult (out.text (varGroup 0)) } "AggData_2" "row_[0]" [total.text] = groupText := by
  decide +kernel

/-- A call of the function, as a number or a list of numbers. -/
def call (text : List Char) (rows : List (List Int)) : Option D :=
  ((parseLines text).bind (readAll 60)).bind fun b =>
    match callDef py "aggregate_1" [.data (rows.map .row)] b with
    | .ok (some (.val (.user v))) => some v
    | _ => none

example : call aggText [[1, 5], [2, 7], [3, 9]] = some (.int 16) := by decide +kernel
example : call aggText [[1, 5]] = some (.int 0) := by decide +kernel
example : call groupText [[1, 5], [2, 7], [3, 9], [2, 1]] = some (.row [0, 8, 9]) := by decide +kernel

/-! ## The theorems here -/

theorem call_ok : CallOk py fn src [] := ⟨rfl, ⟨"none_1", rfl, by decide, rfl⟩, rfl⟩

theorem callG_ok : CallOkG py fn src "AggData_2" 1 [] :=
  ⟨rfl, ⟨"none_1", rfl, by decide, rfl⟩, ⟨by decide, rfl⟩, ⟨by decide, rfl⟩⟩

/-- The key of a row. -/
def keyOf (row : D) : Except String (PVal D) := (item 0 row).map .user

theorem key_ok (args : List String) (env : String → Option (PVal D)) :
    KeyOk py args env (.sub (.name "row_") (.num 0)) keyOf := by
  intro st row hc hr
  simp only [evKey, item_gives args env 0 st row hc hr, keyOf]
  cases item 0 row <;> rfl

/-- C57 about `aggText`. -/
theorem demo_aggregate : ∃ b, Source aggText b ∧ ∀ rows, callDef py "aggregate_1" [.data rows] b ≠ .error none ∧ ∀ out,
    callDef py "aggregate_1" [.data rows] b = .ok out ↔
      ∃ s, outcome condSem (@Fn.reducer D String py.beq ops .sum) none (total.hash true 0) (some "(row_[0] > 1)") none (item 1)
          (item 1) rows = .ok s ∧ (.ok (s.map (enc py ops none)) : Except String (Val D)) = .ok out := by
  have h := C57_aggregate (P := py) (ops := ops) (condSem := condSem) (f := fn) (r := src) (vals := []) (gs := []) (u := total)
    (o := out) (sort := .ok) py_ops (fun _ h => by cases h) src_ok ⟨fun _ h => (by cases h), fun _ h => (by cases h)⟩ call_ok (total_ok _ _ true) rfl
    (out_ok _ _ true) (fun _ => rfl)
  rw [aggText_eq] at h
  exact h

/-- C57 about `groupText`. -/
theorem demo_group_by : ∃ b, Source groupText b ∧ ∀ rows, callDef py "aggregate_1" [.data rows] b ≠ .error none ∧ ∀ out,
    callDef py "aggregate_1" [.data rows] b = .ok out ↔
      ∃ ks ss, keysOf keyOf rows = .ok ks ∧
        mapAll (fun k => outcome condSem (@Fn.reducer D String py.beq ops .sum) none (total.hash false 0) (some "(row_[0] > 1)") none
          (item 1) (item 1) (@rowsWith _ _ _ ⟨py.keyEq⟩ keyOf k rows)) (@firstSeen _ ⟨py.keyEq⟩ ks) = .ok ss ∧
        (.ok (py.newList (ss.map (Option.map (enc py ops none)))) : Except String (Val D)) = .ok out := by
  have h := C57_group_by (P := py) (ops := ops) (condSem := condSem) (f := fn) (r := src) (vals := []) (gs := []) (u := total)
    (o := out) (sort := .ok) (signature := "row_[0]") (cls := "AggData_2") py_ops src_ok (by decide +kernel)
    (item_code "row_[0]" 0 (by decide +kernel)).lx (item_code "row_[0]" 0 (by decide +kernel)).rd
    (fun _ h => by cases h) (fun _ h => by cases h) ⟨fun _ h => (by cases h), fun _ h => (by cases h)⟩ callG_ok (key_ok _ _) (total_ok _ _ false) rfl
    (out_ok _ _ false) (fun _ => rfl) py_keys
  rw [groupText_eq] at h
  exact h.2

/-- A row of two numbers. -/
def pair (p : Int × Int) : D := .row [p.1, p.2]

theorem kept (l : List (Int × Int)) :
    passing condSem (some "(row_[0] > 1)") (l.map pair) = .ok ((l.filter (fun p => decide (p.1 > 1))).map pair) := by
  induction l with
  | nil => rfl
  | cons p l ih =>
    have hc : condHolds condSem (pair p) (some "(row_[0] > 1)") = .ok (decide (p.1 > 1)) := rfl
    simp only [List.map_cons, passing, hc, ih]
    by_cases h : p.1 > 1 <;> simp [h]

/-- What the text for `c.aggregate` returns, for all rows of two numbers. -/
theorem demo_total : ∃ b, Source aggText b ∧ ∀ l : List (Int × Int),
    callDef py "aggregate_1" [.data (l.map pair)] b =
      .ok (some (.val (.user (.int (((l.filter (fun p => decide (p.1 > 1))).map (·.2)).sum))))) := by
  obtain ⟨b, h1, h2⟩ := demo_aggregate
  refine ⟨b, h1, fun l => ((h2 _).2 _).2 ?_⟩
  letI := py.beq
  have hC := C36_sum ints condSem none (total.hash true 0) (some "(row_[0] > 1)") (item 1) (item 1) (l.map pair)
    ((l.filter (fun p => decide (p.1 > 1))).map (fun p => .int p.2)) ⟨_, kept l, by simp [pair, item]⟩
    (fun v => number (some (.val (.user v)))) (fun v hv => by
      obtain ⟨p, _, rfl⟩ := List.mem_map.1 hv
      exact .inl rfl)
  refine ⟨_, hC, ?_⟩
  cases l.filter (fun p => decide (p.1 > 1)) with
  | nil => rfl
  | cons p l => simp [shown, enc, ints, number, Function.comp_def]

end Verif.Stmt.Demo
