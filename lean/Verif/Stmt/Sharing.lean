import Verif.Stmt.Refuted

/-!
# Stmt: C66, the objects made by the reduces of an aggregation are not shared

Reducers like `Array`, `ArrayDistinct` or `Dict` put the lists, sets and dicts which they fill into the variables of the
generated function (`St.heap`; `PVal.ref n` is the object number `n`).  Here: when the rows have been read and the result
is about to be computed, no object is in two variables.

Source: `/repo/src/convtools/aggregations.py` lines 552-1277.
-/

set_option autoImplicit false

namespace Verif.Stmt

open Verif.Text Verif.Agg Verif.Reducers

variable {V E : Type}

/-- Reduces with different hashes have different variables. -/
theorem slots_ne {m : Bool} {rs : List (Red V (DVal V) E)} {a a' j j' : Nat} {r r' : Red V (DVal V) E}
    (h : rs[a]? = some r) (h' : rs[a']? = some r') (hj : (compile m rs).slotOf[a]? = some j)
    (hj' : (compile m rs).slotOf[a']? = some j') (hne : r.hash ≠ r'.hash) : j ≠ j' := by
  rintro rfl
  obtain ⟨k, it, h1, h2, h3⟩ := (compile_inv m rs).share a r h
  obtain ⟨k', it', h1', h2', h3'⟩ := (compile_inv m rs).share a' r' h'
  rw [hj] at h1
  rw [hj'] at h1'
  obtain rfl := Option.some.inj h1
  obtain rfl := Option.some.inj h1'
  rw [h2] at h2'
  obtain rfl := Option.some.inj h2'
  exact hne (h3.symm.trans h3')

/-- **C66** (`c.aggregate`).  The body of the generated function is `before` and then the statements which compute and
return the result.  `before` ends without exception exactly if the model of aggregations gives values; then reduces with
different hashes have different variables, and a list, set or dict that is in one of them is not in the other.

Missing: reduces with the same hash, which have one variable (`C66_refuted`). -/
theorem C66_aggregate_partial {kd : String → Option (DVal V) → Prop} (hkd : ∀ h, kd h none) {P : Py V E}
    {condSem : String → V → Except E Bool} {f : FnText} {r : FnSrc} {vals : List (PVal V)} {gs : List String}
    (hg : ∀ g ∈ gs, g ∉ "data_" :: f.args) (h : FnReads f r) (ha : ArgsOk (f.args ++ gs)) (hcall : CallOk P f r vals)
    {ts : List TRed} {rs : List (Red V (DVal V) E)}
    (hl : Linked P condSem (f.args ++ gs) (envOf f.args vals) true kd 0 ts rs) (hne : ts ≠ []) :
    ∃ before, Source (aggCode f ts) [.def_ f.name ("data_" :: f.args) [] (before ++ r.endStmts)] ∧ ∀ rows,
      ((∃ vs, aggregate condSem rs rows = .ok vs) ↔
        ∃ st, execAll P before (entry ("data_" :: f.args) (.data rows :: vals)) = .ok (st, .next)) ∧
      ∀ st, execAll P before (entry ("data_" :: f.args) (.data rows :: vals)) = .ok (st, .next) →
        ∀ (i i' : Nat) r r' j j', rs[i]? = some r → rs[i']? = some r' → r.hash ≠ r'.hash →
          (textCompile true ts).slotOf[i]? = some j → (textCompile true ts).slotOf[i']? = some j' →
          ∀ n, st.loc (varAgg j) = some (.ref n) → st.loc (varAgg j') ≠ some (.ref n) := by
  obtain ⟨e1, e2, e3, hp⟩ := compile_rel hl
  obtain ⟨qs, h1, h2, h3, _⟩ := pairs_src hp
  have hrs := linked_ne hl hne
  have hN : (textCompile true ts).items.length ≠ 0 := by
    rw [e3]
    exact fun h0 => items_ne (m := true) hrs (List.eq_nil_of_length_eq_zero h0)
  have hb : textBlocks (textCompile true ts).items ≠ [] := by
    intro h0
    have := hp.length
    rw [h0] at this
    exact blocks_ne (m := true) hrs (List.eq_nil_of_length_eq_zero this)
  have src := aggregate_source h (vars_place true (List.range (textCompile true ts).items.length))
    (by simpa using hN) (textCompile true ts).expected h1 hb
  rw [aggStmts_eq] at src
  refine ⟨_, src, fun rows => ?_⟩
  have l := agg_loops (P := P) (condSem := condSem) (f := f) (r := r) (vals := vals) (N := (textCompile true ts).items.length)
    (expected := (textCompile true ts).expected) (bs := reduceBlocks (compile true rs).items) (qs := qs) hg h.nodup ha hcall
    (fun j _ => slotKind_none hkd _ j) (by rw [e3]; exact h2) (h3 rfl) rows
  have hag : (∃ vs, aggregate condSem rs rows = .ok vs) ↔
      ∃ s, aggLoops condSem (textCompile true ts).expected (reduceBlocks (compile true rs).items) rows = .ok s := by
    unfold aggLoops aggregate
    simp only [andThen, e2]
    cases aggLoop1 condSem (compile true rs).expected (reduceBlocks (compile true rs).items) rows
      { slots := Agg.fresh, checksum := 0 } with
    | error e => simp
    | ok x =>
      obtain ⟨a, left⟩ := x
      simp only
      cases aggLoop2 condSem (reduceBlocks (compile true rs).items) left a.slots <;> simp
  rw [hag]
  revert l
  cases aggLoops condSem (textCompile true ts).expected (reduceBlocks (compile true rs).items) rows with
  | error e =>
    intro l
    rw [l]
    simp
  | ok s =>
    rintro ⟨st', cs, l1, l2⟩
    refine ⟨⟨fun _ => ⟨st', l1⟩, fun _ => ⟨s, rfl⟩⟩, ?_⟩
    intro st hst i i' r r' j j' hr hr' hne hj hj' n hn hn'
    rw [l1] at hst
    simp only [Except.ok.injEq, Prod.mk.injEq, and_true] at hst
    subst hst
    have lt : ∀ {i j : Nat}, (textCompile true ts).slotOf[i]? = some j → j < (textCompile true ts).items.length := by
      intro i j hj
      rw [e3]
      rw [e1] at hj
      exact slotOf_lt (List.mem_of_getElem? hj)
    have hjj : j ≠ j' := slots_ne hr hr' (e1 ▸ hj) (e1 ▸ hj') hne
    exact l2.apart j j' (lt hj) (lt hj') hjj _ _ hn hn' n rfl rfl

/-- **C66** (`group_by`).  The body of the generated function is `before` and then the statements which compute and
return the result.  `before` ends without exception exactly if the model of aggregations gives groups.  Then each group has
an object with the variables of the reduces, and a list, set or dict that is in a variable is in no variable of another
group and in no variable of a reduce with another hash.

Missing: reduces with the same hash, which have one variable (`C66_refuted`). -/
theorem C66_group_by_partial {kd : String → Option (DVal V) → Prop} (hkd : ∀ h, kd h none) {P : Py V E}
    {condSem : String → V → Except E Bool} {f : FnText} {r : FnSrc} {cls signature : String} {sigT : List Tok} {sigA : Ast}
    {vals : List (PVal V)} (h : FnReads f r)
    (hcn : isName cls = true) (hsl : Lx signature.toList sigT) (hsr : Rd sigT sigA) {gs : List String}
    (hg : ∀ g ∈ gs, g ∉ "data_" :: f.args) (ha : ArgsOkG (f.args ++ gs)) {ts : List TRed}
    (hcall : CallOkG P f r cls (textCompile false ts).items.length vals)
    {keyOf : V → Except E (PVal V)} (hk : KeyOk P (f.args ++ gs) (envOf f.args vals) sigA keyOf)
    {rs : List (Red V (DVal V) E)} (hl : Linked P condSem (f.args ++ gs) (envOf f.args vals) false kd 0 ts rs) (hne : ts ≠ []) :
    ∃ before, Source (groupCode f cls signature ts) [.def_ f.name ("data_" :: f.args) [] (before ++ r.endStmts)] ∧ ∀ rows,
      (∀ e, @groupBy _ _ _ _ ⟨P.keyEq⟩ condSem keyOf rs rows = .error e →
        execAll P before (entry ("data_" :: f.args) (.data rows :: vals)) = .error (some e)) ∧
      ∀ groups, @groupBy _ _ _ _ ⟨P.keyEq⟩ condSem keyOf rs rows = .ok groups →
        ∃ st, execAll P before (entry ("data_" :: f.args) (.data rows :: vals)) = .ok (st, .next) ∧
          st.objs.length = groups.length ∧
          ∀ (i i' : Nat) r r' j j', rs[i]? = some r → rs[i']? = some r' →
            (textCompile false ts).slotOf[i]? = some j → (textCompile false ts).slotOf[i']? = some j' →
            ∀ (g g' : Nat) o o', st.objs[g]? = some o → st.objs[g']? = some o' → g ≠ g' ∨ r.hash ≠ r'.hash →
              ∀ n, o (attrName j) = some (.ref n) → o' (attrName j') ≠ some (.ref n) := by
  letI : BEq (PVal V) := ⟨P.keyEq⟩
  obtain ⟨e1, e2, e3, hp⟩ := compile_rel hl
  obtain ⟨qs, h1, h2, _, h3⟩ := pairs_src hp
  have hrs := linked_ne hl hne
  have hb : textBlocks (textCompile false ts).items ≠ [] := by
    intro h0
    have := hp.length
    rw [h0] at this
    exact blocks_ne (m := false) hrs (List.eq_nil_of_length_eq_zero this)
  have src := grouper_source h hcn hsl hsr h1 hb
  rw [grouperStmts_eq] at src
  refine ⟨_, src, fun rows => ?_⟩
  have l := group_loops (P := P) (condSem := condSem) (f := f) (r := r) (cls := cls) (vals := vals)
    (N := (textCompile false ts).items.length)
    (bs := reduceBlocks (compile false rs).items) (qs := qs) hg h.nodup ha
    (fun j _ => slotKind_none hkd _ j) hcall hk (by rw [e3]; exact h2) (h3 rfl) rows
  unfold groupBy
  simp only
  revert l
  cases groupLoop condSem (reduceBlocks (compile false rs).items) keyOf rows [] with
  | error e =>
    intro l
    refine ⟨fun e' he => ?_, fun d hd => by cases hd⟩
    rw [l, Except.error.inj he]
  | ok d =>
    rintro ⟨st, l1, l2⟩
    refine ⟨fun e' he => (by cases he), fun groups hd => ⟨st, l1, ?_, ?_⟩⟩
    · rw [← Except.ok.inj hd, l2.len, List.length_map]
    · intro i i' r r' j j' hr hr' hj hj' g g' o o' ho ho' hdiff n hn hn'
      have lt : ∀ {i j : Nat}, (textCompile false ts).slotOf[i]? = some j → j < (textCompile false ts).items.length := by
        intro i j hj
        rw [e3]
        rw [e1] at hj
        exact slotOf_lt (List.mem_of_getElem? hj)
      refine l2.apart g g' j j' o o' _ _ ho ho' (lt hj) (lt hj') hn hn' ?_ n rfl rfl
      exact hdiff.imp id (fun hne => slots_ne hr hr' (e1 ▸ hj) (e1 ▸ hj') hne)

theorem liftsFrom_at {P : Py V E} {ops : Ops V E} {m : Bool} : ∀ {us : List (BRed V E)} {k i : Nat} {u : BRed V E},
    us[i]? = some u → (liftsFrom P ops m k us)[i]? = some (liftRed P ops u.f (u.red P ops m (k + i)))
  | [], _, _, _, h => by simp at h
  | v :: us, k, 0, u, h => by
    simp only [List.getElem?_cons_zero, Option.some.injEq] at h
    subst h
    rfl
  | v :: us, k, i + 1, u, h => by
    have := liftsFrom_at (P := P) (ops := ops) (m := m) (us := us) (k := k + 1) (i := i) h
    rw [Nat.add_assoc, Nat.add_comm 1 i] at this
    exact this

/-- **C66** (`group_by`) for the built-in reducers: when the rows have been read, a list, set or dict that is in the
variable of a reduce is in no variable of another group and in no variable of a reduce with another `code_hash`.

Missing: reduces with the same hash, which have one variable (`C66_refuted`). -/
theorem C66_builtins_partial {P : Py V E} {ops : Ops V E} (L : OpsOk P ops)
    {condSem : String → V → Except E Bool} {f : FnText} {r : FnSrc} {cls signature : String} {sigT : List Tok} {sigA : Ast}
    {vals : List (PVal V)} (h : FnReads f r)
    (hcn : isName cls = true) (hsl : Lx signature.toList sigT) (hsr : Rd sigT sigA) {gs : List String}
    (hg : ∀ g ∈ gs, g ∉ "data_" :: f.args) (ha : ArgsOkG (f.args ++ gs)) (haA : ArgsOk (f.args ++ gs))
    {us : List (BRed V E)} (hcall : CallOkG P f r cls (textCompile false (us.map BRed.text)).items.length vals)
    {keyOf : V → Except E (PVal V)} (hk : KeyOk P (f.args ++ gs) (envOf f.args vals) sigA keyOf)
    (hb : ReducesOk P condSem (f.args ++ gs) (envOf f.args vals) us) (hne : us ≠ []) :
    ∃ before, Source (groupCode f cls signature (us.map BRed.text))
        [.def_ f.name ("data_" :: f.args) [] (before ++ r.endStmts)] ∧
      ∀ rows st, execAll P before (entry ("data_" :: f.args) (.data rows :: vals)) = .ok (st, .next) →
        ∀ (i i' : Nat) u u' j j', us[i]? = some u → us[i']? = some u' →
          (textCompile false (us.map BRed.text)).slotOf[i]? = some j →
          (textCompile false (us.map BRed.text)).slotOf[i']? = some j' →
          ∀ (g g' : Nat) o o', st.objs[g]? = some o → st.objs[g']? = some o' →
            g ≠ g' ∨ u.hash false i ≠ u'.hash false i' →
            ∀ n, o (attrName j) = some (.ref n) → o' (attrName j') ≠ some (.ref n) := by
  obtain ⟨before, h1, h2⟩ := C66_group_by_partial (P := P) (condSem := condSem)
    (fun h => kinds_none (P := P) (ops := ops) (m := false) (us := us) h) h hcn hsl hsr hg ha hcall hk
    (linked_builtin L haA (hb.kinds L haA) hb.ok) (by simpa using hne)
  refine ⟨before, h1, fun rows st hst i i' u u' j j' hu hu' hj hj' => ?_⟩
  obtain ⟨h3, h4⟩ := h2 rows
  cases hgb : @groupBy _ _ _ _ ⟨P.keyEq⟩ condSem keyOf (liftsFrom P ops false 0 us) rows with
  | error e =>
    rw [h3 e hgb] at hst
    cases hst
  | ok d =>
    obtain ⟨st', h5, _, h6⟩ := h4 d hgb
    rw [h5] at hst
    simp only [Except.ok.injEq, Prod.mk.injEq, and_true] at hst
    subst hst
    intro g g' o o' ho ho' hd
    refine h6 i i' _ _ j j' (liftsFrom_at hu) (liftsFrom_at hu') hj hj' g g' o o' ho ho' (hd.imp id fun hne => ?_)
    rw [Nat.zero_add, Nat.zero_add]
    exact hne

namespace Demo

/-- The attributes `v0`, ..., `v{n - 1}` of the groups when the rows have been read, as numbers of objects. -/
def accumulated (text : List Char) (n : Nat) (rows : List (List Int)) : Option (List (List (Option Nat))) :=
  ((parseLines text).bind (readAll 60)).bind fun b =>
    match b with
    | [.def_ _ ps [] body] =>
      match execAll py (body.take 4) (entry ps [.data (rows.map .row)]) with
      | .ok (st, .next) => some (st.objs.map fun o => (List.range n).map fun j =>
          match o (attrName j) with
          | some (.ref i) => some i
          | _ => none)
      | _ => none
    | _ => none

/-- The text of the function generated for `group_by(c.item(0))` with two variables. -/
def groupTwo (result : String) (ts : List TRed) : List Char :=
  groupCode { fn with result := groupResult result } "AggData_3" "row_[0]" ts

/-- `{"a": c.reduce(Array, c.item(1)), "b": c.reduce(Array, c.item(1))}` and `c.reduce(Array, c.item(0))`: the two equal
reduces have the variable `v0`, whose list is in both results: **C66 is violated by reduces with equal codes**, which the
user has written twice.  The third one and the ones of other groups have other lists. -/
theorem C66_refuted :
    (textCompile false [arrayOf "row_[1]", arrayOf "row_[1]", arrayOf "row_[0]"]).slotOf = [0, 0, 1] ∧
    accumulated (groupTwo "agg_data_.v0" [arrayOf "row_[1]", arrayOf "row_[1]", arrayOf "row_[0]"]) 2
      [[1, 5], [2, 7], [1, 9]] = some [[some 0, some 1], [some 2, some 3]] := by
  decide +kernel

/-- `c.reduce(c.ReduceFuncs.Array, c.item(n))`. -/
def arrayRed (n : Nat) (code : String) : BRed D String where
  f := .array
  codes := ⟨none, [code], none⟩
  ia := none
  xa := .sub (.name "row_") (.num n)
  ya := none_
  cond := none
  x := item n
  y := item n
  initial := none

theorem arrayRed_at (args : List String) (env : String → Option (PVal D)) (m : Bool) (i n : Nat) (code : String)
    (hc : Piece code [.name "row_", .lbr, .num n, .rbr])
    (h : ¬ (placeText m i).toList <:+: code.toList) : BOk py condSem args env m i (arrayRed n code) where
  codes :=
    { args := ⟨code, _, [], rfl, item_code _ n hc, rfl⟩
      initial := trivial
      cond := trivial }
  fn := ⟨item_gives _ _ n, fun h => (by cases h), fun _ h => (by cases h), fun d hd => (by
    rw [List.mem_singleton.1 hd]; rfl)⟩
  initial := trivial
  cond := fun c d h1 h2 => by cases h1
  free := by
    refine ⟨fun a ha => ?_, fun a h => by cases h⟩
    rw [List.mem_singleton.1 ha]
    exact h

/-- Two lists per group. -/
def twoLists : List (BRed D String) := [arrayRed 1 "row_[1]", arrayRed 0 "row_[0]"]

theorem twoLists_ok (args : List String) (env : String → Option (PVal D)) : ReducesOk py condSem args env twoLists where
  ok := by
    intro i u hu
    match i, hu with
    | 0, hu => cases hu; exact arrayRed_at _ _ _ _ _ _ (by decide +kernel) (by decide +kernel)
    | 1, hu => cases hu; exact arrayRed_at _ _ _ _ _ _ (by decide +kernel) (by decide +kernel)
    | n + 2, hu => cases hu
  initial := by
    intro u hu
    simp only [twoLists, List.mem_cons, List.not_mem_nil, or_false] at hu
    rcases hu with rfl | rfl <;> rfl
  free := by
    intro i u c hu hc
    match i, hu with
    | 0, hu => cases hu; cases hc
    | 1, hu => cases hu; cases hc
    | n + 2, hu => cases hu

/-- C66 about two lists: they are different objects in each group, and different from the ones of the other groups. -/
theorem demo_lists : ∃ before more,
    Source (groupTwo (out.text (varGroup 0)) (twoLists.map BRed.text)) [.def_ "aggregate_1" ["data_"] [] (before ++ more)] ∧
    ∀ rows st, execAll py before (entry ["data_"] [.data rows]) = .ok (st, .next) →
        ∀ (g g' : Nat) o o', st.objs[g]? = some o → st.objs[g']? = some o' → ∀ n, o (attrName 0) = some (.ref n) →
          o' (attrName 1) ≠ some (.ref n) ∧ (g ≠ g' → o' (attrName 0) ≠ some (.ref n)) := by
  have hA : ArgsOk (([] : List String) ++ []) := ⟨fun _ h => (by cases h), fun _ h => (by cases h)⟩
  have hok := twoLists_ok ([] ++ []) (envOf [] [])
  obtain ⟨before, h1, h2⟩ := C66_builtins_partial (P := py) (condSem := condSem) py_ops
    (f := { fn with result := groupResult (out.text (varGroup 0)) })
    (r := { src with
      resultT := pairToks (outT 0) "signature_" "agg_data_" groupItemsToks
      result := .pairs (outA 0) "signature_" "agg_data_" groupItems })
    (vals := []) (gs := []) (signature := "row_[0]") (cls := "AggData_3") (us := twoLists)
    (src_ok.readsPairs (outA_code 0)) (by decide +kernel)
    (item_code "row_[0]" 0 (by decide +kernel)).lx (item_code "row_[0]" 0 (by decide +kernel)).rd
    (fun _ h => by cases h) (fun _ h => by cases h) hA
    (by
      have : (textCompile false (twoLists.map BRed.text)).items.length = 2 := by decide +kernel
      rw [this]
      exact ⟨rfl, ⟨"none_1", rfl, by decide, rfl⟩, ⟨by decide, rfl⟩, ⟨by decide, rfl⟩⟩)
    (key_ok _ _) hok (List.cons_ne_nil _ _)
  have hs : (textCompile false (twoLists.map BRed.text)).slotOf = [0, 1] := by decide +kernel
  rw [hs] at h2
  refine ⟨before, _, h1, fun rows st hst g g' o o' ho ho' n hn => ⟨?_, fun hgg => ?_⟩⟩
  · refine h2 rows st hst 0 1 _ _ 0 1 rfl rfl rfl rfl g g' o o' ho ho' (Or.inr ?_) n hn
    decide +kernel
  · exact h2 rows st hst 0 0 _ _ 0 0 rfl rfl rfl rfl g g' o o' ho ho' (Or.inl hgg) n hn

end Demo

end Verif.Stmt
