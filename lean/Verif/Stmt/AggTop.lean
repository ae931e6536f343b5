import Verif.Stmt.GroupRun
import Verif.Agg.Props

/-!
# Stmt: generated aggregation functions from their reduces

Source: `/repo/src/convtools/aggregations.py` lines 1143-1277.
-/

set_option autoImplicit false

namespace Verif.Stmt

open Verif.Text Verif.Agg

variable {V E : Type}

/-- The text of the function of `c.aggregate` with these reduces (1178-1212, 1251-1261). -/
def aggCode (f : FnText) (ts : List TRed) : List Char :=
  let c := textCompile true ts
  aggregateText f ((List.range c.items.length).map varAgg) c.expected (textBlocks c.items)

/-- The text of the function of `group_by` with these reduces (1178-1205, 1214-1224, 1262-1271). -/
def groupCode (f : FnText) (cls signature : String) (ts : List TRed) : List Char :=
  grouperText f cls signature (textBlocks (textCompile false ts).items)

/-- The text of the class whose objects hold the values of the reduces (1126-1142, 1214-1224). -/
def containerCode (ts : List TRed) : List Char := classText (textCompile false ts).items.length

section
variable {P : Py V E} {condSem : String → V → Except E Bool} {args : List String} {env : String → Option (PVal V)} {m : Bool}
  {kd : String → Option (DVal V) → Prop}

theorem linked_ne {ts : List TRed} {rs : List (Red V (DVal V) E)} (h : Linked P condSem args env m kd 0 ts rs)
    (hne : ts ≠ []) : rs ≠ [] := by
  cases h with
  | nil => exact absurd rfl hne
  | cons _ _ _ _ => simp

theorem items_ne {rs : List (Red V (DVal V) E)} (h : rs ≠ []) : (compile m rs).items ≠ [] := by
  intro he
  cases rs with
  | nil => exact h rfl
  | cons r rs =>
    obtain ⟨j, it, _, h2, _⟩ := (compile_inv m (r :: rs)).share 0 r rfl
    rw [he] at h2
    cases h2

theorem blocks_ne {rs : List (Red V (DVal V) E)} (h : rs ≠ []) : reduceBlocks (compile m rs).items ≠ [] := by
  intro he
  have := allParts_perm (compile m rs).items
  rw [he] at this
  have := this.length_eq
  have h0 := items_ne (m := m) h
  simp [allParts] at this
  exact h0 (List.eq_nil_of_length_eq_zero this.symm)

theorem slotOf_lt {rs : List (Red V (DVal V) E)} {j : Nat} (h : j ∈ (compile m rs).slotOf) :
    j < (compile m rs).items.length := by
  have inv := compile_inv m rs
  obtain ⟨i, hi, rfl⟩ := List.mem_iff_getElem.1 h
  have hi' : i < rs.length := by rw [← inv.len]; exact hi
  obtain ⟨j, it, h1, h2, _⟩ := inv.share i rs[i] (List.getElem?_eq_getElem hi')
  rw [List.getElem?_eq_getElem hi] at h1
  rw [Option.some.inj h1]
  exact (List.getElem?_eq_some_iff.1 h2).1

end

/-- What the reduces of an aggregation gave: the values of their variables, `get` being the value of a variable. -/
def Holds (st : St V) (get : Nat → PVal V → Prop) (slots : List (Nat × (Option (DVal V) → Prop)))
    (vs : List (Option (DVal V))) : Prop :=
  All2 (fun j v => ∃ p, get j.1 p ∧ dec st.heap p = v ∧ Fits j.2 st.heap p) slots vs

/-- The variables of the reduces, and what they hold. -/
def slotsOf (kd : String → Option (DVal V) → Prop) (m : Bool) (ts : List TRed) (rs : List (Red V (DVal V) E)) :
    List (Nat × (Option (DVal V) → Prop)) :=
  (textCompile m ts).slotOf.zip (rs.map (fun r => kd r.hash))

theorem slotKind_share {kd : String → Option (DVal V) → Prop} {m : Bool} {rs : List (Red V (DVal V) E)} {i j : Nat}
    {r : Red V (DVal V) E} (hj : (compile m rs).slotOf[i]? = some j) (hr : rs[i]? = some r) :
    j < (compile m rs).items.length ∧ slotKind kd (compile m rs).items j = kd r.hash := by
  obtain ⟨j', it, h1, h2, h3⟩ := (compile_inv m rs).share i r hr
  rw [hj] at h1
  obtain rfl := Option.some.inj h1
  refine ⟨(List.getElem?_eq_some_iff.1 h2).1, ?_⟩
  simp only [slotKind, h2, h3]

theorem holds_of {st : St V} {get : Nat → PVal V → Prop} {s : Slots (DVal V)} {K : Nat → Option (DVal V) → Prop}
    {N : Nat} (h : ∀ j, j < N → ∃ p, get j p ∧ dec st.heap p = s j ∧ Fits (K j) st.heap p) :
    ∀ (l : List Nat) (ks : List (Option (DVal V) → Prop)), l.length = ks.length →
      (∀ (i j : Nat) k, l[i]? = some j → ks[i]? = some k → j < N ∧ K j = k) → Holds st get (l.zip ks) (l.map s)
  | [], _, _, _ => .nil
  | j :: l, [], hl, _ => by simp at hl
  | j :: l, k :: ks, hl, hk => by
    obtain ⟨h1, h2⟩ := hk 0 j k rfl rfl
    obtain ⟨p, h3⟩ := h j h1
    rw [h2] at h3
    refine .cons ⟨p, h3⟩ (holds_of h l ks (by simpa using hl) (fun i j k hi hk' => hk (i + 1) j k hi hk'))

theorem holds_slots {st : St V} {get : Nat → PVal V → Prop} {s : Slots (DVal V)}
    {kd : String → Option (DVal V) → Prop} {m : Bool} {ts : List TRed} {rs : List (Red V (DVal V) E)}
    (e : (textCompile m ts).slotOf = (compile m rs).slotOf)
    (h : ∀ j, j < (compile m rs).items.length →
      ∃ p, get j p ∧ dec st.heap p = s j ∧ Fits (slotKind kd (compile m rs).items j) st.heap p) :
    Holds st get (slotsOf kd m ts rs) ((textCompile m ts).slotOf.map s) := by
  refine holds_of h _ _ ?_ ?_
  · rw [e, (compile_inv m rs).len, List.length_map]
  · intro i j k hi hk
    rw [e] at hi
    rw [List.getElem?_map, Option.map_eq_some_iff] at hk
    obtain ⟨r, hr, rfl⟩ := hk
    exact slotKind_share hi hr

theorem slotKind_none {kd : String → Option (DVal V) → Prop} (hkd : ∀ h, kd h none) (its : List (Item V (DVal V) E))
    (j : Nat) : slotKind kd its j none := by
  unfold slotKind
  cases its[j]? with
  | some it => exact hkd _
  | none => trivial

/-- The function generated for `c.aggregate`: its text is read as Python code, and a call of it does what the model of
aggregations says. -/
theorem aggregate_runs {kd : String → Option (DVal V) → Prop} (hkd : ∀ h, kd h none) {P : Py V E} {condSem : String → V → Except E Bool} {f : FnText} {r : FnSrc}
    {vals : List (PVal V)} {gs : List String} (hg : ∀ g ∈ gs, g ∉ "data_" :: f.args) (h : FnReads f r)
    (ha : ArgsOk (f.args ++ gs)) (hcall : CallOk P f r vals) {ts : List TRed}
    {rs : List (Red V (DVal V) E)} (hl : Linked P condSem (f.args ++ gs) (envOf f.args vals) true kd 0 ts rs) (hne : ts ≠ [])
    {ra : Ast} (hra : r.result = .expr ra) {res : List (Option (DVal V)) → Except E (Val V)}
    (hres : ∀ st vs, Ctx (f.args ++ gs) (envOf f.args vals) st →
      Holds st (fun j p => st.loc (varAgg j) = some p) (slotsOf kd true ts rs) vs →
      Yields P ra st (res vs))
    {sort : Val V → Except E (Val V)} (hs : SortOk P (f.args ++ gs) (envOf f.args vals) r.sort sort) :
    ∃ b, Source (aggCode f ts) b ∧ ∀ rows, callDef P f.name (.data rows :: vals) b =
      lift (andThen (andThen (aggregate condSem rs rows) res) sort) := by
  obtain ⟨e1, e2, e3, hp⟩ := compile_rel hl
  obtain ⟨qs, h1, h2, h3, _⟩ := pairs_src hp
  have hrs := linked_ne hl hne
  have hN : (textCompile true ts).items.length ≠ 0 := by
    rw [e3]
    exact fun h0 => items_ne (m := true) hrs (List.eq_nil_of_length_eq_zero h0)
  have hb : textBlocks (textCompile true ts).items ≠ [] := by
    intro h0
    have := hp.length
    rw [h0] at this
    exact blocks_ne (m := true) hrs (List.eq_nil_of_length_eq_zero this)
  have src := aggregate_source h (vars_place true (List.range (textCompile true ts).items.length))
    (by simpa using hN) (textCompile true ts).expected h1 hb
  refine ⟨_, src, fun rows => ?_⟩
  have := agg_call (P := P) (condSem := condSem) (f := f) (r := r) (vals := vals) (N := (textCompile true ts).items.length)
    (expected := (textCompile true ts).expected) (bs := reduceBlocks (compile true rs).items) (qs := qs) hg h.nodup ha hcall
    (fun j _ => slotKind_none hkd _ j)
    (by rw [e3]; exact h2) (h3 rfl) (res := fun s => res ((textCompile true ts).slotOf.map s)) (ra := ra) hra
    (fun st s hc hj => hres st _ hc (holds_slots e1 (e3 ▸ hj)))
    hs rows
  rw [this]
  congr 2
  unfold aggLoops aggregate
  simp only [andThen, e1, e2]
  cases aggLoop1 condSem (compile true rs).expected (reduceBlocks (compile true rs).items) rows
    { slots := fresh, checksum := 0 } with
  | error e => rfl
  | ok x =>
    obtain ⟨a, left⟩ := x
    simp only
    cases aggLoop2 condSem (reduceBlocks (compile true rs).items) left a.slots <;> rfl

/-- The functions generated for `group_by`: the texts of the class and of the function are read as Python code, and a
call of the function does what the model of aggregations says. -/
theorem group_runs {kd : String → Option (DVal V) → Prop} (hkd : ∀ h, kd h none) {P : Py V E} {condSem : String → V → Except E Bool} {f : FnText} {r : FnSrc} {cls signature : String}
    {sigT : List Tok} {sigA : Ast} {vals : List (PVal V)} (h : FnReads f r) (hcn : isName cls = true)
    (hsl : Lx signature.toList sigT) (hsr : Rd sigT sigA) {gs : List String} (hg : ∀ g ∈ gs, g ∉ "data_" :: f.args)
    (ha : ArgsOkG (f.args ++ gs)) {ts : List TRed}
    (hcall : CallOkG P f r cls (textCompile false ts).items.length vals)
    {keyOf : V → Except E (PVal V)} (hk : KeyOk P (f.args ++ gs) (envOf f.args vals) sigA keyOf)
    {rs : List (Red V (DVal V) E)} (hl : Linked P condSem (f.args ++ gs) (envOf f.args vals) false kd 0 ts rs) (hne : ts ≠ [])
    {e : Ast} (hra : r.result = .pairs e "signature_" "agg_data_" (.call (.attr (.name "signature_to_agg_data_") "items") [] []))
    {res : PVal V → List (Option (DVal V)) → Except E (Val V)}
    (hres : ∀ st k vs, Ctx (f.args ++ gs) (envOf f.args vals) st → st.loc "signature_" = some k →
      Holds st (fun j p => ev P (place false j) st = .ok (p, st)) (slotsOf kd false ts rs) vs →
      Yields P e st (res k vs))
    {sort : Val V → Except E (Val V)} (hs : SortOk P (f.args ++ gs) (envOf f.args vals) r.sort sort) :
    Source (containerCode ts) [.class_ "AggData" (classBody (textCompile false ts).items.length)] ∧
    ∃ b, Source (groupCode f cls signature ts) b ∧ ∀ rows, callDef P f.name (.data rows :: vals) b =
      lift (andThen (andThen (@groupBy _ _ _ _ ⟨P.keyEq⟩ condSem keyOf rs rows)
        (fun d => (mapAll (fun g => res g.1 g.2) d).map P.newList)) sort) := by
  letI : BEq (PVal V) := ⟨P.keyEq⟩
  obtain ⟨e1, e2, e3, hp⟩ := compile_rel hl
  obtain ⟨qs, h1, h2, _, h3⟩ := pairs_src hp
  have hrs := linked_ne hl hne
  have hN : (textCompile false ts).items.length ≠ 0 := by
    rw [e3]
    exact fun h0 => items_ne (m := false) hrs (List.eq_nil_of_length_eq_zero h0)
  have hb : textBlocks (textCompile false ts).items ≠ [] := by
    intro h0
    have := hp.length
    rw [h0] at this
    exact blocks_ne (m := false) hrs (List.eq_nil_of_length_eq_zero this)
  refine ⟨class_source _ hN, _, grouper_source h hcn hsl hsr h1 hb, fun rows => ?_⟩
  have := group_call (P := P) (condSem := condSem) (f := f) (r := r) (cls := cls) (vals := vals)
    (N := (textCompile false ts).items.length)
    (bs := reduceBlocks (compile false rs).items) (qs := qs) hg h.nodup ha
    (fun j _ => slotKind_none hkd _ j) hcall hk
    (by rw [e3]; exact h2) (h3 rfl) (res := fun k s => res k ((textCompile false ts).slotOf.map s)) (e := e) hra
    (fun st k s hc hsig hj => hres st k _ hc hsig (holds_slots e1 (e3 ▸ hj)))
    hs rows
  · rw [this]
    congr 2
    unfold groupBy
    simp only [andThen, e1]
    cases groupLoop condSem (reduceBlocks (compile false rs).items) keyOf rows [] with
    | error e => rfl
    | ok d =>
      simp only
      congr 1
      induction d with
      | nil => rfl
      | cons g d ih => simp only [List.map_cons, mapAll, ih]

end Verif.Stmt
