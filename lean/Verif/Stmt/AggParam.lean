import Verif.Stmt.AggLink

/-!
# Stmt: aggregations whose reduces keep other values

The model of aggregations does with related reduces related things.  Nothing here is code of the repository.
-/

set_option autoImplicit false

namespace Verif.Stmt

open Verif.Agg

variable {R A B E K : Type}

/-- The same error, or related values. -/
inductive ResRel {X Y : Type} (Q : X → Y → Prop) : Except E X → Except E Y → Prop
  | error (e : E) : ResRel Q (.error e) (.error e)
  | ok {x : X} {y : Y} : Q x y → ResRel Q (.ok x) (.ok y)

/-- What two variables hold, where `none` is the sentinel. -/
structure Pairing (Q : Option A → Option B → Prop) : Prop where
  none_ : Q none none
  isSome : ∀ a b, Q a b → a.isSome = b.isSome

/-- Reduces which do the same to related values. -/
structure RedRel (Q : Option A → Option B → Prop) (r : Red R A E) (r' : Red R B E) : Prop where
  hash : r'.hash = r.hash
  cond : r'.cond = r.cond
  uncond : r'.uncond = r.uncond
  step : ∀ ph row a b, Q a b → ResRel Q (r.code ph row a) (r'.code ph row b)

/-- Parts of blocks. -/
def PartRel (Q : Nat → Option A → Option B → Prop) (p : Nat × Red R A E) (q : Nat × Red R B E) : Prop :=
  q.1 = p.1 ∧ RedRel (Q p.1) p.2 q.2

/-- Blocks. -/
structure BlkRel (Q : Nat → Option A → Option B → Prop) (b : Block R A E) (c : Block R B E) : Prop where
  head : c.head = b.head
  cond : c.cond = b.cond
  flag : c.flag = b.flag
  parts : All2 (PartRel Q) b.parts c.parts

/-- All variables. -/
def SlotsRel (Q : Nat → Option A → Option B → Prop) (s : Slots A) (t : Slots B) : Prop := ∀ j, Q j (s j) (t j)

/-- Items. -/
structure ItRel (qd : String → Option A → Option B → Prop) (it : Item R A E) (it' : Item R B E) : Prop where
  slot : it'.slot = it.slot
  flag : it'.flag = it.flag
  red : RedRel (qd it.red.hash) it.red it'.red

section
variable {Q : Nat → Option A → Option B → Prop} {qd : String → Option A → Option B → Prop}

theorem BlkRel.union {b c : Block R A E} {b' c' : Block R B E} (h : BlkRel Q b b') (h' : BlkRel Q c c') :
    BlkRel Q (b.union c) (b'.union c') :=
  ⟨h.head, h.cond, by simp [Block.union, h.flag, h'.flag], h.parts.append h'.parts⟩

theorem ItRel.block {it : Item R A E} {it' : Item R B E} (h : ItRel qd it it') (hq : Q it.slot = qd it.red.hash) :
    BlkRel Q it.block it'.block :=
  ⟨h.slot, h.red.cond, h.flag, .cons ⟨h.slot, by simpa only [hq] using h.red⟩ .nil⟩

theorem merge_rel {bs : List (Block R A E)} {cs : List (Block R B E)} (h : All2 (BlkRel Q) bs cs) :
    All2 (BlkRel Q) (mergeAll bs).toList (mergeAll cs).toList := by
  cases h with
  | nil => exact .nil
  | cons h1 h2 =>
    refine .cons ?_ .nil
    rename_i b c bs cs
    induction h2 generalizing b c with
    | nil => exact h1
    | cons h3 _ ih => exact ih (h1.union h3)

theorem blocks_rel {its : List (Item R A E)} {its' : List (Item R B E)}
    (h : All2 (fun it it' => ItRel qd it it' ∧ Q it.slot = qd it.red.hash) its its') :
    All2 (BlkRel Q) (reduceBlocks its) (reduceBlocks its') := by
  have hm : ∀ {as : List (Item R A E)} {bs : List (Item R B E)},
      All2 (fun it it' => ItRel qd it it' ∧ Q it.slot = qd it.red.hash) as bs →
      All2 (BlkRel Q) (as.map Item.block) (bs.map Item.block) :=
    fun h => h.map (fun _ _ h => h.1.block h.2)
  unfold reduceBlocks
  refine .append (.append (.append ?_ ?_) ?_) ?_
  · refine All2.flatMap ((h.filter ?_).bucket (fun _ _ h => h.1.red.cond.symm)) (fun p q h => hm h.2)
    intro a b hab
    rw [hab.1.red.cond, hab.1.red.uncond]
  · rw [filterMap_toList, filterMap_toList]
    refine All2.flatMap ((h.filter ?_).bucket (fun _ _ h => h.1.red.cond.symm)) (fun p q h => merge_rel (hm h.2))
    intro a b hab
    rw [hab.1.red.cond, hab.1.red.uncond]
  · refine merge_rel (hm (h.filter ?_))
    intro a b hab
    rw [hab.1.red.cond, hab.1.red.uncond]
  · refine hm (h.filter ?_)
    intro a b hab
    rw [hab.1.red.cond, hab.1.red.uncond]

/-! ## Compilation -/

/-- The states of the loop over the reduces. -/
structure DedRel (qd : String → Option A → Option B → Prop) (c : Dedup R A E) (d : Dedup R B E) : Prop where
  seen : d.seen = c.seen
  slotOf : d.slotOf = c.slotOf
  expected : d.expected = c.expected
  items : All2 (ItRel qd) c.items d.items

theorem dedup_rel {rs : List (Red R A E)} {rs' : List (Red R B E)} (m : Bool)
    (h : All2 (fun r r' => RedRel (qd r.hash) r r') rs rs') :
    ∀ {c : Dedup R A E} {d : Dedup R B E} {i : Nat}, DedRel qd c d → DedRel qd (dedupLoop m c i rs) (dedupLoop m d i rs') := by
  induction h with
  | nil => exact fun h => h
  | cons h1 _ ih =>
    rename_i r r' _ _ _
    intro c d i hc
    simp only [dedupLoop]
    refine ih ?_
    simp only [dedupStep, hc.seen, h1.hash]
    cases hg : Dict.get? c.seen r.hash with
    | some j => exact ⟨rfl, by simp [hc.slotOf], hc.expected, hc.items⟩
    | none =>
      have hl := hc.items.length
      exact ⟨by simp [hl], by simp [hl, hc.slotOf], by simp [hc.expected],
        hc.items.append (.cons ⟨hl.symm, rfl, h1⟩ .nil)⟩

/-- What variable number `j` holds. -/
def slotSort (qd : String → Option A → Option B → Prop) (its : List (Item R A E)) (j : Nat) :
    Option A → Option B → Prop :=
  match its[j]? with
  | some it => qd it.red.hash
  | none => fun a b => a = none ∧ b = none

theorem slotSort_mem {m : Bool} {rs : List (Red R A E)} {it : Item R A E} (h : it ∈ (compile m rs).items) :
    slotSort qd (compile m rs).items it.slot = qd it.red.hash := by
  obtain ⟨j, hj, rfl⟩ := List.mem_iff_getElem.1 h
  have := List.getElem?_eq_getElem hj
  rw [(compile_inv m rs).slots j _ this]
  simp only [slotSort, this]

theorem slotSort_sort (hs : ∀ h, Pairing (qd h)) (its : List (Item R A E)) (j : Nat) : Pairing (slotSort qd its j) := by
  unfold slotSort
  cases its[j]? with
  | some it => exact hs _
  | none => exact ⟨⟨rfl, rfl⟩, by rintro a b ⟨rfl, rfl⟩; rfl⟩

theorem compile_params {rs : List (Red R A E)} {rs' : List (Red R B E)} (m : Bool)
    (h : All2 (fun r r' => RedRel (qd r.hash) r r') rs rs') :
    (compile m rs').slotOf = (compile m rs).slotOf ∧ (compile m rs').expected = (compile m rs).expected ∧
    All2 (BlkRel (slotSort qd (compile m rs).items)) (reduceBlocks (compile m rs).items) (reduceBlocks (compile m rs').items) := by
  have := dedup_rel m h (c := {}) (d := {}) (i := 0) ⟨rfl, rfl, rfl, .nil⟩
  exact ⟨this.slotOf, this.expected, blocks_rel (this.items.mem_left.imp (fun _ _ h => ⟨h.1, slotSort_mem h.2⟩))⟩

/-! ## Execution -/

section
variable (hs : ∀ j, Pairing (Q j)) {condSem : String → R → Except E Bool} {row : R}

theorem SlotsRel.upd {s : Slots A} {t : Slots B} (h : SlotsRel Q s t) {j : Nat} {a : Option A} {b : Option B}
    (hq : Q j a b) : SlotsRel Q (upd s j a) (upd t j b) := by
  intro k
  unfold Agg.upd
  split
  · next hk => exact hk ▸ hq
  · exact h k

theorem runParts_rel (ph : Phase) {ps : List (Nat × Red R A E)} {qs : List (Nat × Red R B E)}
    (h : All2 (PartRel Q) ps qs) : ∀ {s : Slots A} {t : Slots B}, SlotsRel Q s t →
      ResRel (SlotsRel Q) (runParts ph row ps s) (runParts ph row qs t) := by
  induction h with
  | nil => exact fun h => .ok h
  | cons h1 _ ih =>
    rename_i p q _ _ _
    obtain ⟨i, r⟩ := p
    obtain ⟨i', r'⟩ := q
    obtain ⟨hi, h1⟩ := h1
    simp only at hi
    subst hi
    intro s t hst
    have := h1.step ph row _ _ (hst i')
    simp only [runParts]
    generalize r.code ph row (s i') = x at this ⊢
    generalize r'.code ph row (t i') = y at this ⊢
    cases this with
    | error e => exact .error e
    | ok hq => exact ih (hst.upd hq)

include hs in
theorem runBlock_rel {b : Block R A E} {c : Block R B E} (h : BlkRel Q b c) {s : Slots A} {t : Slots B}
    (hst : SlotsRel Q s t) : ResRel (SlotsRel Q) (runBlock condSem row b s) (runBlock condSem row c t) := by
  simp only [runBlock, h.cond, h.head]
  cases condHolds condSem row b.cond with
  | error e => exact .error e
  | ok v =>
    cases v with
    | false => exact .ok hst
    | true =>
      have := (hs b.head).isSome _ _ (hst b.head)
      cases h1 : s b.head <;> cases h2 : t b.head <;> rw [h1, h2] at this
      · exact runParts_rel _ h.parts hst
      · cases this
      · cases this
      · exact runParts_rel _ h.parts hst

include hs in
theorem runBlocks_rel {bs : List (Block R A E)} {cs : List (Block R B E)} (h : All2 (BlkRel Q) bs cs) :
    ∀ {s : Slots A} {t : Slots B}, SlotsRel Q s t →
      ResRel (SlotsRel Q) (runBlocks condSem row bs s) (runBlocks condSem row cs t) := by
  induction h with
  | nil => exact fun h => .ok h
  | cons h1 _ ih =>
    rename_i b c _ _ _
    intro s t hst
    have := runBlock_rel hs (condSem := condSem) (row := row) h1 hst
    simp only [runBlocks]
    generalize runBlock condSem row b s = x at this ⊢
    generalize runBlock condSem row c t = y at this ⊢
    cases this with
    | error e => exact .error e
    | ok hq => exact ih hq

/-- Groups. -/
def GroupRel (Q : Nat → Option A → Option B → Prop) (p : K × Slots A) (q : K × Slots B) : Prop :=
  p.1 = q.1 ∧ SlotsRel Q p.2 q.2

include hs in
theorem fresh_rel : SlotsRel Q fresh fresh := fun j => (hs j).none_

include hs in
theorem get_rel [BEq K] {d : List (K × Slots A)} {d' : List (K × Slots B)} (h : All2 (GroupRel Q) d d') (k : K) :
    SlotsRel Q ((Dict.get? d k).getD Agg.fresh) ((Dict.get? d' k).getD Agg.fresh) := by
  induction h with
  | nil => exact fresh_rel hs
  | cons h1 _ ih =>
    rename_i p q _ _ _
    obtain ⟨p1, p2⟩ := p
    obtain ⟨q1, q2⟩ := q
    obtain ⟨rfl, h2⟩ := h1
    simp only [Dict.get?]
    split
    · exact h2
    · exact ih

theorem set_rel [BEq K] {d : List (K × Slots A)} {d' : List (K × Slots B)} (h : All2 (GroupRel Q) d d') (k : K)
    {s : Slots A} {t : Slots B} (hst : SlotsRel Q s t) : All2 (GroupRel Q) (Dict.set d k s) (Dict.set d' k t) := by
  induction h with
  | nil => exact .cons ⟨rfl, hst⟩ .nil
  | cons h1 h3 ih =>
    rename_i p q _ _
    obtain ⟨p1, p2⟩ := p
    obtain ⟨q1, q2⟩ := q
    obtain ⟨rfl, h2⟩ := h1
    simp only [Dict.set]
    split
    · exact .cons ⟨rfl, hst⟩ h3
    · exact .cons ⟨rfl, h2⟩ ih

include hs in
theorem groupLoop_rel [BEq K] {bs : List (Block R A E)} {cs : List (Block R B E)} (h : All2 (BlkRel Q) bs cs)
    (keyOf : R → Except E K) (rows : List R) : ∀ {d : List (K × Slots A)} {d' : List (K × Slots B)},
      All2 (GroupRel Q) d d' →
      ResRel (All2 (GroupRel Q)) (groupLoop condSem bs keyOf rows d) (groupLoop condSem cs keyOf rows d') := by
  induction rows with
  | nil => exact fun h => .ok h
  | cons row rows ih =>
    intro d d' hd
    simp only [groupLoop]
    cases keyOf row with
    | error e => exact .error e
    | ok k =>
      have := runBlocks_rel hs (condSem := condSem) (row := row) h (get_rel hs hd k)
      simp only
      generalize runBlocks condSem row bs ((Dict.get? d k).getD Agg.fresh) = x at this ⊢
      generalize runBlocks condSem row cs ((Dict.get? d' k).getD Agg.fresh) = y at this ⊢
      cases this with
      | error e => exact .error e
      | ok hq => exact ih (set_rel hd k hq)

/-- The variables of the aggregate function. -/
def AggRel (Q : Nat → Option A → Option B → Prop) (s : AggState A) (t : AggState B) : Prop :=
  t.checksum = s.checksum ∧ SlotsRel Q s.slots t.slots

include hs in
theorem runBlockAgg_rel (expected : Nat) {b : Block R A E} {c : Block R B E} (h : BlkRel Q b c) {s : AggState A}
    {t : AggState B} (hst : AggRel Q s t) :
    ResRel (fun p q => AggRel Q p.1 q.1 ∧ q.2 = p.2) (runBlockAgg condSem expected row b s)
      (runBlockAgg condSem expected row c t) := by
  simp only [runBlockAgg, h.cond, h.head, h.flag, hst.1]
  cases condHolds condSem row b.cond with
  | error e => exact .error e
  | ok v =>
    cases v with
    | false => exact .ok ⟨hst, rfl⟩
    | true =>
      have hb := (hs b.head).isSome _ _ (hst.2 b.head)
      have h3 := runParts_rel (row := row) .init h.parts hst.2
      have h4 := runParts_rel (row := row) .two h.parts hst.2
      simp only
      generalize runParts .init row b.parts s.slots = x1 at h3 ⊢
      generalize runParts .init row c.parts t.slots = y1 at h3 ⊢
      generalize runParts .two row b.parts s.slots = x2 at h4 ⊢
      generalize runParts .two row c.parts t.slots = y2 at h4 ⊢
      cases h1 : s.slots b.head <;> cases h2 : t.slots b.head <;> rw [h1, h2] at hb
      · cases h3 with
        | error e => exact .error e
        | ok hq =>
          rename_i s1 t1
          have hb := (hs b.head).isSome _ _ (hq b.head)
          simp only
          cases h5 : s1 b.head <;> cases h6 : t1 b.head <;> rw [h5, h6] at hb
          · exact .ok ⟨⟨rfl, hq⟩, rfl⟩
          · cases hb
          · cases hb
          · simp only
            split
            · exact .ok ⟨⟨rfl, hq⟩, rfl⟩
            · exact .ok ⟨⟨rfl, hq⟩, rfl⟩
      · cases hb
      · cases hb
      · cases h4 with
        | error e => exact .error e
        | ok hq => exact .ok ⟨⟨rfl, hq⟩, rfl⟩

include hs in
theorem runBlocksAgg_rel (expected : Nat) {bs : List (Block R A E)} {cs : List (Block R B E)}
    (h : All2 (BlkRel Q) bs cs) : ∀ {s : AggState A} {t : AggState B}, AggRel Q s t →
      ResRel (fun p q => AggRel Q p.1 q.1 ∧ q.2 = p.2) (runBlocksAgg condSem expected row bs s)
        (runBlocksAgg condSem expected row cs t) := by
  induction h with
  | nil => exact fun h => .ok ⟨h, rfl⟩
  | cons h1 _ ih =>
    rename_i b c _ _ _
    intro s t hst
    have := runBlockAgg_rel hs (condSem := condSem) (row := row) expected h1 hst
    simp only [runBlocksAgg]
    generalize runBlockAgg condSem expected row b s = x at this ⊢
    generalize runBlockAgg condSem expected row c t = y at this ⊢
    cases this with
    | error e => exact .error e
    | ok hq =>
      rename_i p q
      obtain ⟨p1, p2⟩ := p
      obtain ⟨q1, q2⟩ := q
      obtain ⟨hq, h2⟩ := hq
      simp only at h2
      subst h2
      cases q2 with
      | next => exact ih hq
      | «break» => exact .ok ⟨hq, rfl⟩

include hs in
theorem aggLoop1_rel (expected : Nat) {bs : List (Block R A E)} {cs : List (Block R B E)} (h : All2 (BlkRel Q) bs cs)
    (rows : List R) : ∀ {s : AggState A} {t : AggState B}, AggRel Q s t →
      ResRel (fun p q => AggRel Q p.1 q.1 ∧ q.2 = p.2) (aggLoop1 condSem expected bs rows s)
        (aggLoop1 condSem expected cs rows t) := by
  induction rows with
  | nil => exact fun h => .ok ⟨h, rfl⟩
  | cons row rows ih =>
    intro s t hst
    have := runBlocksAgg_rel hs (condSem := condSem) (row := row) expected h hst
    simp only [aggLoop1]
    generalize runBlocksAgg condSem expected row bs s = x at this ⊢
    generalize runBlocksAgg condSem expected row cs t = y at this ⊢
    cases this with
    | error e => exact .error e
    | ok hq =>
      rename_i p q
      obtain ⟨p1, p2⟩ := p
      obtain ⟨q1, q2⟩ := q
      obtain ⟨hq, h2⟩ := hq
      simp only at h2
      subst h2
      cases q2 with
      | next => exact ih hq
      | «break» => exact .ok ⟨hq, rfl⟩

theorem runBlocksNoInit_rel {bs : List (Block R A E)} {cs : List (Block R B E)} (h : All2 (BlkRel Q) bs cs) :
    ∀ {s : Slots A} {t : Slots B}, SlotsRel Q s t →
      ResRel (SlotsRel Q) (runBlocksNoInit condSem row bs s) (runBlocksNoInit condSem row cs t) := by
  induction h with
  | nil => exact fun h => .ok h
  | cons h1 _ ih =>
    rename_i b c _ _ _
    intro s t hst
    simp only [runBlocksNoInit, runBlockNoInit, h1.cond]
    cases condHolds condSem row b.cond with
    | error e => exact .error e
    | ok v =>
      cases v with
      | false => exact ih hst
      | true =>
        have := runParts_rel (row := row) .two h1.parts hst
        simp only
        generalize runParts .two row b.parts s = x at this ⊢
        generalize runParts .two row c.parts t = y at this ⊢
        cases this with
        | error e => exact .error e
        | ok hq => exact ih hq

theorem aggLoop2_rel {bs : List (Block R A E)} {cs : List (Block R B E)} (h : All2 (BlkRel Q) bs cs) (rows : List R) :
    ∀ {s : Slots A} {t : Slots B}, SlotsRel Q s t →
      ResRel (SlotsRel Q) (aggLoop2 condSem bs rows s) (aggLoop2 condSem cs rows t) := by
  induction rows with
  | nil => exact fun h => .ok h
  | cons row rows ih =>
    intro s t hst
    have := runBlocksNoInit_rel (condSem := condSem) (row := row) h hst
    simp only [aggLoop2]
    generalize runBlocksNoInit condSem row bs s = x at this ⊢
    generalize runBlocksNoInit condSem row cs t = y at this ⊢
    cases this with
    | error e => exact .error e
    | ok hq => exact ih hq

end

/-! ## Whole aggregations -/

/-- What the reduces gave. -/
def OutRel (qd : String → Option A → Option B → Prop) (rs : List (Red R A E)) (out : List (Option A))
    (out' : List (Option B)) : Prop :=
  out.length = rs.length ∧ out'.length = rs.length ∧
    ∀ (i : Nat) r a b, rs[i]? = some r → out[i]? = some a → out'[i]? = some b → qd r.hash a b

theorem slots_out {m : Bool} {rs : List (Red R A E)} {s : Slots A} {t : Slots B}
    (h : SlotsRel (slotSort qd (compile m rs).items) s t) :
    OutRel qd rs ((compile m rs).slotOf.map s) ((compile m rs).slotOf.map t) := by
  refine ⟨by simp [(compile_inv m rs).len], by simp [(compile_inv m rs).len], ?_⟩
  intro i r a b hr ha hb
  obtain ⟨j, it, h1, h2, h3⟩ := (compile_inv m rs).share i r hr
  rw [List.getElem?_map, h1] at ha hb
  simp only [Option.map_some, Option.some.injEq] at ha hb
  have := h j
  simp only [slotSort, h2, h3] at this
  rw [← ha, ← hb]
  exact this

variable (hs : ∀ h, Pairing (qd h)) {condSem : String → R → Except E Bool} {rs : List (Red R A E)} {rs' : List (Red R B E)}
  (h : All2 (fun r r' => RedRel (qd r.hash) r r') rs rs') (rows : List R)
include hs h

theorem aggregate_param :
    ResRel (OutRel qd rs) (aggregate condSem rs rows) (aggregate condSem rs' rows) := by
  obtain ⟨h1, h2, h3⟩ := compile_params true h
  have hq := slotSort_sort hs (compile true rs).items
  simp only [aggregate, h1, h2]
  have := aggLoop1_rel (condSem := condSem) hq (compile true rs).expected h3 rows
    (s := { slots := Agg.fresh, checksum := 0 }) (t := { slots := Agg.fresh, checksum := 0 }) ⟨rfl, fresh_rel hq⟩
  generalize aggLoop1 condSem (compile true rs).expected (reduceBlocks (compile true rs).items) rows _ = x at this ⊢
  generalize aggLoop1 condSem (compile true rs).expected (reduceBlocks (compile true rs').items) rows _ = y at this ⊢
  cases this with
  | error e => exact .error e
  | ok hr =>
    rename_i p q
    obtain ⟨p1, p2⟩ := p
    obtain ⟨q1, q2⟩ := q
    obtain ⟨hr, h4⟩ := hr
    simp only at h4
    subst h4
    have := aggLoop2_rel (condSem := condSem) h3 q2 hr.2
    simp only
    generalize aggLoop2 condSem (reduceBlocks (compile true rs).items) q2 _ = x at this ⊢
    generalize aggLoop2 condSem (reduceBlocks (compile true rs').items) q2 _ = y at this ⊢
    cases this with
    | error e => exact .error e
    | ok hst => exact .ok (slots_out hst)

theorem groupBy_param [BEq K] (keyOf : R → Except E K) :
    ResRel (All2 (fun g g' => g.1 = g'.1 ∧ OutRel qd rs g.2 g'.2)) (groupBy condSem keyOf rs rows)
      (groupBy condSem keyOf rs' rows) := by
  obtain ⟨h1, h2, h3⟩ := compile_params false h
  have hq := slotSort_sort hs (compile false rs).items
  simp only [groupBy, h1]
  have := groupLoop_rel (condSem := condSem) hq h3 keyOf rows (d := []) (d' := []) .nil
  generalize groupLoop condSem (reduceBlocks (compile false rs).items) keyOf rows [] = x at this ⊢
  generalize groupLoop condSem (reduceBlocks (compile false rs').items) keyOf rows [] = y at this ⊢
  cases this with
  | error e => exact .error e
  | ok hr => exact .ok (hr.map (fun g g' hg => ⟨hg.1, slots_out hg.2⟩))

end

end Verif.Stmt
